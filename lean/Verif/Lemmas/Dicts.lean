import Verif.Lemmas.OD
import Verif.Spec.Dicts

/-! Helper lemmas for the nested/flat dictionary properties. -/

set_option linter.unusedSectionVars false

namespace Verif.Dicts
open OD
variable {β : Type}

theorem splitOnce_plain (sep : Char) (k : Str) (h : sep ∉ k) : splitOnce sep k = (k, none) := by
  induction k with
  | nil => rfl
  | cons c k ih =>
    simp only [List.mem_cons, not_or] at h
    simp [splitOnce, Ne.symm h.1, ih h.2]

theorem splitOnce_join (sep : Char) (k r : Str) (h : sep ∉ k) :
    splitOnce sep (k ++ sep :: r) = (k, some r) := by
  induction k with
  | nil => simp [splitOnce]
  | cons c k ih =>
    simp only [List.mem_cons, not_or] at h
    simp [splitOnce, Ne.symm h.1, ih h.2]

theorem join_cons (sep : Char) (k : Str) {p : List Str} (hp : p ≠ []) :
    join sep (k :: p) = k ++ sep :: join sep p := by
  cases p with
  | nil => exact absurd rfl hp
  | cons a p => rfl

theorem join_inj (sep : Char) {p q : List Str} (hp : p ≠ []) (hq : q ≠ [])
    (h1 : ∀ k ∈ p, sep ∉ k) (h2 : ∀ k ∈ q, sep ∉ k) (h : join sep p = join sep q) : p = q := by
  induction p generalizing q with
  | nil => exact absurd rfl hp
  | cons a p ih =>
    cases q with
    | nil => exact absurd rfl hq
    | cons b q =>
      have ha := h1 a (by simp)
      have hb := h2 b (by simp)
      have hs := congrArg (splitOnce sep) h
      by_cases hp' : p = []
      · by_cases hq' : q = []
        · subst hp'; subst hq'; simpa [join] using h
        · subst hp'
          rw [join_cons sep b hq', splitOnce_join sep b _ hb] at hs
          rw [show join sep [a] = a from rfl, splitOnce_plain sep a ha] at hs
          simp at hs
      · by_cases hq' : q = []
        · subst hq'
          rw [join_cons sep a hp', splitOnce_join sep a _ ha] at hs
          rw [show join sep [b] = b from rfl, splitOnce_plain sep b hb] at hs
          simp at hs
        · rw [join_cons sep a hp', splitOnce_join sep a _ ha,
            join_cons sep b hq', splitOnce_join sep b _ hb] at hs
          simp only [Prod.mk.injEq, Option.some.injEq] at hs
          rw [hs.1, ih hp' hq' (fun k hk => h1 k (by simp [hk])) (fun k hk => h2 k (by simp [hk]))
            hs.2]

/-! #### Paths of good trees -/

theorem kidsPaths_ne_nil (kids : List (Str × Tree β)) : ∀ p ∈ kidsPaths kids, p.1 ≠ [] := by
  induction kids with
  | nil => simp [kidsPaths]
  | cons kt rest ih =>
    obtain ⟨k, t⟩ := kt
    intro p hp
    simp only [kidsPaths, List.mem_append, List.mem_map] at hp
    rcases hp with ⟨q, _, rfl⟩ | hp
    · simp
    · exact ih p hp

mutual
theorem treePaths_keys {P : Str → Prop} : ∀ (t : Tree β), TreeGood P t →
    ∀ p ∈ treePaths t, ∀ k ∈ p.1, P k
  | .leaf _, _ => by simp [treePaths]
  | .node kids, h => by
    simp only [treePaths]
    exact kidsPaths_keys kids h.2
theorem kidsPaths_keys {P : Str → Prop} : ∀ (kids : List (Str × Tree β)), Good P kids →
    ∀ p ∈ kidsPaths kids, ∀ k ∈ p.1, P k
  | [], _ => by simp [kidsPaths]
  | (k, t) :: rest, h => by
    intro p hp k' hk'
    simp only [Good] at h
    simp only [kidsPaths, List.mem_append, List.mem_map] at hp
    rcases hp with ⟨q, hq, rfl⟩ | hp
    · rcases List.mem_cons.1 hk' with rfl | hk'
      · exact h.1
      · exact treePaths_keys t h.2.2.1 q hq k' hk'
    · exact kidsPaths_keys rest h.2.2.2 p hp k' hk'
end

theorem head_of_kidsPaths (kids : List (Str × Tree β)) (k : Str) (p : List Str) (v : β)
    (h : (k :: p, v) ∈ kidsPaths kids) : k ∈ kids.map Prod.fst := by
  induction kids with
  | nil => simp [kidsPaths] at h
  | cons kt rest ih =>
    obtain ⟨k', t⟩ := kt
    simp only [kidsPaths, List.mem_append, List.mem_map, Prod.mk.injEq, List.cons.injEq] at h
    rcases h with ⟨q, _, ⟨rfl, _⟩, _⟩ | h
    · simp
    · simp [ih h]

mutual
theorem treePaths_nodup {P : Str → Prop} : ∀ (t : Tree β), TreeGood P t →
    ((treePaths t).map Prod.fst).Nodup
  | .leaf _, _ => by simp [treePaths]
  | .node kids, h => by
    simp only [treePaths]
    exact kidsPaths_nodup kids h.2
theorem kidsPaths_nodup {P : Str → Prop} : ∀ (kids : List (Str × Tree β)), Good P kids →
    ((kidsPaths kids).map Prod.fst).Nodup
  | [], _ => by simp [kidsPaths]
  | (k, t) :: rest, h => by
    simp only [Good] at h
    simp only [kidsPaths, List.map_append, List.nodup_append, List.map_map]
    refine ⟨?_, kidsPaths_nodup rest h.2.2.2, ?_⟩
    · have := treePaths_nodup t h.2.2.1
      have h2 : (treePaths t).map (Prod.fst ∘ fun p => (k :: p.1, p.2)) =
          ((treePaths t).map Prod.fst).map (k :: ·) := by simp [Function.comp_def]
      rw [h2]
      unfold List.Nodup at this ⊢
      rw [List.pairwise_map]
      exact this.imp (fun hab e => hab (by simpa using e))
    · intro a ha b hb
      rw [List.mem_map] at ha hb
      obtain ⟨q, _, rfl⟩ := ha
      obtain ⟨r, hr, rfl⟩ := hb
      obtain ⟨rp, rv⟩ := r
      intro e
      simp only [Function.comp_apply] at e
      apply h.2.1
      exact head_of_kidsPaths rest k q.1 rv (by rw [e]; exact hr)
end

mutual
theorem treePaths_ne {P : Str → Prop} : ∀ (t : Tree β), TreeGood P t → treePaths t ≠ []
  | .leaf _, _ => by simp [treePaths]
  | .node kids, h => by
    simp only [treePaths]
    exact kidsPaths_ne kids h.1 h.2
theorem kidsPaths_ne {P : Str → Prop} : ∀ (kids : List (Str × Tree β)), kids ≠ [] → Good P kids →
    kidsPaths kids ≠ []
  | [], h, _ => absurd rfl h
  | (k, t) :: rest, _, h => by
    simp only [Good] at h
    have := treePaths_ne t h.2.2.1
    simp [kidsPaths, this]
end

/-! #### Flattening lists the paths -/

theorem nodup_join (sep : Char) (l : List (List Str × β)) (hnd : (l.map Prod.fst).Nodup)
    (hne : ∀ p ∈ l, p.1 ≠ []) (hs : ∀ p ∈ l, ∀ k ∈ p.1, sep ∉ k) (f : Str → Str)
    (hf : ∀ a b, f a = f b → a = b) :
    WF (l.map (fun p => (f (join sep p.1), p.2))) := by
  unfold WF keys
  rw [List.map_map]
  induction l with
  | nil => simp
  | cons p l ih =>
    simp only [List.map_cons, List.nodup_cons] at hnd ⊢
    refine ⟨?_, ih hnd.2 (fun q hq => hne q (by simp [hq])) (fun q hq => hs q (by simp [hq]))⟩
    intro hm
    obtain ⟨q, hq, e⟩ := List.mem_map.1 hm
    simp only [Function.comp_apply] at e
    have := join_inj sep (hne q (by simp [hq])) (hne p (by simp)) (hs q (by simp [hq]))
      (hs p (by simp)) (hf _ _ e)
    exact hnd.1 (this ▸ List.mem_map_of_mem hq)

theorem prefix_inj (sep : Char) (parent : Str) (a b : Str)
    (h : parent ++ sep :: a = parent ++ sep :: b) : a = b := by simpa using h

theorem flattenKids_nil_parent_aux (sep : Char) {key : Str} {l : List (List Str × β)}
    (hne : ∀ p ∈ l, p.1 ≠ []) :
    l.map (fun p => (key ++ sep :: join sep p.1, p.2)) =
      l.map (fun p => (join sep (key :: p.1), p.2)) := by
  apply List.map_congr_left
  intro p hp
  rw [join_cons sep key (hne p hp)]

mutual
theorem flattenTree_eq (sep : Char) : ∀ (t : Tree β) (key : Str), key ≠ [] →
    TreeGood (Plain sep) t →
    flattenTree sep key t = (treePaths t).map (fun p => (join sep (key :: p.1), p.2))
  | .leaf v, key, _, _ => by simp [flattenTree, treePaths, join]
  | .node kids, key, hk, h => by
    simp only [flattenTree, treePaths]
    have h1 := flattenKids_eq sep kids key hk h.2
    have hkeys := kidsPaths_keys kids h.2
    rw [h1, ← flattenKids_nil_parent_aux sep (kidsPaths_ne_nil kids)]
    apply ofPairs_of_wf
    exact nodup_join sep _ (kidsPaths_nodup kids h.2) (kidsPaths_ne_nil kids)
      (fun p hp k hk => (hkeys p hp k hk).2) (fun x => key ++ sep :: x)
      (fun a b => prefix_inj sep key a b)
theorem flattenKids_eq (sep : Char) : ∀ (kids : List (Str × Tree β)) (parent : Str), parent ≠ [] →
    Good (Plain sep) kids →
    flattenKids sep parent kids = (kidsPaths kids).map (fun p => (join sep (parent :: p.1), p.2))
  | [], _, _, _ => by simp [flattenKids, kidsPaths]
  | (k, t) :: rest, parent, hp, h => by
    simp only [Good] at h
    simp only [flattenKids, kidsPaths, List.map_append, List.map_map, if_neg hp]
    rw [flattenKids_eq sep rest parent hp h.2.2.2]
    rw [flattenTree_eq sep t (parent ++ sep :: k) (by simp) h.2.2.1]
    congr 1
    apply List.map_congr_left
    intro p _
    simp only [Function.comp_apply, Prod.mk.injEq, and_true]
    cases hp1 : p.1 with
    | nil => simp [join]
    | cons a p' =>
      rw [join_cons sep _ (by simp), join_cons sep parent (by simp), join_cons sep k (by simp)]
      simp
end

theorem flattenKids_top (sep : Char) (kids : List (Str × Tree β)) (h : Good (Plain sep) kids) :
    flattenKids sep [] kids = (kidsPaths kids).map (fun p => (join sep p.1, p.2)) := by
  induction kids with
  | nil => simp [flattenKids, kidsPaths]
  | cons kt rest ih =>
    obtain ⟨k, t⟩ := kt
    simp only [Good] at h
    simp only [flattenKids, kidsPaths, List.map_append, List.map_map, if_true]
    rw [ih h.2.2.2, flattenTree_eq sep t k h.1.1 h.2.2.1]
    rfl

theorem flatten_eq (sep : Char) (kids : Dict β) (h : Good (Plain sep) kids) :
    flatten sep [] kids = (kidsPaths kids).map (fun p => (join sep p.1, p.2)) := by
  unfold flatten
  rw [flattenKids_top sep kids h]
  apply ofPairs_of_wf
  exact nodup_join sep _ (kidsPaths_nodup kids h) (kidsPaths_ne_nil kids)
    (fun p hp k hk => (kidsPaths_keys kids h p hp k hk).2) id (fun _ _ => id)

/-! #### Inserting by path -/

/-- Insert a value at a path (the first key given separately: paths are non-empty). -/
def insertAt (k : Str) : List Str → Tree β → Dict β → Except PyErr (Dict β)
  | [], v, d => .ok (OD.set d k v)
  | k' :: ks, v, d =>
    match OD.get? d k with
    | some (.leaf _) => if ks ≠ [] then .error .attributeError else .error .typeError
    | some (.node e) => do
      let e' ← insertAt k' ks v e
      return OD.set d k (.node e')
    | none => do
      let e' ← insertAt k' ks v []
      return OD.set d k (.node e')

theorem recSplit_join (k : Str) (ks : List Str) (hs : ∀ a ∈ k :: ks, '.' ∉ a) (v : Tree β)
    (d : Dict β) : recSplit '.' (join '.' (k :: ks)) v d = insertAt k ks v d := by
  induction ks generalizing k d with
  | nil =>
    rw [recSplit]
    rw [show join '.' [k] = k from rfl]
    have : splitOnce '.' k = (k, none) := splitOnce_plain _ _ (hs k (by simp))
    split
    · next h => rw [this] at h; simp only [Prod.mk.injEq] at h; simp [insertAt, h.1]
    · next h => rw [this] at h; simp at h
  | cons k' ks ih =>
    have hk := hs k (by simp)
    have hs' : ∀ a ∈ k' :: ks, '.' ∉ a := fun a ha => hs a (by simp at ha ⊢; right; exact ha)
    have this : splitOnce '.' (join '.' (k :: k' :: ks)) = (k, some (join '.' (k' :: ks))) := by
      rw [join_cons '.' k (by simp)]; exact splitOnce_join _ _ _ hk
    have hb : ((splitOnce '.' (join '.' (k' :: ks))).2.isSome = true) = (ks ≠ []) := by
      cases ks with
      | nil =>
        rw [show join '.' [k'] = k' from rfl, splitOnce_plain _ _ (hs' k' (by simp))]; simp
      | cons a b =>
        rw [join_cons '.' k' (by simp), splitOnce_join _ _ _ (hs' k' (by simp))]; simp
    rw [recSplit]
    split
    · next h => rw [this] at h; simp at h
    · next k0 r h =>
      rw [this] at h
      simp only [Prod.mk.injEq, Option.some.injEq] at h
      obtain ⟨rfl, rfl⟩ := h
      simp only [insertAt, ih k' hs']
      cases OD.get? d k with
      | none => rfl
      | some t => cases t with
        | leaf v => simp only [hb]
        | node e => rfl

/-- Insert a list of path/leaf pairs, in order. -/
def insertAll (l : List (List Str × β)) (d : Dict β) : Except PyErr (Dict β) :=
  l.foldlM (fun acc p => match p.1 with
    | [] => .ok acc
    | k :: ks => insertAt k ks (.leaf p.2) acc) d

theorem insertAll_nil (d : Dict β) : insertAll [] d = .ok d := rfl

theorem insertAll_append (l m : List (List Str × β)) (d : Dict β) :
    insertAll (l ++ m) d = (insertAll l d).bind (insertAll m) := by
  unfold insertAll
  rw [List.foldlM_append]; rfl

/-- Inserting below the last key `k`. -/
theorem insertAll_prefixed (k : Str) (l : List (List Str × β)) (hl : ∀ p ∈ l, p.1 ≠ [])
    (acc d : Dict β) (hk : k ∉ keys acc) :
    insertAll (l.map (fun p => (k :: p.1, p.2))) (acc ++ [(k, .node d)]) =
      (insertAll l d).map (fun d' => acc ++ [(k, .node d')]) := by
  induction l generalizing d with
  | nil => rfl
  | cons p l ih =>
    obtain ⟨q, v⟩ := p
    cases q with
    | nil => exact absurd rfl (hl ([], v) (by simp))
    | cons k' ks =>
      have hg : OD.get? (acc ++ [(k, .node d)]) k = some (.node d) := by
        rw [get?_append, (get?_eq_none_iff acc k).2 hk]; simp [get?_cons]
      have hl' : ∀ p ∈ l, p.1 ≠ [] := fun p hp => hl p (by simp [hp])
      have ih' := ih hl'
      unfold insertAll at ih' ⊢
      simp only [List.map_cons, List.foldlM_cons, insertAt, hg]
      cases hi : insertAt k' ks (.leaf v) d with
      | error e => simp [bind, Except.bind, Except.map]
      | ok d' =>
        simp only [bind, Except.bind, pure, Except.pure]
        rw [set_append_last _ _ _ _ hk]
        exact ih' d'

/-- Inserting the paths of a non-empty sub-dict under a fresh key. -/
theorem insertAll_fresh (k : Str) (l : List (List Str × β)) (hl : ∀ p ∈ l, p.1 ≠ [])
    (hne : l ≠ []) (acc : Dict β) (hk : k ∉ keys acc) :
    insertAll (l.map (fun p => (k :: p.1, p.2))) acc =
      (insertAll l []).map (fun d' => acc ++ [(k, .node d')]) := by
  cases l with
  | nil => exact absurd rfl hne
  | cons p l =>
    obtain ⟨q, v⟩ := p
    cases q with
    | nil => exact absurd rfl (hl ([], v) (by simp))
    | cons k' ks =>
      have hl' : ∀ p ∈ l, p.1 ≠ [] := fun p hp => hl p (by simp [hp])
      have hg : OD.get? acc k = none := (get?_eq_none_iff acc k).2 hk
      have hpre := insertAll_prefixed k l hl' acc
      unfold insertAll at hpre ⊢
      simp only [List.map_cons, List.foldlM_cons, insertAt, hg]
      cases hi : insertAt k' ks (.leaf v) [] with
      | error e => simp [bind, Except.bind, Except.map]
      | ok d' =>
        simp only [bind, Except.bind, pure, Except.pure]
        rw [set_of_not_mem _ hk]
        exact hpre d' hk

mutual
/-- Re-inserting the paths of a good dictionary rebuilds it, in order. -/
theorem insertAll_kidsPaths {P : Str → Prop} : ∀ (kids : List (Str × Tree β)) (acc : Dict β),
    Good P kids → (∀ k ∈ kids.map Prod.fst, k ∉ keys acc) →
    insertAll (kidsPaths kids) acc = .ok (acc ++ kids)
  | [], acc, _, _ => by simp [kidsPaths, insertAll_nil]
  | (k, t) :: rest, acc, h, hd => by
    simp only [Good] at h
    have hk : k ∉ keys acc := hd k (by simp)
    rw [kidsPaths, insertAll_append, insertAll_tree t k acc h.2.2.1 hk]
    simp only [Except.bind]
    rw [insertAll_kidsPaths rest (acc ++ [(k, t)]) h.2.2.2]
    · simp
    · intro k' hk'
      simp only [keys_append, keys_cons, keys_nil, List.mem_append, List.mem_singleton, not_or]
      refine ⟨hd k' (by simp at hk' ⊢; right; exact hk'), ?_⟩
      intro e; exact h.2.1 (e ▸ hk')
theorem insertAll_tree {P : Str → Prop} : ∀ (t : Tree β) (k : Str) (acc : Dict β),
    TreeGood P t → k ∉ keys acc →
    insertAll ((treePaths t).map (fun p => (k :: p.1, p.2))) acc = .ok (acc ++ [(k, t)])
  | .leaf v, k, acc, _, hk => by
    simp [treePaths, insertAll, insertAt, set_of_not_mem _ hk]
  | .node kids, k, acc, h, hk => by
    simp only [treePaths]
    rw [insertAll_fresh k _ (kidsPaths_ne_nil kids) (kidsPaths_ne kids h.1 h.2) acc hk,
      insertAll_kidsPaths kids [] h.2 (by simp)]
    simp [Except.map]
end

theorem structureD_eq_insertAll (l : List (List Str × β)) (hne : ∀ p ∈ l, p.1 ≠ [])
    (hs : ∀ p ∈ l, ∀ k ∈ p.1, '.' ∉ k) (acc : Dict β) :
    (l.map (fun p => (join '.' p.1, Tree.leaf p.2))).foldlM
      (fun acc p => recSplit '.' p.1 p.2 acc) acc = insertAll l acc := by
  unfold insertAll
  rw [List.foldlM_map]
  induction l generalizing acc with
  | nil => rfl
  | cons p l ih =>
    obtain ⟨q, v⟩ := p
    cases q with
    | nil => exact absurd rfl (hne ([], v) (by simp))
    | cons k ks =>
      simp only [List.foldlM_cons]
      rw [recSplit_join k ks (hs (k :: ks, v) (by simp))]
      cases insertAt k ks (.leaf v) acc with
      | error e => rfl
      | ok d =>
        exact ih (fun p hp => hne p (by simp [hp])) (fun p hp => hs p (by simp [hp])) d

end Verif.Dicts
