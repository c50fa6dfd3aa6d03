import Verif.Model.Metadata
import Verif.Spec.Dicts
import Verif.Lemmas.OD

namespace Verif.Metadata
open Dicts

/-! ### update -/

/-- Does `update` assign this item? -/
def taken (v : Val) : Bool :=
  match v with
  | .arr l => decide (0 < l.length)
  | v => !skipped v

theorem updateOne_eq (a : Obj) (p : String × Val) :
    updateOne a p = if taken p.2 then OD.set a p.1 p.2 else a := by
  obtain ⟨k, v⟩ := p
  cases v <;> simp only [updateOne, taken] <;> split <;> simp_all

theorem get?_foldl_updateOne (l : Obj) (a : Obj) (wf : OD.WF l) (k : String) :
    OD.get? (l.foldl updateOne a) k =
      match OD.get? l k with
      | some v => if taken v then some v else OD.get? a k
      | none => OD.get? a k := by
  induction l generalizing a with
  | nil => simp [OD.get?]
  | cons p l ih =>
    have hk : p.1 ∉ OD.keys l := (List.nodup_cons.1 wf).1
    have wf' : OD.WF l := (List.nodup_cons.1 wf).2
    rw [List.foldl_cons, ih _ wf', OD.get?_cons, updateOne_eq]
    by_cases e : p.1 = k
    · subst e
      rw [(OD.get?_eq_none_iff l p.1).2 hk]
      by_cases ht : taken p.2 <;> simp [ht]
    · rw [if_neg e]
      split
      · split
        · rfl
        · split
          · rw [OD.get?_set_ne _ _ (Ne.symm e)]
          · rfl
      · split
        · rw [OD.get?_set_ne _ _ (Ne.symm e)]
        · rfl

theorem keys_toDict_sublist (fields : List String) (r : Bool) (o : Obj) :
    (OD.keys (toDict fields r o)).Sublist (OD.keys o) := by
  unfold toDict
  split
  · simp only [OD.keys, List.map_map]
    have : (Prod.fst ∘ fun (p : String × Val) => (p.1, fillNone p.1 p.2)) = Prod.fst := rfl
    rw [this]
    exact List.filter_sublist.map _
  · exact List.Sublist.refl _

theorem toDict_wf (fields : List String) (r : Bool) (o : Obj) (wf : OD.WF o) :
    OD.WF (toDict fields r o) := (keys_toDict_sublist fields r o).nodup wf

theorem get?_toDict_true (fields : List String) (o : Obj) (wf : OD.WF o) (k : String) :
    OD.get? (toDict fields true o) k =
      match OD.get? o k with
      | some v => if kept fields k v then some (fillNone k v) else none
      | none => none := by
  cases h : OD.get? o k with
  | none =>
    rw [OD.get?_eq_none_iff] at h
    simp only
    rw [OD.get?_eq_none_iff]
    exact fun hm => h ((keys_toDict_sublist fields true o).subset hm)
  | some v =>
    have hm := OD.mem_of_get? h
    simp only
    split
    · next hk =>
      apply OD.get?_of_mem (toDict_wf fields true o wf)
      simp only [toDict, if_true, List.mem_map, List.mem_filter, Prod.mk.injEq]
      exact ⟨(k, v), ⟨hm, hk⟩, rfl, rfl⟩
    · next hk =>
      rw [OD.get?_eq_none_iff]
      intro hc
      simp only [toDict, if_true, OD.keys, List.map_map, List.mem_map, List.mem_filter,
        Function.comp] at hc
      obtain ⟨⟨k', v'⟩, ⟨hm', hk'⟩, e⟩ := hc
      simp only at e hk'
      subst e
      have := OD.get?_of_mem wf hm'
      rw [h] at this
      simp only [Option.some.injEq] at this
      subst this
      exact hk hk'

theorem get?_update (fields : List String) (a b r : Obj) (ms : List String) (wf : OD.WF b)
    (h : update fields a b ms = .ok r) (k : String) :
    OD.get? r k =
      match OD.get? b k with
      | some v => if kept fields k v && taken (fillNone k v) then some (fillNone k v) else OD.get? a k
      | none => OD.get? a k := by
  have hr : r = (toDict fields true b).foldl updateOne a := by
    unfold update at h
    split at h
    · simp at h
    · simp only [Except.ok.injEq] at h; exact h.symm
  rw [hr, get?_foldl_updateOne _ _ (toDict_wf fields true b wf), get?_toDict_true _ _ wf]
  cases OD.get? b k with
  | none => rfl
  | some v =>
    simp only
    by_cases hk : kept fields k v
    · by_cases ht : taken (fillNone k v) <;> simp [hk, ht]
    · simp [hk]

theorem keys_foldl_updateOne (l a : Obj) (hsub : ∀ k ∈ OD.keys l, k ∈ OD.keys a) :
    OD.keys (l.foldl updateOne a) = OD.keys a := by
  induction l generalizing a with
  | nil => rfl
  | cons p l ih =>
    have hp : OD.keys (updateOne a p) = OD.keys a := by
      rw [updateOne_eq]; split
      · exact OD.keys_set_of_mem _ (hsub p.1 (by simp [OD.keys]))
      · rfl
    rw [List.foldl_cons, ih, hp]
    intro k hk
    rw [hp]
    exact hsub k (by simp only [OD.keys, List.map_cons, List.mem_cons] at *; exact Or.inr hk)

theorem checkMatch_ok_iff (a b : Obj) (ms : List String) :
    checkMatch a b ms = .ok () ↔
      ∀ k ∈ ms, ∃ v w, OD.get? a k = some v ∧ OD.get? b k = some w ∧ pyEq v w = true := by
  induction ms with
  | nil => simp [checkMatch]
  | cons k ks ih =>
    unfold checkMatch
    simp only [List.mem_cons, forall_eq_or_imp]
    cases ha : OD.get? a k <;> cases hb : OD.get? b k <;> simp
    next v w =>
    split
    · next h => simp [ih, h]
    · next h => simp [h]

/-! ### from_dict -/

theorem get?_fromDict (o d : Obj) (sk : Bool) (wf : OD.WF d) (k : String) :
    OD.get? (fromDict o d sk) k =
      match OD.get? d k with
      | some v => if sk && inNullValues v then OD.get? o k else some v
      | none => OD.get? o k := by
  unfold fromDict
  induction d generalizing o with
  | nil => simp [OD.get?]
  | cons p l ih =>
    have hk : p.1 ∉ OD.keys l := (List.nodup_cons.1 wf).1
    have wf' : OD.WF l := (List.nodup_cons.1 wf).2
    rw [List.foldl_cons, ih _ wf', OD.get?_cons]
    by_cases e : p.1 = k
    · subst e
      rw [(OD.get?_eq_none_iff l p.1).2 hk]
      by_cases ht : (sk && inNullValues p.2) <;> simp [ht]
    · rw [if_neg e]
      have hs : OD.get? (if (sk && inNullValues p.2) = true then o else OD.set o p.1 p.2) k =
          OD.get? o k := by
        split
        · rfl
        · exact OD.get?_set_ne _ _ (Ne.symm e)
      rw [hs]

theorem keys_fromDict (o d : Obj) (sk : Bool) (h : ∀ k ∈ OD.keys d, k ∈ OD.keys o) :
    OD.keys (fromDict o d sk) = OD.keys o := by
  unfold fromDict
  induction d generalizing o with
  | nil => rfl
  | cons p l ih =>
    have hs : OD.keys (if (sk && inNullValues p.2) = true then o else OD.set o p.1 p.2) =
        OD.keys o := by
      split
      · rfl
      · exact OD.keys_set_of_mem _ (h p.1 (by simp [OD.keys]))
    rw [List.foldl_cons, ih, hs]
    intro k hk
    rw [hs]
    exact h k (by simp only [OD.keys, List.map_cons, List.mem_cons] at *; exact Or.inr hk)

/-! ### the dotted constructor -/

variable {β : Type}

theorem splitDots_ne_nil (s : Str) : splitDots s ≠ [] := by
  induction s with
  | nil => simp [splitDots]
  | cons c cs ih =>
    unfold splitDots
    split
    · simp
    · split <;> simp

theorem splitDots_plain (s : Str) (h : '.' ∉ s) : splitDots s = [s] := by
  induction s with
  | nil => rfl
  | cons c cs ih =>
    simp only [List.mem_cons, not_or] at h
    unfold splitDots
    rw [if_neg (Ne.symm h.1), ih h.2]

theorem splitDots_append (s t : Str) (h : '.' ∉ s) :
    splitDots (s ++ '.' :: t) = s :: splitDots t := by
  induction s with
  | nil => simp [splitDots]
  | cons c cs ih =>
    simp only [List.mem_cons, not_or] at h
    rw [List.cons_append, splitDots, if_neg (Ne.symm h.1), ih h.2]

/-- `".".join(path).split(".")` gives the path back. -/
theorem splitDots_join (p : List Str) (hne : p ≠ []) (h : ∀ k ∈ p, '.' ∉ k) :
    splitDots (join '.' p) = p := by
  induction p with
  | nil => exact absurd rfl hne
  | cons k ks ih =>
    cases ks with
    | nil => exact splitDots_plain k (h k (by simp))
    | cons k' ks =>
      rw [join, splitDots_append _ _ (h k (by simp)), ih (by simp) (fun x hx => h x (by simp [hx]))]

theorem mem_dot_join (k k' : Str) (ks : List Str) : '.' ∈ join '.' (k :: k' :: ks) := by
  simp [join]

theorem walk_node_cons (d : Dict β) (k : Str) (ks : List Str) :
    walk (.node d) (k :: ks) = match OD.get? d k with
      | some t => walk t ks
      | none => none := by
  rw [walk]; rfl

/-- The sub-dictionary that `_set_nested_attribute` enters. -/
def subOf (d : Dict β) (k : Str) : Dict β :=
  match OD.get? d k with
  | some (.node kids) => kids
  | _ => []

theorem setNested_cons (k k' : Str) (ks : List Str) (v : Tree β) (d : Dict β) :
    setNested (k :: k' :: ks) v d = OD.set d k (.node (setNested (k' :: ks) v (subOf d k))) := by
  rw [setNested]; rfl

/-- Assigning at a path makes the path resolve to the value. -/
theorem walk_setNested_same (p : List Str) (hne : p ≠ []) (v : Tree β) (d : Dict β) :
    walk (.node (setNested p v d)) p = some v := by
  induction p generalizing d with
  | nil => exact absurd rfl hne
  | cons k ks ih =>
    cases ks with
    | nil => rw [setNested, walk_node_cons, OD.get?_set]; simp [walk]
    | cons k' ks =>
      rw [setNested_cons, walk_node_cons, OD.get?_set, if_pos rfl]
      exact ih (by simp) _

theorem walk_subOf (d : Dict β) (k : Str) (q : List Str) (hq : q ≠ []) :
    walk (.node (subOf d k)) q = match OD.get? d k with
      | some t => walk t q
      | none => none := by
  obtain ⟨x, xs, rfl⟩ := List.exists_cons_of_ne_nil hq
  unfold subOf
  cases h : OD.get? d k with
  | none => rfl
  | some t => cases t <;> simp [walk, OD.get?]

/-- Assigning at a path leaves every incomparable path as it was. -/
theorem walk_setNested_other (p q : List Str) (v : Tree β) (d : Dict β)
    (h : Incomparable p q) : walk (.node (setNested p v d)) q = walk (.node d) q := by
  induction p generalizing d q with
  | nil => exact absurd (List.nil_prefix) h.1
  | cons k ks ih =>
    cases q with
    | nil => exact absurd (List.nil_prefix) h.2
    | cons x xs =>
      by_cases e : k = x
      · subst e
        have hi : Incomparable ks xs := by
          constructor
          · exact fun hp => h.1 ((List.prefix_cons_inj k).2 hp)
          · exact fun hp => h.2 ((List.prefix_cons_inj k).2 hp)
        cases ks with
        | nil => exact absurd (List.nil_prefix) hi.1
        | cons k' ks =>
          have hxs : xs ≠ [] := fun e => hi.2 (e ▸ List.nil_prefix)
          rw [setNested_cons, walk_node_cons, OD.get?_set, if_pos rfl]
          simp only
          rw [ih xs (subOf d k) hi, walk_subOf d k xs hxs, walk_node_cons]
      · cases ks with
        | nil => rw [setNested, walk_node_cons, walk_node_cons, OD.get?_set, if_neg e]
        | cons k' ks => rw [setNested_cons, walk_node_cons, walk_node_cons, OD.get?_set, if_neg e]

theorem get?_setNested_other (p : List Str) (v : Tree β) (d : Dict β) (k : Str)
    (h : p.head? ≠ some k) : OD.get? (setNested p v d) k = OD.get? d k := by
  cases p with
  | nil => rfl
  | cons x xs =>
    have e : k ≠ x := fun e => h (by simp [e])
    cases xs with
    | nil => rw [setNested, OD.get?_set_ne _ _ e]
    | cons y ys => rw [setNested_cons, OD.get?_set_ne _ _ e]

theorem setNested_wf (p : List Str) (v : Tree β) (d : Dict β) (wf : OD.WF d) :
    OD.WF (setNested p v d) := by
  cases p with
  | nil => exact wf
  | cons x xs =>
    cases xs with
    | nil => exact OD.WF.set wf _ _
    | cons y ys => rw [setNested_cons]; exact OD.WF.set wf _ _

/-- Assigning all items of a list, in order. -/
def setAll (l : List (List Str × Tree β)) (d : Dict β) : Dict β :=
  l.foldl (fun (d : Dict β) p => setNested p.1 p.2 d) d

theorem walk_setAll_other (l : List (List Str × Tree β)) (d : Dict β) (q : List Str)
    (h : ∀ p ∈ l, Incomparable p.1 q) : walk (.node (setAll l d)) q = walk (.node d) q := by
  induction l generalizing d with
  | nil => rfl
  | cons p l ih =>
    show walk (.node (setAll l (setNested p.1 p.2 d))) q = _
    rw [ih _ (fun x hx => h x (by simp [hx])), walk_setNested_other _ _ _ _ (h p (by simp))]

theorem walk_setAll_mem (l : List (List Str × Tree β)) (d : Dict β)
    (hi : l.Pairwise (fun a b => Incomparable a.1 b.1)) (hne : ∀ p ∈ l, p.1 ≠ [])
    (p : List Str × Tree β) (hp : p ∈ l) : walk (.node (setAll l d)) p.1 = some p.2 := by
  induction l generalizing d with
  | nil => simp at hp
  | cons a l ih =>
    show walk (.node (setAll l (setNested a.1 a.2 d))) p.1 = _
    rw [List.pairwise_cons] at hi
    rcases List.mem_cons.1 hp with rfl | hp
    · rw [walk_setAll_other]
      · exact walk_setNested_same _ (hne _ (by simp)) _ _
      · intro x hx; exact ⟨(hi.1 x hx).2, (hi.1 x hx).1⟩
    · exact ih _ hi.2 (fun x hx => hne x (by simp [hx])) hp

theorem get?_setAll_other (l : List (List Str × Tree β)) (d : Dict β) (k : Str)
    (h : ∀ p ∈ l, p.1.head? ≠ some k) : OD.get? (setAll l d) k = OD.get? d k := by
  induction l generalizing d with
  | nil => rfl
  | cons p l ih =>
    show OD.get? (setAll l (setNested p.1 p.2 d)) k = _
    rw [ih _ (fun x hx => h x (by simp [hx])), get?_setNested_other _ _ _ _ (h p (by simp))]

theorem setAll_wf (l : List (List Str × Tree β)) (d : Dict β) (wf : OD.WF d) :
    OD.WF (setAll l d) := by
  induction l generalizing d with
  | nil => exact wf
  | cons p l ih => exact ih _ (setNested_wf _ _ _ wf)

theorem get?_foldl_set (l d : Dict β) (wf : OD.WF l) (k : Str) :
    OD.get? (l.foldl (fun (acc : Dict β) q => OD.set acc q.1 q.2) d) k =
      (OD.get? l k).or (OD.get? d k) := by
  induction l generalizing d with
  | nil => simp [OD.get?]
  | cons p l ih =>
    have hk : p.1 ∉ OD.keys l := (List.nodup_cons.1 wf).1
    have wf' : OD.WF l := (List.nodup_cons.1 wf).2
    rw [List.foldl_cons, ih _ wf', OD.get?_cons, OD.get?_set]
    by_cases e : p.1 = k
    · subst e
      simp [(OD.get?_eq_none_iff l p.1).2 hk]
    · simp [e]

/-- A keyword that is not a wrapped class dict goes to the nested or the flat data. -/
theorem foldl_initOne (cls : Str) (data : Dict β) (s : Dict β × Dict β)
    (hc : ∀ p ∈ data, p.1 ≠ cls) :
    data.foldl (initOne cls) s =
      (((data.filter (fun p => '.' ∉ p.1)).foldl (fun (acc : Dict β) q => OD.set acc q.1 q.2) s.1),
       setAll ((data.filter (fun p => '.' ∈ p.1)).map (fun p => (splitDots p.1, p.2))) s.2) := by
  induction data generalizing s with
  | nil => rfl
  | cons p l ih =>
    rw [List.foldl_cons, ih _ (fun x hx => hc x (by simp [hx]))]
    by_cases hd : '.' ∈ p.1
    · simp [initOne, hd, setAll]
    · simp [initOne, hd, hc p (by simp), setAll]

/-- Is the value a dict? -/
def isNode : Dicts.Tree β → Bool
  | .node _ => true
  | .leaf _ => false

/-- The wrapped form: leaves go to the flat data, dicts to the nested data. -/
theorem foldl_wrapped (kids : Dict β) (s : Dict β × Dict β) :
    kids.foldl wrappedOne s =
      (((kids.filter (fun p => !isNode p.2)).foldl (fun (acc : Dict β) q => OD.set acc q.1 q.2) s.1),
       setAll ((kids.filter (fun p => isNode p.2)).map (fun p => (splitDots p.1, p.2))) s.2) := by
  induction kids generalizing s with
  | nil => rfl
  | cons p l ih =>
    rw [List.foldl_cons, ih]
    obtain ⟨k, t⟩ := p
    cases t <;> simp [isNode, setAll, wrappedOne]

end Verif.Metadata
