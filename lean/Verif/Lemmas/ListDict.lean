import Verif.Lemmas.OD
import Verif.Lemmas.Sorted
import Verif.Model.ListDict

/-! Helper lemmas about the `ListDict` model. -/

set_option linter.unusedSectionVars false

namespace Verif.ListDict
open OD
variable {α : Type} [PyObj α]

theorem wf_foldl_set {β : Type} (l : List β) (f : β → Key) (g : β → α) (d : LD α) (wf : d.WF) :
    (l.foldl (fun d p => d.set (f p) (g p)) d).WF := by
  induction l generalizing d with
  | nil => exact wf
  | cons p l ih => exact ih _ (wf.set _ _)

theorem wf_ofPairs (l : List (Key × α)) : (ofPairs l).WF := wf_foldl_set l _ _ _ WF_nil

/-- Assigning fresh distinct keys one after the other appends them. -/
theorem foldl_set_fresh (l : List (Key × α)) (d : LD α) (h : (d ++ l).WF) :
    l.foldl (fun d p => d.set p.1 p.2) d = d ++ l := by
  induction l generalizing d with
  | nil => simp
  | cons p l ih =>
    have hp : p.1 ∉ d.keys := by
      simp only [WF, keys_append, keys_cons, List.nodup_append] at h
      intro hm; exact h.2.2 _ hm _ (by simp) rfl
    simp only [List.foldl_cons, set_of_not_mem _ hp]
    rw [ih]
    · simp
    · simpa using h

theorem ofPairs_of_wf {l : List (Key × α)} (h : WF l) : ofPairs l = l := by
  have := foldl_set_fresh l [] (by simpa using h)
  simpa [ofPairs] using this

theorem wf_of_sublist {d e : LD α} (h : e.Sublist d) (wf : WF d) : WF e :=
  List.Nodup.sublist (h.map Prod.fst) wf

theorem wf_setItem {d : LD α} (wf : WF d) (ix : Idx) (v : α) : WF (setItem d ix v) := by
  unfold setItem
  split
  · exact wf.set _ _
  · split
    · exact wf.set _ _
    · split <;> exact wf.set _ _
  · exact wf
  · exact wf

theorem wf_append {d : LD α} (wf : WF d) (x : α) : WF (append d x) := by
  unfold append; split <;> exact wf.set _ _

theorem homeDel_ok {d d' : LD α} {k : Key} (h : homeDel d k = .ok d') :
    k ∈ d.keys ∧ d' = d.erase k := by
  unfold homeDel at h; split at h
  · exact ⟨‹_›, by simpa using h.symm⟩
  · simp at h

theorem wf_remove {d d' : LD α} (wf : WF d) {ix : Idx} (h : remove d ix = .ok d') : WF d' := by
  have key : ∀ k, homeDel d k = .ok d' → WF d' := fun k hk => by
    obtain ⟨_, rfl⟩ := homeDel_ok hk; exact wf.erase k
  cases ix with
  | str s => exact key _ h
  | int i =>
    simp only [remove] at h
    cases hk : keyAt d i with
    | error e => rw [hk] at h; simp [bind, Except.bind] at h
    | ok k => rw [hk] at h; exact key k h
  | none => exact key _ h
  | other => simp [remove] at h

theorem wf_extendFold (e : LD α) (skip : List Key) {d : LD α} (wf : WF d) :
    WF (e.foldl (fun d p => if p.1 ∈ skip then d else d.set p.1 p.2) d) := by
  induction e generalizing d with
  | nil => exact wf
  | cons p e ih =>
    simp only [List.foldl_cons]
    apply ih; split
    · exact wf
    · exact wf.set _ _

theorem wf_extend {d d' : LD α} (wf : WF d) {o : Other α} {s : List Key}
    (h : extend d o s = .ok d') : WF d' := by
  cases o with
  | dict e => simp only [extend, Except.ok.injEq] at h; exact h ▸ wf_extendFold e s wf
  | listDict e => simp only [extend, Except.ok.injEq] at h; exact h ▸ wf_extendFold e s wf
  | notADict => simp [extend] at h

theorem wf_updateLoop (e : LD α) (ks : List Key) {d : LD α} (wf : WF d) :
    WF (updateLoop d e ks).1 := by
  induction ks generalizing d with
  | nil => exact wf
  | cons k ks ih =>
    cases k with
    | none => exact wf
    | some s =>
      simp only [updateLoop]
      split
      · exact ih (wf.set _ _)
      · exact wf

theorem wf_update {d : LD α} (wf : WF d) (o : Other α) : WF (update d o).1 := by
  cases o with
  | dict e => exact wf_foldl_set e _ _ _ wf
  | listDict e => exact wf_updateLoop e _ wf
  | notADict => exact wf

/-- The key an entry gets from `update_keys`. -/
def newKey (p : Key × α) : Key := match keyOf p.2 with | .ok k => k | .error _ => p.1

theorem updateKeys_fst_fold (d : LD α) (a : LD α) (b : OD Key Key) :
    (d.foldl (fun (acc : LD α × OD Key Key) p =>
      let newKey := match keyOf p.2 with | .ok k => k | .error _ => p.1
      (acc.1.set newKey p.2, if p.1 ≠ newKey then acc.2.set p.1 newKey else acc.2)) (a, b)) =
    (d.foldl (fun acc p => acc.set (newKey p) p.2) a,
     d.foldl (fun acc p => if p.1 ≠ newKey p then acc.set p.1 (newKey p) else acc) b) := by
  induction d generalizing a b with
  | nil => rfl
  | cons p d ih => simp only [List.foldl_cons]; rw [ih]; rfl

theorem updateKeys_fst (d : LD α) :
    (updateKeys d).1 = d.foldl (fun (acc : LD α) p => acc.set (newKey p) p.2) [] :=
  congrArg Prod.fst (updateKeys_fst_fold d [] [])

theorem updateKeys_snd (d : LD α) :
    (updateKeys d).2 =
      d.foldl (fun (acc : OD Key Key) p =>
        if p.1 ≠ newKey p then acc.set p.1 (newKey p) else acc) [] :=
  congrArg Prod.snd (updateKeys_fst_fold d [] [])

theorem wf_updateKeys (d : LD α) : WF (updateKeys d).1 := by
  rw [updateKeys_fst]; exact wf_foldl_set d _ _ _ WF_nil

/-- Distinct new keys: nothing collides, so the fold is a map. -/
theorem foldl_newKey_eq_map (d : LD α) (acc : LD α)
    (h : (acc ++ d.map (fun p => (newKey p, p.2))).WF) :
    d.foldl (fun acc p => acc.set (newKey p) p.2) acc =
      acc ++ d.map (fun p => (newKey p, p.2)) := by
  rw [← foldl_set_fresh _ _ h, List.foldl_map]

theorem updateKeys_snd_eq (d : LD α) (acc : OD Key Key)
    (h : (keys acc ++ keys d).Nodup) :
    d.foldl (fun acc p => if p.1 ≠ newKey p then acc.set p.1 (newKey p) else acc) acc =
      acc ++ (d.filter (fun p => p.1 ≠ newKey p)).map (fun p => (p.1, newKey p)) := by
  induction d generalizing acc with
  | nil => simp
  | cons p d ih =>
    have hp : p.1 ∉ keys acc := by
      simp only [keys_cons, List.nodup_append] at h
      intro hm; exact h.2.2 _ hm _ (by simp) rfl
    simp only [List.foldl_cons]
    by_cases e : p.1 = newKey p
    · rw [if_neg (by simpa using e), ih, List.filter_cons_of_neg (by simpa using e)]
      simp only [keys_cons, List.nodup_append, List.nodup_cons] at h ⊢
      refine ⟨h.1, h.2.1.2, fun a ha b hb => h.2.2 a ha b (List.mem_cons_of_mem _ hb)⟩
    · rw [if_pos (by simpa using e), ih, List.filter_cons_of_pos (by simpa using e),
        set_of_not_mem _ hp]
      · simp
      · rw [keys_set_of_not_mem _ hp]; simpa using h

/-- The loop of `sort`. -/
theorem sortLoop (d : LD α) (ks : List Key) (acc : LD α)
    (hsub : ∀ k ∈ ks, k ∈ keys d) (hnd : (keys acc ++ ks).Nodup) :
    ∃ r : LD α, ks.foldlM (fun od k => do return od.set k (← homeGet d k)) acc =
        (Except.ok (acc ++ r) : Except PyErr (LD α)) ∧ keys r = ks ∧
        ∀ p ∈ r, get? d p.1 = some p.2 := by
  induction ks generalizing acc with
  | nil => exact ⟨[], by simp [pure, Except.pure], rfl, by simp⟩
  | cons k ks ih =>
    have hk : k ∉ keys acc := by
      simp only [List.nodup_append] at hnd
      intro hm; exact hnd.2.2 _ hm _ (by simp) rfl
    obtain ⟨v, hv⟩ : ∃ v, get? d k = some v := by
      have := (get?_isSome_iff d k).2 (hsub k (by simp))
      exact Option.isSome_iff_exists.1 this
    obtain ⟨r, hr, hk', hp⟩ := ih (acc.set k v) (fun k' h' => hsub k' (List.mem_cons_of_mem _ h'))
      (by rw [keys_set_of_not_mem _ hk]; simpa using hnd)
    refine ⟨(k, v) :: r, ?_, by simp [hk'], ?_⟩
    · have hg : homeGet d k = .ok v := by simp [homeGet, hv]
      rw [List.foldlM_cons, hg]
      have hs := set_of_not_mem v hk
      simp only [pure, Except.pure, bind, Except.bind] at hr ⊢
      rw [hr, hs]; simp
    · intro p hp'
      rcases List.mem_cons.1 hp' with rfl | h'
      · exact hv
      · exact hp p h'

theorem nodup_of_nodup_map {β γ : Type} (f : β → γ) {l : List β} (h : (l.map f).Nodup) :
    l.Nodup := by
  induction l with
  | nil => simp
  | cons a l ih =>
    simp only [List.map_cons, List.nodup_cons] at h ⊢
    exact ⟨fun hm => h.1 (List.mem_map_of_mem hm), ih h.2⟩

theorem keyLe_total (a b : Key) : (keyLe a b || keyLe b a) = true := by
  cases a <;> cases b <;> simp [keyLe]
  exact String.le_total _ _

theorem keyLe_trans (a b c : Key) : keyLe a b = true → keyLe b c = true → keyLe a c = true := by
  cases a <;> cases b <;> cases c <;> simp [keyLe]
  exact String.le_trans

/-- Result of `sort` when it does not raise. -/
theorem sortedOD_spec {d : LD α} (wf : WF d) (hn : ¬ (none ∈ keys d ∧ 2 ≤ d.length)) :
    ∃ r, sortedOD d = .ok r ∧ r.Perm d ∧ keys r = pySorted keyLe (keys d) := by
  have hperm := pySorted_perm keyLe (keys d)
  have hks : sortedKeys d = .ok (pySorted keyLe (keys d)) := by simp [sortedKeys, hn]
  obtain ⟨r, hr, hk, hp⟩ := sortLoop d (pySorted keyLe (keys d)) []
    (fun k h => hperm.mem_iff.1 h) (by simpa using hperm.nodup_iff.2 wf)
  refine ⟨r, ?_, ?_, hk⟩
  · unfold sortedOD
    rw [hks]
    simpa [bind, Except.bind] using hr
  · have wfr : WF r := by unfold WF; rw [hk]; exact hperm.nodup_iff.2 wf
    have nd1 : r.Nodup := nodup_of_nodup_map Prod.fst wfr
    have nd2 : d.Nodup := nodup_of_nodup_map Prod.fst wf
    rw [List.perm_ext_iff_of_nodup nd1 nd2]
    intro p
    constructor
    · intro h; exact mem_of_get? (hp p h)
    · intro h
      have : p.1 ∈ keys r := by
        rw [hk]; exact hperm.mem_iff.2 (List.mem_map_of_mem h)
      obtain ⟨q, hq, he⟩ := List.mem_map.1 this
      have h1 := hp q hq
      rw [he, get?_of_mem wf (v := p.2) h] at h1
      have : q = p := Prod.ext he (by simpa using h1.symm)
      exact this ▸ hq

theorem wf_sort {d d' : LD α} (wf : WF d) (h : sortedOD d = .ok d') : WF d' := by
  by_cases hn : none ∈ keys d ∧ 2 ≤ d.length
  · simp [sortedOD, sortedKeys, hn, bind, Except.bind] at h
  · obtain ⟨r, hr, hp, _⟩ := sortedOD_spec wf hn
    rw [hr] at h; simp only [Except.ok.injEq] at h
    subst h
    exact (hp.map Prod.fst).nodup_iff.2 wf

/-- The flag handed to `popitem`. -/
def truthy (k : Key) : Bool := match k with | none => false | some s => s ≠ ""

theorem pop_cases {d : LD α} {k : Key} {r : LD α × (Key × α)} (h : pop d k = .ok r) :
    k ∈ keys d ∧ ((truthy k = true ∧ d = r.1 ++ [r.2]) ∨ (truthy k = false ∧ d = r.2 :: r.1)) := by
  unfold pop at h
  by_cases hk : k ∈ keys d
  · rw [if_pos hk] at h
    refine ⟨hk, ?_⟩
    change (if truthy k = true then _ else _) = _ at h
    by_cases ht : truthy k = true
    · rw [if_pos ht] at h
      left; refine ⟨ht, ?_⟩
      cases hl : d.getLast? with
      | none => rw [hl] at h; simp at h
      | some p =>
        rw [hl] at h; simp only [Except.ok.injEq] at h; subst h
        have hne : d ≠ [] := by rintro rfl; simp at hl
        have := List.dropLast_concat_getLast hne
        rw [List.getLast?_eq_some_getLast hne] at hl
        simp only [Option.some.injEq] at hl
        rw [hl] at this
        exact this.symm
    · rw [if_neg ht] at h
      right; refine ⟨by simpa using ht, ?_⟩
      cases d with
      | nil => simp at h
      | cons p d => simp only [Except.ok.injEq] at h; subst h; rfl
  · rw [if_neg hk] at h; simp at h

theorem wf_pop {d : LD α} (wf : WF d) {k : Key} {r : LD α × (Key × α)} (h : pop d k = .ok r) :
    WF r.1 := by
  rcases (pop_cases h).2 with ⟨_, e⟩ | ⟨_, e⟩
  · exact wf_of_sublist (e ▸ List.sublist_append_left _ _) wf
  · exact wf_of_sublist (e ▸ List.sublist_cons_self _ _) wf

theorem wf_step {d : LD α} (wf : WF d) (op : Op α) : WF (step d op) := by
  cases op with
  | setItem ix v => exact wf_setItem wf ix v
  | append x => exact wf_append wf x
  | remove ix => simp only [step]; split
                 · exact wf_remove wf ‹_›
                 · exact wf
  | extend o s => simp only [step]; split
                  · exact wf_extend wf ‹_›
                  · exact wf
  | update o => exact wf_update wf o
  | updateKeys => exact wf_updateKeys d
  | sort => simp only [step]; split
            · exact wf_sort wf ‹_›
            · exact wf
  | pop k => simp only [step]; split
             · exact wf_pop wf ‹_›
             · exact wf
  | clear => exact WF_nil
  | mutate k v => simp only [step]; split
                  · exact wf.set _ _
                  · exact wf

theorem wf_foldl_step (h : List (Op α)) {d : LD α} (wf : WF d) : WF (h.foldl step d) := by
  induction h generalizing d with
  | nil => exact wf
  | cons op h ih => exact ih (wf_step wf op)

theorem wf_run (h : List (Op α)) : WF (run h) := wf_foldl_step h WF_nil

end Verif.ListDict
