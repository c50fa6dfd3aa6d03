import Verif.Base.Py

/-! Laws of the insertion-ordered dictionary. -/

set_option linter.unusedSectionVars false

namespace Verif.OD
variable {κ ν : Type} [DecidableEq κ]

@[simp] theorem keys_nil : keys ([] : OD κ ν) = [] := rfl
@[simp] theorem keys_cons (p : κ × ν) (d : OD κ ν) : keys (p :: d) = p.1 :: keys d := rfl
@[simp] theorem keys_append (d e : OD κ ν) : keys (d ++ e) = keys d ++ keys e := by
  simp [keys]
@[simp] theorem values_nil : values ([] : OD κ ν) = [] := rfl
@[simp] theorem values_cons (p : κ × ν) (d : OD κ ν) : values (p :: d) = p.2 :: values d := rfl
@[simp] theorem values_append (d e : OD κ ν) : values (d ++ e) = values d ++ values e := by
  simp [values]
@[simp] theorem length_keys (d : OD κ ν) : (keys d).length = d.length := by simp [keys]
@[simp] theorem length_values (d : OD κ ν) : (values d).length = d.length := by simp [values]

@[simp] theorem get?_nil (k : κ) : get? ([] : OD κ ν) k = none := rfl
theorem get?_cons (p : κ × ν) (d : OD κ ν) (k : κ) :
    get? (p :: d) k = if p.1 = k then some p.2 else get? d k := rfl

theorem get?_eq_none_iff (d : OD κ ν) (k : κ) : get? d k = none ↔ k ∉ keys d := by
  induction d with
  | nil => simp
  | cons p d ih =>
    rw [get?_cons]
    by_cases h : p.1 = k
    · simp [h]
    · simp [h, ih, Ne.symm h]
      
theorem get?_isSome_iff (d : OD κ ν) (k : κ) : (get? d k).isSome ↔ k ∈ keys d := by
  have := get?_eq_none_iff d k
  cases h : get? d k with
  | none => simpa [h] using this
  | some v => simpa [h] using this

theorem mem_of_get? {d : OD κ ν} {k : κ} {v : ν} (h : get? d k = some v) : (k, v) ∈ d := by
  induction d with
  | nil => simp at h
  | cons p d ih =>
    rw [get?_cons] at h
    split at h
    · next e => simp at h; subst h; subst e; simp
    · exact List.mem_cons_of_mem _ (ih h)

theorem mem_keys_of_mem {d : OD κ ν} {k : κ} {v : ν} (h : (k, v) ∈ d) : k ∈ keys d :=
  List.mem_map_of_mem (f := Prod.fst) h

theorem mem_keys_of_get? {d : OD κ ν} {k : κ} {v : ν} (h : get? d k = some v) : k ∈ keys d :=
  mem_keys_of_mem (mem_of_get? h)

theorem get?_of_mem {d : OD κ ν} (wf : WF d) {k : κ} {v : ν} (h : (k, v) ∈ d) :
    get? d k = some v := by
  induction d with
  | nil => simp at h
  | cons p d ih =>
    simp only [WF, keys_cons, List.nodup_cons] at wf
    rw [get?_cons]
    rcases List.mem_cons.1 h with rfl | h'
    · simp
    · have : p.1 ≠ k := fun e => wf.1 (e ▸ mem_keys_of_mem h')
      simp [this, ih wf.2 h']

theorem get?_iff_mem {d : OD κ ν} (wf : WF d) {k : κ} {v : ν} :
    get? d k = some v ↔ (k, v) ∈ d := ⟨mem_of_get?, get?_of_mem wf⟩

theorem get?_set (d : OD κ ν) (k k' : κ) (v : ν) :
    get? (set d k v) k' = if k = k' then some v else get? d k' := by
  induction d with
  | nil => simp [set, get?_cons]
  | cons p d ih =>
    by_cases h : p.1 = k
    · simp only [set, h, if_true, get?_cons]
      by_cases h' : k = k' <;> simp [h']
    · simp only [set, h, if_false, get?_cons, ih]
      by_cases h' : p.1 = k'
      · have : k ≠ k' := fun e => h (h'.trans e.symm)
        simp [h', this]
      · simp [h']

@[simp] theorem get?_set_self (d : OD κ ν) (k : κ) (v : ν) : get? (set d k v) k = some v := by
  simp [get?_set]

theorem get?_set_ne (d : OD κ ν) {k k' : κ} (v : ν) (h : k' ≠ k) :
    get? (set d k v) k' = get? d k' := by simp [get?_set, Ne.symm h]

theorem keys_set_of_mem {d : OD κ ν} {k : κ} (v : ν) (h : k ∈ keys d) :
    keys (set d k v) = keys d := by
  induction d with
  | nil => simp at h
  | cons p d ih =>
    by_cases e : p.1 = k
    · simp [set, e]
    · have : k ∈ keys d := by simpa [Ne.symm e] using h
      simp [set, e, ih this]

theorem set_of_not_mem {d : OD κ ν} {k : κ} (v : ν) (h : k ∉ keys d) :
    set d k v = d ++ [(k, v)] := by
  induction d with
  | nil => rfl
  | cons p d ih =>
    have h1 : p.1 ≠ k := by intro e; apply h; simp [e]
    have h2 : k ∉ keys d := by intro e; apply h; simp [e]
    simp [set, h1, ih h2]

theorem keys_set_of_not_mem {d : OD κ ν} {k : κ} (v : ν) (h : k ∉ keys d) :
    keys (set d k v) = keys d ++ [k] := by
  simp [set_of_not_mem v h]

theorem keys_set (d : OD κ ν) (k : κ) (v : ν) :
    keys (set d k v) = if k ∈ keys d then keys d else keys d ++ [k] := by
  split
  · exact keys_set_of_mem v ‹_›
  · exact keys_set_of_not_mem v ‹_›

theorem mem_keys_set (d : OD κ ν) (k k' : κ) (v : ν) :
    k' ∈ keys (set d k v) ↔ k' = k ∨ k' ∈ keys d := by
  rw [keys_set]; split
  · next h => constructor
              · exact Or.inr
              · rintro (rfl | h') <;> assumption
  · simp [or_comm]

theorem length_set (d : OD κ ν) (k : κ) (v : ν) :
    (set d k v).length = if k ∈ keys d then d.length else d.length + 1 := by
  rw [← length_keys, keys_set]; split <;> simp

instance (d : OD κ ν) : Decidable (WF d) := inferInstanceAs (Decidable (List.Nodup _))

theorem WF_nil : WF ([] : OD κ ν) := List.nodup_nil

theorem WF.set {d : OD κ ν} (wf : WF d) (k : κ) (v : ν) : WF (d.set k v) := by
  unfold WF at *
  rw [keys_set]; split
  · exact wf
  · next h => 
    rw [List.nodup_append]
    refine ⟨wf, by simp, ?_⟩
    intro a ha b hb
    simp at hb; subst hb
    intro e; exact h (e ▸ ha)

theorem erase_of_not_mem {d : OD κ ν} {k : κ} (h : k ∉ keys d) : erase d k = d := by
  induction d with
  | nil => rfl
  | cons p d ih =>
    have h1 : p.1 ≠ k := by intro e; apply h; simp [e]
    have h2 : k ∉ keys d := by intro e; apply h; simp [e]
    simp [erase, h1, ih h2]

theorem keys_erase (d : OD κ ν) (k : κ) : keys (erase d k) = (keys d).erase k := by
  induction d with
  | nil => rfl
  | cons p d ih =>
    by_cases e : p.1 = k
    · simp [erase, e]
    · simp [erase, e, ih]

theorem WF.erase {d : OD κ ν} (wf : WF d) (k : κ) : WF (d.erase k) := by
  unfold WF at *; rw [keys_erase]; exact wf.erase k

/-- On distinct keys, deleting is filtering. -/
theorem WF.erase_eq_filter {d : OD κ ν} (wf : WF d) (k : κ) :
    d.erase k = d.filter (fun p => p.1 ≠ k) := by
  induction d with
  | nil => rfl
  | cons p d ih =>
    simp only [WF, keys_cons, List.nodup_cons] at wf
    by_cases e : p.1 = k
    · have : d.filter (fun p => p.1 ≠ k) = d := by
        rw [List.filter_eq_self]
        intro q hq
        have : q.1 ≠ k := fun e' => wf.1 (by rw [e, ← e']; exact List.mem_map_of_mem hq)
        simpa using this
      have h2 : OD.erase (p :: d) k = d := by simp [OD.erase, e]
      rw [h2, List.filter_cons_of_neg (by simpa using e), this]
    · have := ih wf.2
      simp [OD.erase, e] at this ⊢
      exact this

theorem get?_erase {d : OD κ ν} (wf : WF d) (k k' : κ) :
    get? (erase d k) k' = if k = k' then none else get? d k' := by
  induction d with
  | nil => simp [erase]
  | cons p d ih =>
    simp only [WF, keys_cons, List.nodup_cons] at wf
    by_cases e : p.1 = k
    · simp only [erase, e, if_true, get?_cons]
      split
      · next h => rw [get?_eq_none_iff, ← h, ← e]; exact wf.1
      · rfl
    · simp only [erase, e, if_false, get?_cons, ih wf.2]
      by_cases h' : p.1 = k'
      · have : k ≠ k' := fun e' => e (h'.trans e'.symm)
        simp [h', this]
      · simp [h']

theorem length_erase_of_mem {d : OD κ ν} {k : κ} (h : k ∈ keys d) :
    (erase d k).length + 1 = d.length := by
  have := List.length_erase_of_mem h
  have hp : 0 < (keys d).length := List.length_pos_of_mem h
  rw [← length_keys, keys_erase, this]
  rw [length_keys] at *
  omega

/-- Two dicts with the same key order and the same lookups are equal. -/
theorem ext_of_keys {d e : OD κ ν} (wf : WF d) (hk : keys d = keys e)
    (h : ∀ k, get? d k = get? e k) : d = e := by
  induction d generalizing e with
  | nil => cases e with
    | nil => rfl
    | cons _ _ => simp at hk
  | cons p d ih =>
    cases e with
    | nil => simp at hk
    | cons q e =>
      simp only [keys_cons, List.cons.injEq] at hk
      simp only [WF, keys_cons, List.nodup_cons] at wf
      have h1 := h p.1
      simp only [get?_cons, hk.1, if_true, Option.some.injEq] at h1
      have : p = q := Prod.ext hk.1 h1
      subst this
      congr 1
      refine ih wf.2 hk.2 (fun k => ?_)
      have h2 := h k
      simp only [get?_cons] at h2
      by_cases e' : p.1 = k
      · have hd : get? d k = none := (get?_eq_none_iff _ _).2 (e' ▸ wf.1)
        have he : get? e k = none := (get?_eq_none_iff _ _).2 (e' ▸ hk.2 ▸ wf.1)
        rw [hd, he]
      · simpa [e'] using h2

theorem get?_append (d e : OD κ ν) (k : κ) :
    get? (d ++ e) k = (get? d k).or (get? e k) := by
  induction d with
  | nil => simp
  | cons p d ih =>
    simp only [List.cons_append, get?_cons, ih]
    split <;> simp

theorem get?_perm {d e : OD κ ν} (wf : WF d) (h : d.Perm e) (k : κ) : get? d k = get? e k := by
  have wfe : WF e := (h.map Prod.fst).nodup_iff.1 wf
  cases hd : get? d k with
  | none =>
    rw [get?_eq_none_iff] at hd
    symm; rw [get?_eq_none_iff]
    intro hk; exact hd ((h.map Prod.fst).mem_iff.2 hk)
  | some v => 
    symm; rw [get?_iff_mem wfe]
    exact h.mem_iff.1 (mem_of_get? hd)

theorem getElem_get? {d : OD κ ν} (wf : WF d) (i : Nat) (h : i < d.length) :
    get? d (d[i].1) = some d[i].2 := get?_of_mem wf (List.getElem_mem h)

theorem foldl_set_fresh (l : OD κ ν) (d : OD κ ν) (h : WF (d ++ l)) :
    l.foldl (fun d p => set d p.1 p.2) d = d ++ l := by
  induction l generalizing d with
  | nil => simp
  | cons p l ih =>
    have hp : p.1 ∉ keys d := by
      simp only [WF, keys_append, keys_cons, List.nodup_append] at h
      intro hm; exact h.2.2 _ hm _ (by simp) rfl
    simp only [List.foldl_cons, set_of_not_mem _ hp]
    rw [ih]
    · simp
    · simpa using h

/-- `dict(pairs)` with distinct keys is the list of pairs itself. -/
theorem ofPairs_of_wf {l : OD κ ν} (h : WF l) : ofPairs l = l := by
  have := foldl_set_fresh l [] (by simpa using h)
  simpa [ofPairs] using this

theorem WF_ofPairs (l : OD κ ν) : WF (ofPairs l) := by
  unfold ofPairs
  suffices ∀ d : OD κ ν, WF d → WF (l.foldl (fun d p => set d p.1 p.2) d) from this _ WF_nil
  induction l with
  | nil => exact fun d h => h
  | cons p l ih => exact fun d h => ih _ (h.set _ _)

/-- Replacing the value under the last key. -/
theorem set_append_last (d : OD κ ν) (k : κ) (v w : ν) (h : k ∉ keys d) :
    set (d ++ [(k, v)]) k w = d ++ [(k, w)] := by
  induction d with
  | nil => simp [set]
  | cons p d ih =>
    have h1 : p.1 ≠ k := by intro e; apply h; simp [e]
    have h2 : k ∉ keys d := by intro e; apply h; simp [e]
    simp [set, h1, ih h2]

end Verif.OD
