import Verif.Lemmas.Metadata
import Mathlib.Tactic.NormNum
import Mathlib.Tactic.Linarith

/-!
C22, C23, C24, C25, C80, C81: generic metadata objects (`mt_metadata/base/metadata.py`).
-/

namespace Verif.Metadata
open Dicts

/-! ### Vocabulary -/

/-- Values that carry no information, as documented: None, empty, zero, the default time and the
null strings. -/
def Null (v : Val) : Prop :=
  v = .none ∨ v = .num 0 ∨ v = .list [] ∨ v = .arr [] ∨ ∃ s ∈ nullStrings, v = .str s

instance (v : Val) : Decidable (Null v) := by unfold Null; infer_instance

theorem taken_iff (v : Val) : taken v = true ↔ ¬ Null v ∧ v ≠ .bool false := by
  cases v with
  | none => simp [taken, skipped, Null, pyEq, asNum, inNullValues]
  | str s =>
    have hp : ∀ w, pyEq (.str s) w = decide (Val.str s = w) := fun w => by simp [pyEq, asNum]
    simp only [taken, skipped, Null, inNullValues, nullStrings]
    simp [hp]
    tauto
  | num q => simp [taken, skipped, Null, pyEq, asNum, inNullValues]
  | bool b => cases b <;> simp [taken, skipped, Null, pyEq, asNum, inNullValues]
  | list l => simp [taken, skipped, Null, pyEq, asNum, inNullValues]
  | arr l => simp [taken, Null, List.length_pos_iff]

theorem taken_fillNone (k : String) (v : Val) : taken (fillNone k v) = taken v := by
  unfold fillNone
  split
  · next h => rw [h.2]; decide
  · split
    · next h => rw [h.2]; decide
    · rfl

theorem fillNone_of_taken (k : String) (v : Val) (h : taken v = true) : fillNone k v = v := by
  unfold fillNone
  split
  · next h' => rw [h'.2] at h; exact absurd h (by decide)
  · split
    · next h' => rw [h'.2] at h; exact absurd h (by decide)
    · rfl

/-! ### C22 -/

/-- C22: a null-like value of the other object never changes the field. -/
theorem C22_never_erases (fields : List String) (a b r : Obj) (ms : List String) (wf : OD.WF b)
    (h : update fields a b ms = .ok r) (k : String) (v : Val) (hb : OD.get? b k = some v)
    (hv : Null v) : OD.get? r k = OD.get? a k := by
  rw [get?_update fields a b r ms wf h, hb]
  have : taken v = false := by
    cases ht : taken v with
    | false => rfl
    | true => exact absurd hv ((taken_iff v).1 ht).1
  simp [taken_fillNone, this]

example : update [] [("id", .str "mt01"), ("x", .num 3)] [("id", .str ""), ("x", .num 0)] [] =
    .ok [("id", .str "mt01"), ("x", .num 3)] := by decide +kernel

/-- C22, the other half as documented: a value that is not null-like is taken over. -/
def C22_claim : Prop :=
  ∀ (fields : List String) (a b r : Obj) (ms : List String), OD.WF b →
    update fields a b ms = .ok r → ∀ k v, OD.get? b k = some v → ¬ Null v → OD.get? r k = some v

/-- C22 is false in general: `False` is never taken over (`False == 0.0`), nor is an array that
contains a zero. -/
theorem C22_refuted : ¬ C22_claim := by
  intro h
  have := h [] [("acquired", .bool true)] [("acquired", .bool false)] [("acquired", .bool true)] []
    (by decide) (by decide +kernel) "acquired" (.bool false) rfl (by decide +kernel)
  exact absurd this (by decide +kernel)

/-- C22 exactly: a value that is not null-like is taken over unless it is `False`, the optional
string "1980", or an array with a zero that is not `zeros`/`poles`; then the field keeps its
value. Missing for the claim: exactly these exceptions. -/
theorem C22_takes_partial (fields : List String) (a b r : Obj) (ms : List String) (wf : OD.WF b)
    (h : update fields a b ms = .ok r) (k : String) (v : Val) (hb : OD.get? b k = some v)
    (hv : ¬ Null v) :
    (v ≠ .bool false → (v = .str "1980" → k ∈ fields ∨ k ∈ coordinateFields ∨ k ∈ emptyStringFields) →
      (∀ l, v = .arr l → k = "zeros" ∨ k = "poles" ∨ (0 : ℚ) ∉ l) → OD.get? r k = some v) ∧
    (v = .bool false → OD.get? r k = OD.get? a k) ∧
    (∀ l, v = .arr l → (0 : ℚ) ∈ l → k ≠ "zeros" → k ≠ "poles" → OD.get? r k = OD.get? a k) := by
  rw [get?_update fields a b r ms wf h, hb]
  simp only [taken_fillNone]
  refine ⟨?_, ?_, ?_⟩
  · intro h1 h2 h3
    have ht : taken v = true := (taken_iff v).2 ⟨hv, h1⟩
    have hk : kept fields k v = true := by
      cases v with
      | none => exact absurd (Or.inl rfl) hv
      | str s =>
        by_cases hs : s = "1980"
        · subst hs
          rcases h2 rfl with h | h | h <;> simp [kept, h]
        · have hn : s ∉ nullStrings := fun hm => hv (by simp [Null, hm])
          have e1 : s ≠ "1980-01-01T00:00:00+00:00" := fun e => hn (by rw [e]; decide)
          have e2 : s ≠ "" := fun e => hn (by rw [e]; decide)
          simp [kept, pyEq, asNum, hs, e1, e2]
      | num q => simp [kept, pyEq, asNum]
      | bool c => simp [kept, pyEq, asNum]
      | list l =>
        have : l ≠ [] := fun e => hv (by simp [Null, e])
        simp [kept, pyEq, asNum, this]
      | arr l =>
        rcases h3 l rfl with h | h | h
        · simp [kept, h]
        · simp [kept, h]
        · simp only [kept, Bool.or_eq_true, List.all_eq_true, decide_eq_true_eq]
          exact Or.inr (fun x hx e => h (e ▸ hx))
    rw [fillNone_of_taken k v ht]
    simp [ht, hk]
  · intro e; subst e; simp [taken, skipped, pyEq, asNum]
  · intro l e hz h1 h2
    subst e
    have : kept fields k (.arr l) = false := by
      simp only [kept, Bool.or_eq_false_iff, beq_eq_false_iff_ne, List.all_eq_false]
      exact ⟨⟨h1, h2⟩, 0, hz, by simp⟩
    simp [this]

example : update [] [("gain", .num 1), ("id", .none)] [("gain", .num 2), ("id", .str "a")] ["gain"]
    = .error .valueError := by decide +kernel
example : update [] [("gain", .num 1), ("id", .none), ("t", .arr [1])]
    [("gain", .num 2), ("id", .str "a"), ("t", .arr [2, 3])] [] =
    .ok [("gain", .num 2), ("id", .str "a"), ("t", .arr [2, 3])] := by decide +kernel

/-- C22: with a `match` list the update happens only if every listed field agrees; otherwise an
exception and no new state. For fields that exist on both the exception is ValueError. -/
theorem C22_match (fields : List String) (a b : Obj) (ms : List String) :
    ((∃ r, update fields a b ms = .ok r) ↔
      ∀ k ∈ ms, ∃ v w, OD.get? a k = some v ∧ OD.get? b k = some w ∧ pyEq v w = true) ∧
    ((∀ k ∈ ms, (OD.get? a k).isSome ∧ (OD.get? b k).isSome) →
      (∃ k ∈ ms, ∃ v w, OD.get? a k = some v ∧ OD.get? b k = some w ∧ pyEq v w = false) →
      update fields a b ms = .error .valueError) := by
  constructor
  · rw [← checkMatch_ok_iff]
    unfold update
    split
    · next e h => simp [h]
    · next h => simp [h]
  · intro hs hd
    have : checkMatch a b ms = .error .valueError := by
      induction ms with
      | nil => obtain ⟨k, hk, _⟩ := hd; simp at hk
      | cons m ms ih =>
        have h1 := hs m (by simp)
        obtain ⟨v, hv⟩ := Option.isSome_iff_exists.1 h1.1
        obtain ⟨w, hw⟩ := Option.isSome_iff_exists.1 h1.2
        unfold checkMatch
        rw [hv, hw]
        simp only
        split
        · next he =>
          apply ih (fun k hk => hs k (by simp [hk]))
          obtain ⟨k, hk, v', w', e1, e2, e3⟩ := hd
          rcases List.mem_cons.1 hk with rfl | hk
          · rw [hv] at e1; rw [hw] at e2
            simp only [Option.some.injEq] at e1 e2
            rw [← e1, ← e2, he] at e3; simp at e3
          · exact ⟨k, hk, v', w', e1, e2, e3⟩
        · rfl
    unfold update
    rw [this]

/-- C22: update neither adds nor drops fields, for two objects of one class. -/
theorem C22_fields (fields : List String) (a b r : Obj) (ms : List String)
    (hk : OD.keys a = OD.keys b) (h : update fields a b ms = .ok r) : OD.keys r = OD.keys a := by
  have hr : r = (toDict fields true b).foldl updateOne a := by
    unfold update at h
    split at h
    · simp at h
    · simp only [Except.ok.injEq] at h; exact h.symm
  rw [hr, keys_foldl_updateOne]
  intro k hk'
  rw [hk]
  exact (keys_toDict_sublist fields true b).subset hk'

example : update [] [("a", .num 1), ("b", .none)] [("a", .none), ("b", .num 2)] [] =
    .ok [("a", .num 1), ("b", .num 2)] := by decide +kernel

/-- C22: updating twice with the same object changes nothing more. -/
theorem C22_idempotent (fields : List String) (a b r s : Obj) (wf : OD.WF b)
    (h : update fields a b [] = .ok r) (h' : update fields r b [] = .ok s) (k : String) :
    OD.get? s k = OD.get? r k := by
  rw [get?_update fields r b s [] wf h']
  cases hb : OD.get? b k with
  | none => rfl
  | some v =>
    simp only
    split
    · next hc => rw [get?_update fields a b r [] wf h, hb]; simp [hc]
    · rfl

/-! ### C23 -/

/-- What `==` accepts for one field: equal values, two null values, two numbers within
numpy's default tolerance (relative to the second), or a coordinate 0 against None. -/
def Approx (key : String) (v w : Val) : Prop :=
  v = w ∨ (inNullValues v = true ∧ inNullValues w = true) ∨
    (∃ q r, asNum v = some q ∧ asNum w = some r ∧ |q - r| ≤ 1 / 100000000 + 1 / 100000 * |r|) ∨
    (coordSuffix key = true ∧ asNum v = some 0 ∧ w = .none)

theorem isClose_refl (q : ℚ) : isClose q q = true := by
  simp only [isClose, sub_self, abs_zero, decide_eq_true_eq]
  have := abs_nonneg q
  linarith

theorem fieldEq_iff (k : String) (v w : Val) : fieldEq k v w = .ok true ↔ Approx k v w := by
  cases v with
  | arr l => cases w <;> simp [fieldEq, Approx, inNullValues, asNum]; rintro rfl; rfl
  | num q =>
    cases w with
    | num r =>
      simp only [fieldEq, asNum, Approx, inNullValues, Val.num.injEq]
      constructor
      · intro h
        refine Or.inr (Or.inr (Or.inl ⟨q, r, rfl, rfl, ?_⟩))
        simpa [isClose] using h
      · rintro (h | h | ⟨q', r', h1, h2, h⟩ | h)
        · rw [h, isClose_refl]
        · simp at h
        · simp only [Option.some.injEq] at h1 h2
          subst h1 h2; simpa [isClose] using h
        · simp at h
    | bool c =>
      simp only [fieldEq, asNum, Approx, inNullValues]
      constructor
      · intro h
        refine Or.inr (Or.inr (Or.inl ⟨q, _, rfl, rfl, ?_⟩))
        simpa [isClose] using h
      · rintro (h | h | ⟨q', r', h1, h2, h⟩ | h)
        · simp at h
        · simp at h
        · simp only [Option.some.injEq] at h1 h2
          subst h1 h2; simpa [isClose] using h
        · simp at h
    | none => simp [fieldEq, asNum, Approx, inNullValues]
    | str s => simp [fieldEq, asNum, Approx, inNullValues]
    | list s => simp [fieldEq, asNum, Approx, inNullValues]
    | arr s => simp [fieldEq, asNum, Approx, inNullValues]
  | bool b =>
    cases w with
    | num r =>
      simp only [fieldEq, asNum, Approx, inNullValues]
      constructor
      · intro h
        refine Or.inr (Or.inr (Or.inl ⟨_, r, rfl, rfl, ?_⟩))
        simpa [isClose] using h
      · rintro (h | h | ⟨q', r', h1, h2, h⟩ | h)
        · simp at h
        · simp at h
        · simp only [Option.some.injEq] at h1 h2
          subst h1 h2; simpa [isClose] using h
        · simp at h
    | bool c =>
      simp only [fieldEq, asNum, Approx, inNullValues, Val.bool.injEq]
      constructor
      · intro h
        refine Or.inr (Or.inr (Or.inl ⟨_, _, rfl, rfl, ?_⟩))
        simpa [isClose] using h
      · rintro (h | h | ⟨q', r', h1, h2, h⟩ | h)
        · rw [h, isClose_refl]
        · simp at h
        · simp only [Option.some.injEq] at h1 h2
          subst h1 h2; simpa [isClose] using h
        · simp at h
    | none => simp [fieldEq, asNum, Approx, inNullValues]
    | str s => simp [fieldEq, asNum, Approx, inNullValues]
    | list s => simp [fieldEq, asNum, Approx, inNullValues]
    | arr s => simp [fieldEq, asNum, Approx, inNullValues]
  | none => cases w <;> simp [fieldEq, Approx, pyEq, asNum, inNullValues]
  | str s => cases w <;> simp [fieldEq, Approx, pyEq, asNum, inNullValues]; tauto
  | list l => cases w <;> simp [fieldEq, Approx, pyEq, asNum, inNullValues]

theorem eqLoop_iff (b a : Obj) :
    eqLoop b a = .ok true ↔
      ∀ p ∈ a, skipKey p.1 = false → ∀ w, OD.get? b p.1 = some w → Approx p.1 p.2 w := by
  induction a with
  | nil => simp [eqLoop]
  | cons p l ih =>
    obtain ⟨k, v⟩ := p
    rw [eqLoop]
    simp only [List.mem_cons, forall_eq_or_imp, ← ih]
    by_cases hs : skipKey k = true
    · simp [hs]
    · simp only [hs, Bool.false_eq_true, if_false, forall_true_left]
      cases hg : OD.get? b k with
      | none => simp
      | some w =>
        simp only [Option.some.injEq, forall_eq', ← fieldEq_iff]
        cases fieldEq k v w with
        | error e => simp [bind, Except.bind]
        | ok x =>
          cases eqLoop b l with
          | error e => simp [bind, Except.bind]
          | ok y => simp [bind, Except.bind]

theorem zip_all_get? (a b : Obj) (wf : OD.WF b) (hk : a.map Prod.fst = b.map Prod.fst)
    (h : (a.zip b).all (fun p => pyEq p.1.2 p.2.2) = true) :
    ∀ p ∈ a, ∀ w, OD.get? b p.1 = some w → pyEq p.2 w = true := by
  induction a generalizing b with
  | nil => simp
  | cons p l ih =>
    cases b with
    | nil => simp at hk
    | cons q m =>
      simp only [List.map_cons, List.cons.injEq] at hk
      simp only [List.zip_cons_cons, List.all_cons, Bool.and_eq_true] at h
      have hq : q.1 ∉ OD.keys m := (List.nodup_cons.1 wf).1
      intro x hx w hw
      rw [OD.get?_cons] at hw
      rcases List.mem_cons.1 hx with rfl | hx
      · rw [if_pos hk.1.symm] at hw
        simp only [Option.some.injEq] at hw
        rw [← hw]; exact h.1
      · have hne : q.1 ≠ x.1 := by
          intro e
          apply hq
          rw [e]
          show x.1 ∈ m.map Prod.fst
          rw [← hk.2]
          exact List.mem_map_of_mem hx
        rw [if_neg hne] at hw
        exact ih m (List.nodup_cons.1 wf).2 hk.2 h.2 x hx w hw

theorem pyEq_approx (k : String) (v w : Val) (h : pyEq v w = true) : Approx k v w := by
  unfold pyEq at h
  split at h
  · next q r e1 e2 =>
    simp only [decide_eq_true_eq] at h
    refine Or.inr (Or.inr (Or.inl ⟨q, r, e1, e2, ?_⟩))
    rw [h, sub_self, abs_zero]
    have := abs_nonneg r
    linarith
  · exact Or.inl (by simpa using h)

/-- The names of the fields that `==` does not look at. -/
def Dated (k : String) : Prop :=
  ∃ pre post : List Char, k.toList = pre ++ "processed_date".toList ++ post ∨
    k.toList = pre ++ "creation_time".toList ++ post

theorem substring_iff (a b : List Char) : substring a b = true ↔ ∃ pre post, b = pre ++ a ++ post := by
  induction b with
  | nil =>
    simp only [substring, List.isEmpty_iff]
    constructor
    · rintro rfl; exact ⟨[], [], rfl⟩
    · rintro ⟨p, q, h⟩
      have := congrArg List.length h
      simp only [List.length_nil, List.length_append] at this
      exact List.length_eq_zero_iff.1 (by omega)
  | cons c cs ih =>
    simp only [substring, Bool.or_eq_true, List.isPrefixOf_iff_prefix, ih]
    constructor
    · rintro (⟨t, h⟩ | ⟨p, q, h⟩)
      · exact ⟨[], t, by simp [h]⟩
      · exact ⟨c :: p, q, by simp [h]⟩
    · rintro ⟨p, q, h⟩
      cases p with
      | nil => exact Or.inl ⟨q, by simpa using h.symm⟩
      | cons x p =>
        simp only [List.cons_append, List.cons.injEq] at h
        exact Or.inr ⟨p, q, h.2⟩

theorem skipKey_iff (k : String) : skipKey k = false ↔ ¬ Dated k := by
  rw [← Bool.not_eq_true, not_iff_not]
  unfold skipKey Dated
  simp only [List.any_cons, List.any_nil, Bool.or_false, Bool.or_eq_true, substring_iff]
  constructor
  · rintro (⟨p, q, h⟩ | ⟨p, q, h⟩)
    · exact ⟨p, q, Or.inl h⟩
    · exact ⟨p, q, Or.inr h⟩
  · rintro ⟨p, q, h | h⟩
    · exact Or.inl ⟨p, q, h⟩
    · exact Or.inr ⟨p, q, h⟩

theorem meaning (a b : Obj) (wf : OD.WF b) :
    objEq a b = .ok true ↔
      ∀ p ∈ a, skipKey p.1 = false → ∀ w, OD.get? b p.1 = some w → Approx p.1 p.2 w := by
  unfold objEq
  split
  · next h =>
    simp only [true_iff]
    intro p hp _ w hw
    exact pyEq_approx _ _ _ (zip_all_get? a b wf h.1 h.2.2.2 p hp w hw)
  · exact eqLoop_iff b a

/-- C23: what equality means. Two objects compare equal exactly when every field of the first
whose name does not contain `processed_date` or `creation_time` agrees with the second up to the documented tolerances. -/
theorem C23_meaning (a b : Obj) (wf : OD.WF b) :
    objEq a b = .ok true ↔
      ∀ p ∈ a, ¬ Dated p.1 → ∀ w, OD.get? b p.1 = some w → Approx p.1 p.2 w := by
  rw [meaning a b wf]
  simp only [skipKey_iff]

example : objEq [("id", .str "none"), ("x", .num 1), ("creation_time", .str "2020")]
    [("id", .none), ("x", .num (1 + 1/1000000)), ("creation_time", .str "2021")] = .ok true := by
  decide +kernel
example : objEq [("id", .str "mt01"), ("x", .num 1)] [("id", .str "mt02"), ("x", .num 1)] =
    .ok false := by decide +kernel

/-- C23: equality is reflexive. -/
theorem C23_reflexive (a : Obj) (wf : OD.WF a) : objEq a a = .ok true := by
  rw [C23_meaning a a wf]
  intro p hp _ w hw
  have := OD.get?_of_mem wf (k := p.1) (v := p.2) hp
  rw [hw] at this
  simp only [Option.some.injEq] at this
  exact Or.inl this.symm

/-- C23 as documented: symmetric and transitive on objects of one class. -/
def C23_claim : Prop :=
  (∀ a b : Obj, OD.WF a → OD.WF b → OD.keys a = OD.keys b →
    objEq a b = .ok true → objEq b a = .ok true) ∧
  (∀ a b c : Obj, OD.WF a → OD.WF b → OD.WF c → OD.keys a = OD.keys b → OD.keys b = OD.keys c →
    objEq a b = .ok true → objEq b c = .ok true → objEq a c = .ok true)

/-- C23 fails: a coordinate 0.0 equals None, but None does not equal 0.0. -/
theorem C23_symmetry_refuted : ¬ C23_claim := by
  intro h
  have := h.1 [("positive.x2", .num 0)] [("positive.x2", .none)] (by decide) (by decide) rfl
    (by decide +kernel)
  exact absurd this (by decide +kernel)

/-- C23 fails: tolerances do not chain, 0 = 9e-9 = 18e-9 but 0 ≠ 18e-9. -/
theorem C23_transitivity_refuted : ¬ C23_claim := by
  intro h
  have := h.2 [("gain", .num 0)] [("gain", .num (9/1000000000))] [("gain", .num (18/1000000000))]
    (by decide) (by decide) (by decide) rfl rfl (by decide +kernel) (by decide +kernel)
  exact absurd this (by decide +kernel)

/-- No field holds a number or a bool. -/
def NoNumbers (a : Obj) : Prop := ∀ p ∈ a, asNum p.2 = none

theorem meaning_no_numbers (a b : Obj) (wfa : OD.WF a) (wfb : OD.WF b) (ha : NoNumbers a) :
    objEq a b = .ok true ↔ ∀ k v w, skipKey k = false → OD.get? a k = some v → OD.get? b k = some w →
      v = w ∨ (inNullValues v = true ∧ inNullValues w = true) := by
  rw [meaning a b wfb]
  constructor
  · intro h k v w hs hv hw
    have hm := OD.mem_of_get? hv
    rcases h (k, v) hm hs w hw with h | h | ⟨q, r, h, _⟩ | ⟨_, h, _⟩
    · exact Or.inl h
    · exact Or.inr h
    · rw [ha _ hm] at h; simp at h
    · rw [ha _ hm] at h; simp at h
  · intro h p hp hs w hw
    rcases h p.1 p.2 w hs (OD.get?_of_mem wfa hp) hw with h | h
    · exact Or.inl h
    · exact Or.inr (Or.inl h)

/-- C23 on objects whose fields hold no numbers: symmetric. Missing: numeric fields, where it
fails. -/
theorem C23_symmetric_partial (a b : Obj) (wfa : OD.WF a) (wfb : OD.WF b) (ha : NoNumbers a)
    (hb : NoNumbers b) : objEq a b = .ok true ↔ objEq b a = .ok true := by
  rw [meaning_no_numbers a b wfa wfb ha, meaning_no_numbers b a wfb wfa hb]
  constructor
  · intro h k v w hs hv hw
    rcases h k w v hs hw hv with h | h
    · exact Or.inl h.symm
    · exact Or.inr h.symm
  · intro h k v w hs hv hw
    rcases h k w v hs hw hv with h | h
    · exact Or.inl h.symm
    · exact Or.inr h.symm

/-- C23 on objects whose fields hold no numbers: transitive. -/
theorem C23_transitive_partial (a b c : Obj) (wfa : OD.WF a) (wfb : OD.WF b) (wfc : OD.WF c)
    (ha : NoNumbers a) (hb : NoNumbers b) (hk : OD.keys a = OD.keys b)
    (h1 : objEq a b = .ok true) (h2 : objEq b c = .ok true) : objEq a c = .ok true := by
  rw [meaning_no_numbers a b wfa wfb ha] at h1
  rw [meaning_no_numbers b c wfb wfc hb] at h2
  rw [meaning_no_numbers a c wfa wfc ha]
  intro k v w hs hv hw
  have hkb : k ∈ OD.keys b := hk ▸ OD.mem_keys_of_get? hv
  obtain ⟨u, hu⟩ := Option.isSome_iff_exists.1 ((OD.get?_isSome_iff b k).2 hkb)
  rcases h1 k v u hs hv hu with e1 | e1
  · subst e1; exact h2 k v w hs hu hw
  · rcases h2 k u w hs hu hw with e2 | e2
    · subst e2; exact Or.inr e1
    · exact Or.inr ⟨e1.1, e2.2⟩

example : NoNumbers [("id", .str "a"), ("units", .none)] := by
  simp [NoNumbers, asNum]
example : objEq [("id", .str "a"), ("u", .none)] [("id", .str "a"), ("u", .str "none")] = .ok true :=
  by decide +kernel

/-! ### C24 -/

/-- C24 as documented: an object equals its own dictionary. -/
def C24_claim : Prop :=
  ∀ (fields : List String) (a : Obj), OD.WF a → eqDict a (toDict fields false a) = .ok true

/-- C24 is false. -/
theorem C24_refuted : ¬ C24_claim := by
  intro h
  have := h [] [("id", .str "mt01")] (by decide)
  exact absurd this (by decide)

/-- C24 exactly: comparing any object with any dictionary gives False. -/
theorem C24_always_false (a d : Obj) : eqDict a d = .ok false := rfl

/-! ### C80, C81 -/

/-- C80 as documented: the default `to_dict()` (required only) leaves out empty fields only. -/
def C80_claim : Prop :=
  ∀ (fields : List String) (o : Obj), OD.WF o → ∀ k v, OD.get? o k = some v → ¬ Null v →
    OD.get? (toDict fields true o) k = some v

/-- C80 is false: an array that contains a zero is left out. -/
theorem C80_refuted : ¬ C80_claim := by
  intro h
  have := h [] [("coefficients", .arr [1/2, 0, 1/2])] (by decide) "coefficients" _ rfl
    (by decide +kernel)
  exact absurd this (by decide +kernel)

/-- C80 exactly: every value that is not null-like is kept, except arrays with a zero (other than
`zeros`/`poles`) and the optional string "1980"; required fields are always present. -/
theorem C80_kept_partial (fields : List String) (o : Obj) (wf : OD.WF o) (k : String) (v : Val)
    (hv : OD.get? o k = some v) :
    (¬ Null v → v ≠ .str "1980" → (∀ l, v = .arr l → k = "zeros" ∨ k = "poles" ∨ (0 : ℚ) ∉ l) →
      OD.get? (toDict fields true o) k = some v) ∧
    (k ∈ fields → (∀ l, v ≠ .arr l) → (OD.get? (toDict fields true o) k).isSome) ∧
    (∀ l, v = .arr l → (0 : ℚ) ∈ l → k ≠ "zeros" → k ≠ "poles" →
      OD.get? (toDict fields true o) k = none) := by
  rw [get?_toDict_true fields o wf, hv]
  refine ⟨?_, ?_, ?_⟩
  · intro hn h1 h2
    have hk : kept fields k v = true := by
      cases v with
      | none => exact absurd (Or.inl rfl) hn
      | str s =>
        have hs : s ≠ "1980" := fun e => h1 (by rw [e])
        have hn : s ∉ nullStrings := fun hm => hn (by simp [Null, hm])
        have e1 : s ≠ "1980-01-01T00:00:00+00:00" := fun e => hn (by rw [e]; decide)
        have e2 : s ≠ "" := fun e => hn (by rw [e]; decide)
        simp [kept, pyEq, asNum, hs, e1, e2]
      | num q => simp [kept, pyEq, asNum]
      | bool c => simp [kept, pyEq, asNum]
      | list l =>
        have : l ≠ [] := fun e => hn (by simp [Null, e])
        simp [kept, pyEq, asNum, this]
      | arr l =>
        rcases h2 l rfl with h | h | h
        · simp [kept, h]
        · simp [kept, h]
        · simp only [kept, Bool.or_eq_true, List.all_eq_true, decide_eq_true_eq]
          exact Or.inr (fun x hx e => h (e ▸ hx))
    have hf : fillNone k v = v := by
      have : v ≠ .none := fun e => hn (Or.inl e)
      simp [fillNone, this]
    simp [hk, hf]
  · intro hm ha
    have hk : kept fields k v = true := by
      cases v with
      | arr l => exact absurd rfl (ha l)
      | _ => simp [kept, hm]
    simp [hk]
  · intro l e hz h1 h2
    subst e
    have : kept fields k (.arr l) = false := by
      simp only [kept, Bool.or_eq_false_iff, beq_eq_false_iff_ne, List.all_eq_false]
      exact ⟨⟨h1, h2⟩, 0, hz, by simp⟩
    simp [this]

example : toDict ["id"] true [("id", .none), ("n", .none), ("g", .num 0), ("f", .bool false),
    ("a", .arr [1, 2]), ("z", .arr [1, 0])] =
    [("id", .none), ("g", .num 0), ("f", .bool false), ("a", .arr [1, 2])] := by decide +kernel

/-- C81: writing all fields to a dictionary and reading it into any object of the class restores
the object. -/
theorem C81_roundtrip (fields : List String) (o fresh : Obj) (wf : OD.WF o)
    (hk : OD.keys fresh = OD.keys o) : fromDict fresh (toDict fields false o) false = o := by
  have hd : toDict fields false o = o := by simp [toDict]
  rw [hd]
  have hkeys : OD.keys (fromDict fresh o false) = OD.keys o := by
    rw [keys_fromDict fresh o false (fun k hk' => hk ▸ hk'), hk]
  symm
  apply OD.ext_of_keys wf hkeys.symm
  intro k
  rw [get?_fromDict fresh o false wf]
  cases h : OD.get? o k with
  | some v => simp
  | none =>
    rw [OD.get?_eq_none_iff, ← hk, ← OD.get?_eq_none_iff] at h
    exact h.symm

example : fromDict [("a", .none), ("b", .num 1)] (toDict [] false [("a", .arr [0, 1]), ("b", .num 0)])
    false = [("a", .arr [0, 1]), ("b", .num 0)] := by decide +kernel

/-- C81: reading the default dictionary (required only) into a new object restores every field it
contains; every other field keeps the new object's value. A None of a coordinate field comes back
as 0.0, of the listed text fields as "". -/
theorem C81_required (fields : List String) (o fresh : Obj) (wf : OD.WF o) (k : String) (v : Val)
    (hv : OD.get? o k = some v) :
    ((∃ w, OD.get? (toDict fields true o) k = some w) → v ≠ .none →
      OD.get? (fromDict fresh (toDict fields true o) false) k = some v) ∧
    (v = .none → k ∈ coordinateFields →
      OD.get? (fromDict fresh (toDict fields true o) false) k = some (.num 0)) ∧
    (OD.get? (toDict fields true o) k = none →
      OD.get? (fromDict fresh (toDict fields true o) false) k = OD.get? fresh k) := by
  rw [get?_fromDict _ _ _ (toDict_wf fields true o wf), get?_toDict_true fields o wf, hv]
  refine ⟨?_, ?_, ?_⟩
  · intro hw hn
    by_cases hk : kept fields k v
    · simp [hk, fillNone, hn]
    · simp [hk] at hw
  · intro e hm
    subst e
    simp [kept, fillNone, hm]
  · intro hn
    by_cases hk : kept fields k v
    · simp [hk] at hn
    · simp [hk]

/-- C81: `from_dict(..., skip_none=True)` never erases a field. -/
theorem C81_skip_none (o d : Obj) (wf : OD.WF d) (k : String) (v : Val) (hd : OD.get? d k = some v)
    (hn : inNullValues v = true) : OD.get? (fromDict o d true) k = OD.get? o k := by
  rw [get?_fromDict _ _ _ wf, hd]; simp [hn]

example : fromDict [("a", .str "x")] [("a", .str "none")] true = [("a", .str "x")] := by
  decide +kernel

/-! ### C25 -/

variable {β : Type}

/-- No two keys of the list where one dotted path extends another. -/
def PrefixFree (l : List (Str × Dicts.Tree β)) : Prop :=
  l.Pairwise (fun a b => Incomparable (splitDots a.1) (splitDots b.1))

/-- `initData` looked up at the top level: the nested entry wins over the flat one. -/
theorem get?_initData (cls : Str) (data : Dict β) (wf : OD.WF data)
    (hc : ∀ p ∈ data, p.1 ≠ cls) (k : Str) :
    OD.get? (initData cls data) k =
      (OD.get? (setAll ((data.filter (fun p => '.' ∈ p.1)).map (fun p => (splitDots p.1, p.2))) []) k).or
        (OD.get? (data.filter (fun p => '.' ∉ p.1)) k) := by
  have hwf : OD.WF (data.filter (fun p => '.' ∉ p.1)) :=
    (List.filter_sublist.map Prod.fst).nodup wf
  unfold initData
  rw [foldl_initOne cls data _ hc]
  simp only
  rw [get?_foldl_set _ _ (setAll_wf _ _ OD.WF_nil), get?_foldl_set _ _ hwf]
  simp [OD.get?]

/-- C25: every dotted keyword resolves to its value in what is handed to pydantic, whatever the
order of the keywords and whatever other (flat or dotted, non-overlapping) keywords there are. -/
theorem C25_resolves (cls : Str) (data : Dict β) (wf : OD.WF data) (hc : ∀ p ∈ data, p.1 ≠ cls)
    (hpf : PrefixFree (data.filter (fun p => '.' ∈ p.1))) (k : Str) (v : Dicts.Tree β)
    (hm : (k, v) ∈ data) (hk : '.' ∈ k) :
    walk (.node (initData cls data)) (splitDots k) = some v := by
  have hmem : (splitDots k, v) ∈
      (data.filter (fun p => '.' ∈ p.1)).map (fun p => (splitDots p.1, p.2)) := by
    rw [List.mem_map]
    exact ⟨(k, v), by simp [hm, hk], rfl⟩
  have hpw : ((data.filter (fun p => '.' ∈ p.1)).map (fun p => (splitDots p.1, p.2))).Pairwise
      (fun a b => Incomparable a.1 b.1) := List.pairwise_map.2 hpf
  have hw := walk_setAll_mem _ ([] : Dict β) hpw
    (by intro p hp
        rw [List.mem_map] at hp
        obtain ⟨q, _, rfl⟩ := hp
        exact splitDots_ne_nil _) _ hmem
  simp only at hw
  obtain ⟨x, xs, e⟩ := List.exists_cons_of_ne_nil (splitDots_ne_nil k)
  rw [e] at hw ⊢
  rw [walk_node_cons] at hw ⊢
  rw [get?_initData cls data wf hc]
  revert hw
  cases OD.get? (setAll ((data.filter (fun p => '.' ∈ p.1)).map (fun p => (splitDots p.1, p.2))) []) x with
  | none => simp
  | some t => simp

/-- C25: a flat keyword without dotted children is passed on unchanged. -/
theorem C25_flat (cls : Str) (data : Dict β) (wf : OD.WF data) (hc : ∀ p ∈ data, p.1 ≠ cls)
    (k : Str) (v : Dicts.Tree β) (hm : (k, v) ∈ data) (hk : '.' ∉ k)
    (hn : ∀ p ∈ data, '.' ∈ p.1 → (splitDots p.1).head? ≠ some k) :
    OD.get? (initData cls data) k = some v := by
  rw [get?_initData cls data wf hc, get?_setAll_other]
  · have hwf : OD.WF (data.filter (fun p => '.' ∉ p.1)) :=
      (List.filter_sublist.map Prod.fst).nodup wf
    rw [OD.get?_of_mem hwf (v := v) (by simp [hm, hk])]
    rfl
  · intro p hp
    rw [List.mem_map] at hp
    obtain ⟨q, hq, rfl⟩ := hp
    simp only [List.mem_filter, decide_eq_true_eq] at hq
    exact hn q hq.1 hq.2

/-- C25: a flat keyword that has dotted children is replaced by the nested dict: what is
found under the name does not depend on the flat value at all. -/
theorem C25_replaced (cls : Str) (data : Dict β) (wf : OD.WF data) (hc : ∀ p ∈ data, p.1 ≠ cls)
    (k : Str) (q : List Str) (hq : q ≠ [])
    (hd : ∃ v, (join '.' (k :: q), v) ∈ data) (hplain : ∀ x ∈ k :: q, '.' ∉ x)
    (hpf : PrefixFree (data.filter (fun p => '.' ∈ p.1))) :
    OD.get? (initData cls data) k = OD.get? (initData cls (data.filter (fun p => p.1 ≠ k))) k := by
  obtain ⟨v, hv⟩ := hd
  have hdot : '.' ∈ join '.' (k :: q) := by
    obtain ⟨x, xs, rfl⟩ := List.exists_cons_of_ne_nil hq
    exact mem_dot_join k x xs
  have hk : '.' ∉ k := hplain k (by simp)
  have hf : (data.filter (fun p => p.1 ≠ k)).filter (fun p => '.' ∈ p.1) =
      data.filter (fun p => '.' ∈ p.1) := by
    rw [List.filter_filter]
    apply List.filter_congr
    intro p _
    by_cases h : '.' ∈ p.1
    · have : p.1 ≠ k := fun e => hk (e ▸ h)
      simp [h, this]
    · simp [h]
  have hwf2 : OD.WF (data.filter (fun p => p.1 ≠ k)) := (List.filter_sublist.map Prod.fst).nodup wf
  rw [get?_initData cls data wf hc, get?_initData cls _ hwf2
    (fun p hp => hc p (List.mem_filter.1 hp).1), hf]
  have hmem : (k :: q, v) ∈
      (data.filter (fun p => '.' ∈ p.1)).map (fun p => (splitDots p.1, p.2)) := by
    rw [List.mem_map]
    exact ⟨(join '.' (k :: q), v), by simp [hv, hdot], by
      simp only [splitDots_join (k :: q) (by simp) hplain]⟩
  have hpw : ((data.filter (fun p => '.' ∈ p.1)).map (fun p => (splitDots p.1, p.2))).Pairwise
      (fun a b => Incomparable a.1 b.1) := List.pairwise_map.2 hpf
  have hw := walk_setAll_mem _ ([] : Dict β) hpw
    (by intro p hp
        rw [List.mem_map] at hp
        obtain ⟨q, _, rfl⟩ := hp
        exact splitDots_ne_nil _) _ hmem
  simp only at hw
  rw [walk_node_cons] at hw
  revert hw
  cases OD.get? (setAll ((data.filter (fun p => '.' ∈ p.1)).map (fun p => (splitDots p.1, p.2))) []) k with
  | none => simp
  | some t => simp

/-- C25: the order of the keywords does not matter: a dotted path resolves to the same value
after any permutation. -/
theorem C25_order (cls : Str) (data data' : Dict β) (wf : OD.WF data) (hp : data.Perm data')
    (hc : ∀ p ∈ data, p.1 ≠ cls) (hpf : PrefixFree (data.filter (fun p => '.' ∈ p.1)))
    (k : Str) (v : Dicts.Tree β) (hm : (k, v) ∈ data) (hk : '.' ∈ k) :
    walk (.node (initData cls data')) (splitDots k) =
      walk (.node (initData cls data)) (splitDots k) := by
  rw [C25_resolves cls data wf hc hpf k v hm hk]
  refine C25_resolves cls data' ((hp.map Prod.fst).nodup_iff.1 wf)
    (fun p h => hc p (hp.mem_iff.2 h)) ?_ k v (hp.mem_iff.1 hm) hk
  exact (hp.filter _).pairwise hpf (fun {_ _} h => ⟨h.2, h.1⟩)

/-- A station with an id, two dotted coordinates and a shadowed flat location. -/
def exampleData : Dict Nat :=
  [("id".toList, .leaf 1), ("location".toList, .leaf 9), ("location.latitude".toList, .leaf 2),
   ("location.longitude".toList, .leaf 3)]

example : (initData "station".toList exampleData).map Prod.fst = ["id".toList, "location".toList] := by
  decide +kernel
example : walk (.node (initData "station".toList exampleData)) ["location".toList, "longitude".toList] =
    some (.leaf 3) := by rfl
example : PrefixFree (exampleData.filter (fun p => '.' ∈ p.1)) := by
  simp only [PrefixFree, Incomparable, exampleData]
  decide +kernel

/-! ### C82 -/

/-- What pydantic receives for `Cls(cls_name={...})`, looked up by name. -/
theorem get?_wrapped (cls : Str) (hcls : '.' ∉ cls) (kids : Dict β) (wf : OD.WF kids) (k : Str) :
    OD.get? (initData cls [(cls, .node kids)]) k =
      (OD.get? (setAll ((kids.filter (fun p => isNode p.2)).map (fun p => (splitDots p.1, p.2))) []) k).or
        (OD.get? (kids.filter (fun p => !isNode p.2)) k) := by
  have hwf : OD.WF (kids.filter (fun p => !isNode p.2)) :=
    (List.filter_sublist.map Prod.fst).nodup wf
  unfold initData
  simp only [List.foldl_cons, List.foldl_nil, initOne, hcls, if_false, if_true]
  rw [foldl_wrapped]
  simp only
  rw [get?_foldl_set _ _ (setAll_wf _ _ OD.WF_nil), get?_foldl_set _ _ hwf]
  simp [OD.get?]

/-- C82 as documented: a dictionary wrapped in the class name works with dotted keys, as the
output of `to_dict()` is. -/
def C82_claim : Prop :=
  ∀ (cls : Str) (kids : Dict Nat), '.' ∉ cls → OD.WF kids → PrefixFree kids →
    ∀ k t, (k, t) ∈ kids → walk (.node (initData cls [(cls, .node kids)])) (splitDots k) = some t

/-- C82 is false: a dotted key inside the wrapped dict is not expanded. -/
theorem C82_refuted : ¬ C82_claim := by
  intro h
  have := h "station".toList [("location.latitude".toList, .leaf 40)] (by decide) (by decide)
    (by simp [PrefixFree]) _ _ (List.mem_singleton.2 rfl)
  have e : walk (.node (initData "station".toList
    [("station".toList, .node [("location.latitude".toList, .leaf 40)])]))
    (splitDots "location.latitude".toList) = (none : Option (Dicts.Tree Nat)) := by rfl
  rw [e] at this
  exact absurd this (by simp)

/-- C82: a wrapped dictionary whose keys have no dots (the nested form) is passed on as it is.
Missing: dotted keys, which arrive under their literal name only. -/
theorem C82_nested_partial (cls : Str) (hcls : '.' ∉ cls) (kids : Dict β) (wf : OD.WF kids)
    (hd : ∀ p ∈ kids, '.' ∉ p.1) (k : Str) :
    OD.get? (initData cls [(cls, .node kids)]) k = OD.get? kids k := by
  rw [get?_wrapped cls hcls kids wf]
  have hwf : ∀ f : Str × Dicts.Tree β → Bool, OD.WF (kids.filter f) := fun f =>
    (List.filter_sublist.map Prod.fst).nodup wf
  have hset : ∀ (l acc : Dict β), (∀ p ∈ l, '.' ∉ p.1) →
      setAll (l.map (fun p => (splitDots p.1, p.2))) acc =
        l.foldl (fun (acc : Dict β) q => OD.set acc q.1 q.2) acc := by
    intro l
    induction l with
    | nil => intro acc _; rfl
    | cons p l ih =>
      intro acc h
      rw [List.foldl_cons, ← ih _ (fun x hx => h x (by simp [hx])), List.map_cons]
      show setAll _ (setNested (splitDots p.1) p.2 acc) = _
      rw [splitDots_plain p.1 (h p (by simp))]
      rfl
  rw [hset _ _ (fun p hp => hd p (List.mem_filter.1 hp).1), get?_foldl_set _ _ (hwf _)]
  simp only [OD.get?, Option.or_none]
  have hpart : (kids.filter (fun p => isNode p.2) ++ kids.filter (fun p => !isNode p.2)).Perm kids :=
    List.filter_append_perm _ _
  rw [← OD.get?_append]
  exact OD.get?_perm ((hpart.map Prod.fst).nodup_iff.2 wf) hpart k

/-- C82: a dotted key of the wrapped dictionary with a plain value reaches pydantic under its
literal dotted name, where it becomes an extra attribute. -/
theorem C82_dotted_literal (cls : Str) (hcls : '.' ∉ cls) (kids : Dict β) (wf : OD.WF kids)
    (k : Str) (v : β) (hm : (k, .leaf v) ∈ kids) (hk : '.' ∈ k)
    (hn : ∀ p ∈ kids, isNode p.2 = true → '.' ∉ p.1) :
    OD.get? (initData cls [(cls, .node kids)]) k = some (.leaf v) := by
  rw [get?_wrapped cls hcls kids wf, get?_setAll_other]
  · rw [OD.get?_of_mem ((List.filter_sublist.map Prod.fst).nodup wf) (v := .leaf v)
      (by simp [hm, isNode])]
    rfl
  · intro p hp
    rw [List.mem_map] at hp
    obtain ⟨q, hq, rfl⟩ := hp
    simp only [List.mem_filter] at hq
    have hq' := hn q hq.1 hq.2
    simp only [splitDots_plain q.1 hq', List.head?_cons, ne_eq, Option.some.injEq]
    intro e; exact hq' (e ▸ hk)

example : (initData "s".toList [("s".toList, .node [("a.b".toList, .leaf 1), ("c".toList, .leaf 2)])] :
    Dict Nat).map Prod.fst = ["a.b".toList, "c".toList] := by decide +kernel

end Verif.Metadata
