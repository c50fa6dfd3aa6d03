import Verif.Lemmas.ListDict
import Std.Data.String.ToNat

/-!
Properties C01-C10: `ListDict` (mt_metadata/common/list_dict.py).

Vocabulary: `d.keys`, `d.values` are `list(ld.keys())`, `list(ld.values())`; `d.length` is `len(ld)`;
`d.get? k` is the association-list lookup.
-/

set_option linter.unusedSectionVars false

namespace Verif.ListDict
open OD
variable {α : Type} [PyObj α]

/-! ### Sample objects for the satisfiability examples -/

/-- A sample stored object: optional `id` attribute, optional `component`, a payload. -/
structure Obj where
  id? : Option Key
  comp? : Option Key
  payload : Nat
  deriving DecidableEq, Repr

instance : PyObj Obj := ⟨Obj.id?, Obj.comp?⟩

/-- object with an id -/
def withId (s : String) (n : Nat) : Obj := ⟨some (some s), none, n⟩
/-- object with a component only -/
def withComp (s : String) (n : Nat) : Obj := ⟨none, some (some s), n⟩
/-- object with neither -/
def plain (n : Nat) : Obj := ⟨none, none, n⟩

/-! ### C01 -/

/-- C01: after any history of calls the views agree with each other. -/
theorem C01_views_coherent (h : List (Op α)) :
    let d := run h
    d.keys.Nodup ∧ d.keys.length = d.length ∧ d.values.length = d.length ∧
    (∀ i : Nat, i < d.length → ∃ k v, d.keys[i]? = some k ∧ d.values[i]? = some v ∧
        d[i]? = some (k, v) ∧ getItem d (.int i) = .ok v ∧
        (∀ s, k = some s → getItem d (.str s) = .ok v)) ∧
    (∀ i : Int, i < 0 ∨ (d.length : Int) ≤ i → getItem d (.int i) = .error .keyError) ∧
    (∀ s, some s ∉ d.keys → getItem d (.str s) = .error .keyError) ∧
    (∀ s v, getItem d (.str s) = .ok v ↔ (some s, v) ∈ d) := by
  intro d
  have wf : WF d := wf_run h
  refine ⟨wf, by simp, by simp, ?_, ?_, ?_, ?_⟩
  · intro i hi
    refine ⟨d[i].1, d[i].2, by simp [keys, hi], by simp [values, hi], by simp [hi], ?_, ?_⟩
    · have : keyAt d (i : Int) = .ok d[i].1 := by simp [keyAt, keys, hi]
      simp [getItem, this, bind, Except.bind, homeGet, getElem_get? wf i hi]
    · intro s hs
      have := getElem_get? wf i hi
      rw [hs] at this
      simp [getItem, homeGet, this]
  · intro i hi
    have : keyAt d i = .error .keyError := by
      unfold keyAt
      by_cases h0 : 0 ≤ i
      · have : d.keys[i.toNat]? = none := by
          rw [List.getElem?_eq_none_iff, length_keys]; omega
        simp [this]
      · simp [h0]
    simp [getItem, this, bind, Except.bind]
  · intro s hs
    have := (get?_eq_none_iff d (some s)).2 hs
    simp [getItem, homeGet, this]
  · intro s v
    rw [← get?_iff_mem wf]
    simp only [getItem, homeGet]
    cases get? d (some s) <;> simp

/-- A history exercising every kind of call; the resulting views are non-trivial. -/
example : (run [.append (withId "b" 1), .append (withComp "a" 2), .append (plain 3), .sort,
      .remove (.int 0), .setItem (.int 0) (withId "zz" 4), .updateKeys] : LD Obj)
    = [(some "zz", withId "zz" 4), (some "b", withId "b" 1)] := by decide +kernel

/-! ### C02 -/

/-- C02: `append` of an object with key `k`. -/
theorem C02_append_keyed (d : LD α) (x : α) (k : Key) (hk : keyOf x = .ok k) :
    (append d x).get? k = some x ∧
    (∀ k', k' ≠ k → (append d x).get? k' = d.get? k') ∧
    (k ∈ d.keys → (append d x).keys = d.keys ∧ (append d x).length = d.length) ∧
    (k ∉ d.keys → append d x = d ++ [(k, x)]) := by
  have : append d x = d.set k x := by simp [append, hk]
  rw [this]
  refine ⟨get?_set_self _ _ _, fun k' h => get?_set_ne _ _ h,
    fun hm => ⟨keys_set_of_mem _ hm, ?_⟩, fun hm => set_of_not_mem _ hm⟩
  rw [← length_keys, keys_set_of_mem _ hm, length_keys]

/-- C02: the key is the `id` when there is one, otherwise the `component`. -/
theorem C02_key_choice (x : α) :
    (∀ k, PyObj.idAttr x = some k → keyOf x = .ok k) ∧
    (∀ k, PyObj.idAttr x = none → PyObj.componentAttr x = some k → keyOf x = .ok k) ∧
    (PyObj.idAttr x = none → PyObj.componentAttr x = none → keyOf x = .error .typeError) := by
  refine ⟨fun k h => by simp [keyOf, h], fun k h h' => by simp [keyOf, h, h'],
    fun h h' => by simp [keyOf, h, h']⟩

/-- C02: an object with neither attribute is stored too, under some key. -/
theorem C02_append_keyless (d : LD α) (x : α) (hk : keyOf x = .error .typeError) :
    ∃ k, (append d x).get? k = some x ∧ ∀ k', k' ≠ k → (append d x).get? k' = d.get? k' := by
  refine ⟨some (Nat.repr d.keys.length), ?_⟩
  have : append d x = d.set (some (Nat.repr d.keys.length)) x := by simp [append, hk]
  rw [this]
  exact ⟨get?_set_self _ _ _, fun k' h => get?_set_ne _ _ h⟩

example : keyOf (withId "s1" 7) = .ok (some "s1") ∧
    append [(some "s0", withId "s0" 1)] (withId "s1" 7) =
      [(some "s0", withId "s0" 1), (some "s1", withId "s1" 7)] := by decide +kernel

/-! ### C03 -/

/-- C03, full statement: a keyless append never loses or replaces an entry. -/
def C03_claim (α : Type) [PyObj α] : Prop :=
  ∀ (h : List (Op α)) (x : α), keyOf x = .error .typeError →
    ∀ k v, (k, v) ∈ run h → (k, v) ∈ append (run h) x

/-- C03 is false of the code: after removing the first of two keyless objects the next
append overwrites the second (`str(len)` is taken). -/
theorem C03_refuted : ¬ C03_claim Obj := by
  intro hc
  have := hc [.append (plain 0), .append (plain 1), .remove (.str "0")] (plain 2) rfl
    (some "1") (plain 1)
  revert this
  decide +kernel

/-- A call history consisting of appends only, where an object's own key never is a decimal
numeral (`str(n)`). -/
def AppendOnly (xs : List α) : Prop :=
  ∀ x ∈ xs, ∀ s, keyOf x = .ok (some s) → ∀ n : Nat, s ≠ Nat.repr n

theorem appendOnly_numerals_lt (xs : List α) (hx : AppendOnly xs) (d : LD α)
    (hd : ∀ n : Nat, some (Nat.repr n) ∈ d.keys → n < d.length) :
    ∀ n : Nat, some (Nat.repr n) ∈ (xs.foldl append d).keys → n < (xs.foldl append d).length := by
  induction xs generalizing d with
  | nil => exact hd
  | cons x xs ih =>
    refine ih (fun y hy => hx y (List.mem_cons_of_mem _ hy)) _ ?_
    intro n hn
    unfold append at hn ⊢
    cases hk : keyOf x with
    | ok k =>
      simp only [hk] at hn ⊢
      rw [mem_keys_set] at hn
      rw [length_set]
      rcases hn with he | hn
      · exact absurd he.symm (by
          intro e; exact hx x (by simp) (Nat.repr n) (by rw [hk, e]) n rfl)
      · have := hd n hn; split <;> omega
    | error e =>
      simp only [hk] at hn ⊢
      have hnot : some (Nat.repr d.keys.length) ∉ d.keys := by
        intro hm; have := hd _ hm; simp at this
      rw [mem_keys_set] at hn
      rw [length_set, if_neg hnot]
      rcases hn with he | hn
      · simp only [Option.some.injEq, Nat.repr_inj, length_keys] at he
        omega
      · have := hd n hn; omega

/-- C03, partial: holds for histories of appends only whose own keys are not numerals.
Missing: histories with removals, pops, renames or numeral ids, where it is false. -/
theorem C03_keyless_append_partial (xs : List α) (hx : AppendOnly xs) (x : α)
    (hk : keyOf x = .error .typeError) :
    (∀ k v, (k, v) ∈ xs.foldl append [] → (k, v) ∈ append (xs.foldl append []) x) ∧
    (append (xs.foldl append []) x).length = (xs.foldl append ([] : LD α)).length + 1 := by
  have hd := appendOnly_numerals_lt xs hx [] (by simp)
  have hnot : some (Nat.repr (xs.foldl append ([] : LD α)).keys.length) ∉
      (xs.foldl append ([] : LD α)).keys := by
    intro hm; have := hd _ hm; simp at this
  have : append (xs.foldl append []) x = (xs.foldl append ([] : LD α)) ++
      [(some (Nat.repr (xs.foldl append ([] : LD α)).keys.length), x)] := by
    simp only [append, hk, set_of_not_mem _ hnot]
  rw [this]
  exact ⟨fun k v h => List.mem_append_left _ h, by simp⟩

example : AppendOnly [withId "a" 1, plain 2, withComp "ex" 3, plain 4] := by
  intro x hx s hs n e
  have hd : ∀ c ∈ s.toList, c.isDigit := by
    rw [e, Nat.toList_repr]
    intro c hc; exact Nat.isDigit_of_mem_toDigits (by omega) (by omega) hc
  simp only [List.mem_cons, List.not_mem_nil, or_false] at hx
  rcases hx with rfl | rfl | rfl | rfl
  · have : s = "a" := by simpa [keyOf, withId, PyObj.idAttr] using hs.symm
    subst this; revert hd; decide
  · simp [keyOf, plain, PyObj.idAttr, PyObj.componentAttr] at hs
  · have : s = "ex" := by simpa [keyOf, withComp, PyObj.idAttr, PyObj.componentAttr] using hs.symm
    subst this; revert hd; decide
  · simp [keyOf, plain, PyObj.idAttr, PyObj.componentAttr] at hs

/-! ### C04 -/

/-- C04: removing a present string key removes exactly that entry. -/
theorem C04_remove_key (h : List (Op α)) (s : String) (hk : some s ∈ (run h).keys) :
    remove (run h) (.str s) = .ok ((run h).filter (fun p => p.1 ≠ some s)) := by
  simp [remove, homeDel, hk, (wf_run h).erase_eq_filter]

/-- C04: removing by an in-range index removes exactly the entry at that position. -/
theorem C04_remove_index (h : List (Op α)) (i : Nat) (hi : i < (run h).length) :
    remove (run h) (.int i) = .ok ((run h).eraseIdx i) := by
  have wf : WF (run h) := wf_run h
  generalize run h = d at *
  have hkey : keyAt d (i : Int) = .ok d[i].1 := by simp [keyAt, keys, hi]
  have hmem : d[i].1 ∈ d.keys := List.mem_map_of_mem (List.getElem_mem hi)
  simp only [remove, hkey, bind, Except.bind, homeDel, hmem, if_true, Except.ok.injEq]
  clear hkey hmem
  induction d generalizing i with
  | nil => simp at hi
  | cons p d ih =>
    simp only [WF, keys_cons, List.nodup_cons] at wf
    cases i with
    | zero => simp [erase]
    | succ i =>
      have hi' : i < d.length := by simpa using hi
      have hne : p.1 ≠ d[i].1 := fun e => wf.1 (e ▸ List.mem_map_of_mem (List.getElem_mem hi'))
      simp only [List.getElem_cons_succ, erase, if_neg hne, List.eraseIdx_cons_succ,
        List.cons.injEq, true_and]
      exact ih i hi' wf.2

/-- C04: absent keys, out-of-range indexes and an absent `None` raise KeyError, other types
TypeError. (A raise leaves the collection unchanged.) -/
theorem C04_remove_errors (d : LD α) :
    (∀ s, some s ∉ d.keys → remove d (.str s) = .error .keyError ∧ step d (.remove (.str s)) = d) ∧
    (∀ i : Int, i < 0 ∨ (d.length : Int) ≤ i →
      remove d (.int i) = .error .keyError ∧ step d (.remove (.int i)) = d) ∧
    (none ∉ d.keys → remove d .none = .error .keyError) ∧
    remove d .other = .error .typeError := by
  refine ⟨?_, ?_, ?_, rfl⟩
  · intro s hs
    have : remove d (.str s) = .error .keyError := by simp [remove, homeDel, hs]
    exact ⟨this, by simp [step, this]⟩
  · intro i hi
    have hk : keyAt d i = .error .keyError := by
      unfold keyAt
      by_cases h0 : 0 ≤ i
      · have : d.keys[i.toNat]? = none := by
          rw [List.getElem?_eq_none_iff, length_keys]; omega
        simp [this]
      · simp [h0]
    have : remove d (.int i) = .error .keyError := by simp [remove, hk, bind, Except.bind]
    exact ⟨this, by simp [step, this]⟩
  · intro hs; simp [remove, homeDel, hs]

example : some "b" ∈ (run [.append (withId "a" 1), .append (withId "b" 2),
    .append (withId "c" 3)] : LD Obj).keys := by decide +kernel

/-! ### C05 -/

/-- C05, full statement: popping a present key returns and removes that key's entry. -/
def C05_claim (α : Type) [PyObj α] : Prop :=
  ∀ (h : List (Op α)) (s : String) (v : α), (some s, v) ∈ run h →
    pop (run h) (some s) = .ok ((run h).filter (fun p => p.1 ≠ some s), (some s, v))

/-- C05 is false of the code: popping "a" from {a, b} removes and returns "b". -/
theorem C05_refuted : ¬ C05_claim Obj := by
  intro hc
  have := hc [.append (withId "a" 1), .append (withId "b" 2)] "a" (withId "a" 1)
  revert this
  decide +kernel

/-- C05, partial: pop behaves as documented only for the key of the last entry (non-empty
string) — and for every other non-empty key it always takes the last entry instead. -/
theorem C05_pop_partial (d : LD α) (wf : d.WF) (s : String) (hs : s ≠ "") (p : Key × α)
    (hl : d.getLast? = some p) :
    (some s ∈ d.keys → pop d (some s) = .ok (d.dropLast, p)) ∧
    (p.1 = some s → pop d (some s) = .ok (d.filter (fun q => q.1 ≠ some s), p)) ∧
    (some s ∉ d.keys → pop d (some s) = .error .keyError) := by
  have h1 : some s ∈ d.keys → pop d (some s) = .ok (d.dropLast, p) := by
    intro hk; simp [pop, hk, hs, hl]
  refine ⟨h1, ?_, ?_⟩
  · intro hp
    have hpm : p ∈ d := List.mem_of_getLast? hl
    rw [h1 (hp ▸ List.mem_map_of_mem hpm), ← wf.erase_eq_filter]
    congr 2
    have hne : d ≠ [] := by rintro rfl; simp at hl
    have hcat := List.dropLast_concat_getLast hne
    rw [List.getLast?_eq_some_getLast hne] at hl
    simp only [Option.some.injEq] at hl
    rw [hl] at hcat
    generalize d.dropLast = e at hcat
    subst hcat
    have hnot : some s ∉ keys e := by
      simp only [WF, keys_append, List.nodup_append] at wf
      intro hm; exact wf.2.2 _ hm _ (by simp [keys]) hp.symm
    clear wf hl hne h1 hpm
    induction e with
    | nil => simp [erase, hp]
    | cons q e ih =>
      have hq : q.1 ≠ some s := by intro h; apply hnot; simp [h]
      have hq2 : some s ∉ keys e := by intro h; apply hnot; simp [h]
      simp [erase, hq, ← ih hq2]
  · intro hk; simp [pop, hk]

example : (run [.append (withId "a" 1), .append (withId "b" 2)] : LD Obj).getLast? =
    some (some "b", withId "b" 2) := by decide +kernel

/-! ### C06 -/

theorem extendFold_get? (e : LD α) (wfe : e.WF) (skip : List Key) (d : LD α) (k : Key) :
    (e.foldl (fun d p => if p.1 ∈ skip then d else d.set p.1 p.2) d).get? k =
      if k ∉ skip ∧ k ∈ e.keys then e.get? k else d.get? k := by
  induction e generalizing d with
  | nil => simp
  | cons p e ih =>
    simp only [WF, keys_cons, List.nodup_cons] at wfe
    simp only [List.foldl_cons, ih wfe.2, keys_cons, List.mem_cons, get?_cons]
    by_cases hpk : p.1 = k
    · subst hpk
      by_cases hs : p.1 ∈ skip
      · simp [hs]
      · simp [hs, wfe.1]
    · have hkp : k ≠ p.1 := fun e => hpk e.symm
      by_cases hs : p.1 ∈ skip
      · simp [hs, hpk, hkp]
      · simp [hs, hpk, hkp, get?_set]

theorem extendFold_keys (e : LD α) (wfe : e.WF) (skip : List Key) (d : LD α) :
    (e.foldl (fun d p => if p.1 ∈ skip then d else d.set p.1 p.2) d).keys =
      d.keys ++ e.keys.filter (fun k => k ∉ skip ∧ k ∉ d.keys) := by
  induction e generalizing d with
  | nil => simp
  | cons p e ih =>
    simp only [WF, keys_cons, List.nodup_cons] at wfe
    simp only [List.foldl_cons, ih wfe.2, keys_cons]
    by_cases hs : p.1 ∈ skip
    · simp [hs]
    · by_cases hd : p.1 ∈ d.keys
      · simp [hs, hd, keys_set_of_mem _ hd]
      · simp only [hs, if_false, keys_set_of_not_mem _ hd]
        rw [List.filter_cons_of_pos (by simp [hs, hd])]
        simp only [List.append_assoc, List.singleton_append, List.append_cancel_left_eq,
          List.cons.injEq, true_and, List.mem_append, List.mem_singleton, not_or]
        apply List.filter_congr
        intro k hk
        have : k ≠ p.1 := fun e => wfe.1 (e ▸ hk)
        simp [this]

/-- C06: `extend` is a right-biased merge honouring `skip_keys`; `dict` and `ListDict`
arguments behave alike; anything else is rejected without change. -/
theorem C06_extend (d e : LD α) (wfe : e.WF) (skip : List Key) :
    (∃ r, extend d (.listDict e) skip = .ok r ∧ extend d (.dict e) skip = .ok r ∧
      (∀ k v, k ∉ skip → (k, v) ∈ e → r.get? k = some v) ∧
      (∀ k, k ∈ skip ∨ k ∉ e.keys → r.get? k = d.get? k) ∧
      r.keys = d.keys ++ e.keys.filter (fun k => k ∉ skip ∧ k ∉ d.keys)) ∧
    extend d .notADict skip = .error .typeError ∧ step d (.extend .notADict skip) = d := by
  refine ⟨⟨_, rfl, rfl, ?_, ?_, extendFold_keys e wfe skip d⟩, rfl, rfl⟩
  · intro k v hs hm
    rw [extendFold_get? e wfe, if_pos ⟨hs, mem_keys_of_mem hm⟩]
    exact get?_of_mem wfe hm
  · intro k hk
    rw [extendFold_get? e wfe, if_neg]
    rintro ⟨h1, h2⟩
    rcases hk with h | h
    · exact h1 h
    · exact h h2

/-- C06: `update` with a plain dict is `extend` without skip keys; with a `ListDict` free of
`None` keys likewise. -/
theorem C06_update_eq_extend (d e : LD α) (wfe : e.WF) :
    (∃ r, extend d (.dict e) [] = .ok r ∧ update d (.dict e) = (r, .ok ())) ∧
    (none ∉ e.keys → ∃ r, extend d (.listDict e) [] = .ok r ∧
      update d (.listDict e) = (r, .ok ())) := by
  have key : ∀ f : LD α, e.foldl (fun d p => if p.1 ∈ ([] : List Key) then d else d.set p.1 p.2) f
      = e.foldl (fun d p => d.set p.1 p.2) f := by intro f; simp
  refine ⟨⟨_, rfl, ?_⟩, fun hn => ⟨_, rfl, ?_⟩⟩
  · simp only [update, key]
  · simp only [update, key]
    have gen : ∀ (l : LD α) (d : LD α), (∀ p ∈ l, p ∈ e) →
        updateLoop d e l.keys = (l.foldl (fun d p => d.set p.1 p.2) d, .ok ()) := by
      intro l
      induction l with
      | nil => intro d _; rfl
      | cons p l ih =>
        intro d hsub
        have hp := hsub p (by simp)
        obtain ⟨k, v⟩ := p
        cases k with
        | none => exact absurd (mem_keys_of_mem hp) hn
        | some s =>
          have hg : getItem e (.str s) = .ok v := by
            simp [getItem, homeGet, get?_of_mem wfe hp]
          simp only [keys_cons, updateLoop, hg, List.foldl_cons]
          exact ih _ (fun q hq => hsub q (List.mem_cons_of_mem _ hq))
    exact gen e d (fun p hp => hp)

example : OD.WF ([(some "a", withId "a" 1), (some "b", plain 2)] : LD Obj) := by
  unfold OD.WF; decide +kernel

/-! ### C07 -/

/-- C07: when `sort` does not raise it permutes the items, the keys come out ascending, and every
lookup is unchanged. -/
theorem C07_sort (h : List (Op α)) (hn : none ∉ (run h).keys) :
    ∃ r, sortedOD (run h) = .ok r ∧ step (run h) .sort = r ∧ r.Perm (run h) ∧
      (∀ k, r.get? k = (run h).get? k) ∧
      (∃ ss : List String, r.keys = ss.map some ∧ ss.Pairwise (· ≤ ·)) ∧
      sortedOD r = .ok r := by
  have wf : WF (run h) := wf_run h
  generalize run h = d at *
  obtain ⟨r, hr, hp, hk⟩ := sortedOD_spec wf (fun hc => hn hc.1)
  have wfr : WF r := (hp.map Prod.fst).nodup_iff.2 wf
  have hsorted : (keys r).Pairwise (fun a b => keyLe a b = true) := by
    rw [hk]; exact pySorted_pairwise keyLe_trans keyLe_total _
  have hn' : none ∉ keys r := fun hm => hn ((hp.map Prod.fst).mem_iff.1 hm)
  have hstr : ∀ l : List Key, none ∉ l → l.Pairwise (fun a b => keyLe a b = true) →
      ∃ ss : List String, l = ss.map some ∧ ss.Pairwise (· ≤ ·) := by
    intro l
    induction l with
    | nil => intro _ _; exact ⟨[], rfl, List.Pairwise.nil⟩
    | cons k l ih =>
      intro hl hpw
      rw [List.pairwise_cons] at hpw
      obtain ⟨ss, rfl, hss⟩ := ih (fun hm => hl (List.mem_cons_of_mem _ hm)) hpw.2
      cases k with
      | none => exact absurd List.mem_cons_self hl
      | some s =>
        refine ⟨s :: ss, rfl, ?_⟩
        rw [List.pairwise_cons]
        refine ⟨fun t ht => ?_, hss⟩
        have := hpw.1 (some t) (List.mem_map_of_mem ht)
        simpa [keyLe] using this
  refine ⟨r, hr, by simp [step, hr], hp, fun k => (get?_perm wf hp.symm k).symm,
    hstr _ hn' hsorted, ?_⟩
  obtain ⟨r', hr', hp', hk'⟩ := sortedOD_spec wfr (fun hc => hn' hc.1)
  rw [hr']
  congr 1
  apply ext_of_keys ((hp'.map Prod.fst).nodup_iff.2 wfr)
  · rw [hk', pySorted_of_pairwise hsorted]
  · intro k; exact (get?_perm wfr hp'.symm k).symm

/-- C07, the remaining branch: with a `None` key among at least two, sorting raises TypeError
and leaves the collection unchanged. -/
theorem C07_sort_none (d : LD α) (h : none ∈ d.keys) (h2 : 2 ≤ d.length) :
    sortedOD d = .error .typeError ∧ step d .sort = d := by
  have : sortedOD d = .error .typeError := by
    simp [sortedOD, sortedKeys, h, h2, bind, Except.bind]
  exact ⟨this, by simp [step, this]⟩

example : none ∉ (run [.append (withId "b" 1), .append (withId "a" 2)] : LD Obj).keys ∧
    step (run [.append (withId "b" 1), .append (withId "a" 2)] : LD Obj) .sort =
      [(some "a", withId "a" 2), (some "b", withId "b" 1)] := by decide +kernel

/-! ### C08 -/

/-- C08: with pairwise distinct current identifiers, `update_keys` keeps every object in order,
reachable under its current identifier; the returned map lists exactly the changed keys; a
second call changes nothing. The hypothesis is stated on the identifiers: objects without an
identifier keep their key. -/
theorem C08_updateKeys (h : List (Op α))
    (hd : ((run h).map (fun p => match keyOf p.2 with | .ok k => k | .error _ => p.1)).Nodup) :
    let d := run h
    let d' := (updateKeys d).1
    d'.values = d.values ∧
    (∀ k x, (k, x) ∈ d → ∀ k', keyOf x = .ok k' → d'.get? k' = some x) ∧
    (∀ k x, (k, x) ∈ d → ∀ e, keyOf x = .error e → d'.get? k = some x) ∧
    (∀ k k', ((updateKeys d).2).get? k = some k' ↔
        ∃ x, (k, x) ∈ d ∧ keyOf x = .ok k' ∧ k ≠ k') ∧
    updateKeys d' = (d', []) := by
  intro d d'
  have wf : WF d := wf_run h
  have hd0 : (d.map newKey).Nodup := hd
  have hd1 : WF (d.map (fun p => (newKey p, p.2))) := by
    simpa [WF, keys, Function.comp_def] using hd0
  have hd' : d' = d.map (fun p => (newKey p, p.2)) := by
    show (updateKeys d).1 = _
    rw [updateKeys_fst, foldl_newKey_eq_map]
    · simp
    · simpa using hd1
  have hsnd : (updateKeys d).2 = (d.filter (fun p => p.1 ≠ newKey p)).map
      (fun p => (p.1, newKey p)) := by
    rw [updateKeys_snd, updateKeys_snd_eq]
    · simp
    · exact wf
  refine ⟨?_, ?_, ?_, ?_, ?_⟩
  · rw [hd']; simp [values, Function.comp_def]
  · intro k x hm k' hk
    rw [hd']
    apply get?_of_mem hd1
    exact List.mem_map.2 ⟨(k, x), hm, by simp [newKey, hk]⟩
  · intro k x hm e hk
    rw [hd']
    apply get?_of_mem hd1
    exact List.mem_map.2 ⟨(k, x), hm, by simp [newKey, hk]⟩
  · intro k k'
    have wfm : WF (updateKeys d).2 := by
      rw [hsnd]
      have : keys ((d.filter (fun p => p.1 ≠ newKey p)).map (fun p => (p.1, newKey p))) =
          keys (d.filter (fun p => p.1 ≠ newKey p)) := by simp [keys, Function.comp_def]
      unfold WF; rw [this]
      exact wf_of_sublist (List.filter_sublist) wf
    rw [get?_iff_mem wfm, hsnd]
    simp only [List.mem_map, List.mem_filter, decide_eq_true_eq, Prod.mk.injEq]
    constructor
    · rintro ⟨⟨a, x⟩, ⟨hm, hne⟩, rfl, rfl⟩
      refine ⟨x, hm, ?_, hne⟩
      unfold newKey at hne ⊢
      cases hk : keyOf x with
      | ok c => rfl
      | error e => simp [hk] at hne
    · rintro ⟨x, hm, hk, hne⟩
      exact ⟨(k, x), ⟨hm, by simpa [newKey, hk] using hne⟩, rfl, by simp [newKey, hk]⟩
  · have hnk : ∀ p ∈ d, newKey (newKey p, p.2) = newKey p := by
      intro p _
      unfold newKey
      dsimp only
      cases hk : keyOf p.2 <;> simp
    have h1 : d'.map (fun p => (newKey p, p.2)) = d' := by
      rw [hd', List.map_map]
      apply List.map_congr_left
      intro p hp
      simp [hnk p hp]
    have hfst : (updateKeys d').1 = d' := by
      rw [updateKeys_fst, foldl_newKey_eq_map]
      · simpa using h1
      · rw [h1, List.nil_append, hd']; exact hd1
    have hs : (updateKeys d').2 = [] := by
      rw [updateKeys_snd, updateKeys_snd_eq]
      · rw [List.nil_append, List.map_eq_nil_iff, List.filter_eq_nil_iff]
        intro p hp
        rw [hd'] at hp
        obtain ⟨q, hq, rfl⟩ := List.mem_map.1 hp
        simp [hnk q hq]
      · rw [hd']; exact hd1
    exact Prod.ext hfst hs

/-- C08, why distinctness is needed: two objects renamed to the same id — one is lost. -/
theorem C08_collision_loses :
    ∃ h : List (Op Obj), (run h).length = 2 ∧ (updateKeys (run h)).1.length = 1 :=
  ⟨[.append (withId "a" 1), .append (withId "b" 2), .mutate (some "a") (withId "b" 1)],
    by decide +kernel⟩

/-- renamed objects with distinct identifiers -/
example : ((run [.append (withId "a" 1), .append (plain 2),
      .mutate (some "a") (withId "z" 1)] : LD Obj).map
        (fun p => match keyOf p.2 with | .ok k => k | .error _ => p.1)).Nodup ∧
    updateKeys (run [.append (withId "a" 1), .append (plain 2),
      .mutate (some "a") (withId "z" 1)] : LD Obj) =
      ([(some "z", withId "z" 1), (some "1", plain 2)], [(some "a", some "z")]) := by
  decide +kernel

/-! ### C09 -/

/-- What a lower/upper slice bound denotes (specification): `dflt` for an absent bound, the
position of a key, an integer clamped as Python does. -/
inductive Denotes (d : LD α) (dflt : Nat) : Bound → Nat → Prop
  | absent : Denotes d dflt .absent dflt
  | key {s : String} {n : Nat} : d.keys[n]? = some (some s) → Denotes d dflt (.str s) n
  | nonneg {i : Nat} : Denotes d dflt (.int i) (min i d.length)
  | neg {i : Nat} : 0 < i → Denotes d dflt (.int (-(i : Int))) (d.length - i)

theorem denotes_boundIndex {d : LD α} (wf : d.WF) {dflt : Nat} {b : Bound} {n : Nat}
    (h : Denotes d dflt b n) : ∃ o, boundIndex d b = .ok o ∧
      (match o with | none => dflt | some i => clampBound d.length i) = n := by
  cases h with
  | absent => exact ⟨none, rfl, rfl⟩
  | @key s n hn =>
    have hlt : n < d.length := by
      have := (List.getElem?_eq_some_iff.1 hn).1; simpa using this
    have : d.keys.findIdx? (· = some s) = some n := by
      rw [List.findIdx?_eq_some_iff_getElem]
      obtain ⟨hl, he⟩ := List.getElem?_eq_some_iff.1 hn
      refine ⟨hl, by simp [he], ?_⟩
      intro j hj
      have hne : d.keys[j] ≠ d.keys[n] := by
        intro e
        have := (List.getElem_inj (h := wf)).1 e
        omega
      rw [he] at hne
      simpa using hne
    refine ⟨some n, by simp [boundIndex, indexOf, this, bind, Except.bind, pure, Except.pure], ?_⟩
    simp only [clampBound]
    split
    · omega
    · simp; omega
  | @nonneg i => 
    refine ⟨some i, rfl, ?_⟩
    simp only [clampBound]
    split
    · omega
    · simp
  | @neg i hi =>
    refine ⟨some (-(i:Int)), rfl, ?_⟩
    simp only [clampBound]
    split
    · omega
    · omega

/-- C09: `ld[a:b]` is exactly the run of entries at positions `lo ≤ p < hi`. -/
theorem C09_slice (h : List (Op α)) (a b : Bound) (lo hi : Nat)
    (ha : Denotes (run h) 0 a lo) (hb : Denotes (run h) (run h).length b hi) :
    ∃ r, getSlice (run h) a b = .ok r ∧
      (∀ p, r[p]? = if lo + p < hi then (run h)[lo + p]? else none) := by
  have wf : WF (run h) := wf_run h
  generalize run h = d at *
  obtain ⟨oa, hoa, ea⟩ := denotes_boundIndex wf ha
  obtain ⟨ob, hob, eb⟩ := denotes_boundIndex wf hb
  have hsl : pySlice d oa ob = (d.take hi).drop lo := by
    unfold pySlice
    cases oa <;> cases ob <;> simp_all
  have hsub : ((d.take hi).drop lo).Sublist d :=
    (List.drop_sublist _ _).trans (List.take_sublist _ _)
  refine ⟨(d.take hi).drop lo, ?_, ?_⟩
  · simp only [getSlice, hoa, hob, bind, Except.bind, pure, Except.pure, hsl]
    rw [ofPairs_of_wf (wf_of_sublist hsub wf)]
  · intro p
    rw [List.getElem?_drop, List.getElem?_take]

/-- C09: absent keys raise KeyError, foreign types TypeError. -/
theorem C09_slice_errors (d : LD α) :
    (∀ s b, some s ∉ d.keys → getSlice d (.str s) b = .error .keyError) ∧
    (∀ s, some s ∉ d.keys → getSlice d .absent (.str s) = .error .keyError) ∧
    (∀ b, getSlice d .other b = .error .typeError) ∧
    getSlice d .absent .other = .error .typeError := by
  have key : ∀ s, some s ∉ d.keys → boundIndex d (.str s) = .error .keyError := by
    intro s hs
    have : d.keys.findIdx? (· = some s) = none := by
      rw [List.findIdx?_eq_none_iff]
      intro k hk
      have : k ≠ some s := fun e => hs (e ▸ hk)
      simpa using this
    simp [boundIndex, indexOf, this, bind, Except.bind]
  refine ⟨?_, ?_, fun b => rfl, rfl⟩
  · intro s b hs; simp [getSlice, key s hs, bind, Except.bind]
  · intro s hs
    have h0 : boundIndex d .absent = .ok none := rfl
    simp only [getSlice, h0, key s hs, bind, Except.bind]

example : Denotes (run [.append (withId "a" 1), .append (withId "b" 2),
    .append (withId "c" 3)] : LD Obj) 0 (.str "b") 1 :=
  .key (by decide +kernel)

/-! ### C10 -/

/-- C10, full statement: a copy equals the original (order and values). -/
def C10_claim (α : Type) [PyObj α] : Prop := ∀ h : List (Op α), copy (run h) = run h

/-- C10 is false of the code: an entry stored under `None` is dropped by `copy`. -/
theorem C10_refuted : ¬ C10_claim Obj := by
  intro hc
  have := hc [.append (withId "a" 1), .append ⟨some none, none, 2⟩]
  revert this
  decide +kernel

/-- C10, partial: every collection without a `None` key is copied exactly; with one, exactly
the `None` entry is missing. -/
theorem C10_copy_partial (h : List (Op α)) :
    copy (run h) = (run h).filter (fun p => p.1 ≠ none) ∧
    (none ∉ (run h).keys → copy (run h) = run h) := by
  have wf : WF (run h) := wf_run h
  generalize run h = d at *
  have gen : ∀ (l : LD α) (c : LD α), (c ++ l.filter (fun p => p.1 ≠ none)).WF →
      l.foldl (fun c p => setItem c (Idx.ofKey p.1) p.2) c =
        c ++ l.filter (fun p => p.1 ≠ none) := by
    intro l
    induction l with
    | nil => intro c _; simp
    | cons p l ih =>
      intro c hc
      obtain ⟨k, v⟩ := p
      cases k with
      | none =>
        have hset : setItem c (Idx.ofKey none) v = c := rfl
        rw [List.foldl_cons, hset]
        rw [List.filter_cons_of_neg (by simp)] at hc ⊢
        exact ih c hc
      | some s =>
        rw [List.filter_cons_of_pos (by simp)] at hc ⊢
        have hset : setItem c (Idx.ofKey (some s)) v = c.set (some s) v := rfl
        rw [List.foldl_cons, hset]
        have hnot : some s ∉ keys c := by
          simp only [WF, keys_append, keys_cons, List.nodup_append] at hc
          intro hm; exact hc.2.2 _ hm _ (by simp) rfl
        rw [set_of_not_mem _ hnot, ih]
        · simp
        · simpa using hc
  have h1 : copy d = d.filter (fun p => p.1 ≠ none) := by
    unfold copy
    rw [gen d []]
    · simp
    · exact wf_of_sublist (by simp) wf
  refine ⟨h1, fun hn => ?_⟩
  rw [h1, List.filter_eq_self]
  intro p hp
  have : p.1 ≠ none := fun e => hn (e ▸ List.mem_map_of_mem hp)
  simpa using this

example : none ∉ (run [.append (withId "a" 1), .append (plain 2)] : LD Obj).keys := by
  decide +kernel

end Verif.ListDict
