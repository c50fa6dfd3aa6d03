import Verif.Model.FreqBands
import Mathlib.Data.List.Perm.Basic
import Mathlib.Data.List.Range
import Mathlib.Tactic.Linarith
import Mathlib.Tactic.NormNum

/-!
Property C64: tables of frequency bands.
-/

namespace Verif.FreqBands
open Verif.FreqBand

/-- Row numbers of a list of keys in sorted order: each number once, keys related by `le`. -/
def Sorts (le : ℝ → ℝ → Prop) (f : List ℝ → List Nat) : Prop :=
  ∀ keys : List ℝ, (f keys).Perm (List.range keys.length) ∧
    ((f keys).filterMap (fun i => keys[i]?)).Pairwise le

/-- What numpy and pandas promise. -/
structure Sorter.Ok (s : Sorter) : Prop where
  argsort : Sorts (· ≤ ·) s.argsort
  up : Sorts (· ≤ ·) s.up
  down : Sorts (· ≥ ·) s.down

/-! The promise can be kept. -/

/-- Insertion of a row number by key. -/
noncomputable def insertBy (le : ℝ → ℝ → Prop) [DecidableRel le] (key : Nat → ℝ) (i : Nat) :
    List Nat → List Nat
  | [] => [i]
  | j :: l => if le (key i) (key j) then i :: j :: l else j :: insertBy le key i l

/-- Sorting of row numbers by key. -/
noncomputable def sortBy (le : ℝ → ℝ → Prop) [DecidableRel le] (key : Nat → ℝ) : List Nat → List Nat
  | [] => []
  | i :: l => insertBy le key i (sortBy le key l)

theorem insertBy_perm (le : ℝ → ℝ → Prop) [DecidableRel le] (key : Nat → ℝ) (i : Nat)
    (l : List Nat) : (insertBy le key i l).Perm (i :: l) := by
  induction l with
  | nil => exact List.Perm.refl _
  | cons j l ih =>
    rw [insertBy]
    split
    · exact List.Perm.refl _
    · exact (List.Perm.cons j ih).trans (List.Perm.swap _ _ _)

theorem sortBy_perm (le : ℝ → ℝ → Prop) [DecidableRel le] (key : Nat → ℝ) (l : List Nat) :
    (sortBy le key l).Perm l := by
  induction l with
  | nil => exact List.Perm.refl _
  | cons i l ih => exact (insertBy_perm le key i _).trans (List.Perm.cons i ih)

theorem insertBy_sorted (le : ℝ → ℝ → Prop) [DecidableRel le] (tot : ∀ a b, le a b ∨ le b a)
    (tr : ∀ a b c, le a b → le b c → le a c) (key : Nat → ℝ) (i : Nat) (l : List Nat)
    (h : l.Pairwise (fun a b => le (key a) (key b))) :
    (insertBy le key i l).Pairwise (fun a b => le (key a) (key b)) := by
  induction l with
  | nil => simp [insertBy]
  | cons j l ih =>
    rw [insertBy]
    rw [List.pairwise_cons] at h
    split
    · rename_i hij
      rw [List.pairwise_cons]
      refine ⟨?_, List.pairwise_cons.2 h⟩
      intro x hx
      rcases List.mem_cons.1 hx with rfl | hx
      · exact hij
      · exact tr _ _ _ hij (h.1 x hx)
    · rename_i hij
      rw [List.pairwise_cons]
      refine ⟨?_, ih h.2⟩
      intro x hx
      rcases List.mem_cons.1 ((insertBy_perm le key i l).mem_iff.1 hx) with rfl | hx
      · exact (tot _ _).resolve_left hij
      · exact h.1 x hx

theorem sortBy_sorted (le : ℝ → ℝ → Prop) [DecidableRel le] (tot : ∀ a b, le a b ∨ le b a)
    (tr : ∀ a b c, le a b → le b c → le a c) (key : Nat → ℝ) (l : List Nat) :
    (sortBy le key l).Pairwise (fun a b => le (key a) (key b)) := by
  induction l with
  | nil => exact List.Pairwise.nil
  | cons i l ih => exact insertBy_sorted le tot tr key i _ ih

theorem filterMap_key (keys : List ℝ) (l : List Nat) (h : ∀ i ∈ l, i < keys.length) :
    l.filterMap (fun i => keys[i]?) = l.map (fun i => keys.getD i 0) := by
  induction l with
  | nil => rfl
  | cons i l ih =>
    have hi := h i (by simp)
    rw [List.filterMap_cons_some (f := fun i => keys[i]?) (b := keys[i])
      (by simp [hi]), List.map_cons, ih (fun j hj => h j (by simp [hj]))]
    simp [hi]

theorem sorts_sortBy (le : ℝ → ℝ → Prop) [DecidableRel le] (tot : ∀ a b, le a b ∨ le b a)
    (tr : ∀ a b c, le a b → le b c → le a c) :
    Sorts le (fun keys => sortBy le (fun i => keys.getD i 0) (List.range keys.length)) := by
  intro keys
  have hp := sortBy_perm le (fun i => keys.getD i 0) (List.range keys.length)
  refine ⟨hp, ?_⟩
  rw [filterMap_key keys _ (by intro i hi; simpa using hp.mem_iff.1 hi), List.pairwise_map]
  exact sortBy_sorted le tot tr _ _

/-- A sorter that keeps the promise. -/
noncomputable def exSorter : Sorter where
  argsort keys := sortBy (· ≤ ·) (fun i => keys.getD i 0) (List.range keys.length)
  up keys := sortBy (· ≤ ·) (fun i => keys.getD i 0) (List.range keys.length)
  down keys := sortBy (· ≥ ·) (fun i => keys.getD i 0) (List.range keys.length)

theorem exSorter_ok : exSorter.Ok where
  argsort := sorts_sortBy (· ≤ ·) le_total (fun _ _ _ => le_trans)
  up := sorts_sortBy (· ≤ ·) le_total (fun _ _ _ => le_trans)
  down := sorts_sortBy (· ≥ ·) (fun a b => le_total b a) (fun _ _ _ h1 h2 => le_trans h2 h1)

/-! ### C64 -/

/-- C64: an array is accepted iff it is two-dimensional with two columns, a frame iff it has both
columns; the rows are kept as they are. -/
theorem C64_accepts (ndim cols : Nat) (arows : List (Nat → ℝ)) (columns : List String)
    (frows : List (String → ℝ)) :
    (setEdges (.array ndim cols arows) =
      if ndim = 2 ∧ cols = 2 then .ok (arows.map (fun r => (r 0, r 1))) else .error .valueError) ∧
    (setEdges (.frame columns frows) =
      if "lower_bound" ∈ columns ∧ "upper_bound" ∈ columns then
        .ok (frows.map (fun r => (r "lower_bound", r "upper_bound")))
      else .error .valueError) ∧
    setEdges .other = .error .typeError := by
  refine ⟨?_, ?_, rfl⟩
  · simp only [setEdges]
    by_cases h : ndim = 2 ∧ cols = 2
    · rw [if_pos h, if_neg (by simp [h.1, h.2])]
    · rw [if_neg h, if_pos]
      rcases Decidable.not_and_iff_or_not.1 h with h | h
      · exact Or.inl h
      · exact Or.inr h
  · simp only [setEdges]
    by_cases h : "lower_bound" ∈ columns ∧ "upper_bound" ∈ columns
    · rw [if_pos h, if_pos (by simpa using h)]
    · rw [if_neg h, if_neg (by simpa using h)]

example : setEdges (.array 2 2 [fun i => i, fun i => i + 5]) = .ok [(0, 1), (5, 6)] := by
  simp only [setEdges]
  norm_num

theorem pick_range (rows : List Row) : pick rows (List.range rows.length) = rows := by
  have key : ∀ (pre rows : List Row), (List.range rows.length).filterMap
      (fun i => (pre ++ rows)[i + pre.length]?) = rows := by
    intro pre rows
    induction rows generalizing pre with
    | nil => rfl
    | cons r rows ih =>
      have := ih (pre ++ [r])
      rw [List.length_cons, List.range_succ_eq_map,
        List.filterMap_cons_some (f := fun i => (pre ++ r :: rows)[i + pre.length]?) (b := r)
          (by simp), List.filterMap_map]
      congr 1
      refine Eq.trans ?_ this
      apply List.filterMap_congr
      intro i _
      simp only [Function.comp_apply, List.append_assoc, List.singleton_append, List.length_append,
        List.length_singleton]
      congr 1
      omega
  simpa [pick] using key [] rows

/-- Picking the rows in an order that sorts their keys. -/
theorem pick_sorts {le : ℝ → ℝ → Prop} (rows : List Row) (key : Row → ℝ) (idx : List Nat)
    (h1 : idx.Perm (List.range (rows.map key).length))
    (h2 : (idx.filterMap (fun i => (rows.map key)[i]?)).Pairwise le) :
    (pick rows idx).Perm rows ∧ ((pick rows idx).map key).Pairwise le := by
  refine ⟨?_, ?_⟩
  · rw [List.length_map] at h1
    have := h1.filterMap (fun i => rows[i]?)
    have hr : (List.range rows.length).filterMap (fun i => rows[i]?) = rows := pick_range rows
    rw [hr] at this
    exact this
  · have : (pick rows idx).map key = idx.filterMap (fun i => (rows.map key)[i]?) := by
      simp only [pick, List.map_filterMap, List.getElem?_map]
    rw [this]
    exact h2

/-- The key of a criterion. -/
noncomputable def keyOf : String → Option (Row → ℝ)
  | "lower_bound" => some Prod.fst
  | "upper_bound" => some Prod.snd
  | "center_frequency" => some (fun r => Real.sqrt (r.1 * r.2))
  | _ => none

/-- C64: sorting keeps the rows together, once each, and puts them in the order of the criterion; any
other criterion raises ValueError. -/
theorem C64_sort (s : Sorter) (hs : s.Ok) (rows : List Row) (ascending : Bool) :
    (∀ b key, keyOf b = some key → ∃ rs, sort s rows b ascending = .ok rs ∧ rs.Perm rows ∧
      (rs.map key).Pairwise (fun x y => if ascending then x ≤ y else y ≤ x)) ∧
    (∀ b, keyOf b = none → sort s rows b ascending = .error .valueError) := by
  refine ⟨?_, ?_⟩
  · intro b key hb
    unfold keyOf at hb
    split at hb
    · obtain rfl := Option.some.inj hb
      refine ⟨_, by simp only [sort, if_true]; rfl, ?_⟩
      cases ascending with
      | true => simpa using pick_sorts rows Prod.fst _ (hs.up _).1 (hs.up _).2
      | false => simpa using pick_sorts rows Prod.fst _ (hs.down _).1 (hs.down _).2
    · obtain rfl := Option.some.inj hb
      refine ⟨_, by simp only [sort, if_true, if_neg (by decide : ¬ "upper_bound" = "lower_bound")]; rfl, ?_⟩
      cases ascending with
      | true => simpa using pick_sorts rows Prod.snd _ (hs.up _).1 (hs.up _).2
      | false => simpa using pick_sorts rows Prod.snd _ (hs.down _).1 (hs.down _).2
    · obtain rfl := Option.some.inj hb
      refine ⟨_, by simp only [sort, if_true, if_neg (by decide : ¬ "center_frequency" = "lower_bound"),
        if_neg (by decide : ¬ "center_frequency" = "upper_bound")]; rfl, ?_⟩
      have hc : bandCenters rows false = rows.map center := rfl
      cases ascending with
      | true =>
        simp only [if_true]
        exact pick_sorts rows center _ (hs.argsort _).1 (hs.argsort _).2
      | false =>
        simp only [Bool.false_eq_true, if_false]
        apply pick_sorts rows center _
        · rw [hc]
          exact (List.reverse_perm _).trans (hs.argsort _).1
        · rw [hc, List.filterMap_reverse, List.pairwise_reverse]
          exact (hs.argsort _).2
    · cases hb
  · intro b hb
    unfold keyOf at hb
    split at hb
    · cases hb
    · cases hb
    · cases hb
    · rename_i h1 h2 h3
      simp only [sort, if_neg h1, if_neg h2, if_neg h3]

/-- C64: `bands()` without a criterion and direction "increasing_frequency" gives one band per row in the
order of the table. -/
theorem C64_bands_as_stored (s : Sorter) (rows : List Row) (rtype : String)
    (ht : rtype = "list" ∨ rtype = "generator") :
    ∃ bs, bands s rows "increasing_frequency" none rtype = .ok bs ∧
      bs.map (fun b => (b.fmin, b.fmax)) = rows ∧ ∀ b ∈ bs, b.closed = .left := by
  refine ⟨toBands rows, ?_, ?_, ?_⟩
  · simp only [bands, ne_eq, not_true_eq_false, false_or,
      if_neg (by decide : ¬ "increasing_frequency" = "increasing_period")]
    rw [if_pos ht.symm]
  · simp [toBands, Function.comp_def]
  · intro b hb
    simp only [toBands, List.mem_map] at hb
    obtain ⟨r, _, rfl⟩ := hb
    rfl

/-- C64: with a criterion, or for "increasing_period", `bands()` gives one band per row in the order of
the criterion (the centre by default): upwards for "increasing_frequency", downwards otherwise. -/
theorem C64_bands_sorted (s : Sorter) (hs : s.Ok) (rows : List Row) (direction rtype : String)
    (sortby : Option String) (key : Row → ℝ) (ht : rtype = "list" ∨ rtype = "generator")
    (hk : (sortby = none ∧ direction = "increasing_period" ∧
        key = fun r => Real.sqrt (r.1 * r.2)) ∨
      ∃ k, sortby = some k ∧ keyOf k = some key) :
    ∃ bs, bands s rows direction sortby rtype = .ok bs ∧
      (bs.map (fun b => (b.fmin, b.fmax))).Perm rows ∧
      (bs.map (fun b => key (b.fmin, b.fmax))).Pairwise
        (fun x y => if direction = "increasing_frequency" then x ≤ y else y ≤ x) := by
  have hcond : sortby ≠ none ∨ direction = "increasing_period" := by
    rcases hk with ⟨_, h, _⟩ | ⟨k, h, _⟩
    · exact Or.inr h
    · left; rw [h]; simp
  obtain ⟨k, hkey, hmatch⟩ : ∃ k, keyOf k = some key ∧ criterion sortby = k := by
    rcases hk with ⟨h, _, h3⟩ | ⟨k, h, h2⟩
    · exact ⟨"center_frequency", by rw [h3]; rfl, by rw [h]; rfl⟩
    · refine ⟨k, h2, ?_⟩
      have : k ≠ "" := by rintro rfl; simp [keyOf] at h2
      rw [h, criterion, if_neg this]
  obtain ⟨rs, h1, h2, h3⟩ := (C64_sort s hs rows (decide (direction = "increasing_frequency"))).1 k key hkey
  refine ⟨toBands rs, ?_, ?_, ?_⟩
  · simp only [bands, if_pos hcond]
    rw [hmatch, h1]
    simp only [if_pos ht.symm]
  · simpa [toBands, Function.comp_def] using h2
  · have : (toBands rs).map (fun b => key (b.fmin, b.fmax)) = rs.map key := by
      simp [toBands]
    rw [this]
    simpa using h3

/-- C64: an unknown return type or criterion raises ValueError. -/
theorem C64_bands_errors (s : Sorter) (rows : List Row) (direction rtype k : String) :
    (rtype ≠ "list" → rtype ≠ "generator" →
      bands s rows "increasing_frequency" none rtype = .error .valueError) ∧
    (keyOf k = none → k ≠ "" → bands s rows direction (some k) rtype = .error .valueError) := by
  refine ⟨?_, ?_⟩
  · intro h1 h2
    simp only [bands, ne_eq, not_true_eq_false, false_or,
      if_neg (by decide : ¬ "increasing_frequency" = "increasing_period")]
    rw [if_neg (by rintro (h | h) <;> contradiction)]
  · intro h1 h2
    have hm : criterion (some k) = k := by rw [criterion, if_neg h2]
    simp only [bands, ne_eq, reduceCtorEq, not_false_eq_true, true_or, if_true]
    rw [hm]
    have : sort s rows k (decide (direction = "increasing_frequency")) = .error .valueError := by
      unfold keyOf at h1
      split at h1
      · cases h1
      · cases h1
      · cases h1
      · rename_i a b c
        simp only [sort, if_neg a, if_neg b, if_neg c]
    rw [this]

theorem strictlyIncreasing_iff (l : List ℝ) :
    strictlyIncreasing l = true ↔ l.Pairwise (· < ·) := by
  induction l with
  | nil => simp [strictlyIncreasing]
  | cons a l ih =>
    cases l with
    | nil => simp [strictlyIncreasing]
    | cons b l =>
      rw [strictlyIncreasing, Bool.and_eq_true, ih, decide_eq_true_eq]
      constructor
      · rintro ⟨h1, h2⟩
        rw [List.pairwise_cons]
        refine ⟨?_, h2⟩
        intro x hx
        rcases List.mem_cons.1 hx with rfl | hx
        · exact h1
        · exact h1.trans ((List.pairwise_cons.1 h2).1 x hx)
      · intro h
        rw [List.pairwise_cons] at h
        exact ⟨h.1 b (by simp), h.2⟩

/-- C64: `validate()` keeps the rows, leaves a table with increasing centres alone, and orders any other by
centre; the centres are strictly increasing afterwards iff they are distinct. -/
theorem C64_validate (s : Sorter) (hs : s.Ok) (rows : List Row) :
    ∃ rs, validate s rows = .ok rs ∧ rs.Perm rows ∧
      (rs.map (fun r => Real.sqrt (r.1 * r.2))).Pairwise (· ≤ ·) ∧
      ((rs.map (fun r => Real.sqrt (r.1 * r.2))).Pairwise (· < ·) ↔
        (rows.map (fun r => Real.sqrt (r.1 * r.2))).Nodup) ∧
      ((rows.map (fun r => Real.sqrt (r.1 * r.2))).Pairwise (· < ·) → rs = rows) := by
  have hc : bandCenters rows false = rows.map (fun r => Real.sqrt (r.1 * r.2)) := rfl
  unfold validate
  by_cases h : strictlyIncreasing (bandCenters rows false) = true
  · rw [if_pos h]
    rw [strictlyIncreasing_iff, hc] at h
    refine ⟨rows, rfl, List.Perm.refl _, h.imp le_of_lt, ⟨fun _ => h.imp ne_of_lt, fun _ => h⟩,
      fun _ => rfl⟩
  · rw [if_neg h]
    rw [strictlyIncreasing_iff, hc] at h
    obtain ⟨rs, h1, h2, h3⟩ := (C64_sort s hs rows true).1 "center_frequency" _ rfl
    have h3' : (rs.map (fun r => Real.sqrt (r.1 * r.2))).Pairwise (· ≤ ·) := by simpa using h3
    refine ⟨rs, h1, h2, h3', ?_, fun hc => absurd hc h⟩
    rw [← (h2.map _).nodup_iff]
    constructor
    · intro h; exact h.imp ne_of_lt
    · intro hn
      have := h3'.and hn
      exact this.imp (fun h => lt_of_le_of_ne h.1 h.2)

/-- C64: the centre of a band of positive frequencies lies in it, and the period centres are the
inverses of the frequency centres. -/
theorem C64_centers (rows : List Row) (h : ∀ r ∈ rows, 0 < r.1 ∧ r.1 ≤ r.2) :
    (bandCenters rows false).length = rows.length ∧
    bandCenters rows true = (bandCenters rows false).map (fun f => 1 / f) ∧
    ∀ (i : Nat) (r : Row) (c : ℝ), rows[i]? = some r → (bandCenters rows false)[i]? = some c →
      r.1 ≤ c ∧ c ≤ r.2 ∧ c * c = r.1 * r.2 := by
  refine ⟨by simp [bandCenters], by simp [bandCenters, Function.comp_def], ?_⟩
  intro i r c hr hc
  simp only [bandCenters, Bool.false_eq_true, if_false, List.getElem?_map, hr, Option.map_some,
    Option.some.injEq] at hc
  subst hc
  obtain ⟨h0, h1⟩ := h r (List.mem_of_getElem? hr)
  have hnn : 0 ≤ r.1 * r.2 := by nlinarith
  refine ⟨?_, ?_, Real.mul_self_sqrt hnn⟩
  · exact Real.le_sqrt_of_sq_le (by nlinarith)
  · exact Real.sqrt_le_iff.2 ⟨by linarith, by nlinarith⟩

example : ∃ rs, validate exSorter [(4, 9), (1, 4)] = .ok rs ∧ rs.Perm [(4, 9), (1, 4)] ∧
    (rs.map (fun r => Real.sqrt (r.1 * r.2))).Pairwise (· ≤ ·) := by
  obtain ⟨rs, h1, h2, h3, _⟩ := C64_validate exSorter exSorter_ok [(4, 9), (1, 4)]
  exact ⟨rs, h1, h2, h3⟩

end Verif.FreqBands
