import Verif.Model.MTime

/-! Calendar and leap-second lemmas for the MTime model. -/

namespace Verif.MTime

theorem isLeap_iff (y : Int) : isLeap y = true ↔ (y % 4 = 0 ∧ (y % 100 ≠ 0 ∨ y % 400 = 0)) := by
  simp [isLeap]

theorem daysBeforeYear_succ (y : Int) :
    daysBeforeYear (y + 1) = daysBeforeYear y + 365 + (if isLeap y then 1 else 0) := by
  have h := isLeap_iff y
  unfold daysBeforeYear
  split
  · rename_i hl; have := h.1 hl; omega
  · rename_i hl
    have : ¬ (y % 4 = 0 ∧ (y % 100 ≠ 0 ∨ y % 400 = 0)) := fun c => hl (h.2 c)
    omega

theorem daysBeforeYear_lt {y z : Int} (h : y < z) :
    daysBeforeYear y + 365 + (if isLeap y then 1 else 0) ≤ daysBeforeYear z := by
  rw [← daysBeforeYear_succ]
  unfold daysBeforeYear
  omega

theorem dayOfYear_bounds {a : Date} (h : a.Valid) :
    1 ≤ daysBeforeMonth a.y a.m + a.d ∧
      daysBeforeMonth a.y a.m + a.d ≤ 365 + (if isLeap a.y then 1 else 0) := by
  obtain ⟨_, h1, h2, h3, h4⟩ := h
  unfold daysInMonth at h4
  unfold daysBeforeMonth daysBeforeMonthTable
  have : a.m = 1 ∨ a.m = 2 ∨ a.m = 3 ∨ a.m = 4 ∨ a.m = 5 ∨ a.m = 6 ∨ a.m = 7 ∨ a.m = 8 ∨ a.m = 9 ∨
    a.m = 10 ∨ a.m = 11 ∨ a.m = 12 := by omega
  rcases this with e | e | e | e | e | e | e | e | e | e | e | e <;>
    rw [e] at h4 ⊢ <;> cases hl : isLeap a.y <;> simp [hl] at h4 ⊢ <;> omega

theorem daysBeforeMonth_succ (y m : Int) (h1 : 1 ≤ m) (h2 : m ≤ 11) :
    daysBeforeMonth y (m + 1) = daysBeforeMonth y m + daysInMonth y m := by
  have : m = 1 ∨ m = 2 ∨ m = 3 ∨ m = 4 ∨ m = 5 ∨ m = 6 ∨ m = 7 ∨ m = 8 ∨ m = 9 ∨
    m = 10 ∨ m = 11 := by omega
  rcases this with e | e | e | e | e | e | e | e | e | e | e <;> subst e <;>
    cases hl : isLeap y <;> simp [daysBeforeMonth, daysBeforeMonthTable, daysInMonth, hl]

theorem daysBeforeMonth_lt (y : Int) {m n : Int} (h1 : 1 ≤ m) (h2 : n ≤ 12) (h : m < n) :
    daysBeforeMonth y m + daysInMonth y m ≤ daysBeforeMonth y n := by
  obtain ⟨k, rfl⟩ : ∃ k : Nat, n = m + 1 + k := ⟨(n - m - 1).toNat, by omega⟩
  clear h
  induction k with
  | zero => rw [show m + 1 + ((0 : Nat) : Int) = m + 1 by omega, daysBeforeMonth_succ y m h1 (by omega)]; omega
  | succ k ih =>
    have h3 := daysBeforeMonth_succ y (m + 1 + k) (by omega) (by omega)
    rw [show m + 1 + ((k + 1 : Nat) : Int) = m + 1 + k + 1 by omega, h3]
    have := ih (by omega)
    have : 0 ≤ daysInMonth y (m + 1 + k) := by unfold daysInMonth; split <;> split <;> omega
    omega

theorem ordinal_lt_of_lt {a b : Date} (ha : a.Valid) (hb : b.Valid) (h : a.lt b) :
    a.ordinal < b.ordinal := by
  have ba := dayOfYear_bounds ha
  have bb := dayOfYear_bounds hb
  obtain ⟨_, a1, a2, a3, a4⟩ := ha
  obtain ⟨_, b1, b2, b3, b4⟩ := hb
  unfold Date.ordinal
  rcases h with h | ⟨h, h' | ⟨h', h''⟩⟩
  · have := daysBeforeYear_lt h; omega
  · have := daysBeforeMonth_lt a.y a1 b2 h'
    rw [← h] at bb ⊢
    omega
  · rw [← h, ← h']; omega

theorem Date.trichotomy (a b : Date) : a.lt b ∨ a = b ∨ b.lt a := by
  cases a; cases b
  simp only [Date.lt, Date.mk.injEq]
  omega

/-- The order of dates is the order of their day numbers. -/
theorem lt_iff_ordinal {a b : Date} (ha : a.Valid) (hb : b.Valid) :
    a.lt b ↔ a.ordinal < b.ordinal := by
  refine ⟨ordinal_lt_of_lt ha hb, fun h => ?_⟩
  rcases Date.trichotomy a b with h1 | h1 | h1
  · exact h1
  · subst h1; omega
  · have := ordinal_lt_of_lt hb ha h1; omega

theorem ordinal_inj {a b : Date} (ha : a.Valid) (hb : b.Valid) (h : a.ordinal = b.ordinal) : a = b := by
  rcases Date.trichotomy a b with h1 | h1 | h1
  · have := ordinal_lt_of_lt ha hb h1; omega
  · exact h1
  · have := ordinal_lt_of_lt hb ha h1; omega

/-- What the month search must deliver for the zero-based day `n` of a year. -/
def MonthSpec (leap : Bool) (n m : Int) : Prop :=
  1 ≤ m ∧ m ≤ 12 ∧
    daysBeforeMonthTable m + (if 2 < m ∧ leap then 1 else 0) ≤ n ∧
    n < daysBeforeMonthTable m + (if 2 < m ∧ leap then 1 else 0) +
      (if m = 2 then (if leap then 29 else 28)
       else if m = 4 ∨ m = 6 ∨ m = 9 ∨ m = 11 then 30 else 31)

instance (leap : Bool) (n m : Int) : Decidable (MonthSpec leap n m) := by
  unfold MonthSpec; infer_instance

/-- The whole finite table: 366 days, leap or common year. -/
theorem monthOf_table : ∀ (leap : Bool) (k : Fin 366),
    (k.val : Int) ≤ 364 + (if leap then 1 else 0) → MonthSpec leap k.val (monthOf leap k.val) := by
  decide +kernel

theorem monthOf_spec (leap : Bool) (n : Int) (h0 : 0 ≤ n) (h1 : n ≤ 364 + (if leap then 1 else 0)) :
    MonthSpec leap n (monthOf leap n) := by
  have hn : n.toNat < 366 := by revert h1; split <;> omega
  have := monthOf_table leap ⟨n.toNat, hn⟩
  simp only [Int.toNat_of_nonneg h0] at this
  exact this h1

theorem daysBeforeYear_parts (a b c d : Int) (b0 : 0 ≤ b) (b1 : b ≤ 3) (c0 : 0 ≤ c) (c1 : c ≤ 24)
    (d0 : 0 ≤ d) (d1 : d ≤ 3) :
    daysBeforeYear (a * 400 + b * 100 + c * 4 + d + 1) = 146097 * a + 36524 * b + 1461 * c + 365 * d := by
  unfold daysBeforeYear
  have e : a * 400 + b * 100 + c * 4 + d + 1 - 1 = a * 400 + b * 100 + c * 4 + d := by omega
  rw [e]
  have h4 : (a * 400 + b * 100 + c * 4 + d) / 4 = 100 * a + 25 * b + c := by omega
  have h100 : (a * 400 + b * 100 + c * 4 + d) / 100 = 4 * a + b := by omega
  have h400 : (a * 400 + b * 100 + c * 4 + d) / 400 = a := by omega
  omega

/-- Every day number from 1 on is the ordinal of the valid date `ofOrdinal` returns. -/
theorem ofOrdinal_spec (ord : Int) (h : 1 ≤ ord) :
    (ofOrdinal ord).Valid ∧ (ofOrdinal ord).ordinal = ord := by
  generalize hA : (ord - 1) / 146097 = a
  generalize hR1 : (ord - 1) % 146097 = r1
  generalize hB : r1 / 36524 = b
  generalize hR2 : r1 % 36524 = r2
  generalize hC : r2 / 1461 = c
  generalize hR3 : r2 % 1461 = r3
  generalize hD : r3 / 365 = d
  generalize hR4 : r3 % 365 = r4
  have hdef : ofOrdinal ord =
      if d = 4 ∨ b = 4 then ⟨a * 400 + b * 100 + c * 4 + d + 1 - 1, 12, 31⟩
      else ⟨a * 400 + b * 100 + c * 4 + d + 1,
        monthOf (isLeap (a * 400 + b * 100 + c * 4 + d + 1)) r4,
        r4 - daysBeforeMonth (a * 400 + b * 100 + c * 4 + d + 1)
          (monthOf (isLeap (a * 400 + b * 100 + c * 4 + d + 1)) r4) + 1⟩ := by
    subst hR4 hD hR3 hC hR2 hB hR1 hA; rfl
  rw [hdef]
  clear hdef
  split
  · rename_i hs
    have hb : b ≤ 4 := by omega
    -- last day of a leap year
    have hy : (a * 400 + b * 100 + c * 4 + d) % 4 = 0 ∧
        ((a * 400 + b * 100 + c * 4 + d) % 100 ≠ 0 ∨ (a * 400 + b * 100 + c * 4 + d) % 400 = 0) ∧
        (daysBeforeYear (a * 400 + b * 100 + c * 4 + d) + 366 = ord) ∧
        1 ≤ a * 400 + b * 100 + c * 4 + d := by
      rcases hs with hs | hs
      · subst hs
        have hb3 : b ≤ 3 := by
          rcases Int.lt_or_le b 4 with h | h
          · omega
          · have : r2 = 0 := by omega
            omega
        have hp := daysBeforeYear_parts a b c 3 (by omega) hb3 (by omega) (by omega) (by omega) (by omega)
        rw [show a * 400 + b * 100 + c * 4 + 3 + 1 = a * 400 + b * 100 + c * 4 + 4 by omega] at hp
        have : c ≤ 23 := by omega
        refine ⟨by omega, by omega, by omega, by omega⟩
      · subst hs
        have hr2 : r2 = 0 := by omega
        have hc : c = 0 := by omega
        have hr3 : r3 = 0 := by omega
        have hd : d = 0 := by omega
        subst hc hd
        have hp := daysBeforeYear_parts a 3 24 3 (by omega) (by omega) (by omega) (by omega) (by omega) (by omega)
        rw [show a * 400 + 3 * 100 + 24 * 4 + 3 + 1 = a * 400 + 4 * 100 + 0 * 4 + 0 by omega] at hp
        refine ⟨by omega, by omega, by omega, by omega⟩
    have hl : isLeap (a * 400 + b * 100 + c * 4 + d) = true := (isLeap_iff _).2 ⟨hy.1, hy.2.1⟩
    rw [show a * 400 + b * 100 + c * 4 + d + 1 - 1 = a * 400 + b * 100 + c * 4 + d by omega]
    refine ⟨⟨hy.2.2.2, by simp, by simp, by simp, by simp [daysInMonth]⟩, ?_⟩
    simp [Date.ordinal, daysBeforeMonth, daysBeforeMonthTable, hl]
    omega
  · rename_i hs
    generalize hY : a * 400 + b * 100 + c * 4 + d + 1 = y
    have hdby : daysBeforeYear y + r4 + 1 = ord := by
      have hp := daysBeforeYear_parts a b c d (by omega) (by omega) (by omega) (by omega) (by omega) (by omega)
      rw [hY] at hp
      omega
    have hm := monthOf_spec (isLeap y) r4 (by omega) (by split <;> omega)
    generalize monthOf (isLeap y) r4 = m at hm
    obtain ⟨m1, m2, m3, m4⟩ := hm
    refine ⟨⟨by simp only; omega, m1, m2, ?_, ?_⟩, ?_⟩
    · simp only [daysBeforeMonth]; omega
    · simp only [daysBeforeMonth, daysInMonth]; omega
    · simp only [Date.ordinal]; omega

theorem ofOrdinal_ordinal {a : Date} (h : a.Valid) : ofOrdinal a.ordinal = a := by
  have h1 : 1 ≤ a.ordinal := by
    have := dayOfYear_bounds h
    have h0 := h.1
    unfold Date.ordinal daysBeforeYear
    omega
  obtain ⟨hv, ho⟩ := ofOrdinal_spec a.ordinal h1
  exact ordinal_inj hv h ho

/-! ### The leap-second table on day numbers -/

/-- Row of the table containing day number `n`. -/
def LeapAt (k n : Int) : Prop :=
  k = 0 ∧ 722815 ≤ n ∧ n < 723362 ∨
  k = 1 ∧ 723362 ≤ n ∧ n < 723727 ∨
  k = 2 ∧ 723727 ≤ n ∧ n < 724092 ∨
  k = 3 ∧ 724092 ≤ n ∧ n < 724823 ∨
  k = 4 ∧ 724823 ≤ n ∧ n < 725737 ∨
  k = 5 ∧ 725737 ≤ n ∧ n < 726468 ∨
  k = 6 ∧ 726468 ≤ n ∧ n < 726833 ∨
  k = 7 ∧ 726833 ≤ n ∧ n < 727380 ∨
  k = 8 ∧ 727380 ≤ n ∧ n < 727745 ∨
  k = 9 ∧ 727745 ≤ n ∧ n < 728110 ∨
  k = 10 ∧ 728110 ≤ n ∧ n < 728659 ∨
  k = 11 ∧ 728659 ≤ n ∧ n < 729206 ∨
  k = 12 ∧ 729206 ≤ n ∧ n < 729755 ∨
  k = 13 ∧ 729755 ≤ n ∧ n < 732312 ∨
  k = 14 ∧ 732312 ≤ n ∧ n < 733408 ∨
  k = 15 ∧ 733408 ≤ n ∧ n < 734684 ∨
  k = 16 ∧ 734685 ≤ n ∧ n < 735780 ∨
  k = 17 ∧ 735780 ≤ n ∧ n < 736329 ∨
  k = 18 ∧ 736330 ≤ n ∧ n < 739798

/-- All dates written in the table are calendar dates. -/
theorem leapTable_valid : ∀ r ∈ leapTable, r.min.Valid ∧ r.max.Valid := by
  simp [leapTable, Date.Valid, daysInMonth]

theorem row_iff {g : Date} (hg : g.Valid) {r : LeapRow} (hr : r ∈ leapTable) :
    (decide (g.lt r.max) && decide (g.ge r.min)) = true ↔
      r.min.ordinal ≤ g.ordinal ∧ g.ordinal < r.max.ordinal := by
  obtain ⟨h1, h2⟩ := leapTable_valid r hr
  simp only [Bool.and_eq_true, decide_eq_true_eq]
  show _ ∧ ¬ _ ↔ _
  rw [lt_iff_ordinal hg h1, lt_iff_ordinal hg h2]
  omega

theorem leapAt_of_row {n : Int} {r : LeapRow} (hr : r ∈ leapTable)
    (h : r.min.ordinal ≤ n ∧ n < r.max.ordinal) : LeapAt r.leap n := by
  unfold LeapAt
  simp only [leapTable, List.mem_cons, List.not_mem_nil, or_false] at hr
  rcases hr with e | e | e | e | e | e | e | e | e | e | e | e | e | e | e | e | e | e | e <;> subst e <;>
    simp [Date.ordinal, daysBeforeYear, daysBeforeMonth, daysBeforeMonthTable, isLeap] at h ⊢ <;> omega

theorem row_of_leapAt {k n : Int} (h : LeapAt k n) :
    ∃ r ∈ leapTable, r.leap = k ∧ r.min.ordinal ≤ n ∧ n < r.max.ordinal := by
  unfold LeapAt at h
  rcases h with ⟨rfl, h⟩ | ⟨rfl, h⟩ | ⟨rfl, h⟩ | ⟨rfl, h⟩ | ⟨rfl, h⟩ | ⟨rfl, h⟩ | ⟨rfl, h⟩ | ⟨rfl, h⟩ | ⟨rfl, h⟩ | ⟨rfl, h⟩ | ⟨rfl, h⟩ | ⟨rfl, h⟩ | ⟨rfl, h⟩ | ⟨rfl, h⟩ | ⟨rfl, h⟩ | ⟨rfl, h⟩ | ⟨rfl, h⟩ | ⟨rfl, h⟩ | ⟨rfl, h⟩
  · exact ⟨leapTable[0], List.getElem_mem _, rfl, h⟩
  · exact ⟨leapTable[1], List.getElem_mem _, rfl, h⟩
  · exact ⟨leapTable[2], List.getElem_mem _, rfl, h⟩
  · exact ⟨leapTable[3], List.getElem_mem _, rfl, h⟩
  · exact ⟨leapTable[4], List.getElem_mem _, rfl, h⟩
  · exact ⟨leapTable[5], List.getElem_mem _, rfl, h⟩
  · exact ⟨leapTable[6], List.getElem_mem _, rfl, h⟩
  · exact ⟨leapTable[7], List.getElem_mem _, rfl, h⟩
  · exact ⟨leapTable[8], List.getElem_mem _, rfl, h⟩
  · exact ⟨leapTable[9], List.getElem_mem _, rfl, h⟩
  · exact ⟨leapTable[10], List.getElem_mem _, rfl, h⟩
  · exact ⟨leapTable[11], List.getElem_mem _, rfl, h⟩
  · exact ⟨leapTable[12], List.getElem_mem _, rfl, h⟩
  · exact ⟨leapTable[13], List.getElem_mem _, rfl, h⟩
  · exact ⟨leapTable[14], List.getElem_mem _, rfl, h⟩
  · exact ⟨leapTable[15], List.getElem_mem _, rfl, h⟩
  · exact ⟨leapTable[16], List.getElem_mem _, rfl, h⟩
  · exact ⟨leapTable[17], List.getElem_mem _, rfl, h⟩
  · exact ⟨leapTable[18], List.getElem_mem _, rfl, h⟩

theorem leapAt_unique {k l n : Int} (h : LeapAt k n) (h' : LeapAt l n) : k = l := by
  unfold LeapAt at h h'
  rcases h with h | h | h | h | h | h | h | h | h | h | h | h | h | h | h | h | h | h | h <;> omega

theorem leap_ok_iff {g : Date} (hg : g.Valid) (k : Int) :
    calculateLeapSeconds g = .ok k ↔ LeapAt k g.ordinal := by
  have fwd : ∀ k, calculateLeapSeconds g = .ok k → LeapAt k g.ordinal := by
    intro k h
    unfold calculateLeapSeconds at h
    split at h
    · rename_i r hf
      simp only [Except.ok.injEq] at h
      subst h
      have hm := List.mem_of_find?_eq_some hf
      have hp := List.find?_some hf
      exact leapAt_of_row hm ((row_iff hg hm).1 hp)
    · cases h
  refine ⟨fwd k, fun h => ?_⟩
  obtain ⟨r, hm, _, hr⟩ := row_of_leapAt h
  cases hc : calculateLeapSeconds g with
  | ok l => rw [leapAt_unique (fwd l hc) h]
  | error e =>
    unfold calculateLeapSeconds at hc
    split at hc
    · cases hc
    · rename_i hf
      rw [List.find?_eq_none] at hf
      exact absurd ((row_iff hg hm).2 hr) (hf r hm)

theorem leap_error {g : Date} {e : PyErr} (h : calculateLeapSeconds g = .error e) : e = .valueError := by
  unfold calculateLeapSeconds at h
  split at h
  · cases h
  · simpa using h.symm

/-- Leap seconds grow with the day, and by at most one in 180 days. -/
theorem leapAt_mono {k l m n : Int} (h : LeapAt k m) (h' : LeapAt l n) (hmn : m ≤ n) :
    k ≤ l ∧ (n - m ≤ 180 → l ≤ k + 1) ∧ 0 ≤ k ∧ l ≤ 18 := by
  unfold LeapAt at h h'
  rcases h with h | h | h | h | h | h | h | h | h | h | h | h | h | h | h | h | h | h | h <;> omega

/-! ### parse -/

theorem localizeUtc_value (s : Stamp) : (localizeUtc s).value = s.value := by
  unfold localizeUtc; split <;> rfl

theorem localizeUtc_localizeUtc (s : Stamp) : localizeUtc (localizeUtc s) = localizeUtc s := by
  cases s with
  | mk v z => cases z <;> rfl

theorem localizeUtc_zone (s : Stamp) : (localizeUtc s).zone ≠ .naive := by
  cases s with
  | mk v z => cases z <;> simp [localizeUtc]

theorem localizeUtc_of_aware {s : Stamp} (h : s.zone ≠ .naive) : localizeUtc s = s := by
  cases s with
  | mk v z => cases z <;> simp_all [localizeUtc]

/-- The rounding step on a stamp value: up from 501 ns. -/
def roundUp (v : Int) : Int := if v % 1000 ≤ 500 then v else (v / 1000 + 1) * 1000

theorem roundUp_mono {v w : Int} (h : v ≤ w) : roundUp v ≤ roundUp w := by
  unfold roundUp; by_cases h1 : v % 1000 ≤ 500 <;> by_cases h2 : w % 1000 ≤ 500 <;> simp [h1, h2] <;> omega

theorem le_roundUp (v : Int) : v ≤ roundUp v ∧ roundUp v - v < 500 := by
  unfold roundUp; split <;> omega

theorem roundUp_roundUp (v : Int) : roundUp (roundUp v) = roundUp v := by
  have : roundUp v % 1000 ≤ 500 := by unfold roundUp; split <;> omega
  rw [roundUp, if_pos this]

/-- `parse` of an instant strictly between the limits. -/
theorem parse_mid {s : Stamp} (h1 : tMin < s.value) (h2 : s.value < tMax) :
    parseStamp s false =
      if tMax < roundUp s.value then .error .valueError
      else .ok ⟨roundUp s.value, (localizeUtc s).zone⟩ := by
  have hv := localizeUtc_value s
  simp only [parseStamp, checkTimestamp, hv, if_neg (show ¬ s.value ≤ tMin by omega),
    if_neg (show ¬ tMax ≤ s.value by omega), finish, localizeUtc_localizeUtc, roundOff]
  unfold pyRoundThousandth roundUp
  by_cases hr : s.value % 1000 ≤ 500
  · simp [hr, bind, Except.bind, localizeUtc_localizeUtc, show ¬ tMax < s.value by omega]
    cases hs : localizeUtc s
    simp [hs] at hv; simp [hv]
  · have hr' : ¬ (s.value % 1000 < 500 ∨ s.value % 1000 = 500 ∧ s.value / 1000 % 2 = 0) := by omega
    simp only [hr, if_false, and_self, if_true, bind, Except.bind, roundUs, hv, hr']
    have hlo : ¬ (s.value / 1000 + 1) * 1000 < tMin := by unfold tMin at *; omega
    by_cases hhi : tMax < (s.value / 1000 + 1) * 1000
    · simp [hhi]
    · simp only [hlo, hhi, or_self, if_false, if_neg Bool.false_ne_true]
      rw [localizeUtc_of_aware]
      exact localizeUtc_zone s

theorem parse_low {s : Stamp} (h : s.value ≤ tMin) : parseStamp s false = .ok ⟨tMin, .fixed 0⟩ := by
  have hv := localizeUtc_value s
  have hc : checkTimestamp s = (true, ⟨tMin, .fixed 0⟩) := by simp [checkTimestamp, hv, h]
  rw [parseStamp, hc]; rfl

theorem parse_high {s : Stamp} (h : tMax ≤ s.value) : parseStamp s false = .ok ⟨tMax, .fixed 0⟩ := by
  have hv := localizeUtc_value s
  have hc : checkTimestamp s = (true, ⟨tMax, .fixed 0⟩) := by
    simp [checkTimestamp, hv, h, show ¬ s.value ≤ tMin by unfold tMin tMax at *; omega]
  rw [parseStamp, hc]; rfl

/-- The value a successful `parse` delivers. -/
theorem parse_value {s t : Stamp} (h : parseStamp s false = .ok t) :
    (s.value ≤ tMin ∧ t = ⟨tMin, .fixed 0⟩) ∨ (tMax ≤ s.value ∧ t = ⟨tMax, .fixed 0⟩) ∨
    (tMin < s.value ∧ s.value < tMax ∧ roundUp s.value ≤ tMax ∧
      t = ⟨roundUp s.value, (localizeUtc s).zone⟩) := by
  rcases Int.lt_or_le tMin s.value with h1 | h1
  · rcases Int.lt_or_le s.value tMax with h2 | h2
    · rw [parse_mid h1 h2] at h
      split at h
      · cases h
      · rename_i h3
        simp only [Except.ok.injEq] at h
        exact Or.inr (Or.inr ⟨h1, h2, by omega, h.symm⟩)
    · rw [parse_high h2] at h
      exact Or.inr (Or.inl ⟨h2, by simpa using h.symm⟩)
  · rw [parse_low h1] at h
    exact Or.inl ⟨h1, by simpa using h.symm⟩

/-- `parse` with gps is `parse` without, then the leap seconds of the local date. -/
theorem parse_gps (s : Stamp) :
    parseStamp s true = (do
      let t ← parseStamp s false
      let k ← calculateLeapSeconds t.date
      .ok ⟨t.value - k * 1000000000, t.zone⟩) := by
  simp only [parseStamp]
  generalize checkTimestamp s = p
  obtain ⟨b, u⟩ := p
  simp only [finish]
  generalize hv : localizeUtc u = v
  have hz : v.zone ≠ .naive := hv ▸ localizeUtc_zone u
  generalize hr : roundOff b v = r
  have hrz : ∀ t, r = .ok t → t.zone ≠ .naive := by
    intro t ht
    subst ht
    unfold roundOff at hr
    split at hr
    · unfold roundUs at hr
      simp only at hr
      split at hr <;> split at hr <;> first | cases hr | skip
      all_goals exact hz
    · cases hr; exact hz
  cases r with
  | error e => rfl
  | ok t =>
    have ht := hrz t rfl
    simp only [bind, Except.bind, if_true, if_neg Bool.false_ne_true, localizeUtc_of_aware ht]
    cases calculateLeapSeconds t.date with
    | error e => rfl
    | ok k => simp only [localizeUtc_of_aware (s := ⟨t.value - k * 1000000000, t.zone⟩) ht]

end Verif.MTime
