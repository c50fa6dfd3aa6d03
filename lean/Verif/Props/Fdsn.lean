import Verif.Model.Fdsn
import Mathlib.Algebra.Order.Round
import Mathlib.Tactic.Linarith
import Mathlib.Tactic.NormNum

/-!
C46, C47, C94: FDSN channel codes.
-/

namespace Verif.Fdsn

/-! ### C46 -/

/-- How fast the band of a code is: the codes that `get_period_code` can return, slowest first. -/
def rank : Char → ℕ
  | 'Q' => 0 | 'T' => 1 | 'P' => 2 | 'R' => 3 | 'U' => 4 | 'V' => 5 | 'L' => 6 | 'M' => 7
  | 'B' => 8 | 'E' => 9 | 'C' => 10 | 'F' => 11 | _ => 12

/-- The statement of C46, first part: a positive rate has a code whose band contains it. -/
def C46_claim : Prop := ∀ r : ℚ, 0 < r → ∃ b, lookup (periodCode r) periods = some b ∧ b.1 ≤ r ∧ r ≤ b.2

/-- C46 is false: half a sample per second has no band and gets the code `A`, which has none. -/
theorem C46_refuted : ¬ C46_claim := by
  intro h
  obtain ⟨b, hb, _⟩ := h (1 / 2) (by norm_num)
  have : lookup (periodCode (1 / 2)) periods = none := by decide +kernel
  rw [this] at hb
  cases hb

/-- The scan of the table as a chain of tests. -/
def scan (r : ℚ) : List (Char × ℚ × ℚ) → Char
  | [] => 'A'
  | p :: t => if p.2.1 ≤ r ∧ r ≤ p.2.2 then p.1 else scan r t

theorem find_scan (r : ℚ) (l : List (Char × ℚ × ℚ)) :
    (match l.find? (fun p => decide (p.2.1 ≤ r) && decide (r ≤ p.2.2)) with
      | some p => p.1
      | none => 'A') = scan r l := by
  induction l with
  | nil => rfl
  | cons p t ih =>
    rw [List.find?_cons, scan]
    by_cases h : p.2.1 ≤ r ∧ r ≤ p.2.2
    · rw [if_pos h, decide_eq_true h.1, decide_eq_true h.2]
      rfl
    · have e : (decide (p.2.1 ≤ r) && decide (r ≤ p.2.2)) = false := by
        rw [← Bool.decide_and]; exact decide_eq_false h
      rw [if_neg h, e]
      exact ih

theorem periodCode_scan (r : ℚ) : periodCode r = scan r periods := find_scan r periods

theorem scan_pos {r a b : ℚ} {c : Char} {t} (h : a ≤ r ∧ r ≤ b) : scan r ((c, a, b) :: t) = c := by
  rw [scan]; exact if_pos h

theorem scan_neg {r a b : ℚ} {c : Char} {t} (h : ¬ (a ≤ r ∧ r ≤ b)) :
    scan r ((c, a, b) :: t) = scan r t := by
  rw [scan]; exact if_neg h

/-- The code of every rate. -/
theorem code_cases (x : ℚ) :
    (0 ≤ x ∧ x ≤ 1 / 1000000 ∧ periodCode x = 'Q') ∨
    (1 / 1000000 < x ∧ x < 1 / 100000 ∧ periodCode x = 'T') ∨
    (1 / 100000 ≤ x ∧ x ≤ 1 / 10000 ∧ periodCode x = 'P') ∨
    (1 / 10000 < x ∧ x ≤ 1 / 1000 ∧ periodCode x = 'R') ∨
    (95 / 10000 ≤ x ∧ x ≤ 105 / 10000 ∧ periodCode x = 'U') ∨
    (95 / 1000 ≤ x ∧ x ≤ 105 / 1000 ∧ periodCode x = 'V') ∨
    (95 / 100 ≤ x ∧ x ≤ 105 / 100 ∧ periodCode x = 'L') ∨
    (105 / 100 < x ∧ x < 10 ∧ periodCode x = 'M') ∨
    (10 ≤ x ∧ x ≤ 80 ∧ periodCode x = 'B') ∨
    (80 < x ∧ x < 250 ∧ periodCode x = 'E') ∨
    (250 ≤ x ∧ x ≤ 1000 ∧ periodCode x = 'C') ∨
    (1000 < x ∧ x ≤ 5000 ∧ periodCode x = 'F') ∨
    ((x < 0 ∨ (1 / 1000 < x ∧ x < 95 / 10000) ∨ (105 / 10000 < x ∧ x < 95 / 1000) ∨
      (105 / 1000 < x ∧ x < 95 / 100) ∨ 5000 < x) ∧ periodCode x = 'A') := by
  rw [periodCode_scan]
  unfold periods
  by_cases n1 : 10 ≤ x ∧ x ≤ 80
  · rw [scan_pos n1]; simp [n1]
  rw [scan_neg n1]
  by_cases n2 : 250 ≤ x ∧ x ≤ 1000
  · rw [scan_pos n2]; simp [n2]
  rw [scan_neg n2, scan_neg n2]
  by_cases n3 : 80 ≤ x ∧ x ≤ 250
  · rw [scan_pos n3]
    have a : 80 < x := by by_contra hc; exact n1 ⟨by linarith [n3.1], by linarith⟩
    have b : x < 250 := by by_contra hc; exact n2 ⟨by linarith, by linarith [n3.2]⟩
    simp [a, b]
  rw [scan_neg n3]
  by_cases n4 : 1000 ≤ x ∧ x ≤ 5000
  · rw [scan_pos n4]
    have a : 1000 < x := by by_contra hc; exact n2 ⟨by linarith [n4.1], by linarith⟩
    simp [a, n4.2]
  rw [scan_neg n4, scan_neg n4, scan_neg n3]
  by_cases n5 : 95 / 100 ≤ x ∧ x ≤ 105 / 100
  · rw [scan_pos n5]; simp [n5]
  rw [scan_neg n5]
  by_cases n6 : 1 ≤ x ∧ x ≤ 10
  · rw [scan_pos n6]
    have a : 105 / 100 < x := by by_contra hc; exact n5 ⟨by linarith [n6.1], by linarith⟩
    have b : x < 10 := by by_contra hc; exact n1 ⟨by linarith, by linarith [n6.2]⟩
    simp [a, b]
  rw [scan_neg n6]
  by_cases n7 : 1 / 100000 ≤ x ∧ x ≤ 1 / 10000
  · rw [scan_pos n7]; exact Or.inr (Or.inr (Or.inl ⟨n7.1, n7.2, rfl⟩))
  rw [scan_neg n7]
  by_cases n8 : 0 ≤ x ∧ x ≤ 1 / 1000000
  · rw [scan_pos n8]; exact Or.inl ⟨n8.1, n8.2, rfl⟩
  rw [scan_neg n8]
  by_cases n9 : 1 / 10000 ≤ x ∧ x ≤ 1 / 1000
  · rw [scan_pos n9]
    have a : 1 / 10000 < x := by by_contra hc; exact n7 ⟨by linarith [n9.1], by linarith⟩
    exact Or.inr (Or.inr (Or.inr (Or.inl ⟨a, n9.2, rfl⟩)))
  rw [scan_neg n9, scan_neg n1]
  by_cases n10 : 1 / 1000000 ≤ x ∧ x ≤ 1 / 100000
  · rw [scan_pos n10]
    have a : 1 / 1000000 < x := by by_contra hc; exact n8 ⟨by linarith [n10.1], by linarith⟩
    have b : x < 1 / 100000 := by by_contra hc; exact n7 ⟨by linarith, by linarith [n10.2]⟩
    exact Or.inr (Or.inl ⟨a, b, rfl⟩)
  rw [scan_neg n10]
  by_cases n11 : 95 / 10000 ≤ x ∧ x ≤ 105 / 10000
  · rw [scan_pos n11]; simp [n11]
  rw [scan_neg n11]
  by_cases n12 : 95 / 1000 ≤ x ∧ x ≤ 105 / 1000
  · rw [scan_pos n12]; simp [n12]
  rw [scan_neg n12, scan]
  iterate 12 right
  refine ⟨?_, rfl⟩
  by_contra hc
  simp only [not_or, not_and, not_lt] at hc
  obtain ⟨h0, h1, h2, h3, h4⟩ := hc
  by_cases c0 : x ≤ 1 / 1000
  · by_cases c1 : x ≤ 1 / 1000000
    · exact n8 ⟨h0, c1⟩
    · by_cases c2 : x ≤ 1 / 100000
      · exact n10 ⟨by linarith, c2⟩
      · by_cases c3 : x ≤ 1 / 10000
        · exact n7 ⟨by linarith, c3⟩
        · exact n9 ⟨by linarith, c0⟩
  have g1 := h1 (not_le.1 c0)
  by_cases c1 : x ≤ 105 / 10000
  · exact n11 ⟨g1, c1⟩
  have g2 := h2 (not_le.1 c1)
  by_cases c2 : x ≤ 105 / 1000
  · exact n12 ⟨g2, c2⟩
  have g3 := h3 (not_le.1 c2)
  by_cases d1 : x ≤ 105 / 100
  · exact n5 ⟨g3, d1⟩
  by_cases d2 : x ≤ 10
  · exact n6 ⟨by linarith, d2⟩
  by_cases d3 : x ≤ 80
  · exact n1 ⟨by linarith, d3⟩
  by_cases d4 : x ≤ 250
  · exact n3 ⟨by linarith, d4⟩
  by_cases d5 : x ≤ 1000
  · exact n2 ⟨by linarith, d5⟩
  · exact n4 ⟨by linarith, h4⟩

/-- C46: which rates have a band. -/
theorem C46_covered_partial (r : ℚ) : periodCode r ≠ 'A' ↔
    (0 ≤ r ∧ r ≤ 1 / 1000) ∨ (95 / 10000 ≤ r ∧ r ≤ 105 / 10000) ∨ (95 / 1000 ≤ r ∧ r ≤ 105 / 1000) ∨
      (95 / 100 ≤ r ∧ r ≤ 5000) := by
  rcases code_cases r with ⟨a, b, h⟩ | ⟨a, b, h⟩ | ⟨a, b, h⟩ | ⟨a, b, h⟩ | ⟨a, b, h⟩ | ⟨a, b, h⟩ |
    ⟨a, b, h⟩ | ⟨a, b, h⟩ | ⟨a, b, h⟩ | ⟨a, b, h⟩ | ⟨a, b, h⟩ | ⟨a, b, h⟩ | ⟨hc, h⟩
  iterate 4
    · rw [h]; exact iff_of_true (by decide) (Or.inl ⟨by linarith, by linarith⟩)
  · rw [h]; exact iff_of_true (by decide) (Or.inr (Or.inl ⟨a, b⟩))
  · rw [h]; exact iff_of_true (by decide) (Or.inr (Or.inr (Or.inl ⟨a, b⟩)))
  iterate 6
    · rw [h]; exact iff_of_true (by decide) (Or.inr (Or.inr (Or.inr ⟨by linarith, by linarith⟩)))
  · rw [h]
    refine iff_of_false (by decide) ?_
    rcases hc with hc | ⟨h1, h2⟩ | ⟨h1, h2⟩ | ⟨h1, h2⟩ | hc <;>
      rintro (⟨u, v⟩ | ⟨u, v⟩ | ⟨u, v⟩ | ⟨u, v⟩) <;> linarith

/-- C46: the band of the code contains the rate. -/
theorem C46_contains_partial (r : ℚ) (h : periodCode r ≠ 'A') :
    ∃ b, lookup (periodCode r) periods = some b ∧ b.1 ≤ r ∧ r ≤ b.2 := by
  have hm : ∀ p ∈ periods, lookup p.1 periods = some p.2 := by decide +kernel
  unfold periodCode at h ⊢
  cases hf : periods.find? (fun p => decide (p.2.1 ≤ r) && decide (r ≤ p.2.2)) with
  | none => rw [hf] at h; exact absurd rfl h
  | some p =>
    have h1 := List.mem_of_find?_eq_some hf
    have h2 := List.find?_some hf
    simp only [Bool.and_eq_true, decide_eq_true_eq] at h2
    exact ⟨p.2, hm p h1, h2⟩

/-- C46: faster sampling never gets a slower code. -/
theorem C46_monotone_partial (r s : ℚ) (hr : periodCode r ≠ 'A') (hs : periodCode s ≠ 'A')
    (h : r ≤ s) : rank (periodCode r) ≤ rank (periodCode s) := by
  by_contra hlt
  rw [not_le] at hlt
  rcases code_cases r with ⟨a, b, e⟩ | ⟨a, b, e⟩ | ⟨a, b, e⟩ | ⟨a, b, e⟩ | ⟨a, b, e⟩ | ⟨a, b, e⟩ |
    ⟨a, b, e⟩ | ⟨a, b, e⟩ | ⟨a, b, e⟩ | ⟨a, b, e⟩ | ⟨a, b, e⟩ | ⟨a, b, e⟩ | ⟨_, e⟩ <;>
  rcases code_cases s with ⟨c, d, f⟩ | ⟨c, d, f⟩ | ⟨c, d, f⟩ | ⟨c, d, f⟩ | ⟨c, d, f⟩ | ⟨c, d, f⟩ |
    ⟨c, d, f⟩ | ⟨c, d, f⟩ | ⟨c, d, f⟩ | ⟨c, d, f⟩ | ⟨c, d, f⟩ | ⟨c, d, f⟩ | ⟨_, f⟩ <;>
  first
    | exact hr e
    | exact hs f
    | (rw [e, f] at hlt; exact absurd hlt (by decide))
    | linarith

/-- C46: the rates that share a code form an interval. -/
theorem C46_interval_partial (r t s : ℚ) (hr : periodCode r ≠ 'A') (he : periodCode r = periodCode s)
    (h1 : r ≤ t) (h2 : t ≤ s) : periodCode t = periodCode r := by
  rcases code_cases r with ⟨a, b, e⟩ | ⟨a, b, e⟩ | ⟨a, b, e⟩ | ⟨a, b, e⟩ | ⟨a, b, e⟩ | ⟨a, b, e⟩ |
    ⟨a, b, e⟩ | ⟨a, b, e⟩ | ⟨a, b, e⟩ | ⟨a, b, e⟩ | ⟨a, b, e⟩ | ⟨a, b, e⟩ | ⟨_, e⟩ <;>
  rcases code_cases s with ⟨c, d, f⟩ | ⟨c, d, f⟩ | ⟨c, d, f⟩ | ⟨c, d, f⟩ | ⟨c, d, f⟩ | ⟨c, d, f⟩ |
    ⟨c, d, f⟩ | ⟨c, d, f⟩ | ⟨c, d, f⟩ | ⟨c, d, f⟩ | ⟨c, d, f⟩ | ⟨c, d, f⟩ | ⟨_, f⟩ <;>
  first
    | exact absurd e hr
    | (rw [e, f] at he; exact absurd he (by decide))
    | (rw [e]
       rcases code_cases t with ⟨u, v, g⟩ | ⟨u, v, g⟩ | ⟨u, v, g⟩ | ⟨u, v, g⟩ | ⟨u, v, g⟩ |
         ⟨u, v, g⟩ | ⟨u, v, g⟩ | ⟨u, v, g⟩ | ⟨u, v, g⟩ | ⟨u, v, g⟩ | ⟨u, v, g⟩ | ⟨u, v, g⟩ |
         ⟨u | ⟨u, v⟩ | ⟨u, v⟩ | ⟨u, v⟩ | u, g⟩ <;> first | exact g | (exfalso; linarith))

/-! ### C47 -/

theorem angle_eq (az : ℝ) (k : ℤ) (h : |az - 180 * k| ≤ 90) :
    angle (mod360 az) = Real.cos (|az - 180 * k| * (Real.pi / 180)) := by
  have hpi := Real.pi_pos
  have e1 : mod360 az * (Real.pi / 180) =
      (az - 180 * k) * (Real.pi / 180) + ((k - 2 * ⌊az / 360⌋ : ℤ) : ℝ) * Real.pi := by
    unfold mod360
    push_cast
    ring
  unfold angle
  rw [e1, Real.cos_add_int_mul_pi, abs_mul, abs_neg_one_zpow, one_mul]
  have e2 : Real.cos ((az - 180 * k) * (Real.pi / 180)) =
      Real.cos (|az - 180 * k| * (Real.pi / 180)) := by
    rcases abs_cases (az - 180 * k) with ⟨h1, _⟩ | ⟨h1, _⟩
    · rw [h1]
    · rw [h1, neg_mul, Real.cos_neg]
  rw [e2, abs_of_nonneg]
  apply Real.cos_nonneg_of_neg_pi_div_two_le_of_le
  · have := abs_nonneg (az - 180 * k)
    have : 0 ≤ |az - 180 * k| * (Real.pi / 180) := by positivity
    linarith
  · calc |az - 180 * k| * (Real.pi / 180) ≤ 90 * (Real.pi / 180) := by
          apply mul_le_mul_of_nonneg_right h; positivity
      _ = Real.pi / 2 := by ring

theorem angle_const {d : ℝ} (h0 : 0 ≤ d) (h : d ≤ 90) : angle d = Real.cos (d * (Real.pi / 180)) := by
  have hpi := Real.pi_pos
  unfold angle
  rw [abs_of_nonneg]
  apply Real.cos_nonneg_of_neg_pi_div_two_le_of_le
  · have : 0 ≤ d * (Real.pi / 180) := by positivity
    linarith
  · calc d * (Real.pi / 180) ≤ 90 * (Real.pi / 180) := by
          apply mul_le_mul_of_nonneg_right h; positivity
      _ = Real.pi / 2 := by ring

theorem angle_105 : angle 105 = Real.cos (75 * (Real.pi / 180)) := by
  have e : (105 : ℝ) * (Real.pi / 180) = Real.pi - 75 * (Real.pi / 180) := by ring
  rw [← angle_const (by norm_num) (by norm_num)]
  unfold angle
  rw [e, Real.cos_pi_sub, abs_neg]

theorem cos_le_iff {a b : ℝ} (ha : 0 ≤ a) (ha' : a ≤ 90) (hb : 0 ≤ b) (hb' : b ≤ 90) :
    Real.cos (a * (Real.pi / 180)) ≤ Real.cos (b * (Real.pi / 180)) ↔ b ≤ a := by
  have hpi := Real.pi_pos
  have mem : ∀ x : ℝ, 0 ≤ x → x ≤ 90 → x * (Real.pi / 180) ∈ Set.Icc 0 Real.pi := by
    intro x h0 h1
    constructor
    · positivity
    · calc x * (Real.pi / 180) ≤ 90 * (Real.pi / 180) := by
            apply mul_le_mul_of_nonneg_right h1; positivity
        _ = Real.pi / 2 := by ring
        _ ≤ Real.pi := by linarith
  rw [Real.strictAntiOn_cos.le_iff_ge (mem a ha ha') (mem b hb hb')]
  exact mul_le_mul_iff_of_pos_right (by positivity)

/-- Every azimuth is at most 90 degrees off the north-south line. -/
theorem exists_near (az : ℝ) : ∃ k : ℤ, |az - 180 * k| ≤ 90 := by
  refine ⟨round (az / 180), ?_⟩
  have := abs_sub_round (az / 180)
  have e : az - 180 * (round (az / 180) : ℤ) = 180 * (az / 180 - (round (az / 180) : ℤ)) := by ring
  rw [e, abs_mul, abs_of_pos (by norm_num : (0 : ℝ) < 180)]
  linarith

/-- The orientation code in terms of the distance from the north-south line. -/
theorem code_of_near (az : ℝ) (k : ℤ) (h : |az - 180 * k| ≤ 90) :
    orientationCode az "horizontal".toList =
      open Classical in
      if |az - 180 * k| ≤ 15 then some 'N'
      else if 75 ≤ |az - 180 * k| then some 'E'
      else if |az - 180 * k| ≤ 45 then some '1' else some '2' := by
  have h0 := abs_nonneg (az - 180 * k)
  have e := angle_eq az k h
  have c1 : angle 15 ≤ angle (mod360 az) ↔ |az - 180 * k| ≤ 15 := by
    rw [e, angle_const (by norm_num) (by norm_num)]
    exact cos_le_iff (by norm_num) (by norm_num) h0 h
  have c2 : angle (mod360 az) ≤ angle 105 ↔ 75 ≤ |az - 180 * k| := by
    rw [e, angle_105]
    exact cos_le_iff h0 h (by norm_num) (by norm_num)
  have c3 : angle 45 ≤ angle (mod360 az) ↔ |az - 180 * k| ≤ 45 := by
    rw [e, angle_const (by norm_num) (by norm_num)]
    exact cos_le_iff (by norm_num) (by norm_num) h0 h
  unfold orientationCode
  simp only
  rw [if_pos trivial]
  simp only [c1, c2]
  split
  · rfl
  · next n1 =>
    split
    · rfl
    · next n2 =>
      have d1 : angle (mod360 az) < angle 15 := by rw [← not_le, c1]; exact n1
      have d2 : angle 105 ≤ angle (mod360 az) := by
        have := (not_le.1 (fun hh => n2 (c2.1 hh))); linarith
      by_cases h45 : |az - 180 * k| ≤ 45
      · rw [if_pos ⟨d1, c3.2 h45⟩, if_pos h45]
      · have d3 : angle (mod360 az) < angle 45 := by rw [← not_le, c3]; exact h45
        rw [if_neg (fun hh => h45 (c3.1 hh.2)), if_pos ⟨d3, d2⟩, if_neg h45]

/-- C47: what a horizontal orientation code says about the azimuth: `N` within 15 degrees of the
north-south line, `1` from there to 45 degrees, `2` to less than 75 degrees, `E` the rest. -/
theorem C47_orientation (az : ℝ) :
    (orientationCode az "horizontal".toList = some 'N' ↔ ∃ k : ℤ, |az - 180 * k| ≤ 15) ∧
    (orientationCode az "horizontal".toList = some '1' ↔
      ∃ k : ℤ, 15 < |az - 180 * k| ∧ |az - 180 * k| ≤ 45) ∧
    (orientationCode az "horizontal".toList = some '2' ↔
      ∃ k : ℤ, 45 < |az - 180 * k| ∧ |az - 180 * k| < 75) ∧
    (orientationCode az "horizontal".toList = some 'E' ↔ ∃ k : ℤ, |az - 90 - 180 * k| ≤ 15) := by
  obtain ⟨k, hk⟩ := exists_near az
  have hcode := code_of_near az k hk
  refine ⟨⟨?_, ?_⟩, ⟨?_, ?_⟩, ⟨?_, ?_⟩, ⟨?_, ?_⟩⟩
  · intro h
    rw [hcode] at h
    split_ifs at h with h1
    · exact ⟨k, h1⟩
    all_goals simp at h
  · rintro ⟨j, hj⟩
    rw [code_of_near az j (by linarith), if_pos hj]
  · intro h
    rw [hcode] at h
    split_ifs at h with h1 h2 h3
    · simp at h
    · simp at h
    · exact ⟨k, by linarith [not_le.1 h1], h3⟩
    · simp at h
  · rintro ⟨j, hj1, hj2⟩
    rw [code_of_near az j (by linarith), if_neg (by linarith), if_neg (by linarith), if_pos hj2]
  · intro h
    rw [hcode] at h
    split_ifs at h with h1 h2 h3
    · simp at h
    · simp at h
    · simp at h
    · exact ⟨k, by linarith [not_le.1 h3], by linarith [not_le.1 h2]⟩
  · rintro ⟨j, hj1, hj2⟩
    rw [code_of_near az j (by linarith), if_neg (by linarith), if_neg (by linarith), if_neg (by linarith)]
  · intro h
    rw [hcode] at h
    split_ifs at h with h1 h2 h3
    · simp at h
    · rcases abs_cases (az - 180 * k) with ⟨a1, a2⟩ | ⟨a1, a2⟩
      · refine ⟨k, ?_⟩
        rw [abs_le]
        constructor <;> linarith
      · refine ⟨k - 1, ?_⟩
        rw [abs_le]
        push_cast
        constructor <;> linarith
    · simp at h
    · simp at h
  · rintro ⟨j, hj⟩
    rw [abs_le] at hj
    by_cases hs : az - 90 - 180 * j ≤ 0
    · have e : |az - 180 * (j : ℝ)| = az - 180 * j := abs_of_nonneg (by linarith)
      rw [code_of_near az j (by rw [e]; linarith), e, if_neg (by linarith), if_pos (by linarith)]
    · have e : |az - 180 * ((j + 1 : ℤ) : ℝ)| = -(az - 180 * ((j + 1 : ℤ) : ℝ)) :=
        abs_of_nonpos (by push_cast; linarith)
      rw [code_of_near az (j + 1) (by rw [e]; push_cast; linarith), e,
        if_neg (by push_cast; linarith), if_pos (by push_cast; linarith)]

/-- The decoded orientation is consistent with an azimuth: some line at the decoded angle to the
north-south line, on either side, is within the decoded variance. -/
def Consistent (orient : ℚ × ℚ) (az : ℝ) : Prop :=
  ∃ (k : ℤ) (s : ℝ), (s = 1 ∨ s = -1) ∧ |az - (s * (orient.1 : ℝ) + 180 * k)| ≤ (orient.2 : ℝ)

/-- The statement of C47. -/
def C47_claim : Prop :=
  ∀ (r : ℚ) (m : Str) (az : ℝ) (o : Str), 0 < r → m ∈ measurements.map (·.1) →
    (o = "horizontal".toList ∨ o = "vertical".toList) →
    ∃ code d, makeCode r m (.num az) o = .ok code ∧ readCode code = .ok d ∧
      d.period.1 ≤ r ∧ r ≤ d.period.2 ∧ d.measurement = m ∧ Consistent d.orientation az

/-- C47 is false in three ways: a rate between the bands is read back as exactly one sample per second, tide as
magnetic, and a vertical code `3` as within 15 degrees. Here the first. -/
theorem C47_refuted : ¬ C47_claim := by
  intro h
  obtain ⟨code, d, h1, h2, h3, _⟩ := h (1 / 2) "electric".toList 0 "horizontal".toList (by norm_num)
    (by decide) (Or.inl rfl)
  have hN : orientationCode 0 "horizontal".toList = some 'N' :=
    (C47_orientation 0).1.2 ⟨0, by norm_num⟩
  unfold makeCode at h1
  simp only [hN, Except.ok.injEq] at h1
  have e1 : periodCode (1 / 2) = 'A' := by decide +kernel
  have e2 : measurementCode "electric".toList = 'Q' := by decide +kernel
  rw [e1, e2] at h1
  subst h1
  have e3 : readCode ['A', 'Q', 'N'] =
      .ok { period := (1, 1), measurement := "electric".toList, orientation := (0, 15) } := by
    decide +kernel
  rw [e3] at h2
  cases h2
  norm_num at h3

theorem measurement_back : ∀ m ∈ measurements.map (·.1),
    measurementOf (measurementCode m) = some m := by decide +kernel

/-- C47 holds for horizontal azimuths, rates that have a band, and all types but tide. -/
theorem C47_decode_partial (r : ℚ) (m : Str) (az : ℝ) (hr : periodCode r ≠ 'A')
    (hm : m ∈ measurements.map (·.1)) (ht : m ≠ "tide".toList) :
    ∃ code d, makeCode r m (.num az) "horizontal".toList = .ok code ∧ readCode code = .ok d ∧
      d.period.1 ≤ r ∧ r ≤ d.period.2 ∧ d.measurement = m ∧ Consistent d.orientation az := by
  obtain ⟨b, hb, hb1, hb2⟩ := C46_contains_partial r hr
  have hmb := measurement_back m hm
  have read : ∀ (o : Char) (q : ℚ × ℚ), lookup o orientations = some q →
      readCode [periodCode r, measurementCode m, o] =
        .ok { period := b, measurement := m, orientation := q } := by
    intro o q ho
    unfold readCode
    simp only [hb, hmb, ho, Option.getD_some]
    rw [if_neg ht]
  have mk : ∀ o : Char, orientationCode az "horizontal".toList = some o →
      makeCode r m (.num az) "horizontal".toList = .ok [periodCode r, measurementCode m, o] := by
    intro o ho
    unfold makeCode
    simp only [ho]
  obtain ⟨k, hk⟩ := exists_near az
  have hcode := code_of_near az k hk
  obtain ⟨i1, i2, i3, i4⟩ := C47_orientation az
  split_ifs at hcode with h1 h2 h3
  · refine ⟨_, _, mk 'N' hcode, read 'N' (0, 15) (by decide +kernel), hb1, hb2, rfl, ?_⟩
    refine ⟨k, 1, Or.inl rfl, ?_⟩
    push_cast
    rw [mul_zero, zero_add]
    exact h1
  · refine ⟨_, _, mk 'E' hcode, read 'E' (90, 15) (by decide +kernel), hb1, hb2, rfl, ?_⟩
    obtain ⟨j, hj⟩ := i4.1 hcode
    refine ⟨j, 1, Or.inl rfl, ?_⟩
    push_cast
    have e : az - (1 * 90 + 180 * (j : ℝ)) = az - 90 - 180 * j := by ring
    rw [e]
    exact hj
  · refine ⟨_, _, mk '1' hcode, read '1' (30, 15) (by decide +kernel), hb1, hb2, rfl, ?_⟩
    rcases abs_cases (az - 180 * (k : ℝ)) with ⟨a1, a2⟩ | ⟨a1, a2⟩
    · refine ⟨k, 1, Or.inl rfl, ?_⟩
      push_cast
      rw [abs_le]
      constructor <;> linarith
    · refine ⟨k, -1, Or.inr rfl, ?_⟩
      push_cast
      rw [abs_le]
      constructor <;> linarith
  · refine ⟨_, _, mk '2' hcode, read '2' (60, 15) (by decide +kernel), hb1, hb2, rfl, ?_⟩
    rcases abs_cases (az - 180 * (k : ℝ)) with ⟨a1, a2⟩ | ⟨a1, a2⟩
    · refine ⟨k, 1, Or.inl rfl, ?_⟩
      push_cast
      rw [abs_le]
      constructor <;> linarith
    · refine ⟨k, -1, Or.inr rfl, ?_⟩
      push_cast
      rw [abs_le]
      constructor <;> linarith

/-- C47, tide: encoding a tide measurement and decoding it gives magnetic. -/
theorem C47_tide_partial (p o : Char) (q : ℚ × ℚ) (ho : lookup o orientations = some q) :
    ∃ d, readCode [p, measurementCode "tide".toList, o] = .ok d ∧ d.measurement = "magnetic".toList := by
  have e : measurementOf (measurementCode "tide".toList) = some "tide".toList := by decide +kernel
  unfold readCode
  simp only [e, ho]
  exact ⟨_, rfl, by simp⟩

/-! ### C94 -/

/-- C94: an electric or magnetic channel encoded with its direction letter is decoded to the component
of that letter, at every sample rate. -/
theorem C94_component (r : ℚ) (o : Str) (c : Char) (hc : c = 'x' ∨ c = 'y' ∨ c = 'z') :
    (∃ code, makeCode r "electric".toList (.dir [c]) o = .ok code ∧ mtName code = .ok ['e', c]) ∧
    (∃ code, makeCode r "magnetic".toList (.dir [c]) o = .ok code ∧ mtName code = .ok ['h', c]) := by
  have e1 : measurementCode "electric".toList = 'Q' := by decide +kernel
  have e2 : measurementCode "magnetic".toList = 'F' := by decide +kernel
  have m1 : measurementOf 'Q' = some "electric".toList := by decide +kernel
  have m2 : measurementOf 'F' = some "magnetic".toList := by decide +kernel
  have t1 : ¬ "electric".toList = "tide".toList := by decide
  have t2 : ¬ "magnetic".toList = "tide".toList := by decide
  have l1 : lookup 'N' orientations = some (0, 15) := by decide +kernel
  have l2 : lookup 'E' orientations = some (90, 15) := by decide +kernel
  have l3 : lookup 'Z' orientations = some (0, 15) := by decide +kernel
  have d1 : directionCode ['x'] = .ok 'N' := by decide
  have d2 : directionCode ['y'] = .ok 'E' := by decide
  have d3 : directionCode ['z'] = .ok 'Z' := by decide
  unfold makeCode
  rcases hc with rfl | rfl | rfl
  · simp only [d1, e1, e2]
    exact ⟨⟨_, rfl, by simp only [mtName, readCode, m1, l1]; rw [if_neg t1]; rfl⟩,
      ⟨_, rfl, by simp only [mtName, readCode, m2, l1]; rw [if_neg t2]; rfl⟩⟩
  · simp only [d2, e1, e2]
    exact ⟨⟨_, rfl, by simp only [mtName, readCode, m1, l2]; rw [if_neg t1]; rfl⟩,
      ⟨_, rfl, by simp only [mtName, readCode, m2, l2]; rw [if_neg t2]; rfl⟩⟩
  · simp only [d3, e1, e2]
    exact ⟨⟨_, rfl, by simp only [mtName, readCode, m1, l3]; rw [if_neg t1]; rfl⟩,
      ⟨_, rfl, by simp only [mtName, readCode, m2, l3]; rw [if_neg t2]; rfl⟩⟩

/-- C94: a channel encoded with a horizontal azimuth is decoded to the nearest of the two axes: x up to 45 degrees
from the north-south line, y beyond; whatever the rate. -/
theorem C94_azimuth (r : ℚ) (az : ℝ) (m : Str) (c : Char)
    (hm : (m = "electric".toList ∧ c = 'e') ∨ (m = "magnetic".toList ∧ c = 'h')) :
    ∃ code, makeCode r m (.num az) "horizontal".toList = .ok code ∧
      ((∃ k : ℤ, |az - 180 * k| ≤ 45) → mtName code = .ok [c, 'x']) ∧
      ((∀ k : ℤ, 45 < |az - 180 * k|) → mtName code = .ok [c, 'y']) := by
  have e1 : measurementCode "electric".toList = 'Q' := by decide +kernel
  have e2 : measurementCode "magnetic".toList = 'F' := by decide +kernel
  have m1 : measurementOf 'Q' = some "electric".toList := by decide +kernel
  have m2 : measurementOf 'F' = some "magnetic".toList := by decide +kernel
  have t1 : ¬ "electric".toList = "tide".toList := by decide
  have t2 : ¬ "magnetic".toList = "tide".toList := by decide
  have l1 : lookup 'N' orientations = some (0, 15) := by decide +kernel
  have l2 : lookup 'E' orientations = some (90, 15) := by decide +kernel
  have l3 : ∃ q, lookup '1' orientations = some q := Option.isSome_iff_exists.1 (by decide +kernel)
  have l4 : ∃ q, lookup '2' orientations = some q := Option.isSome_iff_exists.1 (by decide +kernel)
  obtain ⟨q3, l3⟩ := l3
  obtain ⟨q4, l4⟩ := l4
  have name : ∀ (o d : Char) (q : ℚ × ℚ), lookup o orientations = some q → mtOrientation o = some d →
      mtName [periodCode r, measurementCode m, o] = .ok [c, d] := by
    intro o d q hq hd
    rcases hm with ⟨rfl, rfl⟩ | ⟨rfl, rfl⟩
    · rw [e1]; simp only [mtName, readCode, m1, hq, hd]; rw [if_neg t1]; rfl
    · rw [e2]; simp only [mtName, readCode, m2, hq, hd]; rw [if_neg t2]; rfl
  obtain ⟨k, hk⟩ := exists_near az
  have hcode := code_of_near az k hk
  have far : ∀ j : ℤ, |az - 180 * j| ≤ 45 → |az - 180 * k| ≤ 45 := by
    intro j hj
    have hkk : (k : ℝ) - j < 1 ∧ (j : ℝ) - k < 1 := by
      rw [abs_le] at hj hk
      constructor <;> linarith [hj.1, hj.2, hk.1, hk.2]
    have h1 : k - j < 1 := by exact_mod_cast hkk.1
    have h2 : j - k < 1 := by exact_mod_cast hkk.2
    have : j = k := by omega
    exact this ▸ hj
  unfold makeCode
  by_cases h15 : |az - 180 * k| ≤ 15
  · rw [if_pos h15] at hcode
    simp only [hcode]
    refine ⟨_, rfl, fun _ => name _ _ _ l1 rfl, fun h => ?_⟩
    have := h k
    linarith
  rw [if_neg h15] at hcode
  by_cases h45 : |az - 180 * k| ≤ 45
  · rw [if_neg (by linarith), if_pos h45] at hcode
    simp only [hcode]
    refine ⟨_, rfl, fun _ => name _ _ _ l3 rfl, fun h => ?_⟩
    have := h k
    linarith
  by_cases h75 : |az - 180 * k| < 75
  · rw [if_neg (by linarith), if_neg h45] at hcode
    simp only [hcode]
    exact ⟨_, rfl, fun ⟨j, hj⟩ => absurd (far j hj) h45, fun _ => name _ _ _ l4 rfl⟩
  · rw [if_pos (not_lt.1 h75)] at hcode
    simp only [hcode]
    exact ⟨_, rfl, fun ⟨j, hj⟩ => absurd (far j hj) h45, fun _ => name _ _ _ l2 rfl⟩

example : periodCode 8 = 'M' ∧ periodCode 1 = 'L' ∧ periodCode 4096 = 'F' := by decide +kernel
example : orientationCode 100 "horizontal".toList = some 'E' :=
  (C47_orientation 100).2.2.2.2 ⟨0, by norm_num [abs_le]⟩

end Verif.Fdsn
