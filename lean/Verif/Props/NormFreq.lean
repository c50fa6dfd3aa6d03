import Verif.Model.NormFreq
import Verif.Props.PassBand
import Mathlib.Analysis.SpecialFunctions.Sqrt
import Mathlib.Tactic.Positivity
import Mathlib.Tactic.NormNum.Inv
import Mathlib.Algebra.Order.Floor.Ring
import Mathlib.Tactic.Push

/-!
C332-C334: the normalisation frequency of a channel response.
-/

namespace Verif.NormFreq
open Verif.Filters

/-- Rounding to three decimals. -/
def Rounds (r3 : ℝ → ℝ) : Prop := ∀ x, |r3 x - x| ≤ 1 / 2000 ∧ ∃ k : ℤ, r3 x = k / 1000

/-! ## The geometric mean -/

theorem middle_pos {b : ℝ × ℝ} (h1 : 0 < b.1) (h2 : 0 < b.2) : 0 < middle b := by
  unfold middle
  rw [if_neg (by rintro (h | h) <;> linarith)]
  positivity

theorem middle_sq {b : ℝ × ℝ} (h1 : 0 ≤ b.1) (h2 : 0 ≤ b.2) : middle b * middle b = b.1 * b.2 := by
  by_cases h : b.1 = 0 ∨ b.2 = 0
  · unfold middle
    rw [if_pos h]
    rcases h with h | h <;> rw [h] <;> ring
  · have p1 : 0 < b.1 := lt_of_le_of_ne h1 (fun e => h (.inl e.symm))
    have p2 : 0 < b.2 := lt_of_le_of_ne h2 (fun e => h (.inr e.symm))
    unfold middle
    rw [if_neg h, ← Real.rpow_add (by norm_num)]
    have : (Real.logb 10 b.1 + Real.logb 10 b.2) / 2 + (Real.logb 10 b.1 + Real.logb 10 b.2) / 2 =
        Real.logb 10 b.1 + Real.logb 10 b.2 := by ring
    rw [this, Real.rpow_add (by norm_num), Real.rpow_logb (by norm_num) (by norm_num) p1,
      Real.rpow_logb (by norm_num) (by norm_num) p2]

theorem middle_nonneg (b : ℝ × ℝ) : 0 ≤ middle b := by
  unfold middle
  split
  · exact le_refl 0
  · positivity

theorem middle_between {b : ℝ × ℝ} (h1 : 0 ≤ b.1) (h2 : b.1 ≤ b.2) : b.1 ≤ middle b ∧ middle b ≤ b.2 := by
  have hs := middle_sq h1 (le_trans h1 h2)
  have hm := middle_nonneg b
  constructor
  · by_contra hc
    push Not at hc
    nlinarith
  · by_contra hc
    push Not at hc
    nlinarith

theorem middle_eq {b : ℝ × ℝ} (h1 : 0 ≤ b.1) (h2 : 0 ≤ b.2) : middle b = √(b.1 * b.2) := by
  rw [← middle_sq h1 h2, Real.sqrt_mul_self (middle_nonneg b)]

theorem update_of_band {r3 : ℝ → ℝ} {rnd : ℝ → ℤ} {l : List Filter} {xs : List ℝ} {b : ℝ × ℝ}
    (h : channelBand rnd l xs = some b) : update r3 rnd ⟨0, l, xs⟩ = ⟨r3 (middle b), l, xs⟩ := by
  have hl : l ≠ [] := ((C51_exists rnd l xs).1 ⟨b, h⟩).1
  unfold update
  rw [if_pos ⟨hl, rfl⟩]
  simp only [h]

theorem update_ne {r3 : ℝ → ℝ} {rnd : ℝ → ℤ} {r : Resp} (h : r.norm ≠ 0) : update r3 rnd r = r := by
  unfold update
  rw [if_neg (fun h' => h h'.2)]

/-! ## C332: the frequency found -/

/-- The claim: the normalisation frequency found for filters and positive frequencies lies in their pass band. -/
def C332_claim : Prop :=
  ∀ (r3 : ℝ → ℝ) (rnd : ℝ → ℤ) (l : List Filter) (xs : List ℝ) (lo hi : ℝ), Rounds r3 → (∀ x ∈ xs, 0 < x) →
    channelBand rnd l xs = some (lo, hi) → 0 < lo → lo ≤ hi →
    lo ≤ (make r3 rnd 0 l xs).norm ∧ (make r3 rnd 0 l xs).norm ≤ hi

/-- A rounding. -/
noncomputable def exR3 (x : ℝ) : ℝ := (⌊1000 * x + 1 / 2⌋ : ℝ) / 1000

theorem exR3_rounds : Rounds exR3 := by
  intro x
  refine ⟨?_, ⌊1000 * x + 1 / 2⌋, rfl⟩
  have h1 := Int.floor_le (1000 * x + 1 / 2)
  have h2 := Int.lt_floor_add_one (1000 * x + 1 / 2)
  unfold exR3
  rw [abs_le]
  constructor
  · rw [le_sub_iff_add_le, le_div_iff₀ (by norm_num)]; linarith
  · rw [sub_le_iff_le_add, div_le_iff₀ (by norm_num)]; linarith

/-- One frequency is the band of a filter. -/
theorem band_single (rnd : ℝ → ℤ) (f : Filter) (x : ℝ) : channelBand rnd [f] [x] = some (x, x) := by
  unfold channelBand
  rw [if_neg (by simp)]
  simp [passBand, listMin, listMax]

/-- What is found is a rounded number that lies in the band, its geometric mean; so the claim holds up to half a
thousandth. -/
theorem C332_middle_partial (r3 : ℝ → ℝ) (rnd : ℝ → ℤ) (l : List Filter) (xs : List ℝ) (lo hi : ℝ) (hr : Rounds r3)
    (hb : channelBand rnd l xs = some (lo, hi)) (hlo : 0 ≤ lo) (hle : lo ≤ hi) :
    ∃ m, lo ≤ m ∧ m ≤ hi ∧ m * m = lo * hi ∧ (make r3 rnd 0 l xs).norm = r3 m ∧
      lo - 1 / 2000 ≤ (make r3 rnd 0 l xs).norm ∧ (make r3 rnd 0 l xs).norm ≤ hi + 1 / 2000 := by
  have hm := middle_between (b := (lo, hi)) hlo hle
  have hn : (make r3 rnd 0 l xs).norm = r3 (middle (lo, hi)) := by unfold make; rw [update_of_band hb]
  have ha := abs_le.1 (hr (middle (lo, hi))).1
  refine ⟨middle (lo, hi), hm.1, hm.2, middle_sq hlo (le_trans hlo hle), hn, ?_, ?_⟩
  · rw [hn]; have := hm.1; simp only at this; linarith [ha.1]
  · rw [hn]; have := hm.2; simp only at this; linarith [ha.2]

/-- For pass bands below half a millihertz it is 0, which counts as not found. -/
theorem C332_small_partial (r3 : ℝ → ℝ) (rnd : ℝ → ℤ) (l : List Filter) (xs : List ℝ) (lo hi : ℝ) (hr : Rounds r3)
    (hb : channelBand rnd l xs = some (lo, hi)) (hlo : 0 ≤ lo) (hle : lo ≤ hi) (hhi : hi < 1 / 2000) :
    (make r3 rnd 0 l xs).norm = 0 := by
  have hm := middle_between (b := (lo, hi)) hlo hle
  have hn : (make r3 rnd 0 l xs).norm = r3 (middle (lo, hi)) := by unfold make; rw [update_of_band hb]
  have ha := abs_le.1 (hr (middle (lo, hi))).1
  obtain ⟨k, hk⟩ := (hr (middle (lo, hi))).2
  have h0 := middle_nonneg (lo, hi)
  have h2 := hm.2
  simp only at h2
  rw [hk] at ha
  have hk1 : (k : ℝ) < 1 := by
    have : (k : ℝ) / 1000 < 1 / 1000 := by linarith [ha.2]
    linarith
  have hk0 : (-1 : ℝ) < k := by
    have : (-1 : ℝ) / 1000 < k / 1000 := by linarith [ha.1]
    linarith
  have hkz : k = 0 := by
    have h1 : k < 1 := by exact_mod_cast hk1
    have h2 : -1 < k := by exact_mod_cast hk0
    omega
  rw [hn, hk, hkz]
  simp

/-- A filter of gain 1. -/
noncomputable def exF : Filter := ⟨[], [], [], 1, .coefficient⟩

/-- The claim is false: for 0.0001 Hz the rounded frequency is 0. -/
theorem C332_refuted : ¬ C332_claim := by
  intro h
  have hb := band_single (fun _ => 0) exF (1 / 10000)
  have h1 := (h exR3 (fun _ => 0) [exF] [1 / 10000] (1 / 10000) (1 / 10000) exR3_rounds
    (by intro x hx; rw [List.mem_singleton] at hx; rw [hx]; norm_num) hb (by norm_num) (le_refl _)).1
  rw [C332_small_partial exR3 (fun _ => 0) [exF] [1 / 10000] (1 / 10000) (1 / 10000) exR3_rounds hb (by norm_num) (le_refl _)
    (by norm_num)] at h1
  norm_num at h1

/-! ## C333: the response of a channel -/

/-- The claim: the response of a channel that has filters has a positive normalisation frequency. -/
def C333_claim : Prop :=
  ∀ (r3 : ℝ → ℝ) (rnd : ℝ → ℤ) (dict : List (Str × Filter)) (names : List Str), Rounds r3 →
    (channelResponse r3 rnd dict names).filters ≠ [] → 0 < (channelResponse r3 rnd dict names).norm

/-- It is always 0; it is found when frequencies are given. -/
theorem C333_zero_partial (r3 : ℝ → ℝ) (rnd : ℝ → ℤ) (dict : List (Str × Filter)) (names : List Str) :
    channelResponse r3 rnd dict names = ⟨0, names.filterMap fun n => OD.get? dict n, []⟩ ∧
    (∀ xs b, channelBand rnd (names.filterMap fun n => OD.get? dict n) xs = some b → 0 ≤ b.1 → 0 ≤ b.2 →
      (step r3 rnd (channelResponse r3 rnd dict names) (.freqs xs)).norm = r3 √(b.1 * b.2)) := by
  have h0 : channelResponse r3 rnd dict names = ⟨0, names.filterMap fun n => OD.get? dict n, []⟩ := by
    unfold channelResponse make update
    have : ∀ l, channelBand rnd l [] = none := fun l => by unfold channelBand; rw [if_pos rfl]
    simp only [this]
    exact ite_self _
  refine ⟨h0, fun xs b hb h1 h2 => ?_⟩
  rw [h0]
  unfold step
  simp only
  rw [update_of_band hb, ← middle_eq h1 h2]

/-- The claim is false: no frequencies are given. -/
theorem C333_refuted : ¬ C333_claim := by
  intro h
  have h0 := (C333_zero_partial exR3 (fun _ => 0) [("a".toList, exF)] ["a".toList]).1
  have := h exR3 (fun _ => 0) [("a".toList, exF)] ["a".toList] exR3_rounds (by rw [h0]; simp [OD.get?])
  rw [h0] at this
  exact lt_irrefl _ this

/-! ## C334: changes of filters and frequencies -/

/-- Assignments of filters and frequencies. -/
def Given : Op → Prop
  | .norm _ => False
  | _ => True

/-- The claim: after any assignments of filters and frequencies to a new response the normalisation frequency is that of the
band they have. -/
def C334_claim : Prop :=
  ∀ (r3 : ℝ → ℝ) (rnd : ℝ → ℤ) (ops : List Op) (b : ℝ × ℝ), Rounds r3 → (∀ o ∈ ops, Given o) →
    channelBand rnd (ops.foldl (step r3 rnd) ⟨0, [], []⟩).filters (ops.foldl (step r3 rnd) ⟨0, [], []⟩).freqs = some b → 0 ≤ b.1 → 0 ≤ b.2 →
    (ops.foldl (step r3 rnd) ⟨0, [], []⟩).norm = r3 √(b.1 * b.2)

/-- Once found it is kept, whatever filters and frequencies are assigned. -/
theorem C334_kept_partial (r3 : ℝ → ℝ) (rnd : ℝ → ℤ) (ops : List Op) (r : Resp) (hr : r.norm ≠ 0) (ho : ∀ o ∈ ops, Given o) :
    (ops.foldl (step r3 rnd) r).norm = r.norm := by
  induction ops generalizing r with
  | nil => rfl
  | cons o ops ih =>
    have hstep : (step r3 rnd r o).norm = r.norm := by
      have hg := ho o List.mem_cons_self
      cases o with
      | filters l => have e := update_ne (r3 := r3) (rnd := rnd) (r := { r with filters := l }) hr; unfold step; simp only [e]
      | freqs l => have e := update_ne (r3 := r3) (rnd := rnd) (r := { r with freqs := l }) hr; unfold step; simp only [e]
      | norm v => exact hg.elim
    rw [List.foldl_cons, ih _ (by rw [hstep]; exact hr) (fun o h => ho o (List.mem_cons_of_mem _ h)), hstep]

theorem update_zero {r3 : ℝ → ℝ} {rnd : ℝ → ℤ} {r : Resp} {b : ℝ × ℝ} (h : (update r3 rnd r).norm = 0)
    (hb : channelBand rnd (update r3 rnd r).filters (update r3 rnd r).freqs = some b) : r3 (middle b) = 0 := by
  unfold update at h hb
  by_cases hc : r.filters ≠ [] ∧ r.norm = 0
  · rw [if_pos hc] at h hb
    cases hband : channelBand rnd r.filters r.freqs with
    | none =>
      simp only [hband] at hb
      cases hb
    | some b' =>
      simp only [hband] at h hb
      injection hb with hb
      rw [← hb]; exact h
  · rw [if_neg hc] at h hb
    have hne : r.filters ≠ [] := ((C51_exists rnd r.filters r.freqs).1 ⟨b, hb⟩).1
    exact absurd ⟨hne, h⟩ hc

/-- While it is 0 it is looked for: after any assignment it is 0 only if there is no band or that of the band is 0; and
assigning 0 finds that of the band there is. -/
theorem C334_found_partial (r3 : ℝ → ℝ) (rnd : ℝ → ℤ) (r : Resp) (o : Op) (b : ℝ × ℝ) (h1 : 0 ≤ b.1) (h2 : 0 ≤ b.2) :
    ((step r3 rnd r o).norm = 0 → channelBand rnd (step r3 rnd r o).filters (step r3 rnd r o).freqs = some b →
      r3 √(b.1 * b.2) = 0) ∧
    (channelBand rnd r.filters r.freqs = some b → (step r3 rnd r (.norm 0)).norm = r3 √(b.1 * b.2)) := by
  rw [← middle_eq h1 h2]
  constructor
  · intro h hb
    cases o with
    | filters l => exact update_zero h hb
    | freqs l => exact update_zero h hb
    | norm v => exact update_zero h hb
  · intro hb
    have hv : validNorm r3 rnd r 0 = r3 (middle b) := by unfold validNorm; rw [if_pos rfl]; simp only [hb]
    unfold step
    simp only [hv]
    by_cases h0 : r3 (middle b) = 0
    · rw [h0]
      show (update r3 rnd ⟨0, r.filters, r.freqs⟩).norm = 0
      rw [update_of_band hb]
      exact h0
    · rw [update_ne h0]

/-- The claim is false: 1 Hz is kept when the frequencies become 10 Hz. -/
theorem C334_refuted : ¬ C334_claim := by
  intro h
  have e1 : middle (1, 1) = 1 := by
    have := middle_between (b := (1, 1)) (by norm_num) (le_refl _)
    exact le_antisymm this.2 this.1
  have e10 : middle (10, 10) = 10 := by
    have := middle_between (b := (10, 10)) (by norm_num) (le_refl _)
    exact le_antisymm this.2 this.1
  have s1 : exR3 1 = 1 := by
    unfold exR3
    rw [show (1000 * 1 + 1 / 2 : ℝ) = ((1000 : ℤ) : ℝ) + 1 / 2 by norm_num, Int.floor_intCast_add]
    rw [show ⌊(1 / 2 : ℝ)⌋ = 0 by rw [Int.floor_eq_iff]; norm_num]
    norm_num
  have s10 : exR3 10 = 10 := by
    unfold exR3
    rw [show (1000 * 10 + 1 / 2 : ℝ) = ((10000 : ℤ) : ℝ) + 1 / 2 by norm_num, Int.floor_intCast_add]
    rw [show ⌊(1 / 2 : ℝ)⌋ = 0 by rw [Int.floor_eq_iff]; norm_num]
    norm_num
  have hnil : ∀ xs, update exR3 (fun _ => 0) ⟨0, [], xs⟩ = ⟨0, [], xs⟩ := by
    intro xs
    unfold update
    rw [if_neg (by simp)]
  have hrun : [Op.freqs [1], .filters [exF], .freqs [10]].foldl (step exR3 (fun _ => 0)) ⟨0, [], []⟩ = ⟨1, [exF], [10]⟩ := by
    simp only [List.foldl_cons, List.foldl_nil, step]
    rw [hnil]
    simp only
    rw [update_of_band (band_single _ exF 1), e1, s1, update_ne (by norm_num)]
  have := h exR3 (fun _ => 0) [Op.freqs [1], .filters [exF], .freqs [10]] (10, 10) exR3_rounds
    (by intro o ho; simp only [List.mem_cons, List.not_mem_nil, or_false] at ho; rcases ho with rfl | rfl | rfl <;> trivial)
    (by rw [hrun]; exact band_single _ exF 10) (by norm_num) (by norm_num)
  rw [hrun, ← middle_eq (b := (10, 10)) (by norm_num) (by norm_num), e10, s10] at this
  norm_num at this

/-! ## The hypotheses are met -/

example : ∃ b : ℝ × ℝ, channelBand (fun _ => 0) [exF] [7] = some b ∧ 0 ≤ b.1 ∧ b.1 ≤ b.2 :=
  ⟨(7, 7), band_single _ _ _, by norm_num, le_refl _⟩

end Verif.NormFreq
