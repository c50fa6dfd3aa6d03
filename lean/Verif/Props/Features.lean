import Verif.Model.Features
import Mathlib.Analysis.Complex.Basic
import Verif.Lemmas.Words
import Mathlib.Tactic.Linarith
import Mathlib.Tactic.FieldSimp
import Mathlib.Tactic.Ring
import Mathlib.Tactic.Positivity

/-! # C297 – C307: coherence, features and the stations of a processing configuration -/

namespace Verif.Features
open Verif.Text

/-! ## C297: coherence of Fourier coefficients -/

/-- The sums over the windows. -/
noncomputable def sumXY (w : List (ℂ × ℂ)) : ℂ := (w.map fun p => p.1 * (starRingEnd ℂ) p.2).sum
noncomputable def sumX (w : List (ℂ × ℂ)) : ℝ := (w.map fun p => ‖p.1‖ ^ 2).sum
noncomputable def sumY (w : List (ℂ × ℂ)) : ℝ := (w.map fun p => ‖p.2‖ ^ 2).sum

theorem sumX_nonneg (w : List (ℂ × ℂ)) : 0 ≤ sumX w :=
  List.sum_nonneg (by
    intro x hx
    obtain ⟨p, _, rfl⟩ := List.mem_map.1 hx
    positivity)

theorem sumY_nonneg (w : List (ℂ × ℂ)) : 0 ≤ sumY w :=
  List.sum_nonneg (by
    intro x hx
    obtain ⟨p, _, rfl⟩ := List.mem_map.1 hx
    positivity)

/-- The inequality of Cauchy and Schwarz for the windows. -/
theorem cauchy (w : List (ℂ × ℂ)) : ‖sumXY w‖ ^ 2 ≤ sumX w * sumY w := by
  induction w with
  | nil => simp [sumXY, sumX, sumY]
  | cons p w ih =>
    have e1 : sumXY (p :: w) = p.1 * (starRingEnd ℂ) p.2 + sumXY w := by simp [sumXY]
    have e2 : sumX (p :: w) = ‖p.1‖ ^ 2 + sumX w := by simp [sumX]
    have e3 : sumY (p :: w) = ‖p.2‖ ^ 2 + sumY w := by simp [sumY]
    rw [e1, e2, e3]
    have hn : ‖p.1 * (starRingEnd ℂ) p.2 + sumXY w‖ ≤ ‖p.1‖ * ‖p.2‖ + ‖sumXY w‖ := by
      refine (norm_add_le _ _).trans ?_
      rw [norm_mul, RCLike.norm_conj]
    have hA := sumX_nonneg w
    have hB := sumY_nonneg w
    generalize sumX w = A at *
    generalize sumY w = B at *
    have hS : 0 ≤ ‖sumXY w‖ := norm_nonneg _
    have ha : 0 ≤ ‖p.1‖ := norm_nonneg _
    have hb : 0 ≤ ‖p.2‖ := norm_nonneg _
    have ht : 0 ≤ ‖p.1 * (starRingEnd ℂ) p.2 + sumXY w‖ := norm_nonneg _
    generalize ‖p.1 * (starRingEnd ℂ) p.2 + sumXY w‖ = T at *
    generalize ‖sumXY w‖ = S at *
    generalize ‖p.1‖ = a at *
    generalize ‖p.2‖ = b at *
    have h1 : T ^ 2 ≤ (a * b + S) ^ 2 := pow_le_pow_left₀ ht hn 2
    have h2 : 2 * (S * (a * b)) ≤ A * b ^ 2 + B * a ^ 2 := by
      apply le_of_sq_le_sq
      · have h3 : S ^ 2 * (a * b) ^ 2 ≤ A * B * (a * b) ^ 2 :=
          mul_le_mul_of_nonneg_right ih (by positivity)
        nlinarith [sq_nonneg (A * b ^ 2 - B * a ^ 2)]
      · positivity
    nlinarith

/-- The value is the ratio of the sums over the windows: the numbers of windows cancel. -/
theorem coherence_eq (w : List (ℂ × ℂ)) : coherence w = ‖sumXY w‖ ^ 2 / (sumX w * sumY w) := by
  cases w with
  | nil => simp [coherence, sxy, sxx, syy, meanC, meanR, sumXY, sumX, sumY]
  | cons p w =>
    have hn : (0 : ℝ) < ((p :: w).length : ℝ) := by simp; positivity
    have h1 : sxy (p :: w) = sumXY (p :: w) / ((p :: w).length : ℂ) := by
      simp only [sxy, meanC, sumXY, List.length_map]
    have h2 : sxx (p :: w) = sumX (p :: w) / ((p :: w).length : ℝ) := by
      simp only [sxx, meanR, sumX, List.length_map]
    have h3 : syy (p :: w) = sumY (p :: w) / ((p :: w).length : ℝ) := by
      simp only [syy, meanR, sumY, List.length_map]
    rw [coherence, h1, h2, h3, norm_div, Complex.norm_natCast]
    generalize ((p :: w).length : ℝ) = n at *
    have : n ≠ 0 := ne_of_gt hn
    field_simp

/-- C297: the values lie between 0 and 1, one for each frequency. -/
theorem C297_bounds (cols : List (List (ℂ × ℂ))) :
    (fcCompute cols).length = cols.length ∧ ∀ x ∈ fcCompute cols, 0 ≤ x ∧ x ≤ 1 := by
  refine ⟨by simp [fcCompute], ?_⟩
  intro x hx
  obtain ⟨w, _, rfl⟩ := List.mem_map.1 hx
  rw [coherence_eq]
  have h := cauchy w
  have hp : 0 ≤ sumX w * sumY w := mul_nonneg (sumX_nonneg w) (sumY_nonneg w)
  exact ⟨div_nonneg (by positivity) hp, div_le_one_of_le₀ h hp⟩

/-- C297: the k-th value is `|Σ x ȳ|² / (Σ|x|² Σ|y|²)` over the windows at the k-th frequency. -/
theorem C297_value (cols : List (List (ℂ × ℂ))) (k : ℕ) :
    (fcCompute cols)[k]? = (cols[k]?).map fun w =>
      ‖(w.map fun p => p.1 * (starRingEnd ℂ) p.2).sum‖ ^ 2 /
        ((w.map fun p => ‖p.1‖ ^ 2).sum * (w.map fun p => ‖p.2‖ ^ 2).sum) := by
  rw [fcCompute, List.getElem?_map]
  congr 1
  funext w
  exact coherence_eq w

theorem sumXY_swap (w : List (ℂ × ℂ)) : sumXY (w.map Prod.swap) = (starRingEnd ℂ) (sumXY w) := by
  induction w with
  | nil => simp [sumXY]
  | cons p w ih =>
    simp only [sumXY, List.map_cons, List.sum_cons, map_add, map_mul, Complex.conj_conj,
      Prod.fst_swap, Prod.snd_swap] at ih ⊢
    rw [ih, mul_comm]

/-- C297: exchanging the channels changes nothing. -/
theorem C297_symmetric (cols : List (List (ℂ × ℂ))) :
    fcCompute (cols.map fun w => w.map Prod.swap) = fcCompute cols := by
  rw [fcCompute, fcCompute, List.map_map]
  apply List.map_congr_left
  intro w _
  show coherence (w.map Prod.swap) = coherence w
  have h1 : sumX (w.map Prod.swap) = sumY w := by
    simp only [sumX, sumY, List.map_map, Function.comp_def, Prod.fst_swap]
  have h2 : sumY (w.map Prod.swap) = sumX w := by
    simp only [sumX, sumY, List.map_map, Function.comp_def, Prod.snd_swap]
  rw [coherence_eq, coherence_eq, h1, h2, sumXY_swap, RCLike.norm_conj, mul_comm (sumX w)]

theorem sumXY_scale (a b : ℂ) (w : List (ℂ × ℂ)) :
    sumXY (w.map fun p => (a * p.1, b * p.2)) = a * (starRingEnd ℂ) b * sumXY w := by
  induction w with
  | nil => simp [sumXY]
  | cons p w ih =>
    simp only [sumXY, List.map_cons, List.sum_cons, map_mul] at ih ⊢
    rw [ih]; ring

theorem sumX_scale (a b : ℂ) (w : List (ℂ × ℂ)) :
    sumX (w.map fun p => (a * p.1, b * p.2)) = ‖a‖ ^ 2 * sumX w := by
  induction w with
  | nil => simp [sumX]
  | cons p w ih =>
    simp only [sumX, List.map_cons, List.sum_cons, norm_mul] at ih ⊢
    rw [ih]; ring

theorem sumY_scale (a b : ℂ) (w : List (ℂ × ℂ)) :
    sumY (w.map fun p => (a * p.1, b * p.2)) = ‖b‖ ^ 2 * sumY w := by
  induction w with
  | nil => simp [sumY]
  | cons p w ih =>
    simp only [sumY, List.map_cons, List.sum_cons, norm_mul] at ih ⊢
    rw [ih]; ring

/-- C297: the units, gains and phases of the channels do not matter. -/
theorem C297_scale (a b : ℂ) (ha : a ≠ 0) (hb : b ≠ 0) (cols : List (List (ℂ × ℂ))) :
    fcCompute (cols.map fun w => w.map fun p => (a * p.1, b * p.2)) = fcCompute cols := by
  rw [fcCompute, fcCompute, List.map_map]
  apply List.map_congr_left
  intro w _
  show coherence (w.map fun p => (a * p.1, b * p.2)) = coherence w
  rw [coherence_eq, coherence_eq, sumXY_scale, sumX_scale, sumY_scale, norm_mul, norm_mul,
    RCLike.norm_conj]
  have h1 : ‖a‖ ≠ 0 := norm_ne_zero_iff.2 ha
  have h2 : ‖b‖ ≠ 0 := norm_ne_zero_iff.2 hb
  rw [mul_pow, mul_pow, mul_mul_mul_comm]
  exact mul_div_mul_left _ _ (mul_ne_zero (pow_ne_zero 2 h1) (pow_ne_zero 2 h2))

theorem sumX_pos (w : List (ℂ × ℂ)) (h : ∃ p ∈ w, p.1 ≠ 0) : 0 < sumX w := by
  induction w with
  | nil => obtain ⟨p, hp, _⟩ := h; cases hp
  | cons q w ih =>
    have e : sumX (q :: w) = ‖q.1‖ ^ 2 + sumX w := by simp [sumX]
    rw [e]
    obtain ⟨p, hp, h0⟩ := h
    rcases List.mem_cons.1 hp with rfl | hp
    · have : 0 < ‖p.1‖ := norm_pos_iff.2 h0
      have := sumX_nonneg w
      positivity
    · have := ih ⟨p, hp, h0⟩
      positivity

theorem sumXY_prop (c : ℂ) (w : List (ℂ × ℂ)) (h : ∀ p ∈ w, p.2 = c * p.1) :
    sumXY w = (starRingEnd ℂ) c * (sumX w : ℂ) ∧ sumY w = ‖c‖ ^ 2 * sumX w := by
  induction w with
  | nil => simp [sumXY, sumX, sumY]
  | cons p w ih =>
    obtain ⟨h1, h2⟩ := ih fun q hq => h q (List.mem_cons_of_mem _ hq)
    have e1 : sumXY (p :: w) = p.1 * (starRingEnd ℂ) p.2 + sumXY w := by simp [sumXY]
    have e2 : sumX (p :: w) = ‖p.1‖ ^ 2 + sumX w := by simp [sumX]
    have e3 : sumY (p :: w) = ‖p.2‖ ^ 2 + sumY w := by simp [sumY]
    have hp := h p (List.mem_cons_self ..)
    rw [e1, e2, e3, h1, h2, hp]
    constructor
    · have : p.1 * (starRingEnd ℂ) p.1 = ((‖p.1‖ ^ 2 : ℝ) : ℂ) := by
        rw [Complex.mul_conj, Complex.normSq_eq_norm_sq]
      rw [map_mul, Complex.ofReal_add, ← this]; ring
    · rw [norm_mul]; ring

/-- C297: a channel that is a fixed multiple of the other one has coherence one, and so has any single
window. -/
theorem C297_one (c : ℂ) (hc : c ≠ 0) (w : List (ℂ × ℂ)) (h : ∀ p ∈ w, p.2 = c * p.1)
    (h0 : ∃ p ∈ w, p.1 ≠ 0) : fcCompute [w] = [1] := by
  show [coherence w] = [1]
  obtain ⟨h1, h2⟩ := sumXY_prop c w h
  have hp := sumX_pos w h0
  have hn : ‖c‖ ≠ 0 := norm_ne_zero_iff.2 hc
  rw [coherence_eq, h1, h2, norm_mul, RCLike.norm_conj, Complex.norm_real, Real.norm_of_nonneg hp.le]
  have : sumX w ≠ 0 := ne_of_gt hp
  congr 1
  field_simp

/-- C297: a single window says nothing: the coherence is one whatever the coefficients. -/
theorem C297_window (x y : ℂ) (hx : x ≠ 0) (hy : y ≠ 0) : fcCompute [[(x, y)]] = [1] := by
  refine C297_one (y / x) (div_ne_zero hy hx) [(x, y)] ?_ ⟨(x, y), List.mem_cons_self .., hx⟩
  intro p hp
  rw [List.mem_singleton.1 hp]
  field_simp

/-- C297: the value is zero just when the cross power is, a channel of zeros included. -/
theorem C297_zero (w : List (ℂ × ℂ)) :
    fcCompute [w] = [0] ↔ (w.map fun p => p.1 * (starRingEnd ℂ) p.2).sum = 0 := by
  show [coherence w] = [0] ↔ sumXY w = 0
  rw [coherence_eq]
  constructor
  · intro h
    have h' : ‖sumXY w‖ ^ 2 / (sumX w * sumY w) = 0 := by injection h
    have hz : ‖sumXY w‖ ^ 2 = 0 := by
      rcases div_eq_zero_iff.1 h' with h | h
      · exact h
      · have := cauchy w
        rw [h] at this
        exact le_antisymm this (by positivity)
    exact norm_eq_zero.1 (pow_eq_zero_iff (two_ne_zero)|>.1 hz)
  · intro h
    rw [h]; simp

/-- A case: two windows with opposite cross powers. -/
example : fcCompute [[(1, 1), (1, -1)]] = [0] := by
  rw [C297_zero]; simp

example : fcCompute [[(1, 2), (Complex.I, 2 * Complex.I)]] = [1] :=
  C297_one 2 two_ne_zero _ (by intro p hp; simp at hp; rcases hp with rfl | rfl <;> simp)
    ⟨(1, 2), by simp, one_ne_zero⟩

/-! ## C298, C299: striding windows -/

theorem count_eq (d step : ℕ) (h : 0 < step) : (d + 1 + step - 1) / step = d / step + 1 := by
  have : d + 1 + step - 1 = d + step := by omega
  rw [this, Nat.add_div_right _ h]

theorem starts_ok (n len step : ℕ) (h : 0 < step) (hl : len ≤ n) :
    starts n len step = .ok ((List.range ((n - len) / step + 1)).map (· * step)) := by
  have e : n + 1 - len = (n - len) + 1 := by omega
  rw [starts, if_neg (by omega), rangeStep, e, count_eq _ _ h]

section
variable {α F R : Type} (num : α → α) (coh : List α → List α → F × R)

theorem finishPar_snd (rs : List (F × R)) (h : rs ≠ []) :
    ∃ f, finishPar rs = .ok (f, rs.map Prod.snd) := by
  cases rs with
  | nil => exact absurd rfl h
  | cons r rs => exact ⟨r.1, rfl⟩

theorem finishSeq_snd (rs : List (F × R)) (h : rs ≠ []) :
    finishSeq rs = .ok ((rs.getLast h).1, rs.map Prod.snd) := by
  simp only [finishSeq, List.getLast?_eq_some_getLast h]

/-- C298: a series that holds a window gives one row for each window that fits, the k-th one from the samples
from `k * advance` on, in either mode of computation. -/
theorem C298_rows (par : Bool) (w : Window) (a b : List α) (ho : w.overlap < w.num)
    (hn : w.num ≤ a.length) :
    ∃ f rows, striding num coh par w a b = .ok (f, rows) ∧
      rows.length = (a.length - w.num) / (w.num - w.overlap) + 1 ∧
      ∀ k (hk : k < rows.length), rows[k] =
        (coh (((a.map num).drop (k * (w.num - w.overlap))).take w.num)
          (((b.map num).drop (k * (w.num - w.overlap))).take w.num)).2 := by
  have hs := starts_ok a.length w.num (advance w) (by unfold advance; omega) hn
  have hne : ((List.range ((a.length - w.num) / advance w + 1)).map (· * advance w)).map
      (segment coh w.num (a.map num) (b.map num)) ≠ [] := by simp
  obtain ⟨fp, hp⟩ := finishPar_snd _ hne
  have hq := finishSeq_snd _ hne
  have key : ∀ f : F, ∃ f' rows, (Except.ok (f, List.map Prod.snd
      (((List.range ((a.length - w.num) / advance w + 1)).map (· * advance w)).map
      (segment coh w.num (a.map num) (b.map num)))) : Except PyErr (F × List R)) = .ok (f', rows) ∧
      rows.length = (a.length - w.num) / (w.num - w.overlap) + 1 ∧
      ∀ k (hk : k < rows.length), rows[k] =
        (coh (((a.map num).drop (k * (w.num - w.overlap))).take w.num)
          (((b.map num).drop (k * (w.num - w.overlap))).take w.num)).2 := by
    intro f
    refine ⟨f, _, rfl, by simp [advance], ?_⟩
    intro k hk
    simp [segment, slice, advance]
  cases par with
  | true =>
    simp only [striding, hs, Except.bind, if_true, hp]
    exact key fp
  | false =>
    simp only [striding, hs, Except.bind, Bool.false_eq_true, if_false, hq]
    exact key _

/-- C298: every window is full, the windows leave no sample out before the end of the last one, and fewer
samples than one advance are left over. -/
theorem C298_cover (n len ov rows : ℕ) (ho : ov < len) (hn : len ≤ n)
    (hr : rows = (n - len) / (len - ov) + 1) :
    (∀ k < rows, k * (len - ov) + len ≤ n) ∧
    (∀ i < (rows - 1) * (len - ov) + len, ∃ k < rows, k * (len - ov) ≤ i ∧ i < k * (len - ov) + len) ∧
    n < (rows - 1) * (len - ov) + len + (len - ov) := by
  have hstep : 0 < len - ov := by omega
  have hle : len - ov ≤ len := by omega
  generalize len - ov = st at *
  have hq := Nat.div_mul_le_self (n - len) st
  have hlt := Nat.lt_div_mul_add (a := n - len) hstep
  generalize (n - len) / st = q at *
  subst hr
  rw [Nat.add_sub_cancel]
  refine ⟨?_, ?_, by omega⟩
  · intro k hk
    have : k * st ≤ q * st := Nat.mul_le_mul_right _ (by omega)
    omega
  · intro i hi
    by_cases h : i / st < q + 1
    · refine ⟨i / st, h, Nat.div_mul_le_self _ _, ?_⟩
      have := Nat.lt_div_mul_add (a := i) hstep
      omega
    · refine ⟨q, by omega, ?_, hi⟩
      have h1 : q * st ≤ i / st * st := Nat.mul_le_mul_right _ (by
        generalize i / st = j at *
        omega)
      have := Nat.div_mul_le_self i st
      omega

/-- C299, full statement: the parallel and the sequential computation give the same result. -/
def C299_claim : Prop :=
  ∀ (α F R : Type) (num : α → α) (coh : List α → List α → F × R) (w : Window) (a b : List α),
    (∀ x y x' y' : List α, x.length = x'.length → y.length = y'.length → (coh x y).1 = (coh x' y').1) →
    a.length = b.length → striding num coh true w a b = striding num coh false w a b

/-- C299 fails for a series shorter than the window: both modes raise, but different exceptions. -/
theorem C299_refuted : ¬ C299_claim := by
  intro h
  have := h Unit Unit Unit id (fun _ _ => ((), ())) ⟨[], 2, 1, []⟩ [()] [()] (fun _ _ _ _ _ _ => rfl) rfl
  have e1 : striding (α := Unit) id (fun _ _ => ((), ())) true ⟨[], 2, 1, []⟩ [()] [()] =
    .error .indexError := rfl
  have e2 : striding (α := Unit) id (fun _ _ => ((), ())) false ⟨[], 2, 1, []⟩ [()] [()] =
    .error .nameError := rfl
  rw [e1, e2] at this
  injection this with h
  cases h

/-- C299: with a window in the series the modes agree, provided the frequencies depend on the lengths only. -/
theorem C299_same_partial (w : Window) (a b : List α) (ho : w.overlap < w.num)
    (hn : w.num ≤ a.length) (hab : a.length = b.length)
    (hf : ∀ x y x' y' : List α, x.length = x'.length → y.length = y'.length →
      (coh x y).1 = (coh x' y').1) :
    striding num coh true w a b = striding num coh false w a b := by
  have hst : 0 < advance w := by unfold advance; omega
  have hs := starts_ok a.length w.num (advance w) hst hn
  have hlen : ∀ k ∈ (List.range ((a.length - w.num) / advance w + 1)).map (· * advance w),
      (slice (a.map num) k w.num).length = w.num ∧ (slice (b.map num) k w.num).length = w.num := by
    intro k hk
    obtain ⟨i, hi, rfl⟩ := List.mem_map.1 hk
    have hi := List.mem_range.1 hi
    have h1 : i * advance w ≤ (a.length - w.num) / advance w * advance w :=
      Nat.mul_le_mul_right _ (by omega)
    have h2 := Nat.div_mul_le_self (a.length - w.num) (advance w)
    have : (i * advance w) + w.num ≤ a.length := by omega
    simp only [slice, List.length_take, List.length_drop, List.length_map, ← hab]
    omega
  simp only [striding, hs, Except.bind, if_true, Bool.false_eq_true, if_false]
  generalize hss : (List.range ((a.length - w.num) / advance w + 1)).map (· * advance w) = ss at *
  cases ss with
  | nil => simp at hss
  | cons s0 ss =>
    have hne : ((s0 :: ss).map (segment coh w.num (a.map num) (b.map num))) ≠ [] := by simp
    rw [finishSeq_snd _ hne, List.getLast_map]
    · have hl := hlen ((s0 :: ss).getLast (by simp)) (List.getLast_mem _)
      have h0 := hlen s0 (List.mem_cons_self ..)
      have : (segment coh w.num (a.map num) (b.map num) s0).1 =
          (segment coh w.num (a.map num) (b.map num) ((s0 :: ss).getLast (by simp))).1 :=
        hf _ _ _ _ (h0.1.trans hl.1.symm) (h0.2.trans hl.2.symm)
      rw [← this]
      rfl

/-- C299: a series shorter than the window raises in either mode, and so does an overlap of a whole window. -/
theorem C299_short_partial (par : Bool) (w : Window) (a b : List α)
    (h : a.length < w.num ∨ w.overlap = w.num) : ∃ e, striding num coh par w a b = .error e := by
  by_cases h0 : advance w = 0
  · exact ⟨.valueError, by simp only [striding, starts, if_pos h0, Except.bind]⟩
  · have hn : a.length < w.num := by
      rcases h with h | h
      · exact h
      · exact absurd (by unfold advance; omega) h0
    have hs : starts a.length w.num (advance w) = .ok [] := by
      have e : a.length + 1 - w.num = 0 := by omega
      have e2 : (0 + advance w - 1) / advance w = 0 := Nat.div_eq_of_lt (by omega)
      rw [starts, if_neg h0, rangeStep, e, e2]; rfl
    cases par with
    | true => exact ⟨.indexError, by simp only [striding, hs, Except.bind]; rfl⟩
    | false => exact ⟨.nameError, by simp only [striding, hs, Except.bind]; rfl⟩

end

/-- Windows of four samples that overlap by two, in a series of nine. -/
example : striding (α := ℕ) id (fun x _ => ((), x)) false ⟨[], 4, 2, []⟩ [0, 1, 2, 3, 4, 5, 6, 7, 8]
    [0, 1, 2, 3, 4, 5, 6, 7, 8] = .ok ((), [[0, 1, 2, 3], [2, 3, 4, 5], [4, 5, 6, 7]]) := by rfl

/-! ## C300: the sub-window -/

/-- C300, full statement: the sub-window has samples, no more than the window, and overlaps by fewer. -/
def C300_claim : Prop :=
  ∀ (w : Window) (q : ℚ), 0 < w.num → 0 < q → q ≤ 1 →
    0 < (subwindow w q).num ∧ (subwindow w q).num ≤ w.num ∧
      (subwindow w q).overlap < (subwindow w q).num

/-- C300 fails for a window of four samples and the default fraction: the sub-window is empty. -/
theorem C300_refuted : ¬ C300_claim := by
  intro h
  exact absurd (h ⟨[], 4, 2, []⟩ (1 / 5) (by decide) (by decide +kernel) (by decide +kernel)).1
    (by decide +kernel)

/-- C300: what holds: it has samples just when the fraction of the window makes one, and then it is well
formed; it is of the same kind. -/
theorem C300_iff_partial (w : Window) (q : ℚ) (h1 : q ≤ 1) :
    ((subwindow w q).num ≤ w.num) ∧
    (0 < (subwindow w q).num ↔ 1 ≤ (w.num : ℚ) * q) ∧
    (0 < (subwindow w q).num → (subwindow w q).overlap < (subwindow w q).num) ∧
    2 * (subwindow w q).overlap ≤ (subwindow w q).num ∧
    (subwindow w q).num ≤ 2 * (subwindow w q).overlap + 1 ∧
    (subwindow w q).kind = w.kind ∧ (subwindow w q).args = w.args := by
  have hf : ((w.num : ℚ) * q).floor = ⌊(w.num : ℚ) * q⌋ := rfl
  have hle : ⌊(w.num : ℚ) * q⌋ ≤ (w.num : ℤ) := by
    have h2 : (w.num : ℚ) * q ≤ w.num := by
      have : (0 : ℚ) ≤ w.num := Nat.cast_nonneg _
      nlinarith
    have h3 := (Int.floor_le ((w.num : ℚ) * q)).trans h2
    exact_mod_cast h3
  have hn : (subwindow w q).num = ⌊(w.num : ℚ) * q⌋.toNat := rfl
  have ho : (subwindow w q).overlap = (subwindow w q).num / 2 := rfl
  refine ⟨by rw [hn]; omega, ?_, by rw [ho]; omega, by rw [ho]; omega, by rw [ho]; omega, rfl, rfl⟩
  rw [hn]
  have : (1 ≤ ⌊(w.num : ℚ) * q⌋) ↔ ((1 : ℤ) : ℚ) ≤ (w.num : ℚ) * q := Int.le_floor
  rw [Int.cast_one] at this
  rw [← this]
  omega

/-- C300: the number of samples is the fraction of the window, rounded down. -/
theorem C300_size_partial (w : Window) (q : ℚ) (h0 : 0 ≤ q) :
    ((subwindow w q).num : ℚ) ≤ w.num * q ∧ (w.num : ℚ) * q < (subwindow w q).num + 1 := by
  have hpos : 0 ≤ ⌊(w.num : ℚ) * q⌋ := Int.floor_nonneg.2 (mul_nonneg (Nat.cast_nonneg _) h0)
  have hn : ((subwindow w q).num : ℤ) = ⌊(w.num : ℚ) * q⌋ := by
    have : (subwindow w q).num = ⌊(w.num : ℚ) * q⌋.toNat := rfl
    rw [this]; omega
  have hc : ((subwindow w q).num : ℚ) = ((⌊(w.num : ℚ) * q⌋ : ℤ) : ℚ) := by rw [← hn]; rfl
  rw [hc]
  exact ⟨Int.floor_le _, Int.lt_floor_add_one _⟩

example : (subwindow ⟨"hann".toList, 256, 128, []⟩ (1 / 5)).num = 51 := by decide +kernel

/-! ## C301, C302: the stations of the channels of a coherence -/

/-- A station that takes part: the local one, or the remote one if there is one. -/
def Takes (loc : Str) (remote st : Option Str) : Prop :=
  st = some loc ∨ ∃ r, remote = some r ∧ r ≠ [] ∧ st = some r

/-- The channel is one of the remote station by its name. -/
def RemoteName (ch : Str) : Prop := ∃ t, ch = 'r' :: t ∨ ch = 'R' :: t

theorem truthy_iff (s : Option Str) : truthy s = true ↔ ∃ t, s = some t ∧ t ≠ [] := by
  cases s with
  | none => simp [truthy]
  | some t => cases t <;> simp [truthy]

theorem active_iff (loc : Str) (remote st : Option Str) :
    st ∈ active loc remote ↔ Takes loc remote st := by
  unfold active Takes
  by_cases h : truthy remote = true
  · rw [if_pos h]
    obtain ⟨r, rfl, hr⟩ := (truthy_iff _).1 h
    simp only [List.mem_cons, List.not_mem_nil, or_false]
    constructor
    · rintro (h | h)
      · exact .inl h
      · exact .inr ⟨r, rfl, hr, h⟩
    · rintro (h | ⟨r', e, _, h⟩)
      · exact .inl h
      · rw [h, ← e]; exact .inr rfl
  · rw [if_neg h]
    simp only [List.mem_singleton]
    constructor
    · exact .inl
    · rintro (h' | ⟨r, e, hr, _⟩)
      · exact h'
      · exact absurd ((truthy_iff _).2 ⟨r, e, hr⟩) h

theorem toLower_r (c : Char) : c.toLower = 'r' ↔ c = 'r' ∨ c = 'R' := by
  constructor
  · intro h
    rcases toLower_cases c with ⟨h1, _⟩ | ⟨h1, h2, h3⟩
    · exact .inl (h1.symm.trans h)
    · right
      rw [h] at h3
      have e : c.toNat = 'R'.toNat := by
        have : 'r'.toNat = 114 := by decide
        have : 'R'.toNat = 82 := by decide
        omega
      exact Char.toNat_inj.1 e
  · rintro (rfl | rfl) <;> decide

theorem remoteName_iff (ch : Str) : (lower ch).head? = some 'r' ↔ RemoteName ch := by
  cases ch with
  | nil => simp [lower, RemoteName]
  | cons c t =>
    have : (lower (c :: t)).head? = some c.toLower := rfl
    rw [this, Option.some_inj, toLower_r]
    constructor
    · rintro (rfl | rfl)
      · exact ⟨t, .inl rfl⟩
      · exact ⟨t, .inr rfl⟩
    · rintro ⟨t', h | h⟩
      · left; injection h
      · right; injection h

/-- The station of one channel afterwards. -/
theorem one_kept (loc : Str) (remote st : Option Str) (ch t : Str) (h : st = some t) (ht : t ≠ [])
    (ha : Takes loc remote st) : deduce loc remote ch (dropInactive loc remote st) = st := by
  have htr : truthy st = true := (truthy_iff _).2 ⟨t, h, ht⟩
  have hc : (active loc remote).contains st = true :=
    List.elem_eq_true_of_mem ((active_iff _ _ _).2 ha)
  simp only [dropInactive, htr, hc, Bool.not_true, Bool.and_false, Bool.false_eq_true, if_false, deduce,
    if_true]

theorem one_other (loc : Str) (remote st : Option Str) (ch : Str)
    (h : ¬ ∃ t, st = some t ∧ t ≠ [] ∧ Takes loc remote st) :
    (RemoteName ch → deduce loc remote ch (dropInactive loc remote st) = remote) ∧
    (¬ RemoteName ch → deduce loc remote ch (dropInactive loc remote st) = some loc) := by
  have hf : truthy (dropInactive loc remote st) = false := by
    by_cases htr : truthy st = true
    · obtain ⟨t, e, ht⟩ := (truthy_iff _).1 htr
      have hc : (active loc remote).contains st = false := by
        rw [Bool.eq_false_iff]
        intro hc
        exact h ⟨t, e, ht, (active_iff _ _ _).1 (List.mem_of_elem_eq_true hc)⟩
      simp only [dropInactive, htr, hc, Bool.not_false, Bool.and_true, if_true]
      rfl
    · have htr' : truthy st = false := by simpa using htr
      simp only [dropInactive, htr', Bool.false_and, Bool.false_eq_true, if_false]
  constructor
  · intro hr
    simp only [deduce, hf, Bool.false_eq_true, if_false, if_pos ((remoteName_iff ch).2 hr)]
  · intro hr
    simp only [deduce, hf, Bool.false_eq_true, if_false,
      if_neg (fun e => hr ((remoteName_iff ch).1 e))]

/-- C301, full statement: afterwards both channels belong to stations that take part. -/
def C301_claim : Prop :=
  ∀ (loc : Str) (remote : Option Str) (p : Pair), loc ≠ [] →
    Takes loc remote (validateStations loc remote p).st1 ∧
    Takes loc remote (validateStations loc remote p).st2

/-- C301 fails for a channel `rrhx` when there is no remote station: its station is `None`. -/
theorem C301_refuted : ¬ C301_claim := by
  intro h
  have := (h ['a'] none ⟨['r', 'x'], ['h', 'x'], none, none⟩ (by simp)).1
  have e : (validateStations ['a'] none ⟨['r', 'x'], ['h', 'x'], none, none⟩).st1 = none := by
    decide +kernel
  rw [e] at this
  rcases this with h | ⟨_, h, _⟩ <;> cases h

/-- C301: with a remote station both do. -/
theorem C301_remote_partial (loc r : Str) (p : Pair) (hr : r ≠ []) :
    Takes loc (some r) (validateStations loc (some r) p).st1 ∧
    Takes loc (some r) (validateStations loc (some r) p).st2 := by
  have key : ∀ ch st, Takes loc (some r) (deduce loc (some r) ch (dropInactive loc (some r) st)) := by
    intro ch st
    by_cases h : ∃ t, st = some t ∧ t ≠ [] ∧ Takes loc (some r) st
    · obtain ⟨t, e, ht, ha⟩ := h
      rw [one_kept _ _ _ _ t e ht ha]; exact ha
    · obtain ⟨h1, h2⟩ := one_other _ _ _ ch h
      by_cases hn : RemoteName ch
      · rw [h1 hn]; exact .inr ⟨r, rfl, hr, rfl⟩
      · rw [h2 hn]; exact .inl rfl
  exact ⟨key _ _, key _ _⟩

/-- C301: without one, a channel does unless its name is one of a remote station and its own station is not
the local one; then it has none. -/
theorem C301_single_partial (loc : Str) (p : Pair) (hl : loc ≠ []) :
    ((validateStations loc none p).st1 = some loc ∨ (validateStations loc none p).st1 = none) ∧
    ((validateStations loc none p).st1 = none ↔ RemoteName p.ch1 ∧ p.st1 ≠ some loc) ∧
    ((validateStations loc none p).st2 = some loc ∨ (validateStations loc none p).st2 = none) ∧
    ((validateStations loc none p).st2 = none ↔ RemoteName p.ch2 ∧ p.st2 ≠ some loc) := by
  have key : ∀ ch st, (deduce loc none ch (dropInactive loc none st) = some loc ∨
      deduce loc none ch (dropInactive loc none st) = none) ∧
      (deduce loc none ch (dropInactive loc none st) = none ↔ RemoteName ch ∧ st ≠ some loc) := by
    intro ch st
    by_cases h : st = some loc
    · rw [one_kept loc none st ch loc h hl (.inl h)]
      refine ⟨.inl h, ?_⟩
      rw [h]
      exact ⟨fun e => (by cases e), fun e => absurd rfl e.2⟩
    · have h' : ¬ ∃ t, st = some t ∧ t ≠ [] ∧ Takes loc none st := by
        rintro ⟨t, _, _, e | ⟨_, e, _⟩⟩
        · exact h e
        · cases e
      obtain ⟨h1, h2⟩ := one_other _ _ _ ch h'
      by_cases hn : RemoteName ch
      · rw [h1 hn]; exact ⟨.inr rfl, fun _ => ⟨hn, h⟩, fun _ => rfl⟩
      · rw [h2 hn]; exact ⟨.inl rfl, fun e => (by cases e), fun e => absurd e.1 hn⟩
  exact ⟨(key _ _).1, (key _ _).2, (key _ _).1, (key _ _).2⟩

/-- C302: a station that takes part stays, any other gives way to the one the name of the channel tells; the
channels stay. -/
theorem C302_first (loc : Str) (remote : Option Str) (p : Pair) :
    (∀ t, p.st1 = some t → t ≠ [] → Takes loc remote p.st1 →
      (validateStations loc remote p).st1 = p.st1) ∧
    ((¬ ∃ t, p.st1 = some t ∧ t ≠ [] ∧ Takes loc remote p.st1) →
      (RemoteName p.ch1 → (validateStations loc remote p).st1 = remote) ∧
      (¬ RemoteName p.ch1 → (validateStations loc remote p).st1 = some loc)) ∧
    (validateStations loc remote p).ch1 = p.ch1 :=
  ⟨fun t h ht ha => one_kept loc remote p.st1 p.ch1 t h ht ha, fun h => one_other _ _ _ _ h, rfl⟩

theorem C302_second (loc : Str) (remote : Option Str) (p : Pair) :
    (∀ t, p.st2 = some t → t ≠ [] → Takes loc remote p.st2 →
      (validateStations loc remote p).st2 = p.st2) ∧
    ((¬ ∃ t, p.st2 = some t ∧ t ≠ [] ∧ Takes loc remote p.st2) →
      (RemoteName p.ch2 → (validateStations loc remote p).st2 = remote) ∧
      (¬ RemoteName p.ch2 → (validateStations loc remote p).st2 = some loc)) ∧
    (validateStations loc remote p).ch2 = p.ch2 :=
  ⟨fun t h ht ha => one_kept loc remote p.st2 p.ch2 t h ht ha, fun h => one_other _ _ _ _ h, rfl⟩

/-- C302: a second call with the same stations changes nothing. -/
theorem C302_again (loc : Str) (remote : Option Str) (p : Pair) :
    validateStations loc remote (validateStations loc remote p) = validateStations loc remote p := by
  have key : ∀ ch st, deduce loc remote ch (dropInactive loc remote
      (deduce loc remote ch (dropInactive loc remote st))) =
      deduce loc remote ch (dropInactive loc remote st) := by
    intro ch st
    by_cases h : ∃ t, st = some t ∧ t ≠ [] ∧ Takes loc remote st
    · obtain ⟨t, e, ht, ha⟩ := h
      rw [one_kept _ _ _ _ t e ht ha, one_kept _ _ _ _ t e ht ha]
    · obtain ⟨h1, h2⟩ := one_other _ _ _ ch h
      by_cases hn : RemoteName ch
      · rw [h1 hn]
        by_cases h' : ∃ t, remote = some t ∧ t ≠ [] ∧ Takes loc remote remote
        · obtain ⟨t, e, ht, ha⟩ := h'
          exact one_kept _ _ _ _ t e ht ha
        · exact (one_other _ _ _ ch h').1 hn
      · rw [h2 hn]
        by_cases h' : ∃ t, some loc = some t ∧ t ≠ [] ∧ Takes loc remote (some loc)
        · obtain ⟨t, e, ht, ha⟩ := h'
          exact one_kept _ _ _ _ t e ht ha
        · exact (one_other _ _ _ ch h').2 hn
  simp only [validateStations, key]

example : validateStations ['a'] (some ['b']) ⟨['h', 'x'], ['R', 'x'], some ['c'], none⟩ =
    ⟨['h', 'x'], ['R', 'x'], some ['a'], some ['b']⟩ := by decide +kernel

/-! ## C303, C304: the class of a feature -/

/-- A value wrapped in dictionaries, the outermost first; each has a name of its own or none. -/
def wrapped (names : List (Option Str)) (v : FVal) : FVal := names.foldr FVal.dict v

theorem unwrapAll_wrapped (ns : List (Option Str)) (v : FVal) : unwrapAll (wrapped ns v) = unwrapAll v := by
  induction ns with
  | nil => rfl
  | cons n ns ih => exact ih

theorem unwrapDicts_leaf (ns : List (Option Str)) (m : Option Str) :
    unwrapDicts (wrapped ns (.leaf m)) = .leaf m := by
  induction ns with
  | nil => rfl
  | cons n ns ih =>
    cases ns with
    | nil => rfl
    | cons k ns => exact ih

theorem specFeature_leaf (ns : List (Option Str)) (m : Option Str) :
    specFeature (wrapped ns (.leaf m)) = .ok (classOr m) := by
  have h := unwrapAll_wrapped ns (.leaf m)
  have hu := unwrapDicts_leaf ns m
  cases m with
  | none =>
    have hp : preProcess (wrapped ns (.leaf none)) = wrapped ns (.leaf none) := by
      simp only [preProcess, h, unwrapAll]
    simp only [specFeature, hp, validateFeature, hu]
  | some n =>
    cases hc : classOf n with
    | none =>
      have hp : preProcess (wrapped ns (.leaf (some n))) = wrapped ns (.leaf (some n)) := by
        simp only [preProcess, h, unwrapAll, hc]
      simp only [specFeature, hp, validateFeature, hu]
    | some c =>
      have hp : preProcess (wrapped ns (.leaf (some n))) = .obj c := by
        simp only [preProcess, h, unwrapAll, hc]
      simp only [specFeature, hp, validateFeature, unwrapDicts, classOr, Option.bind, hc, Option.getD]

/-- C303: the description of a feature, however often it is wrapped, gives the class its own name tells. -/
theorem C303_named (ns : List (Option Str)) :
    specFeature (wrapped ns (.leaf (some "coherence".toList))) = .ok .coherence ∧
    specFeature (wrapped ns (.leaf (some "fc_coherence".toList))) = .ok .fc ∧
    specFeature (wrapped ns (.leaf (some "striding_window_coherence".toList))) = .ok .striding ∧
    specFeature (wrapped ns (.leaf (some "base".toList))) = .ok .base := by
  refine ⟨?_, ?_, ?_, ?_⟩ <;> rw [specFeature_leaf] <;> decide +kernel

/-- C303: without a name, or with another one, it is a plain feature. -/
theorem C303_other (ns : List (Option Str)) (m : Option Str)
    (h : ∀ n ∈ ["coherence", "fc_coherence", "striding_window_coherence"], m ≠ some n.toList) :
    specFeature (wrapped ns (.leaf m)) = .ok .base := by
  rw [specFeature_leaf]
  congr 1
  cases m with
  | none => rfl
  | some n =>
    have h1 : n ≠ "coherence".toList := fun e => h "coherence" (by simp) (by rw [e])
    have h2 : n ≠ "fc_coherence".toList := fun e => h "fc_coherence" (by simp) (by rw [e])
    have h3 : n ≠ "striding_window_coherence".toList :=
      fun e => h "striding_window_coherence" (by simp) (by rw [e])
    simp only [classOr, Option.bind, classOf, if_neg h1, if_neg h2, if_neg h3]
    split <;> rfl

/-- C304, full statement: a feature object, however often it is wrapped, keeps its class. -/
def C304_claim : Prop := ∀ (ns : List (Option Str)) (c : FClass), specFeature (wrapped ns (.obj c)) = .ok c

/-- C304 fails for an object inside one dictionary: it becomes a plain feature. -/
theorem C304_refuted : ¬ C304_claim := fun h =>
  absurd (h [none] .coherence) (by decide +kernel)

/-- C304: given as it is, it keeps its class. -/
theorem C304_plain_partial (c : FClass) : specFeature (.obj c) = .ok c := by
  cases c <;> rfl

theorem unwrapDicts_obj (ns : List (Option Str)) (n : Option Str) (c : FClass) :
    unwrapDicts (wrapped (ns ++ [n]) (.obj c)) = .dict n (.obj c) := by
  induction ns with
  | nil => rfl
  | cons k ns ih =>
    cases ns with
    | nil => rfl
    | cons m ns => exact ih

/-- C304: wrapped, the class is the one named by the innermost dictionary, whatever the object is. -/
theorem C304_wrapped_partial (ns : List (Option Str)) (n : Option Str) (c : FClass) :
    specFeature (wrapped (ns ++ [n]) (.obj c)) = specFeature (.leaf n) := by
  have h := unwrapAll_wrapped (ns ++ [n]) (.obj c)
  have hp : preProcess (wrapped (ns ++ [n]) (.obj c)) = wrapped (ns ++ [n]) (.obj c) := by
    simp only [preProcess, h, unwrapAll]
  have e := specFeature_leaf [] n
  have e' : wrapped [] (.leaf n) = .leaf n := rfl
  rw [e'] at e
  rw [e, specFeature, hp, validateFeature, unwrapDicts_obj]

/-! ## C305: remote stations -/

/-- C305, full statement: the stations assigned to `remote` are marked as remote. -/
def C305_claim : Prop := ∀ v l, validateRemote v = .ok l → ∀ s ∈ l, s.remote = true

/-- C305 fails for a list: its stations keep their mark. -/
theorem C305_refuted : ¬ C305_claim := fun h =>
  absurd (h (.list [.station {}]) [{}] rfl {} (List.mem_cons_self ..)) (by decide)

/-- C305: a single station or dictionary is marked, and nothing else about it changes. -/
theorem C305_single_partial (s : Aurora.Station) :
    validateRemote (.one s) = .ok [⟨s.id, s.path, true, s.runs⟩] ∧
    validateRemote (.dict s) = .ok [⟨s.id, s.path, true, s.runs⟩] := ⟨rfl, rfl⟩

/-- C305: a list of stations and dictionaries gives these stations, in order, with the marks they came
with; one item of another kind is an error. -/
theorem C305_list_partial (l : List Item) :
    (∀ r, validateRemote (.list l) = .ok r ↔
      l.map (fun i => match i with | .station s => some s | .dict s => some s | .other => none) =
        r.map some) ∧
    (Item.other ∈ l → validateRemote (.list l) = .error .typeError) := by
  constructor
  · induction l with
    | nil =>
      intro r
      constructor
      · intro h; injection h with h; rw [← h]; rfl
      · intro h
        cases r with
        | nil => rfl
        | cons _ _ => cases h
    | cons i l ih =>
      intro r
      have step : ∀ s, item i = .ok s → (validateRemote (.list (i :: l)) = .ok r ↔
          ∃ t, validateRemote (.list l) = .ok t ∧ r = s :: t) := by
        intro s hs
        simp only [validateRemote, items, hs, Except.bind]
        cases items l with
        | error e => simp
        | ok t =>
          simp only [Except.ok.injEq]
          exact ⟨fun h => ⟨t, rfl, h.symm⟩, fun ⟨t', h1, h2⟩ => by rw [h2, h1]⟩
      have fin : ∀ s, (∃ t, validateRemote (.list l) = .ok t ∧ r = s :: t) ↔
          some s :: l.map (fun i => match i with
            | .station s => some s | .dict s => some s | .other => none) = r.map some := by
        intro s
        constructor
        · rintro ⟨t, h1, rfl⟩
          rw [(ih t).1 h1]; rfl
        · intro h
          cases r with
          | nil => cases h
          | cons a t =>
            simp only [List.map_cons, List.cons.injEq, Option.some.injEq] at h
            exact ⟨t, (ih t).2 h.2, by rw [h.1]⟩
      cases i with
      | station s => exact (step s rfl).trans (fin s)
      | dict s => exact (step s rfl).trans (fin s)
      | other =>
        constructor
        · intro h; cases h
        · intro h
          cases r with
          | nil => cases h
          | cons a t => simp at h
  · intro h
    show items l = _
    induction l with
    | nil => cases h
    | cons i l ih =>
      cases i with
      | other => rfl
      | station s =>
        have hm : Item.other ∈ l := by
          rcases List.mem_cons.1 h with e | e
          · cases e
          · exact e
        simp only [items, item, Except.bind, ih hm]
      | dict s =>
        have hm : Item.other ∈ l := by
          rcases List.mem_cons.1 h with e | e
          · cases e
          · exact e
        simp only [items, item, Except.bind, ih hm]

/-- C305: a text of up to four characters stands for no station, a longer one is an error. -/
theorem C305_text_partial (s : Str) :
    validateRemote (.text s) = if s.length ≤ 4 then .ok [] else .error .valueError := by
  by_cases h : s.length ≤ 4
  · rw [if_pos h]; exact if_neg (by omega)
  · rw [if_neg h]; exact if_pos (by omega)

/-! ## C306, C307: the engine and the remote station -/

theorem foldl_remote (df : List Aurora.Row) (names : List String) (st : Aurora.Stations) :
    ∃ l, (names.foldl (fun acc n => Aurora.addRemote acc (Aurora.fromDf {} (Aurora.rowsOf df n))) st).remote
      = st.remote ++ l ∧ l.length = names.length ∧
      (names.foldl (fun acc n => Aurora.addRemote acc (Aurora.fromDf {} (Aurora.rowsOf df n))) st).loc =
        st.loc := by
  induction names generalizing st with
  | nil => exact ⟨[], by simp, rfl, rfl⟩
  | cons n names ih =>
    obtain ⟨l, h1, h2, h3⟩ := ih (Aurora.addRemote st (Aurora.fromDf {} (Aurora.rowsOf df n)))
    refine ⟨{ Aurora.fromDf {} (Aurora.rowsOf df n) with remote := true } :: l, ?_, by simp [h2], ?_⟩
    · rw [List.foldl_cons, h1]
      simp [Aurora.addRemote]
    · rw [List.foldl_cons, h3]; rfl

theorem singleStation_ne (e : Engine) : singleStation e ≠ .rmeRR := by cases e <;> decide

theorem fromDf_remote (st st' : Aurora.Stations) (df : List Aurora.Row)
    (h : Aurora.stationsFromDf st df = .ok st') : ∃ l, st'.remote = st.remote ++ l := by
  unfold Aurora.stationsFromDf at h
  split at h
  · injection h with h; exact ⟨[], by rw [← h]; simp⟩
  · split at h
    · cases h
    · injection h with h
      rename_i name _ _
      obtain ⟨l, h1, _⟩ := foldl_remote df
        (Aurora.unique ((df.filter fun w => w.remote).map Aurora.Row.station))
        { st with loc := Aurora.fromDf st.loc (Aurora.rowsOf df name) }
      exact ⟨l, by rw [← h, h1]⟩

/-- The outcome, field by field. -/
theorem validate_cases (p p' : Proc) (df : List Aurora.Row) (h : validateProcessing p df = .ok p') :
    p'.engines = (if p.stations.remote.isEmpty then p.engines.map singleStation else p.engines) ∧
    (p.stations.loc.id ≠ "" → p'.stations = p.stations) ∧
    (p.stations.loc.id = "" → Aurora.stationsFromDf p.stations df = .ok p'.stations) := by
  unfold validateProcessing at h
  by_cases hid : p.stations.loc.id = ""
  · simp only [if_pos hid] at h
    cases hs : Aurora.stationsFromDf p.stations df with
    | error e => rw [hs] at h; cases h
    | ok st =>
      rw [hs] at h
      simp only [Except.bind, Except.ok.injEq] at h
      subst h
      exact ⟨rfl, fun e => absurd hid e, fun _ => rfl⟩
  · simp only [if_neg hid, Except.ok.injEq] at h
    subst h
    exact ⟨rfl, fun _ => rfl, fun e => absurd e hid⟩

/-- C306: after the validation no decimation level asks for a remote reference that is not there. -/
theorem C306_no_remote (p p' : Proc) (df : List Aurora.Row) (h : validateProcessing p df = .ok p')
    (hr : p'.stations.remote = []) : Engine.rmeRR ∉ p'.engines := by
  obtain ⟨h1, h2, h3⟩ := validate_cases p p' df h
  have : p.stations.remote = [] := by
    by_cases hid : p.stations.loc.id = ""
    · obtain ⟨l, hl⟩ := fromDf_remote _ _ _ (h3 hid)
      rw [hr] at hl
      cases hp : p.stations.remote with
      | nil => rfl
      | cons _ _ => rw [hp] at hl; cases hl
    · rw [← h2 hid]; exact hr
  rw [h1, this]
  intro hm
  obtain ⟨e, _, he⟩ := List.mem_map.1 hm
  exact singleStation_ne e he

/-- C306: there are as many levels as before, and only `RME_RR` is ever replaced, by `RME`. -/
theorem C306_levels (p p' : Proc) (df : List Aurora.Row) (h : validateProcessing p df = .ok p') :
    p'.engines.length = p.engines.length ∧
    ∀ k (hk : k < p.engines.length) (hk' : k < p'.engines.length), p'.engines[k] = p.engines[k] ∨
      (p.engines[k] = .rmeRR ∧ p'.engines[k] = .rme) := by
  obtain ⟨h1, _, _⟩ := validate_cases p p' df h
  have hs : ∀ e, singleStation e = e ∨ (e = .rmeRR ∧ singleStation e = .rme) := by
    intro e; cases e <;> decide
  by_cases he : p.stations.remote.isEmpty = true
  · rw [if_pos he] at h1
    refine ⟨by rw [h1, List.length_map], ?_⟩
    intro k hk hk'
    have : p'.engines[k] = singleStation p.engines[k] := by simp [h1]
    rw [this]
    exact hs _
  · rw [if_neg he] at h1
    exact ⟨by rw [h1], fun k hk hk' => .inl (by simp [h1])⟩

/-- C306: a local station without an id is replaced by the first one of the data set that is not remote; one
with an id stays. -/
theorem C306_local (p p' : Proc) (df : List Aurora.Row) (h : validateProcessing p df = .ok p') :
    (p.stations.loc.id ≠ "" → p'.stations = p.stations) ∧
    (p.stations.loc.id = "" → ∀ w, (df.filter fun w => !w.remote).head? = some w →
      p'.stations.loc.id = w.station) := by
  obtain ⟨_, h2, h3⟩ := validate_cases p p' df h
  refine ⟨h2, ?_⟩
  intro hid w hw
  have hs := h3 hid
  cases hf : df.filter fun w => !w.remote with
  | nil => rw [hf] at hw; cases hw
  | cons w' ws =>
    rw [hf] at hw
    injection hw with hw
    subst hw
    have hmem : w' ∈ df := (List.mem_filter.1 (hf ▸ List.mem_cons_self ..)).1
    have hne : df ≠ [] := fun e => by rw [e] at hmem; cases hmem
    simp only [Aurora.stationsFromDf, if_neg hne, hf, List.map_cons, Aurora.unique,
      Except.ok.injEq] at hs
    obtain ⟨_, _, _, hl⟩ := foldl_remote df
      (Aurora.unique ((df.filter fun w => w.remote).map Aurora.Row.station))
      { p.stations with loc := Aurora.fromDf p.stations.loc (Aurora.rowsOf df w'.station) }
    rw [← hs, hl]
    show (Aurora.fromDf p.stations.loc (Aurora.rowsOf df w'.station)).id = w'.station
    have hin : w' ∈ Aurora.rowsOf df w'.station :=
      List.mem_filter.2 ⟨hmem, by simp⟩
    cases hr : Aurora.rowsOf df w'.station with
    | nil => rw [hr] at hin; cases hin
    | cons v vs =>
      have hv : v ∈ Aurora.rowsOf df w'.station := hr ▸ List.mem_cons_self ..
      have := (List.mem_filter.1 hv).2
      simpa [Aurora.fromDf] using this

/-- C307, full statement: with a remote station after the validation the engines are kept. -/
def C307_claim : Prop :=
  ∀ (p p' : Proc) (df : List Aurora.Row), validateProcessing p df = .ok p' → p'.stations.remote ≠ [] →
    p'.engines = p.engines

/-- A data frame with a local and a remote station. -/
def twoRows : List Aurora.Row :=
  [⟨"a", "1", 0, 1, "", 1, [], [], false, none⟩, ⟨"b", "1", 0, 1, "", 1, [], [], true, none⟩]

/-- C307 fails when the stations are still to be taken from the data set: the engine is changed for want of a
remote station before the remote station is read. -/
theorem C307_refuted : ¬ C307_claim := by
  intro h
  have hc : ∃ p', validateProcessing ⟨{}, [.rmeRR]⟩ twoRows = .ok p' ∧ p'.stations.remote ≠ [] ∧
      p'.engines ≠ [.rmeRR] := by
    refine ⟨⟨⟨⟨"a", "", false, [⟨"1", [], [], [(0, 1)], 1⟩]⟩, [⟨"b", "", true, [⟨"1", [], [], [(0, 1)], 1⟩]⟩]⟩,
      [.rme]⟩, ?_, ?_, ?_⟩ <;> decide +kernel
  obtain ⟨p', h1, h2, h3⟩ := hc
  exact h3 (h _ _ _ h1 h2)

/-- C307: with a remote station beforehand they are kept, and so are the stations if the local one has an
id. -/
theorem C307_kept_partial (p : Proc) (df : List Aurora.Row) (hr : p.stations.remote ≠ []) :
    (∀ p', validateProcessing p df = .ok p' → p'.engines = p.engines) ∧
    (p.stations.loc.id ≠ "" → validateProcessing p df = .ok p) := by
  have he : p.stations.remote.isEmpty = false := by
    cases hp : p.stations.remote with
    | nil => exact absurd hp hr
    | cons _ _ => rfl
  constructor
  · intro p' h
    have := (validate_cases p p' df h).1
    rw [this, he]; rfl
  · intro hid
    simp only [validateProcessing, he, if_neg hid, Bool.false_eq_true, if_false]

end Verif.Features
