import Mathlib.Tactic.LinearCombination
import Mathlib.Tactic.FinCases
import Mathlib.Tactic.FieldSimp
import Mathlib.Analysis.Complex.Order
import Mathlib.Analysis.RCLike.Basic
import Mathlib.Analysis.Complex.Basic
import Mathlib.Algebra.BigOperators.Field
import Mathlib.LinearAlgebra.Matrix.PosDef
import Verif.Model.EdiSpectra

/-! # Impedances from the spectra of EDI files (C131, C132) -/

namespace Verif.EdiSpectra
open Matrix

variable {n : ℕ}

/-- The numbers of the file are the cross powers of the samples `X t c` of the channels: powers on the
diagonal, for channels `i < j` the real part of `⟨X j, X i⟩` below and the imaginary part above the
diagonal. -/
structure Holds (p : Spec n) {ι : Type} [Fintype ι] (X : ι → Fin n → ℂ) : Prop where
  diag : ∀ i, (p.arr i i : ℂ) = ∑ t, X t i * star (X t i)
  real : ∀ i j, i < j → p.arr j i = (∑ t, X t j * star (X t i)).re
  imag : ∀ i j, i < j → p.arr i j = (∑ t, X t j * star (X t i)).im

theorem sArr_eq {p : Spec n} {ι : Type} [Fintype ι] {X : ι → Fin n → ℂ} (h : Holds p X) (i j : Fin n) :
    sArr p i j = ∑ t, X t i * star (X t j) := by
  unfold sArr
  split_ifs with h1 h2
  · subst h1; exact h.diag i
  · rw [h.real i j h2, h.imag i j h2]
    have : ∑ t, X t i * star (X t j) = star (∑ t, X t j * star (X t i)) := by
      rw [star_sum]
      exact Finset.sum_congr rfl fun t _ => by rw [star_mul', star_star, mul_comm]
    rw [this]
    rfl
  · have h3 : j < i := lt_of_le_of_ne (not_lt.1 h2) (Ne.symm h1)
    rw [h.real j i h3, h.imag j i h3]

/-- Samples of a list of channels, as a matrix. -/
def rows {k : ℕ} {ι : Type} (X : ι → Fin n → ℂ) (c : Fin k → Fin n) : Matrix (Fin k) ι ℂ := fun a t => X t (c a)

theorem cross_eq {p : Spec n} {ι : Type} [Fintype ι] {X : ι → Fin n → ℂ} (h : Holds p X) {k l : ℕ} (a : Fin k → Fin n)
    (b : Fin l → Fin n) : (fun i j => sArr p (a i) (b j)) = rows X a * (rows X b)ᴴ := by
  ext i j
  rw [sArr_eq h, Matrix.mul_apply]
  rfl

section
variable {p : Spec n} {ι : Type} [Fintype ι] {X : ι → Fin n → ℂ} (h : Holds p X)
include h

theorem rh_eq : rh p = rows X ![p.rhx, p.rhy] * (rows X ![p.hx, p.hy])ᴴ := by
  rw [← cross_eq h]; ext i j; fin_cases i <;> fin_cases j <;> rfl
theorem rr_eq : rr p = rows X ![p.rhx, p.rhy] * (rows X ![p.rhx, p.rhy])ᴴ := by
  rw [← cross_eq h]; ext i j; fin_cases i <;> fin_cases j <;> rfl
theorem hh_eq : hh p = rows X ![p.hx, p.hy] * (rows X ![p.hx, p.hy])ᴴ := by
  rw [← cross_eq h]; ext i j; fin_cases i <;> fin_cases j <;> rfl
theorem re3_eq (hz : Fin n) : re3 p hz = rows X ![p.rhx, p.rhy] * (rows X ![p.ex, p.ey, hz])ᴴ := by
  rw [← cross_eq h]; ext i j; fin_cases i <;> fin_cases j <;> rfl
theorem he3_eq (hz : Fin n) : he3 p hz = rows X ![p.hx, p.hy] * (rows X ![p.ex, p.ey, hz])ᴴ := by
  rw [← cross_eq h]; ext i j; fin_cases i <;> fin_cases j <;> rfl
theorem ee3_eq (hz : Fin n) : ee3 p hz = rows X ![p.ex, p.ey, hz] * (rows X ![p.ex, p.ey, hz])ᴴ := by
  rw [← cross_eq h]; ext i j; fin_cases i <;> fin_cases j <;> rfl
end

/-- The transfer function solves the normal equations, and only it. -/
theorem tf_iff {m : ℕ} {ι : Type} [Fintype ι] (R H : Matrix (Fin 2) ι ℂ) (E : Matrix (Fin m) ι ℂ)
    (hd : (R * Hᴴ).det ≠ 0) (T : Matrix (Fin m) (Fin 2) ℂ) :
    T = tf (R * Hᴴ) (R * Eᴴ) ↔ (E - T * H) * Rᴴ = 0 := by
  have hu : IsUnit (R * Hᴴ).det := isUnit_iff_ne_zero.2 hd
  unfold tf
  constructor
  · intro hT
    have h1 : R * Hᴴ * Tᴴ = R * Eᴴ := by
      rw [hT, Matrix.conjTranspose_conjTranspose, ← Matrix.mul_assoc, Matrix.mul_nonsing_inv _ hu, Matrix.one_mul]
    have h2 := congrArg Matrix.conjTranspose h1
    simp only [Matrix.conjTranspose_mul, Matrix.conjTranspose_conjTranspose] at h2
    rw [Matrix.sub_mul, Matrix.mul_assoc, h2, sub_self]
  · intro hT
    rw [Matrix.sub_mul, sub_eq_zero] at hT
    have h1 := congrArg Matrix.conjTranspose hT
    simp only [Matrix.conjTranspose_mul, Matrix.conjTranspose_conjTranspose] at h1
    have h2 : Tᴴ = (R * Hᴴ)⁻¹ * (R * Eᴴ) := by
      rw [h1, ← Matrix.mul_assoc R, ← Matrix.mul_assoc, Matrix.nonsing_inv_mul _ hu, Matrix.one_mul]
    rw [← h2, Matrix.conjTranspose_conjTranspose]

/-- The stored impedance and tipper as one matrix. -/
def full (r : Result) : Matrix (Fin 3) (Fin 2) ℂ := ![r.z 0, r.z 1, r.t]

theorem full_tf {p : Spec n} {hz : Fin n} (hh : p.hz = some hz) : full (readSpectra p) = tf (rh p) (re3 p hz) := by
  unfold readSpectra
  rw [hh]
  ext i j
  fin_cases i <;> rfl

/-- With a vertical channel (5 and 7 channels): the transfer function of the result is the one whose
residuals are uncorrelated with the reference channels, whatever the samples. -/
theorem C131_partial (p : Spec n) (hz : Fin n) (hhz : p.hz = some hz) {ι : Type} [Fintype ι] (X : ι → Fin n → ℂ)
    (h : Holds p X) (hd : (rh p).det ≠ 0) (T : Matrix (Fin 3) (Fin 2) ℂ) :
    T = full (readSpectra p) ↔
      ∀ o : Fin 3, ∀ r ∈ [p.rhx, p.rhy],
        ∑ t, (X t (![p.ex, p.ey, hz] o) - (T o 0 * X t p.hx + T o 1 * X t p.hy)) * star (X t r) = 0 := by
  rw [full_tf hhz, rh_eq h, re3_eq h, tf_iff _ _ _ (by rw [← rh_eq h]; exact hd)]
  have key : ∀ (o : Fin 3) (k : Fin 2), ((rows X ![p.ex, p.ey, hz] - T * rows X ![p.hx, p.hy]) * (rows X ![p.rhx, p.rhy])ᴴ) o k =
      ∑ t, (X t (![p.ex, p.ey, hz] o) - (T o 0 * X t p.hx + T o 1 * X t p.hy)) * star (X t (![p.rhx, p.rhy] k)) := by
    intro o k
    rw [Matrix.mul_apply]
    refine Finset.sum_congr rfl fun t _ => ?_
    rw [Matrix.sub_apply, Matrix.mul_apply, Fin.sum_univ_two]
    rfl
  constructor
  · intro hT o r hr
    simp only [List.mem_cons, List.not_mem_nil, or_false] at hr
    rcases hr with rfl | rfl
    · exact (key o 0).symm.trans (by rw [hT]; rfl)
    · exact (key o 1).symm.trans (by rw [hT]; rfl)
  · intro hT
    ext o k
    rw [key, Matrix.zero_apply]
    apply hT
    fin_cases k <;> simp

/-- In particular, fields that obey an impedance and a tipper give them back. -/
theorem C131_exact_partial (p : Spec n) (hz : Fin n) (hhz : p.hz = some hz) {ι : Type} [Fintype ι] (X : ι → Fin n → ℂ)
    (h : Holds p X) (hd : (rh p).det ≠ 0) (Z : Matrix (Fin 2) (Fin 2) ℂ) (T : Fin 2 → ℂ)
    (hEx : ∀ t, X t p.ex = Z 0 0 * X t p.hx + Z 0 1 * X t p.hy)
    (hEy : ∀ t, X t p.ey = Z 1 0 * X t p.hx + Z 1 1 * X t p.hy)
    (hHz : ∀ t, X t hz = T 0 * X t p.hx + T 1 * X t p.hy) :
    (readSpectra p).z = Z ∧ (readSpectra p).t = T := by
  have := (C131_partial p hz hhz X h hd (![Z 0, Z 1, T])).2 (by
    intro o r _
    refine Finset.sum_eq_zero fun t _ => ?_
    fin_cases o
    · change (X t p.ex - (Z 0 0 * X t p.hx + Z 0 1 * X t p.hy)) * _ = 0
      rw [hEx, sub_self, zero_mul]
    · change (X t p.ey - (Z 1 0 * X t p.hx + Z 1 1 * X t p.hy)) * _ = 0
      rw [hEy, sub_self, zero_mul]
    · change (X t hz - (T 0 * X t p.hx + T 1 * X t p.hy)) * _ = 0
      rw [hHz, sub_self, zero_mul])
  constructor
  · ext i j
    have := congrFun (congrFun this (Fin.castSucc i)) j
    fin_cases i <;> exact this.symm
  · have := congrFun this 2
    exact this.symm

/-- Full claim: the same for files with and without a vertical channel. -/
def C131_claim : Prop := ∀ (n : ℕ) (p : Spec n) (ι : Type) [Fintype ι] (X : ι → Fin n → ℂ), Holds p X →
  (∀ i j, sArr p i j ≠ 0) → (rh p).det ≠ 0 → ∀ Z : Matrix (Fin 2) (Fin 2) ℂ,
    (∀ t, X t p.ex = Z 0 0 * X t p.hx + Z 0 1 * X t p.hy) → (∀ t, X t p.ey = Z 1 0 * X t p.hx + Z 1 1 * X t p.hy) →
    (readSpectra p).z = Z

/-- Four channels, two samples: `hx = (2, 1)`, `hy = (1, 2)`, `ex = hx + hy`, `ey = hx + 2 hy`. -/
def four : Spec 4 where
  arr := !![5, 0, 0, 0; 4, 5, 0, 0; 9, 9, 18, 0; 13, 14, 27, 41]
  avgt := 2
  hx := 0
  hy := 1
  ex := 2
  ey := 3
  rhx := 0
  rhy := 1
  hz := none

def fourX : Fin 2 → Fin 4 → ℂ := ![![2, 1, 3, 4], ![1, 2, 3, 5]]

theorem four_holds : Holds four fourX where
  diag := by intro i; fin_cases i <;> norm_num [four, fourX, Fin.sum_univ_two, map_ofNat]
  real := by
    intro i j h
    fin_cases i <;> fin_cases j <;> first | exact absurd h (by decide) | norm_num [four, fourX, Fin.sum_univ_two, map_ofNat]
  imag := by
    intro i j h
    fin_cases i <;> fin_cases j <;> first | exact absurd h (by decide) | norm_num [four, fourX, Fin.sum_univ_two, map_ofNat]

theorem four_s : sArr four = !![5, 4, 9, 13; 4, 5, 9, 14; 9, 9, 18, 27; 13, 14, 27, 41] := by
  ext i j
  rw [sArr_eq four_holds]
  fin_cases i <;> fin_cases j <;> norm_num [fourX, Fin.sum_univ_two, map_ofNat]

theorem four_rh : rh four = !![5, 4; 4, 5] := by
  unfold rh
  rw [four_s]
  simp [four]

theorem four_re : re2 four = !![9, 13; 14, 0] := by
  unfold re2
  rw [four_s]
  ext i j
  fin_cases i <;> fin_cases j <;> simp [four, setE]

theorem C131_refuted : ¬ C131_claim := by
  intro h
  have h1 := h 4 four (Fin 2) fourX four_holds
    (by intro i j; rw [four_s]; fin_cases i <;> fin_cases j <;> simp)
    (by rw [four_rh, Matrix.det_fin_two]; norm_num) !![1, 1; 1, 2]
    (by intro t; fin_cases t <;> norm_num [four, fourX] <;> rfl) (by intro t; fin_cases t <;> norm_num [four, fourX] <;> rfl)
  have h2 : (readSpectra four).z = tf (rh four) (re2 four) := rfl
  rw [h2] at h1
  unfold tf at h1
  rw [four_rh, four_re] at h1
  have hinv : (!![5, 4; 4, 5] : Matrix (Fin 2) (Fin 2) ℂ)⁻¹ = !![5 / 9, -4 / 9; -4 / 9, 5 / 9] := by
    apply Matrix.inv_eq_right_inv
    ext i j
    fin_cases i <;> fin_cases j <;> norm_num [Matrix.mul_apply, Fin.sum_univ_two]
  rw [hinv] at h1
  have h3 := congrFun (congrFun h1 0) 0
  simp only [Matrix.conjTranspose_apply, Matrix.mul_apply, Fin.sum_univ_two, Matrix.of_apply, Matrix.cons_val', Matrix.cons_val_zero,
    Matrix.cons_val_one, Matrix.cons_val_fin_one] at h3
  have h4 := congrArg Complex.re h3
  norm_num at h4

/-! ## Errors -/

open ComplexOrder

theorem res_eq {m : ℕ} {ι : Type} [Fintype ι] (R H : Matrix (Fin 2) ι ℂ) (E : Matrix (Fin m) ι ℂ) (avgt : ℝ) :
    res (R * Hᴴ) (H * Hᴴ) (R * Eᴴ) (H * Eᴴ) (E * Eᴴ) avgt =
      (avgt : ℂ)⁻¹ • ((E - tf (R * Hᴴ) (R * Eᴴ) * H) * (E - tf (R * Hᴴ) (R * Eᴴ) * H)ᴴ) := by
  unfold res
  congr 1
  have hT : (R * Hᴴ)⁻¹ * (R * Eᴴ) = (tf (R * Hᴴ) (R * Eᴴ))ᴴ := by
    unfold tf; rw [Matrix.conjTranspose_conjTranspose]
  rw [hT]
  generalize tf (R * Hᴴ) (R * Eᴴ) = T
  simp only [Matrix.conjTranspose_sub, Matrix.conjTranspose_mul, Matrix.conjTranspose_conjTranspose, Matrix.sub_mul,
    Matrix.mul_sub, Matrix.mul_assoc]
  abel

/-- With a vertical channel: the squares of the errors are the variance of the residuals (mean over the
averages) times the diagonal of `sig`, and `sig` is the inverse of `Hᴴ-R` power, `rhᴴ rr⁻¹ rh`; an error is
one instead of zero, so never zero. -/
theorem C132_partial (p : Spec n) (hz : Fin n) (hhz : p.hz = some hz) {ι : Type} [Fintype ι] (X : ι → Fin n → ℂ)
    (h : Holds p X) (hd : (rh p).det ≠ 0) (hr : (rr p).det ≠ 0) (ha : 0 < p.avgt)
    (P : Matrix (Fin 2) (Fin 2) ℂ) (hP : P * ((rh p)ᴴ * (rr p)⁻¹ * rh p) = 1) :
    let r := readSpectra p
    let D : Fin 3 → ι → ℂ := fun o t =>
      X t (![p.ex, p.ey, hz] o) - (full r o 0 * X t p.hx + full r o 1 * X t p.hy)
    let err : Fin 3 → Fin 2 → ℝ := ![r.zErr 0, r.zErr 1, r.tErr]
    ∀ o b, let v := (∑ t, ‖D o t‖ ^ 2) / p.avgt * (P b b).re
      0 ≤ v ∧ (v ≠ 0 → err o b = Real.sqrt v) ∧ (v = 0 → err o b = 1) := by
  intro r D err o b v
  have hu : IsUnit (rh p).det := isUnit_iff_ne_zero.2 hd
  have huH : IsUnit ((rh p)ᴴ).det := by rw [Matrix.det_conjTranspose]; exact hu.star
  have hur : IsUnit (rr p).det := isUnit_iff_ne_zero.2 hr
  have hsig : sig (rh p) (rr p) = P := by
    have h1 : sig (rh p) (rr p) * ((rh p)ᴴ * (rr p)⁻¹ * rh p) = 1 := by
      unfold sig
      calc (rh p)⁻¹ * (rr p * ((rh p)ᴴ)⁻¹) * ((rh p)ᴴ * (rr p)⁻¹ * rh p)
          = (rh p)⁻¹ * (rr p * (((rh p)ᴴ)⁻¹ * (rh p)ᴴ) * (rr p)⁻¹) * rh p := by simp only [Matrix.mul_assoc]
        _ = 1 := by
          rw [Matrix.nonsing_inv_mul _ huH, Matrix.mul_one, Matrix.mul_nonsing_inv _ hur, Matrix.mul_one,
            Matrix.nonsing_inv_mul _ hu]
    have hP' := mul_eq_one_comm.1 hP
    calc _ = sig (rh p) (rr p) * 1 := (Matrix.mul_one _).symm
      _ = P := by rw [← hP', ← Matrix.mul_assoc, h1, Matrix.one_mul]
  have hPpsd : (P).PosSemidef := by
    rw [← hsig]
    unfold sig
    rw [← Matrix.conjTranspose_nonsing_inv, ← Matrix.mul_assoc]
    refine Matrix.PosSemidef.mul_mul_conjTranspose_same ?_ _
    rw [rr_eq h]
    exact Matrix.posSemidef_self_mul_conjTranspose _
  have hres : ∀ o, res (rh p) (hh p) (re3 p hz) (he3 p hz) (ee3 p hz) p.avgt o o =
      ((∑ t, ‖D o t‖ ^ 2 / p.avgt : ℝ) : ℂ) := by
    intro o
    have hf : tf (rows X ![p.rhx, p.rhy] * (rows X ![p.hx, p.hy])ᴴ) (rows X ![p.rhx, p.rhy] * (rows X ![p.ex, p.ey, hz])ᴴ) = full r := by
      rw [← rh_eq h, ← re3_eq h]; exact (full_tf hhz).symm
    rw [rh_eq h, hh_eq h, re3_eq h, he3_eq h, ee3_eq h, res_eq, hf, Matrix.smul_apply, Matrix.mul_apply, smul_eq_mul,
      Finset.mul_sum]
    rw [Complex.ofReal_sum]
    refine Finset.sum_congr rfl fun t _ => ?_
    have hD : (rows X ![p.ex, p.ey, hz] - full r * rows X ![p.hx, p.hy]) o t = D o t := by
      rw [Matrix.sub_apply, Matrix.mul_apply, Fin.sum_univ_two]; rfl
    rw [Matrix.conjTranspose_apply, hD, Complex.star_def, Complex.mul_conj, Complex.normSq_eq_norm_sq]
    push_cast
    field_simp
  have hPb : P b b = ((P b b).re : ℂ) := by
    have := (Complex.le_def.1 (hPpsd.diag_nonneg (i := b))).2
    exact Complex.ext rfl (by simpa using this.symm)
  have hPn : 0 ≤ (P b b).re := (Complex.le_def.1 (hPpsd.diag_nonneg (i := b))).1
  have hv : 0 ≤ v := by
    refine mul_nonneg (div_nonneg (Finset.sum_nonneg fun t _ => by positivity) ha.le) hPn
  have herr : err o b = noZero (Real.sqrt v) := by
    have e1 : tfErr (res (rh p) (hh p) (re3 p hz) (he3 p hz) (ee3 p hz) p.avgt) (sig (rh p) (rr p)) o b = Real.sqrt v := by
      unfold tfErr
      rw [hres, hsig, hPb, ← Complex.ofReal_mul, Complex.norm_real, Real.norm_eq_abs, ← Finset.sum_div]
      congr 1
      exact abs_of_nonneg hv
    rw [← e1]
    change ![(readSpectra p).zErr 0, (readSpectra p).zErr 1, (readSpectra p).tErr] o b = _
    unfold readSpectra
    rw [hhz]
    fin_cases o <;> rfl
  refine ⟨hv, fun hne => ?_, fun h0 => ?_⟩
  · rw [herr]; unfold noZero
    rw [if_neg]
    intro h0
    exact hne ((Real.sqrt_eq_zero hv).1 h0)
  · rw [herr, h0, Real.sqrt_zero]; unfold noZero; rw [if_pos rfl]

/-- Full claim: the same for the errors of the impedance of any file. -/
def C132_claim : Prop := ∀ (n : ℕ) (p : Spec n) (ι : Type) [Fintype ι] (X : ι → Fin n → ℂ), Holds p X →
  (rh p).det ≠ 0 → (rr p).det ≠ 0 → 0 < p.avgt → ∀ P : Matrix (Fin 2) (Fin 2) ℂ,
    P * ((rh p)ᴴ * (rr p)⁻¹ * rh p) = 1 → ∀ o b : Fin 2,
    let r := readSpectra p
    let v := (∑ t, ‖X t (![p.ex, p.ey] o) - (r.z o 0 * X t p.hx + r.z o 1 * X t p.hy)‖ ^ 2) / p.avgt *
      (P b b).re
    (v ≠ 0 → r.zErr o b = Real.sqrt v) ∧ (v = 0 → r.zErr o b = 1)

theorem four_inv : (!![5, 4; 4, 5] : Matrix (Fin 2) (Fin 2) ℂ)⁻¹ = !![5 / 9, -4 / 9; -4 / 9, 5 / 9] := by
  apply Matrix.inv_eq_right_inv
  ext i j
  fin_cases i <;> fin_cases j <;> norm_num [Matrix.mul_apply, Fin.sum_univ_two]

theorem four_he : he2 four = !![9, 9; 0, 14] := by
  unfold he2
  rw [four_s]
  ext i j
  fin_cases i <;> fin_cases j <;> simp [four, setE]

theorem four_rr : rr four = !![5, 4; 4, 5] := four_rh
theorem four_hh : hh four = !![5, 4; 4, 5] := four_rh

theorem four_ee : ee2 four = !![18, 27; 27, 41] := by
  unfold ee2
  rw [four_s]
  simp [four]

theorem four_conj : (!![5, 4; 4, 5] : Matrix (Fin 2) (Fin 2) ℂ)ᴴ = !![5, 4; 4, 5] := by
  ext i j
  fin_cases i <;> fin_cases j <;> simp [Matrix.conjTranspose_apply, map_ofNat]

theorem four_sol : (!![5, 4; 4, 5] : Matrix (Fin 2) (Fin 2) ℂ)⁻¹ * !![9, 13; 14, 0] =
    !![-11 / 9, 65 / 9; 34 / 9, -52 / 9] := by
  rw [four_inv]
  ext i j
  fin_cases i <;> fin_cases j <;> norm_num [Matrix.mul_apply, Fin.sum_univ_two]

theorem four_tf : tf (rh four) (re2 four) = !![-11 / 9, 34 / 9; 65 / 9, -52 / 9] := by
  unfold tf
  rw [four_rh, four_re, four_sol]
  ext i j
  fin_cases i <;> fin_cases j <;> simp [Matrix.conjTranspose_apply, map_ofNat]

theorem four_sig : sig (rh four) (rr four) = !![5 / 9, -4 / 9; -4 / 9, 5 / 9] := by
  unfold sig
  rw [four_rr, four_rh, four_conj, four_inv]
  ext i j
  fin_cases i <;> fin_cases j <;> norm_num [Matrix.mul_apply, Fin.sum_univ_two]

theorem four_res : res (rh four) (hh four) (re2 four) (he2 four) (ee2 four) four.avgt 0 0 = 737 / 18 := by
  unfold res
  rw [four_tf, four_hh, four_rh, four_re, four_sol, four_he, four_ee]
  have : four.avgt = 2 := rfl
  rw [this]
  simp only [Matrix.smul_apply, Matrix.add_apply, Matrix.sub_apply, Matrix.mul_apply, Fin.sum_univ_two,
    Matrix.conjTranspose_apply, Matrix.of_apply, Matrix.cons_val', Matrix.cons_val_zero, Matrix.cons_val_one,
    Matrix.cons_val_fin_one, smul_eq_mul, Complex.star_def, map_ofNat, map_zero]
  push_cast
  norm_num

/-- C132 fails for files without a vertical channel: elements of the cross powers are assigned twice and
others not at all, so the error is not that of the residuals. -/
theorem C132_refuted : ¬ C132_claim := by
  intro h
  have h1 := (h 4 four (Fin 2) fourX four_holds (by rw [four_rh, Matrix.det_fin_two]; norm_num)
    (by rw [four_rr, Matrix.det_fin_two]; norm_num) (by norm_num [four])
    !![5 / 9, -4 / 9; -4 / 9, 5 / 9] (by
      rw [four_rr, four_rh, four_conj, four_inv]
      ext i j
      fin_cases i <;> fin_cases j <;> norm_num [Matrix.mul_apply, Fin.sum_univ_two]) 0 0).1
  have hz : (readSpectra four).z = !![-11 / 9, 34 / 9; 65 / 9, -52 / 9] := four_tf
  have he : (readSpectra four).zErr 0 0 = noZero (Real.sqrt ‖(737 / 18 : ℂ) * (5 / 9)‖) := by
    change noZero (tfErr (res (rh four) (hh four) (re2 four) (he2 four) (ee2 four) four.avgt)
      (sig (rh four) (rr four)) 0 0) = _
    unfold tfErr
    rw [four_res, four_sig]
    rfl
  have hn : ‖(737 / 18 : ℂ) * (5 / 9)‖ = 3685 / 162 := by
    have : (737 / 18 : ℂ) * (5 / 9) = ((3685 / 162 : ℝ) : ℂ) := by push_cast; norm_num
    rw [this, Complex.norm_real]; norm_num
  rw [hn] at he
  have he' : (readSpectra four).zErr 0 0 = Real.sqrt (3685 / 162) := by
    rw [he]; unfold noZero
    rw [if_neg (Real.sqrt_ne_zero'.2 (by norm_num))]
  have hv : (∑ t : Fin 2, ‖fourX t (![four.ex, four.ey] 0) - ((readSpectra four).z 0 0 * fourX t four.hx +
      (readSpectra four).z 0 1 * fourX t four.hy)‖ ^ 2) / four.avgt *
      ((!![5 / 9, -4 / 9; -4 / 9, 5 / 9] : Matrix (Fin 2) (Fin 2) ℂ) 0 0).re = 625 / 162 := by
    rw [hz, Fin.sum_univ_two]
    have e1 : fourX 0 (![four.ex, four.ey] 0) - ((!![-11 / 9, 34 / 9; 65 / 9, -52 / 9] : Matrix (Fin 2) (Fin 2) ℂ) 0 0 *
        fourX 0 four.hx + (!![-11 / 9, 34 / 9; 65 / 9, -52 / 9] : Matrix (Fin 2) (Fin 2) ℂ) 0 1 * fourX 0 four.hy) =
        ((5 / 3 : ℝ) : ℂ) := by
      simp [fourX, four]; norm_num
    have e2 : fourX 1 (![four.ex, four.ey] 0) - ((!![-11 / 9, 34 / 9; 65 / 9, -52 / 9] : Matrix (Fin 2) (Fin 2) ℂ) 0 0 *
        fourX 1 four.hx + (!![-11 / 9, 34 / 9; 65 / 9, -52 / 9] : Matrix (Fin 2) (Fin 2) ℂ) 0 1 * fourX 1 four.hy) =
        ((-10 / 3 : ℝ) : ℂ) := by
      simp [fourX, four]; norm_num
    rw [e1, e2, Complex.norm_real, Complex.norm_real]
    have : four.avgt = 2 := rfl
    rw [this]
    have : ((!![5 / 9, -4 / 9; -4 / 9, 5 / 9] : Matrix (Fin 2) (Fin 2) ℂ) 0 0).re = 5 / 9 := by
      have e : (!![5 / 9, -4 / 9; -4 / 9, 5 / 9] : Matrix (Fin 2) (Fin 2) ℂ) 0 0 = ((5 / 9 : ℝ) : ℂ) := by
        simp
      rw [e, Complex.ofReal_re]
    rw [this]
    norm_num
  have h2 := h1 (by rw [hv]; norm_num)
  rw [he', hv] at h2
  have h3 := (Real.sqrt_inj (by norm_num) (by norm_num)).1 h2
  norm_num at h3

/-! ## Concrete cases -/

/-- Five channels (`hx hy hz ex ey`, no remote reference), two samples. -/
def five : Spec 5 where
  arr := !![5, 0, 0, 0, 0; 4, 5, 0, 0, 0; 9, 9, 18, 0, 0; 13, 14, 27, 41, 0; 14, 13, 27, 40, 41]
  avgt := 2
  hx := 0
  hy := 1
  ex := 3
  ey := 4
  rhx := 0
  rhy := 1
  hz := some 2

def fiveX : Fin 2 → Fin 5 → ℂ := ![![2, 1, 3, 4, 5], ![1, 2, 3, 5, 4]]

theorem five_holds : Holds five fiveX where
  diag := by intro i; fin_cases i <;> norm_num [five, fiveX, Fin.sum_univ_two, map_ofNat]
  real := by
    intro i j h
    fin_cases i <;> fin_cases j <;> first | exact absurd h (by decide) | norm_num [five, fiveX, Fin.sum_univ_two, map_ofNat]
  imag := by
    intro i j h
    fin_cases i <;> fin_cases j <;> first | exact absurd h (by decide) | norm_num [five, fiveX, Fin.sum_univ_two, map_ofNat]

theorem five_s : sArr five 0 0 = 5 ∧ sArr five 0 1 = 4 ∧ sArr five 1 0 = 4 ∧ sArr five 1 1 = 5 := by
  refine ⟨?_, ?_, ?_, ?_⟩ <;> rw [sArr_eq five_holds] <;> norm_num [fiveX, Fin.sum_univ_two, map_ofNat]

theorem five_rh : rh five = !![5, 4; 4, 5] := by
  obtain ⟨h1, h2, h3, h4⟩ := five_s
  change !![sArr five 0 0, sArr five 0 1; sArr five 1 0, sArr five 1 1] = _
  rw [h1, h2, h3, h4]

example : (rh five).det ≠ 0 := by rw [five_rh, Matrix.det_fin_two]; norm_num

example : (readSpectra five).z = !![1, 2; 2, 1] ∧ (readSpectra five).t = ![1, 1] :=
  C131_exact_partial five 2 rfl fiveX five_holds (by rw [five_rh, Matrix.det_fin_two]; norm_num) _ _
    (by intro t; fin_cases t <;> norm_num [five, fiveX] <;> rfl)
    (by intro t; fin_cases t <;> norm_num [five, fiveX] <;> rfl)
    (by intro t; fin_cases t <;> norm_num [five, fiveX] <;> rfl)

end Verif.EdiSpectra
