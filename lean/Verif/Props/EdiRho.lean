import Mathlib.Tactic.LinearCombination
import Mathlib.Tactic.FieldSimp
import Verif.Model.EdiRho

/-! # Impedances from apparent resistivity and phase (C133) -/

namespace Verif.EdiRho

variable {N : ℕ}

theorem rho_real {f r p : Fin N → ℝ} {k : Fin N} (h : Real.cos (deg2rad (p k)) ≠ 0) :
    zReal f r p k = Real.sqrt (5 * f k * r k) * |Real.cos (deg2rad (p k))| := by
  unfold zReal
  have h1 : Real.tan (deg2rad (p k)) ^ 2 + 1 = (Real.cos (deg2rad (p k)) ^ 2)⁻¹ := by
    have := Real.sin_sq_add_cos_sq (deg2rad (p k))
    rw [Real.tan_eq_sin_div_cos]
    field_simp
    linarith
  rw [h1, div_inv_eq_mul, Real.sqrt_mul' _ (sq_nonneg _), Real.sqrt_sq_eq_abs]

theorem rho_both {f r p : Fin N → ℝ} {k : Fin N} (h : 0 < Real.cos (deg2rad (p k))) :
    (zReal f r p k : ℂ) + zImag f r p k * Complex.I =
      Real.sqrt (5 * f k * r k) * Complex.exp (deg2rad (p k) * Complex.I) := by
  rw [zImag, rho_real h.ne', abs_of_pos h, Complex.exp_mul_I, ← Complex.ofReal_cos, ← Complex.ofReal_sin]
  have : Real.tan (deg2rad (p k)) * (Real.sqrt (5 * f k * r k) * Real.cos (deg2rad (p k))) =
      Real.sqrt (5 * f k * r k) * Real.sin (deg2rad (p k)) := by
    rw [Real.tan_eq_sin_div_cos]; field_simp
  rw [this]
  push_cast
  ring

theorem rho_neg {f r p : Fin N → ℝ} {k : Fin N} (h : Real.cos (deg2rad (p k)) < 0) :
    (zReal f r p k : ℂ) + zImag f r p k * Complex.I =
      -(Real.sqrt (5 * f k * r k) * Complex.exp (deg2rad (p k) * Complex.I)) := by
  rw [zImag, rho_real h.ne, abs_of_neg h, Complex.exp_mul_I, ← Complex.ofReal_cos, ← Complex.ofReal_sin]
  have h0 := h.ne
  have : Real.tan (deg2rad (p k)) * (Real.sqrt (5 * f k * r k) * -Real.cos (deg2rad (p k))) =
      -(Real.sqrt (5 * f k * r k) * Real.sin (deg2rad (p k))) := by
    rw [Real.tan_eq_sin_div_cos]; field_simp
  rw [this]
  push_cast
  ring

theorem zero_all (k : Fin N) : (0 : Fin N → ℂ) k = 0 := rfl

/-- Full claim: an element given by apparent resistivity and phase only has modulus `√(5 f ρ)` and
that phase; for `yx` the phase may be given in the first instead of the third quadrant. -/
def C133_claim : Prop := ∀ (N : ℕ) (ii jj : Fin 2) (f r p : Fin N → ℝ), (∀ k, 0 < f k) → (∀ k, 0 < r k) →
  (∀ k, Real.cos (deg2rad (p k)) ≠ 0) → ∀ k,
    fromRho ii jj f r p 0 k = Real.sqrt (5 * f k * r k) * Complex.exp (deg2rad (p k) * Complex.I) ∨
    ((ii = 1 ∧ jj = 0) ∧ 0 < Real.cos (deg2rad (p k)) ∧
      fromRho ii jj f r p 0 k = Real.sqrt (5 * f k * r k) * Complex.exp (deg2rad (p k + 180) * Complex.I))

/-- All phases within 90 degrees of zero, for `yx` with a mean above zero. -/
theorem C133_partial (ii jj : Fin 2) (f r p : Fin N → ℝ) (hp : ∀ k, 0 < Real.cos (deg2rad (p k))) (k : Fin N) :
    (¬ (ii = 1 ∧ jj = 0) →
      fromRho ii jj f r p 0 k = Real.sqrt (5 * f k * r k) * Complex.exp (deg2rad (p k) * Complex.I)) ∧
    (ii = 1 ∧ jj = 0 → 0 < mean p → mean p < 90 →
      fromRho ii jj f r p 0 k = Real.sqrt (5 * f k * r k) * Complex.exp (deg2rad (p k + 180) * Complex.I)) := by
  constructor
  · intro h
    unfold fromRho
    rw [if_pos zero_all, if_neg h, rho_both (hp k)]
  · intro h h1 h2
    unfold fromRho
    rw [if_pos zero_all, if_pos h, if_pos ⟨h2, h1⟩, rho_both (hp k)]
    have e : deg2rad (p k + 180) = deg2rad (p k) + Real.pi := by unfold deg2rad; ring
    rw [e]
    push_cast
    rw [add_mul, Complex.exp_add, Complex.exp_pi_mul_I]
    ring

/-- What the code does in general: phases beyond 90 degrees come out turned by half a circle, and `yx`
stays zero when the mean phase is not between 0 and 90 degrees. -/
theorem C133_general_partial (ii jj : Fin 2) (f r p : Fin N → ℝ) (k : Fin N) (hp : Real.cos (deg2rad (p k)) < 0) :
    (¬ (ii = 1 ∧ jj = 0) →
      fromRho ii jj f r p 0 k = -(Real.sqrt (5 * f k * r k) * Complex.exp (deg2rad (p k) * Complex.I))) ∧
    (ii = 1 ∧ jj = 0 → ¬ (mean p < 90 ∧ 0 < mean p) → fromRho ii jj f r p 0 k = 0) := by
  constructor
  · intro h
    unfold fromRho
    rw [if_pos zero_all, if_neg h, rho_neg hp]
  · intro h h1
    unfold fromRho
    rw [if_pos zero_all, if_pos h, if_neg h1]
    rfl

/-- Values given as real and imaginary part are not touched. -/
theorem C133_kept_partial (ii jj : Fin 2) (f r p e : Fin N → ℝ) (z : Fin N → ℂ) (err : Fin N → ℝ) (k : Fin N) (h : z k ≠ 0) :
    fromRho ii jj f r p z = z ∧ errRho f r e z err = err := by
  have h' : ¬ ∀ k, z k = 0 := fun h0 => h (h0 k)
  unfold fromRho errRho
  rw [if_neg h', if_neg h']
  exact ⟨rfl, rfl⟩

/-- The error is the phase error times the modulus of the element. -/
theorem C133_error_partial (ii jj : Fin 2) (f r p e : Fin N → ℝ) (err : Fin N → ℝ)
    (hp : ∀ k, 0 < Real.cos (deg2rad (p k))) (hm : 0 < mean p ∧ mean p < 90) (k : Fin N) :
    errRho f r e 0 err k = e k * Real.pi / 180 * ‖fromRho ii jj f r p 0 k‖ := by
  have h1 : ‖fromRho ii jj f r p 0 k‖ = Real.sqrt (5 * f k * r k) := by
    have hn : ∀ x : ℝ, ‖Complex.exp (x * Complex.I)‖ = 1 := Complex.norm_exp_ofReal_mul_I
    by_cases h : ii = 1 ∧ jj = 0
    · rw [(C133_partial ii jj f r p hp k).2 h hm.1 hm.2, norm_mul, hn, mul_one, Complex.norm_real, Real.norm_eq_abs,
        abs_of_nonneg (Real.sqrt_nonneg _)]
    · rw [(C133_partial ii jj f r p hp k).1 h, norm_mul, hn, mul_one, Complex.norm_real, Real.norm_eq_abs,
        abs_of_nonneg (Real.sqrt_nonneg _)]
  rw [h1]
  unfold errRho deg2rad
  rw [if_pos zero_all, show r k * (f k * 5) = 5 * f k * r k by ring]
  ring

theorem deg180 : deg2rad 180 = Real.pi := by unfold deg2rad; ring

/-- `Z_xy` with a phase of 180 degrees comes out positive. -/
theorem C133_refuted : ¬ C133_claim := by
  intro h
  have h1 := h 1 0 1 (fun _ => 1) (fun _ => 1 / 5) (fun _ => 180) (by intro; norm_num) (by intro; norm_num)
    (by intro; rw [deg180, Real.cos_pi]; norm_num) 0
  have h2 := (C133_general_partial 0 1 (fun _ => 1) (fun _ => 1 / 5) (fun _ => 180) (0 : Fin 1)
    (by rw [deg180, Real.cos_pi]; norm_num)).1 (by decide)
  rw [h2] at h1
  rcases h1 with h1 | h1
  · rw [deg180, Complex.exp_pi_mul_I] at h1
    have := congrArg Complex.re h1
    norm_num at this
  · exact absurd h1.1.1 (by decide)

/-- `Z_yx` with a phase in the third quadrant is lost. -/
theorem C133_yx_refuted : ¬ C133_claim := by
  intro h
  have hc : Real.cos (deg2rad (-180)) = -1 := by
    rw [show deg2rad (-180) = -Real.pi by unfold deg2rad; ring, Real.cos_neg, Real.cos_pi]
  have h1 := h 1 1 0 (fun _ => 1) (fun _ => 1 / 5) (fun _ => -180) (by intro; norm_num) (by intro; norm_num)
    (by intro; rw [hc]; norm_num) 0
  have h2 := (C133_general_partial 1 0 (fun _ => 1) (fun _ => 1 / 5) (fun _ => -180) (0 : Fin 1)
    (by rw [hc]; norm_num)).2 (by decide) (by unfold mean; norm_num)
  rw [h2] at h1
  rcases h1 with h1 | h1
  · have hs : Real.sqrt (5 * 1 * (1 / 5)) = 1 := by norm_num
    rw [hs] at h1
    have := Complex.exp_ne_zero (deg2rad (-180) * Complex.I)
    simp at h1
    exact this h1.symm
  · rw [hc] at h1
    linarith [h1.2.1]

example : (∀ k : Fin 2, 0 < Real.cos (deg2rad ((![0, 60] : Fin 2 → ℝ) k))) ∧ 0 < mean ![0, 60] ∧ mean ![0, 60] < 90 := by
  refine ⟨?_, ?_, ?_⟩
  · intro k
    fin_cases k
    · simp [deg2rad]
    · change 0 < Real.cos (deg2rad 60)
      rw [show deg2rad 60 = Real.pi / 3 by unfold deg2rad; ring, Real.cos_pi_div_three]
      norm_num
  · simp [mean, Fin.sum_univ_two]
  · simp [mean, Fin.sum_univ_two]; norm_num

end Verif.EdiRho
