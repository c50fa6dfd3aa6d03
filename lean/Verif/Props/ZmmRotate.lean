import Mathlib.Tactic.FieldSimp
import Mathlib.Tactic.LinearCombination
import Mathlib.Tactic.FinCases
import Verif.Model.ZmmRotate

/-! # Impedances of Z files in geographic coordinates (C128, C129, C130) -/

namespace Verif.Zmm
open Matrix

variable {n : ℕ}

/-- The direction of a channel, in radians. -/
noncomputable def dHx (f : ZFile n) (angle : ℝ) : ℝ := deg2rad (f.azHx - angle)
noncomputable def dHy (f : ZFile n) (angle : ℝ) : ℝ := deg2rad (f.azHy - angle)
noncomputable def dEx (f : ZFile n) (angle : ℝ) : ℝ := deg2rad (f.azEx - angle)
noncomputable def dEy (f : ZFile n) (angle : ℝ) : ℝ := deg2rad (f.azEy - angle)

theorem u_xx {f : ZFile n} (h : f.hx ≠ f.hy) (a : ℝ) : uMat f a f.hx f.hx = Real.cos (dHx f a) := by
  simp [uMat, setE, h, dHx]
theorem u_xy {f : ZFile n} (h : f.hx ≠ f.hy) (a : ℝ) : uMat f a f.hx f.hy = Real.sin (dHx f a) := by
  simp [uMat, setE, h, dHx]
theorem u_yx {f : ZFile n} (h : f.hx ≠ f.hy) (a : ℝ) : uMat f a f.hy f.hx = Real.cos (dHy f a) := by
  simp [uMat, setE, h, dHy]
theorem u_yy {f : ZFile n} (a : ℝ) : uMat f a f.hy f.hy = Real.sin (dHy f a) := by
  simp [uMat, setE, dHy]

theorem v_ex {f : ZFile n} (h : f.ex ≠ f.ey) (a : ℝ) (j : Fin n) : vMat f a f.ex j =
    if j = f.ex then Real.cos (dEx f a) else if j = f.ey then Real.cos (dEy f a) else 0 := by
  by_cases h1 : j = f.ex
  · subst h1; simp [vMat, setE, h, dEx]
  · by_cases h2 : j = f.ey
    · subst h2; simp [vMat, setE, h, dEy, h1]
    · simp [vMat, setE, h, h1, h2, Ne.symm h1]

theorem v_ey {f : ZFile n} (h : f.ex ≠ f.ey) (a : ℝ) (j : Fin n) : vMat f a f.ey j =
    if j = f.ex then Real.sin (dEx f a) else if j = f.ey then Real.sin (dEy f a) else 0 := by
  by_cases h1 : j = f.ex
  · subst h1; simp [vMat, setE, h, dEx]
  · by_cases h2 : j = f.ey
    · subst h2; simp [vMat, setE, dEy, h1]
    · simp [vMat, setE, h1, h2, Ne.symm h2]

/-- A sum over two indices that are the two of `Fin 2`. -/
theorem sum_two {x y : Fin 2} (h : x ≠ y) (g : Fin 2 → ℂ) : ∑ j, g j = g x + g y := by
  rw [Fin.sum_univ_two]
  fin_cases x <;> fin_cases y <;> simp_all [add_comm]

theorem det_two {x y : Fin 2} (h : x ≠ y) (M : Matrix (Fin 2) (Fin 2) ℝ) :
    M.det = M x x * M y y - M x y * M y x := by
  rw [Matrix.det_fin_two]
  fin_cases x <;> fin_cases y <;> simp_all <;> ring

theorem det_u {f : ZFile n} (h : f.hx ≠ f.hy) (a : ℝ) :
    (uMat f a).det = Real.sin (dHy f a - dHx f a) := by
  rw [det_two h, u_xx h, u_xy h, u_yx h, u_yy, Real.sin_sub]; ring

theorem dH_sub (f : ZFile n) (a : ℝ) : dHy f a - dHx f a = deg2rad (f.azHy - f.azHx) := by
  unfold dHx dHy deg2rad; ring

theorem dE_sub (f : ZFile n) (a : ℝ) : dEy f a - dEx f a = deg2rad (f.azEy - f.azEx) := by
  unfold dEx dEy deg2rad; ring

theorem toC_mul {m k l : Type} [Fintype k] (A : Matrix m k ℝ) (B : Matrix k l ℝ) : toC (A * B) = toC A * toC B :=
  Matrix.map_mul (f := Complex.ofRealHom)

theorem toC_one {m : Type} [DecidableEq m] : toC (1 : Matrix m m ℝ) = 1 := by
  unfold toC
  exact Matrix.map_one _ Complex.ofReal_zero Complex.ofReal_one

theorem toC_transpose {m k : Type} (A : Matrix m k ℝ) : toC Aᵀ = (toC A)ᵀ := rfl

/-- The turned transfer function, applied to the magnetic field in geographic coordinates, is the
turned electric field. -/
theorem rot_apply {f : ZFile n} (h : f.hx ≠ f.hy) (a : ℝ) (hs : Real.sin (dHy f a - dHx f a) ≠ 0)
    (H : Fin 2 → ℂ) : rotTf f a *ᵥ ((toC (uMat f a))ᵀ *ᵥ H) = toC (vMat f a) *ᵥ (f.tf *ᵥ H) := by
  have hu : IsUnit (uMat f a).det := by rw [det_u h]; exact isUnit_iff_ne_zero.2 hs
  have h1 : (toC (uInv f a))ᵀ * (toC (uMat f a))ᵀ = 1 := by
    rw [← Matrix.transpose_mul, ← toC_mul, uInv, Matrix.mul_nonsing_inv _ hu, toC_one, Matrix.transpose_one]
  unfold rotTf
  rw [Matrix.mulVec_mulVec, Matrix.mul_assoc, Matrix.mul_assoc, h1, Matrix.mul_one, ← Matrix.mulVec_mulVec]

theorem v_apply_ex {f : ZFile n} (h : f.ex ≠ f.ey) (a : ℝ) (E : Fin n → ℂ) :
    (toC (vMat f a) *ᵥ E) f.ex = Real.cos (dEx f a) * E f.ex + Real.cos (dEy f a) * E f.ey := by
  simp only [Matrix.mulVec, dotProduct, toC, Matrix.map_apply, v_ex h]
  rw [Finset.sum_eq_add f.ex f.ey h]
  · simp [Ne.symm h]
  · intro c _ hc; simp [hc.1, hc.2]
  · simp
  · simp

theorem v_apply_ey {f : ZFile n} (h : f.ex ≠ f.ey) (a : ℝ) (E : Fin n → ℂ) :
    (toC (vMat f a) *ᵥ E) f.ey = Real.sin (dEx f a) * E f.ex + Real.sin (dEy f a) * E f.ey := by
  simp only [Matrix.mulVec, dotProduct, toC, Matrix.map_apply, v_ey h]
  rw [Finset.sum_eq_add f.ex f.ey h]
  · simp [Ne.symm h]
  · intro c _ hc; simp [hc.1, hc.2]
  · simp
  · simp

/-- A file whose channels are all present, at different places. -/
structure Valid (f : ZFile n) : Prop where
  h : f.hx ≠ f.hy
  e : f.ex ≠ f.ey

theorem rot_sum {f : ZFile n} (hv : Valid f) (a : ℝ) (hs : Real.sin (dHy f a - dHx f a) ≠ 0)
    (H : Fin 2 → ℂ) (i : Fin n) : (toC (vMat f a) *ᵥ (f.tf *ᵥ H)) i =
      rotTf f a i f.hx * (Real.cos (dHx f a) * H f.hx + Real.cos (dHy f a) * H f.hy) +
      rotTf f a i f.hy * (Real.sin (dHx f a) * H f.hx + Real.sin (dHy f a) * H f.hy) := by
  rw [← rot_apply hv.h a hs H]
  have e1 : ((toC (uMat f a))ᵀ *ᵥ H) f.hx = Real.cos (dHx f a) * H f.hx + Real.cos (dHy f a) * H f.hy := by
    simp only [Matrix.mulVec, dotProduct]
    rw [sum_two hv.h]
    simp [toC, u_xx hv.h, u_yx hv.h]
  have e2 : ((toC (uMat f a))ᵀ *ᵥ H) f.hy = Real.sin (dHx f a) * H f.hx + Real.sin (dHy f a) * H f.hy := by
    simp only [Matrix.mulVec, dotProduct]
    rw [sum_two hv.h]
    simp [toC, u_xy hv.h, u_yy]
  rw [← e1, ← e2]
  simp only [Matrix.mulVec, dotProduct]
  rw [sum_two hv.h]

/-- For any azimuths (the magnetic channels not parallel): if fields are put together from the channels as
components along their directions, the impedance gives the electric from the magnetic field, in north
and east components, for every magnetic field. -/
theorem C128_vector (f : ZFile n) (hv : Valid f) (angle : ℝ)
    (hs : Real.sin (deg2rad (f.azHy - f.azHx)) ≠ 0) (H : Fin 2 → ℂ) :
    Real.cos (deg2rad (f.azEx - angle)) * (f.tf *ᵥ H) f.ex + Real.cos (deg2rad (f.azEy - angle)) * (f.tf *ᵥ H) f.ey =
      zMat f angle 0 0 * (Real.cos (deg2rad (f.azHx - angle)) * H f.hx + Real.cos (deg2rad (f.azHy - angle)) * H f.hy) +
      zMat f angle 0 1 * (Real.sin (deg2rad (f.azHx - angle)) * H f.hx + Real.sin (deg2rad (f.azHy - angle)) * H f.hy) ∧
    Real.sin (deg2rad (f.azEx - angle)) * (f.tf *ᵥ H) f.ex + Real.sin (deg2rad (f.azEy - angle)) * (f.tf *ᵥ H) f.ey =
      zMat f angle 1 0 * (Real.cos (deg2rad (f.azHx - angle)) * H f.hx + Real.cos (deg2rad (f.azHy - angle)) * H f.hy) +
      zMat f angle 1 1 * (Real.sin (deg2rad (f.azHx - angle)) * H f.hx + Real.sin (deg2rad (f.azHy - angle)) * H f.hy) := by
  have hs' : Real.sin (dHy f angle - dHx f angle) ≠ 0 := by rw [dH_sub]; exact hs
  have h1 := rot_sum hv angle hs' H f.ex
  have h2 := rot_sum hv angle hs' H f.ey
  rw [v_apply_ex hv.e] at h1
  rw [v_apply_ey hv.e] at h2
  exact ⟨h1, h2⟩

/-- What a sensor with azimuth `d` records of a field with components north and east. -/
noncomputable def proj (d : ℝ) (N E : ℂ) : ℂ := Real.cos d * N + Real.sin d * E

theorem ortho {a b : ℝ} (h : Real.cos (b - a) = 0) :
    Real.cos a * Real.cos a + Real.cos b * Real.cos b = 1 ∧ Real.sin a * Real.sin a + Real.sin b * Real.sin b = 1 ∧
    Real.cos a * Real.sin a + Real.cos b * Real.sin b = 0 := by
  rw [Real.cos_sub] at h
  have h1 := Real.sin_sq_add_cos_sq a
  have h2 := Real.sin_sq_add_cos_sq b
  generalize Real.cos a = ca at *
  generalize Real.sin a = sa at *
  generalize Real.cos b = cb at *
  generalize Real.sin b = sb at *
  -- the vectors `(ca, sa)`, `(cb, sb)` are orthonormal, hence so are the columns
  let U : Matrix (Fin 2) (Fin 2) ℝ := !![ca, sa; cb, sb]
  have hU : U * Uᵀ = 1 := by
    ext i j
    fin_cases i <;> fin_cases j <;> simp [U, Matrix.mul_apply, Fin.sum_univ_two, Matrix.one_apply] <;>
      nlinarith
  have hU' : Uᵀ * U = 1 := mul_eq_one_comm.1 hU
  have e00 := congrFun (congrFun hU' 0) 0
  have e11 := congrFun (congrFun hU' 1) 1
  have e01 := congrFun (congrFun hU' 0) 1
  simp [U, Matrix.mul_apply, Fin.sum_univ_two, Matrix.one_apply] at e00 e11 e01
  exact ⟨e00, e11, e01⟩

theorem back {a b : ℝ} (h : Real.cos (b - a) = 0) (N E : ℂ) :
    Real.cos a * proj a N E + Real.cos b * proj b N E = N ∧
    Real.sin a * proj a N E + Real.sin b * proj b N E = E := by
  obtain ⟨h1, h2, h3⟩ := ortho h
  have c1 : (Real.cos a : ℂ) * Real.cos a + Real.cos b * Real.cos b = 1 := by exact_mod_cast h1
  have c2 : (Real.sin a : ℂ) * Real.sin a + Real.sin b * Real.sin b = 1 := by exact_mod_cast h2
  have c3 : (Real.cos a : ℂ) * Real.sin a + Real.cos b * Real.sin b = 0 := by exact_mod_cast h3
  unfold proj
  constructor
  · linear_combination N * c1 + E * c3
  · linear_combination N * c3 + E * c2

/-- If sensors record the projection of the field on their direction and both pairs of channels are
orthogonal, the impedance relates the fields in geographic coordinates. -/
theorem C128_partial (f : ZFile n) (hv : Valid f) (angle : ℝ)
    (ho : Real.cos (deg2rad (f.azHy - f.azHx)) = 0) (hoe : Real.cos (deg2rad (f.azEy - f.azEx)) = 0)
    (Hn He En Ee : ℂ) (H : Fin 2 → ℂ)
    (hHx : H f.hx = proj (deg2rad (f.azHx - angle)) Hn He) (hHy : H f.hy = proj (deg2rad (f.azHy - angle)) Hn He)
    (hEx : (f.tf *ᵥ H) f.ex = proj (deg2rad (f.azEx - angle)) En Ee)
    (hEy : (f.tf *ᵥ H) f.ey = proj (deg2rad (f.azEy - angle)) En Ee) :
    En = zMat f angle 0 0 * Hn + zMat f angle 0 1 * He ∧ Ee = zMat f angle 1 0 * Hn + zMat f angle 1 1 * He := by
  have hs : Real.sin (deg2rad (f.azHy - f.azHx)) ≠ 0 := by
    intro h0
    have := Real.sin_sq_add_cos_sq (deg2rad (f.azHy - f.azHx))
    rw [h0, ho] at this
    norm_num at this
  have key := C128_vector f hv angle hs H
  have hH := back (a := dHx f angle) (b := dHy f angle) (by rw [dH_sub]; exact ho) Hn He
  have hE := back (a := dEx f angle) (b := dEy f angle) (by rw [dE_sub]; exact hoe) En Ee
  rw [hHx, hHy, hEx, hEy] at key
  unfold dHx dHy at hH
  unfold dEx dEy at hE
  rw [hH.1, hH.2, hE.1, hE.2] at key
  exact key

/-- Full claim: the same for all channels that are not parallel. -/
def C128_claim : Prop := ∀ (f : ZFile 2), Valid f → Real.sin (deg2rad (f.azHy - f.azHx)) ≠ 0 →
  Real.sin (deg2rad (f.azEy - f.azEx)) ≠ 0 →
  ∀ (Hn He En Ee : ℂ) (H : Fin 2 → ℂ), H f.hx = proj (deg2rad f.azHx) Hn He → H f.hy = proj (deg2rad f.azHy) Hn He →
    (f.tf *ᵥ H) f.ex = proj (deg2rad f.azEx) En Ee → (f.tf *ᵥ H) f.ey = proj (deg2rad f.azEy) En Ee →
    En = zMat f 0 0 0 * Hn + zMat f 0 0 1 * He ∧ Ee = zMat f 0 1 0 * Hn + zMat f 0 1 1 * He

theorem deg0 : deg2rad 0 = 0 := by simp [deg2rad]
theorem deg90 : deg2rad 90 = Real.pi / 2 := by unfold deg2rad; ring
theorem deg45 : deg2rad 45 = Real.pi / 4 := by unfold deg2rad; ring
theorem deg180 : deg2rad 180 = Real.pi := by unfold deg2rad; ring

/-- The second electric line at 45 degrees: a field to the north is recorded by it too, and the code
adds that to the east component. -/
noncomputable def skew : ZFile 2 where
  hx := 0
  hy := 1
  ex := 0
  ey := 1
  hz := none
  azHx := 0
  azHy := 90
  azEx := 0
  azEy := 45
  tf := !![1, 0; (Real.cos (Real.pi / 4) : ℂ), 0]
  sigmaS := 1
  sigmaE := 1

theorem z_unique (f : ZFile n) (hv : Valid f) (angle : ℝ) (hs : Real.sin (deg2rad (f.azHy - f.azHx)) ≠ 0)
    (M : Matrix (Fin 2) (Fin 2) ℂ)
    (hM : ∀ H : Fin 2 → ℂ,
      Real.cos (dEx f angle) * (f.tf *ᵥ H) f.ex + Real.cos (dEy f angle) * (f.tf *ᵥ H) f.ey =
        M 0 0 * (Real.cos (dHx f angle) * H f.hx + Real.cos (dHy f angle) * H f.hy) +
        M 0 1 * (Real.sin (dHx f angle) * H f.hx + Real.sin (dHy f angle) * H f.hy) ∧
      Real.sin (dEx f angle) * (f.tf *ᵥ H) f.ex + Real.sin (dEy f angle) * (f.tf *ᵥ H) f.ey =
        M 1 0 * (Real.cos (dHx f angle) * H f.hx + Real.cos (dHy f angle) * H f.hy) +
        M 1 1 * (Real.sin (dHx f angle) * H f.hx + Real.sin (dHy f angle) * H f.hy)) : M = zMat f angle := by
  have hs' : Real.sin (dHy f angle - dHx f angle) ≠ 0 := by rw [dH_sub]; exact hs
  have hc : (Real.sin (dHy f angle) * Real.cos (dHx f angle) - Real.cos (dHy f angle) * Real.sin (dHx f angle) : ℂ) ≠ 0 := by
    rw [Real.sin_sub] at hs'
    exact_mod_cast hs'
  have hne := hv.h
  have a1 := hM (Pi.single f.hx 1)
  have a2 := hM (Pi.single f.hy 1)
  have b1 := C128_vector f hv angle hs (Pi.single f.hx 1)
  have b2 := C128_vector f hv angle hs (Pi.single f.hy 1)
  simp only [Pi.single_eq_same, Pi.single_eq_of_ne hne, Pi.single_eq_of_ne hne.symm, mul_one, mul_zero,
    add_zero, zero_add] at a1 a2 b1 b2
  change _ = zMat f angle 0 0 * (Real.cos (dHx f angle) : ℂ) + zMat f angle 0 1 * (Real.sin (dHx f angle) : ℂ) ∧
    _ = zMat f angle 1 0 * (Real.cos (dHx f angle) : ℂ) + zMat f angle 1 1 * (Real.sin (dHx f angle) : ℂ) at b1
  change _ = zMat f angle 0 0 * (Real.cos (dHy f angle) : ℂ) + zMat f angle 0 1 * (Real.sin (dHy f angle) : ℂ) ∧
    _ = zMat f angle 1 0 * (Real.cos (dHy f angle) : ℂ) + zMat f angle 1 1 * (Real.sin (dHy f angle) : ℂ) at b2
  have c1 := a1.1.symm.trans b1.1
  have c2 := a2.1.symm.trans b2.1
  have c3 := a1.2.symm.trans b1.2
  have c4 := a2.2.symm.trans b2.2
  ext i j
  fin_cases i <;> fin_cases j <;> apply mul_right_cancel₀ hc <;> simp only [Fin.mk_zero, Fin.mk_one, Fin.zero_eta, Fin.isValue]
  · linear_combination (Real.sin (dHy f angle) : ℂ) * c1 - (Real.sin (dHx f angle) : ℂ) * c2
  · linear_combination (Real.cos (dHx f angle) : ℂ) * c2 - (Real.cos (dHy f angle) : ℂ) * c1
  · linear_combination (Real.sin (dHy f angle) : ℂ) * c3 - (Real.sin (dHx f angle) : ℂ) * c4
  · linear_combination (Real.cos (dHx f angle) : ℂ) * c4 - (Real.cos (dHy f angle) : ℂ) * c3

theorem z_skew : zMat skew 0 = !![1, 0; (Real.sin (Real.pi / 4) * Real.cos (Real.pi / 4) : ℂ), 0] + !![(Real.cos (Real.pi / 4) * Real.cos (Real.pi / 4) : ℂ), 0; 0, 0] := by
  symm
  refine z_unique skew ⟨by decide, by decide⟩ 0 (by simp [skew, deg90]) _ fun H => ?_
  constructor <;>
  · simp [skew, dHx, dHy, dEx, dEy, deg0, deg90, deg45, Matrix.mulVec, dotProduct, Fin.sum_univ_two]
    try ring

theorem C128_refuted : ¬ C128_claim := by
  intro h
  have hsin : Real.sin (Real.pi / 4) ≠ 0 := by
    rw [Real.sin_pi_div_four]; positivity
  have hcos : Real.cos (Real.pi / 4) ≠ 0 := by
    rw [Real.cos_pi_div_four]; positivity
  have hv : Valid skew := ⟨by decide, by decide⟩
  have hs : Real.sin (deg2rad (skew.azHy - skew.azHx)) ≠ 0 := by simp [skew, deg90]
  have h1 := h skew hv hs (by simp only [skew, sub_zero, deg45]; exact hsin) 1 0 1 0 ![1, 0]
    (by simp [skew, proj, deg0]) (by simp [skew, proj, deg90])
    (by simp [skew, proj, deg0, Matrix.mulVec, dotProduct, Fin.sum_univ_two])
    (by simp [skew, proj, deg45, Matrix.mulVec, dotProduct, Fin.sum_univ_two])
  have e1 := h1.2
  rw [z_skew] at e1
  simp only [Matrix.add_apply, Matrix.of_apply, Matrix.cons_val', Matrix.cons_val_zero, Matrix.cons_val_one,
    Matrix.cons_val_fin_one, add_zero, mul_one, mul_zero] at e1
  have e2 : Real.sin (Real.pi / 4) * Real.cos (Real.pi / 4) = 0 := by exact_mod_cast e1.symm
  rcases mul_eq_zero.1 e2 with h | h
  · exact hsin h
  · exact hcos h

/-- The impedance is the only matrix that does this. -/
theorem C128_unique (f : ZFile n) (hv : Valid f) (angle : ℝ) (hs : Real.sin (deg2rad (f.azHy - f.azHx)) ≠ 0)
    (M : Matrix (Fin 2) (Fin 2) ℂ)
    (hM : ∀ H : Fin 2 → ℂ,
      Real.cos (deg2rad (f.azEx - angle)) * (f.tf *ᵥ H) f.ex + Real.cos (deg2rad (f.azEy - angle)) * (f.tf *ᵥ H) f.ey =
        M 0 0 * (Real.cos (deg2rad (f.azHx - angle)) * H f.hx + Real.cos (deg2rad (f.azHy - angle)) * H f.hy) +
        M 0 1 * (Real.sin (deg2rad (f.azHx - angle)) * H f.hx + Real.sin (deg2rad (f.azHy - angle)) * H f.hy) ∧
      Real.sin (deg2rad (f.azEx - angle)) * (f.tf *ᵥ H) f.ex + Real.sin (deg2rad (f.azEy - angle)) * (f.tf *ᵥ H) f.ey =
        M 1 0 * (Real.cos (deg2rad (f.azHx - angle)) * H f.hx + Real.cos (deg2rad (f.azHy - angle)) * H f.hy) +
        M 1 1 * (Real.sin (deg2rad (f.azHx - angle)) * H f.hx + Real.sin (deg2rad (f.azHy - angle)) * H f.hy)) :
    M = zMat f angle := z_unique f hv angle hs M hM

/-- The rotation by `angle` degrees (clockwise from north). -/
noncomputable def R (angle : ℝ) : Matrix (Fin 2) (Fin 2) ℂ :=
  !![(Real.cos (deg2rad angle) : ℂ), (Real.sin (deg2rad angle) : ℂ);
     -(Real.sin (deg2rad angle) : ℂ), (Real.cos (deg2rad angle) : ℂ)]

theorem deg_sub (x y : ℝ) : deg2rad (x - y) = deg2rad x - deg2rad y := by unfold deg2rad; ring

theorem R_orth (angle : ℝ) : (R angle)ᵀ * R angle = 1 := by
  have h1 : (Real.sin (deg2rad angle) : ℂ) * Real.sin (deg2rad angle) + Real.cos (deg2rad angle) * Real.cos (deg2rad angle) = 1 := by
    have := Real.sin_sq_add_cos_sq (deg2rad angle)
    rw [pow_two, pow_two] at this
    exact_mod_cast this
  ext i j
  fin_cases i <;> fin_cases j <;> simp only [R, Matrix.mul_apply, Fin.sum_univ_two, Matrix.one_apply, Matrix.transpose_apply, Fin.mk_zero, Fin.mk_one, Fin.zero_eta, Fin.isValue, Matrix.of_apply, Matrix.cons_val', Matrix.cons_val_zero, Matrix.cons_val_one, Matrix.cons_val_fin_one]
  · simp only [if_pos]; linear_combination h1
  · simp; ring
  · simp; ring
  · simp only [if_pos]; linear_combination h1

/-- The `angle` of the call turns the tensor: `Z(angle) = R Z(0) Rᵀ` with the rotation by that angle. -/
theorem C128_angle (f : ZFile n) (hv : Valid f) (angle : ℝ) (hs : Real.sin (deg2rad (f.azHy - f.azHx)) ≠ 0) :
    zMat f angle = R angle * zMat f 0 * (R angle)ᵀ := by
  symm
  refine z_unique f hv angle hs _ fun H => ?_
  have h0 := C128_vector f hv 0 hs H
  simp only [sub_zero] at h0
  obtain ⟨h0, h1⟩ := h0
  have ho : (Real.sin (deg2rad angle) : ℂ) * Real.sin (deg2rad angle) + Real.cos (deg2rad angle) * Real.cos (deg2rad angle) = 1 := by
    have := Real.sin_sq_add_cos_sq (deg2rad angle)
    rw [pow_two, pow_two] at this
    exact_mod_cast this
  simp only [R, Matrix.mul_apply, Fin.sum_univ_two, Matrix.transpose_apply, Matrix.of_apply, Matrix.cons_val', Matrix.cons_val_zero, Matrix.cons_val_one, Matrix.cons_val_fin_one]
  simp only [dHx, dHy, dEx, dEy, deg_sub, Real.cos_sub, Real.sin_sub]
  push_cast
  simp only [Complex.ofReal_cos, Complex.ofReal_sin] at *
  generalize Complex.cos (deg2rad f.azHx : ℂ) = cx at *
  generalize Complex.sin (deg2rad f.azHx : ℂ) = sx at *
  generalize Complex.cos (deg2rad f.azHy : ℂ) = cy at *
  generalize Complex.sin (deg2rad f.azHy : ℂ) = sy at *
  generalize Complex.cos (deg2rad f.azEx : ℂ) = ex at *
  generalize Complex.sin (deg2rad f.azEx : ℂ) = fx at *
  generalize Complex.cos (deg2rad f.azEy : ℂ) = ey at *
  generalize Complex.sin (deg2rad f.azEy : ℂ) = fy at *
  generalize Complex.cos (deg2rad angle : ℂ) = c at *
  generalize Complex.sin (deg2rad angle : ℂ) = s at *
  generalize zMat f 0 0 0 = z00 at *
  generalize zMat f 0 0 1 = z01 at *
  generalize zMat f 0 1 0 = z10 at *
  generalize zMat f 0 1 1 = z11 at *
  constructor
  · linear_combination c * h0 + s * h1 -
      ((c * z00 + s * z10) * (cx * H f.hx + cy * H f.hy) + (c * z01 + s * z11) * (sx * H f.hx + sy * H f.hy)) * ho
  · linear_combination c * h1 - s * h0 -
      ((c * z10 - s * z00) * (cx * H f.hx + cy * H f.hy) + (c * z11 - s * z01) * (sx * H f.hx + sy * H f.hy)) * ho

/-- Quantities that do not depend on the angle: determinant, sum of the diagonal and difference of the
off-diagonal elements. -/
theorem C128_invariants (f : ZFile n) (hv : Valid f) (angle : ℝ) (hs : Real.sin (deg2rad (f.azHy - f.azHx)) ≠ 0) :
    (zMat f angle).det = (zMat f 0).det ∧ (zMat f angle).trace = (zMat f 0).trace ∧
    zMat f angle 0 1 - zMat f angle 1 0 = zMat f 0 0 1 - zMat f 0 1 0 := by
  rw [C128_angle f hv angle hs]
  have hR := R_orth angle
  refine ⟨?_, ?_, ?_⟩
  · rw [Matrix.det_mul, Matrix.det_mul, mul_comm, ← mul_assoc, ← Matrix.det_mul, hR, Matrix.det_one, one_mul]
  · rw [Matrix.trace_mul_comm, ← Matrix.mul_assoc, hR, Matrix.one_mul]
  · have ho : (Real.sin (deg2rad angle) : ℂ) * Real.sin (deg2rad angle) + Real.cos (deg2rad angle) * Real.cos (deg2rad angle) = 1 := by
      have := Real.sin_sq_add_cos_sq (deg2rad angle)
      rw [pow_two, pow_two] at this
      exact_mod_cast this
    simp only [R, Matrix.mul_apply, Fin.sum_univ_two, Matrix.transpose_apply, Matrix.of_apply, Matrix.cons_val', Matrix.cons_val_zero, Matrix.cons_val_one, Matrix.cons_val_fin_one]
    linear_combination (zMat f 0 0 1 - zMat f 0 1 0) * ho

/-- Channels to the north and the east: the impedance is what the file says, whatever the order of the
channels. -/
theorem C128_north (f : ZFile n) (hv : Valid f) (h1 : f.azHx = 0) (h2 : f.azHy = 90) (h3 : f.azEx = 0)
    (h4 : f.azEy = 90) : zMat f 0 = !![f.tf f.ex f.hx, f.tf f.ex f.hy; f.tf f.ey f.hx, f.tf f.ey f.hy] := by
  symm
  refine z_unique f hv 0 (by simp [h1, h2, deg90]) _ fun H => ?_
  simp only [dHx, dHy, dEx, dEy, h1, h2, h3, h4, sub_zero, deg0, deg90, Real.cos_zero, Real.sin_zero,
    Real.cos_pi_div_two, Real.sin_pi_div_two]
  simp only [Matrix.mulVec, dotProduct]
  rw [sum_two hv.h, sum_two hv.h]
  simp

/-- The tipper gives the vertical field from the magnetic field in north and east components. -/
theorem C128_tipper (f : ZFile n) (hv : Valid f) (angle : ℝ) (hz : Fin n)
    (hs : Real.sin (deg2rad (f.azHy - f.azHx)) ≠ 0) (H : Fin 2 → ℂ) :
    (f.tf *ᵥ H) hz =
      tipperAt f angle hz 0 * (Real.cos (deg2rad (f.azHx - angle)) * H f.hx + Real.cos (deg2rad (f.azHy - angle)) * H f.hy) +
      tipperAt f angle hz 1 * (Real.sin (deg2rad (f.azHx - angle)) * H f.hx + Real.sin (deg2rad (f.azHy - angle)) * H f.hy) := by
  have hs' : Real.sin (dHy f angle - dHx f angle) ≠ 0 := by rw [dH_sub]; exact hs
  have hu : IsUnit (uMat f angle).det := by rw [det_u hv.h]; exact isUnit_iff_ne_zero.2 hs'
  have h1 : (toC (uInv f angle))ᵀ * (toC (uMat f angle))ᵀ = 1 := by
    rw [← Matrix.transpose_mul, ← toC_mul, uInv, Matrix.mul_nonsing_inv _ hu, toC_one, Matrix.transpose_one]
  have h2 : rotTfH f angle *ᵥ ((toC (uMat f angle))ᵀ *ᵥ H) = f.tf *ᵥ H := by
    unfold rotTfH
    rw [Matrix.mulVec_mulVec, toC_one, Matrix.one_mul, Matrix.mul_assoc, h1, Matrix.mul_one]
  rw [← h2]
  have e1 : ((toC (uMat f angle))ᵀ *ᵥ H) f.hx = Real.cos (dHx f angle) * H f.hx + Real.cos (dHy f angle) * H f.hy := by
    simp only [Matrix.mulVec, dotProduct]
    rw [sum_two hv.h]
    simp [toC, u_xx hv.h, u_yx hv.h]
  have e2 : ((toC (uMat f angle))ᵀ *ᵥ H) f.hy = Real.sin (dHx f angle) * H f.hx + Real.sin (dHy f angle) * H f.hy := by
    simp only [Matrix.mulVec, dotProduct]
    rw [sum_two hv.h]
    simp [toC, u_xy hv.h, u_yy]
  simp only [dHx, dHy] at e1 e2
  rw [← e1, ← e2]
  conv_lhs => simp only [Matrix.mulVec, dotProduct]
  rw [sum_two hv.h]
  rfl

/-- With no vertical channel there is no tipper; with two channels of a kind of the same azimuth no
impedance; otherwise both are there. -/
theorem C128_present (f : ZFile n) (angle : ℝ) :
    ((impedance f angle).isSome ↔ f.azHx ≠ f.azHy ∧ f.azEx ≠ f.azEy) ∧
    ((tipper f angle).isSome ↔ f.hz.isSome) ∧
    (∀ z e, impedance f angle = some (z, e) → z = zMat f angle) ∧
    (∀ t e hz, tipper f angle = some (t, e) → f.hz = some hz → t = tipperAt f angle hz) := by
  refine ⟨?_, ?_, ?_, ?_⟩
  · unfold impedance; split_ifs <;> simp_all
  · unfold tipper; split <;> simp_all
  · intro z e h
    unfold impedance at h
    split_ifs at h
    simp only [Option.some.injEq, Prod.mk.injEq] at h
    exact h.1.symm
  · intro t e hz h hh
    simp only [tipper, hh, Option.some.injEq, Prod.mk.injEq] at h
    exact h.1.symm

/-! ## Errors -/

open ComplexOrder

theorem toC_conj {m k : Type} (A : Matrix m k ℝ) : (toC A)ᴴ = (toC A)ᵀ := by
  ext i j
  simp [toC]

theorem psd_diag {m : Type} [Fintype m] {A : Matrix m m ℂ} (h : A.PosSemidef) (i : m) : 0 ≤ A i i :=
  h.diag_nonneg

theorem re_mul_nonneg {a b : ℂ} (ha : 0 ≤ a) (hb : 0 ≤ b) : 0 ≤ (a * b).re :=
  (Complex.le_def.1 (mul_nonneg ha hb)).1

theorem rotS_psd {f : ZFile n} (a : ℝ) (h : f.sigmaS.PosSemidef) : (rotS f a).PosSemidef := by
  unfold rotS
  rw [← toC_conj, ← Matrix.mul_assoc]
  exact h.mul_mul_conjTranspose_same _

theorem rotE_psd {f : ZFile n} (a : ℝ) (h : f.sigmaE.PosSemidef) : (rotE f a).PosSemidef := by
  unfold rotE
  rw [← toC_conj, ← Matrix.mul_assoc]
  exact h.mul_mul_conjTranspose_same _

/-- Covariances are Hermitian and positive semidefinite; then all errors are numbers, not `nan`. -/
theorem C129_real (f : ZFile n) (angle : ℝ) (hS : f.sigmaS.PosSemidef) (hE : f.sigmaE.PosSemidef) :
    (∀ z e, impedance f angle = some (z, e) → ∀ i j, ∃ r, e i j = some r ∧ 0 ≤ r) ∧
    (∀ t e, tipper f angle = some (t, e) → ∀ i, ∃ r, e i = some r ∧ 0 ≤ r) := by
  have hs := rotS_psd angle hS
  have he := rotE_psd angle hE
  have key : ∀ {a b : ℂ}, 0 ≤ a → 0 ≤ b → ∃ r, npSqrt (a * b).re = some r ∧ 0 ≤ r := by
    intro a b ha hb
    refine ⟨_, by unfold npSqrt; rw [if_neg (not_lt.2 (re_mul_nonneg ha hb))], Real.sqrt_nonneg _⟩
  constructor
  · intro z e h i j
    unfold impedance at h
    split_ifs at h
    simp only [Option.some.injEq, Prod.mk.injEq] at h
    rw [← h.2]
    fin_cases i <;> fin_cases j <;> exact key (psd_diag he _) (psd_diag hs _)
  · intro t e h i
    unfold tipper at h
    split at h
    · simp at h
    · simp only [Option.some.injEq, Prod.mk.injEq] at h
      rw [← h.2]
      have hEH : rotEH f = f.sigmaE := by
        unfold rotEH
        rw [toC_one, Matrix.transpose_one, Matrix.mul_one, Matrix.one_mul]
      unfold tipperErrAt
      rw [hEH]
      fin_cases i <;> exact key (psd_diag hE _) (psd_diag hs _)

/-- Turning back the magnetic channels: if `sigmaS` is the inverse of the signal power `P` of the channels, then
the turned matrix is the inverse of the power of the field in geographic components. -/
theorem C129_power (f : ZFile n) (hv : Valid f) (angle : ℝ) (hs : Real.sin (deg2rad (f.azHy - f.azHx)) ≠ 0)
    (ι : Type) [Fintype ι] (x y : ι → ℂ)
    (hP : f.sigmaS * Matrix.of (fun a b => ∑ t, (if a = f.hx then x t else y t) * star (if b = f.hx then x t else y t)) = 1) :
    let N := fun t => Real.cos (deg2rad (f.azHx - angle)) * x t + Real.cos (deg2rad (f.azHy - angle)) * y t
    let E := fun t => Real.sin (deg2rad (f.azHx - angle)) * x t + Real.sin (deg2rad (f.azHy - angle)) * y t
    !![rotS f angle f.hx f.hx, rotS f angle f.hx f.hy; rotS f angle f.hy f.hx, rotS f angle f.hy f.hy] *
      !![∑ t, N t * star (N t), ∑ t, N t * star (E t); ∑ t, E t * star (N t), ∑ t, E t * star (E t)] = 1 := by
  intro N E
  have hs' : Real.sin (dHy f angle - dHx f angle) ≠ 0 := by rw [dH_sub]; exact hs
  have hu : IsUnit (uMat f angle).det := by rw [det_u hv.h]; exact isUnit_iff_ne_zero.2 hs'
  let P : Matrix (Fin 2) (Fin 2) ℂ := fun a b => ∑ t, (if a = f.hx then x t else y t) * star (if b = f.hx then x t else y t)
  have hP' : f.sigmaS * P = 1 := hP
  have h1 : (toC (uInv f angle))ᵀ * (toC (uMat f angle))ᵀ = 1 := by
    rw [← Matrix.transpose_mul, ← toC_mul, uInv, Matrix.mul_nonsing_inv _ hu, toC_one, Matrix.transpose_one]
  have h2 : toC (uInv f angle) * toC (uMat f angle) = 1 := by
    rw [← toC_mul, uInv, Matrix.nonsing_inv_mul _ hu, toC_one]
  have hG : rotS f angle * ((toC (uMat f angle))ᵀ * P * toC (uMat f angle)) = 1 := by
    unfold rotS
    calc toC (uInv f angle) * (f.sigmaS * (toC (uInv f angle))ᵀ) * ((toC (uMat f angle))ᵀ * P * toC (uMat f angle))
        = toC (uInv f angle) * (f.sigmaS * ((toC (uInv f angle))ᵀ * (toC (uMat f angle))ᵀ) * P) * toC (uMat f angle) := by
          simp only [Matrix.mul_assoc]
      _ = 1 := by rw [h1, Matrix.mul_one, hP', Matrix.mul_one, h2]
  have hne := hv.h
  have g : ∀ a b, ((toC (uMat f angle))ᵀ * P * toC (uMat f angle)) a b =
      ∑ t, ((uMat f angle f.hx a : ℂ) * x t + (uMat f angle f.hy a : ℂ) * y t) *
        star ((uMat f angle f.hx b : ℂ) * x t + (uMat f angle f.hy b : ℂ) * y t) := by
    intro a b
    simp only [Matrix.mul_apply]
    rw [sum_two hne, sum_two hne, sum_two hne]
    simp only [P, toC, Matrix.transpose_apply, Matrix.map_apply, if_pos, if_neg hne.symm, Finset.mul_sum, Finset.sum_mul,
      ← Finset.sum_add_distrib]
    refine Finset.sum_congr rfl fun t _ => ?_
    simp only [star_add, star_mul', Complex.star_def, Complex.conj_ofReal]
    ring
  have k1 := congrFun (congrFun hG f.hx) f.hx
  have k2 := congrFun (congrFun hG f.hy) f.hy
  have k3 := congrFun (congrFun hG f.hx) f.hy
  have k4 := congrFun (congrFun hG f.hy) f.hx
  rw [Matrix.mul_apply, sum_two hne, g, g, Matrix.one_apply_eq] at k1 k2
  rw [Matrix.mul_apply, sum_two hne, g, g, Matrix.one_apply_ne hne] at k3
  rw [Matrix.mul_apply, sum_two hne, g, g, Matrix.one_apply_ne hne.symm] at k4
  simp only [u_xx hne, u_xy hne, u_yx hne, u_yy] at k1 k2 k3 k4
  ext i j
  rw [Matrix.mul_apply, Fin.sum_univ_two]
  fin_cases i <;> fin_cases j
  · exact k1
  · exact k3
  · exact k4
  · exact k2

/-- The residuals: if `sigmaE` is the covariance of the residuals of the channels, the turned one has
on its diagonal the variance of the residuals of the north and of the east component. -/
theorem C129_residual (f : ZFile n) (hv : Valid f) (angle : ℝ) (ι : Type) [Fintype ι] (r : Fin n → ι → ℂ)
    (hE : ∀ i j, f.sigmaE i j = ∑ t, r i t * star (r j t)) :
    let N := fun t => Real.cos (deg2rad (f.azEx - angle)) * r f.ex t + Real.cos (deg2rad (f.azEy - angle)) * r f.ey t
    let E := fun t => Real.sin (deg2rad (f.azEx - angle)) * r f.ex t + Real.sin (deg2rad (f.azEy - angle)) * r f.ey t
    rotE f angle f.ex f.ex = ∑ t, N t * star (N t) ∧ rotE f angle f.ey f.ey = ∑ t, E t * star (E t) := by
  intro N E
  have key : ∀ i, rotE f angle i i = ∑ t, (toC (vMat f angle) *ᵥ fun k => r k t) i * star ((toC (vMat f angle) *ᵥ fun k => r k t) i) := by
    intro i
    have hEm : f.sigmaE = Matrix.of r * (Matrix.of r)ᴴ := by
      ext i j
      rw [hE]
      simp [Matrix.mul_apply, Matrix.conjTranspose_apply]
    have : rotE f angle = (toC (vMat f angle) * Matrix.of r) * (toC (vMat f angle) * Matrix.of r)ᴴ := by
      unfold rotE
      rw [hEm, Matrix.conjTranspose_mul, toC_conj]
      simp only [Matrix.mul_assoc]
    rw [this, Matrix.mul_apply]
    rfl
  refine ⟨?_, ?_⟩
  · rw [key]; refine Finset.sum_congr rfl fun t _ => ?_
    rw [v_apply_ex hv.e]; rfl
  · rw [key]; refine Finset.sum_congr rfl fun t _ => ?_
    rw [v_apply_ey hv.e]; rfl

/-- The errors, in terms of the fields in geographic components: with `r` the residuals of the channels and
`x`, `y` the magnetic channels from which the covariances of the file were made, and `G` the inverse power
of the magnetic field in north and east components, the error of the element `i j` is the root of the
residual variance of component `i` times `G j j`. -/
theorem C129_errors (f : ZFile n) (hv : Valid f) (angle : ℝ) (hs : Real.sin (deg2rad (f.azHy - f.azHx)) ≠ 0)
    (ι κ : Type) [Fintype ι] [Fintype κ] (x y : ι → ℂ) (r : Fin n → κ → ℂ)
    (hP : f.sigmaS * Matrix.of (fun a b => ∑ t, (if a = f.hx then x t else y t) * star (if b = f.hx then x t else y t)) = 1)
    (hE : ∀ i j, f.sigmaE i j = ∑ t, r i t * star (r j t))
    (G : Matrix (Fin 2) (Fin 2) ℂ) (B : Fin 2 → ι → ℂ) (D : Fin 2 → κ → ℂ)
    (hB0 : ∀ t, B 0 t = Real.cos (deg2rad (f.azHx - angle)) * x t + Real.cos (deg2rad (f.azHy - angle)) * y t)
    (hB1 : ∀ t, B 1 t = Real.sin (deg2rad (f.azHx - angle)) * x t + Real.sin (deg2rad (f.azHy - angle)) * y t)
    (hD0 : ∀ t, D 0 t = Real.cos (deg2rad (f.azEx - angle)) * r f.ex t + Real.cos (deg2rad (f.azEy - angle)) * r f.ey t)
    (hD1 : ∀ t, D 1 t = Real.sin (deg2rad (f.azEx - angle)) * r f.ex t + Real.sin (deg2rad (f.azEy - angle)) * r f.ey t)
    (hG : G * Matrix.of (fun a b => ∑ t, B a t * star (B b t)) = 1)
    (z : Matrix (Fin 2) (Fin 2) ℂ) (e : Matrix (Fin 2) (Fin 2) (Option ℝ)) (h : impedance f angle = some (z, e)) :
    (∀ i j, e i j = some (Real.sqrt ((∑ t, D i t * star (D i t)) * G j j).re)) ∧
    ∀ k t te, f.hz = some k → tipper f angle = some (t, te) →
      ∀ j, te j = some (Real.sqrt ((∑ t, r k t * star (r k t)) * G j j).re) := by
  have k1 := C129_power f hv angle hs ι x y hP
  have k2 := C129_residual f hv angle κ r hE
  have hS : !![rotS f angle f.hx f.hx, rotS f angle f.hx f.hy; rotS f angle f.hy f.hx, rotS f angle f.hy f.hy] = G := by
    have e1 : Matrix.of (fun a b => ∑ t, B a t * star (B b t)) =
        !![∑ t, B 0 t * star (B 0 t), ∑ t, B 0 t * star (B 1 t); ∑ t, B 1 t * star (B 0 t), ∑ t, B 1 t * star (B 1 t)] := by
      ext i j; fin_cases i <;> fin_cases j <;> rfl
    rw [e1] at hG
    simp only [hB0, hB1] at hG
    simp only at k1
    have hG' := mul_eq_one_comm.1 hG
    calc _ = _ * (1 : Matrix (Fin 2) (Fin 2) ℂ) := (Matrix.mul_one _).symm
      _ = G := by rw [← hG', ← Matrix.mul_assoc, k1, Matrix.one_mul]
  have hSx : rotS f angle f.hx f.hx = G 0 0 := by rw [← hS]; rfl
  have hSy : rotS f angle f.hy f.hy = G 1 1 := by rw [← hS]; rfl
  have hPS : f.sigmaS.PosSemidef := by
    have hm : Matrix.of (fun a b => ∑ t, (if a = f.hx then x t else y t) * star (if b = f.hx then x t else y t)) =
        Matrix.of (fun (a : Fin 2) t => if a = f.hx then x t else y t) * (Matrix.of (fun (a : Fin 2) t => if a = f.hx then x t else y t))ᴴ := by
      ext i j; simp [Matrix.mul_apply, Matrix.conjTranspose_apply]
    rw [hm] at hP
    have hp := Matrix.posSemidef_self_mul_conjTranspose (Matrix.of (fun (a : Fin 2) t => if a = f.hx then x t else y t))
    rw [← Matrix.inv_eq_left_inv hP]
    exact hp.inv
  have hPE : f.sigmaE.PosSemidef := by
    have : f.sigmaE = Matrix.of r * (Matrix.of r)ᴴ := by
      ext i j; rw [hE]; simp [Matrix.mul_apply, Matrix.conjTranspose_apply]
    rw [this]
    exact Matrix.posSemidef_self_mul_conjTranspose _
  have hs1 := rotS_psd angle hPS
  have he1 := rotE_psd angle hPE
  have sq : ∀ {a b : ℂ}, 0 ≤ a → 0 ≤ b → npSqrt (a * b).re = some (Real.sqrt (a * b).re) := by
    intro a b ha hb
    unfold npSqrt; rw [if_neg (not_lt.2 (re_mul_nonneg ha hb))]
  constructor
  · intro i j
    unfold impedance at h
    split_ifs at h
    simp only [Option.some.injEq, Prod.mk.injEq] at h
    rw [← h.2]
    have d0 : rotE f angle f.ex f.ex = ∑ t, D 0 t * star (D 0 t) := by rw [k2.1]; simp only [hD0]
    have d1 : rotE f angle f.ey f.ey = ∑ t, D 1 t * star (D 1 t) := by rw [k2.2]; simp only [hD1]
    fin_cases i <;> fin_cases j
    · change npSqrt (rotE f angle f.ex f.ex * rotS f angle f.hx f.hx).re = _
      rw [sq (psd_diag he1 _) (psd_diag hs1 _), d0, hSx]; rfl
    · change npSqrt (rotE f angle f.ex f.ex * rotS f angle f.hy f.hy).re = _
      rw [sq (psd_diag he1 _) (psd_diag hs1 _), d0, hSy]; rfl
    · change npSqrt (rotE f angle f.ey f.ey * rotS f angle f.hx f.hx).re = _
      rw [sq (psd_diag he1 _) (psd_diag hs1 _), d1, hSx]; rfl
    · change npSqrt (rotE f angle f.ey f.ey * rotS f angle f.hy f.hy).re = _
      rw [sq (psd_diag he1 _) (psd_diag hs1 _), d1, hSy]; rfl
  · intro k t te hk ht j
    simp only [tipper, hk, Option.some.injEq, Prod.mk.injEq] at ht
    have hEH : rotEH f = f.sigmaE := by
      unfold rotEH
      rw [toC_one, Matrix.transpose_one, Matrix.mul_one, Matrix.one_mul]
    rw [← ht.2]
    unfold tipperErrAt
    rw [hEH]
    fin_cases j
    · change npSqrt (f.sigmaE k k * rotS f angle f.hx f.hx).re = _
      rw [sq (psd_diag hPE _) (psd_diag hs1 _), hE, hSx]; rfl
    · change npSqrt (f.sigmaE k k * rotS f angle f.hy f.hy).re = _
      rw [sq (psd_diag hPE _) (psd_diag hs1 _), hE, hSy]; rfl

/-! ## Writing a file that was read -/

/-- Full claim: reading, writing and reading again leaves the impedance. -/
def C130_claim : Prop := ∀ (f : ZFile 2), Valid f → Real.cos (deg2rad (f.azHy - f.azHx)) = 0 →
  Real.cos (deg2rad (f.azEy - f.azEx)) = 0 → zMat (rewrite f) 0 = zMat f 0

/-- Channels to the east and the south, the first electric depending on the first magnetic. -/
noncomputable def turned (T : Matrix (Fin 2) (Fin 2) ℂ) : ZFile 2 where
  hx := 0
  hy := 1
  ex := 0
  ey := 1
  hz := none
  azHx := 90
  azHy := 180
  azEx := 90
  azEy := 180
  tf := T
  sigmaS := 1
  sigmaE := 1

theorem z_turned (T : Matrix (Fin 2) (Fin 2) ℂ) : zMat (turned T) 0 = !![T 1 1, -T 1 0; -T 0 1, T 0 0] := by
  symm
  refine z_unique (turned T) ⟨show (0 : Fin 2) ≠ 1 by decide, show (0 : Fin 2) ≠ 1 by decide⟩ 0 (by rw [show (turned T).azHy - (turned T).azHx = 90 by norm_num [turned], deg90]; simp) _ fun H => ?_
  constructor <;>
  · simp [turned, dHx, dHy, dEx, dEy, deg90, deg180, Matrix.mulVec, dotProduct, Fin.sum_univ_two]
    try ring

theorem C130_refuted : ¬ C130_claim := by
  intro h
  have h1 := h (turned !![1, 0; 0, 0]) ⟨by decide, by decide⟩
    (by rw [show (turned _).azHy - (turned _).azHx = 90 by norm_num [turned], deg90]; simp)
    (by rw [show (turned _).azEy - (turned _).azEx = 90 by norm_num [turned], deg90]; simp)
  rw [show rewrite (turned !![1, 0; 0, 0]) = turned (dataTf (turned !![1, 0; 0, 0])) from rfl, z_turned, z_turned] at h1
  have h2 := congrFun (congrFun h1 0) 0
  simp [dataTf, z_turned] at h2
  simp [turned, setE] at h2

/-- If all azimuths are 0 and 90 degrees the data set is the file, and the file written has the same
impedance and tipper, and the same errors. -/
theorem C130_partial (f : ZFile n) (hv : Valid f) (h1 : f.azHx = 0) (h2 : f.azHy = 90) (h3 : f.azEx = 0)
    (h4 : f.azEy = 90) :
    rewrite f = f := by
  have hn := C128_north f hv h1 h2 h3 h4
  have ht : ∀ k, tipperAt f 0 k 0 = f.tf k f.hx ∧ tipperAt f 0 k 1 = f.tf k f.hy := by
    intro k
    have hs : Real.sin (deg2rad (f.azHy - f.azHx)) ≠ 0 := by simp [h1, h2, deg90]
    have a := C128_tipper f hv 0 k hs (Pi.single f.hx 1)
    have b := C128_tipper f hv 0 k hs (Pi.single f.hy 1)
    simp [h1, h2, deg0, deg90, Pi.single_eq_of_ne hv.h, Pi.single_eq_of_ne hv.h.symm] at a b
    exact ⟨a.symm, b.symm⟩
  have hset : ∀ (M : Matrix (Fin n) (Fin 2) ℂ) i j, setE M i j (M i j) = M := by
    intro M i j
    ext a b
    unfold setE
    split_ifs with h
    · rw [h.1, h.2]
    · rfl
  have hd : dataTf f = f.tf := by
    unfold dataTf
    rw [hn]
    simp only [Matrix.of_apply, Matrix.cons_val', Matrix.cons_val_zero, Matrix.cons_val_one, Matrix.cons_val_fin_one]
    rw [hset, hset, hset, hset]
    split
    · rfl
    · rw [(ht _).1, (ht _).2, hset, hset]
  unfold rewrite
  rw [hd]

/-- What happens in general: with both pairs of channels at `θ` and `θ + 90` degrees, the file that is written
has the impedance of a file with the numbers of the first and channels at `2 θ` and `2 θ + 90`. -/
theorem C130_twice (f : ZFile n) (hv : Valid f) (θ : ℝ) (h1 : f.azHx = θ) (h2 : f.azHy = θ + 90) (h3 : f.azEx = θ)
    (h4 : f.azEy = θ + 90) (hz : ∀ k, f.hz = some k → k ≠ f.ex ∧ k ≠ f.ey) :
    zMat (rewrite f) 0 = zMat { f with azHx := 2 * θ, azHy := 2 * θ + 90, azEx := 2 * θ, azEy := 2 * θ + 90 } 0 := by
  have gen : ∀ (g : ZFile n) (φ : ℝ), Valid g → g.azHx = φ → g.azHy = φ + 90 → g.azEx = φ → g.azEy = φ + 90 →
      zMat g 0 = (R φ)ᵀ * !![g.tf g.ex g.hx, g.tf g.ex g.hy; g.tf g.ey g.hx, g.tf g.ey g.hy] * R φ := by
    intro g φ gv g1 g2 g3 g4
    have hs : Real.sin (deg2rad (g.azHy - g.azHx)) ≠ 0 := by
      rw [g1, g2, add_sub_cancel_left, deg90]; simp
    have e90 : deg2rad (φ + 90) = deg2rad φ + Real.pi / 2 := by rw [← deg90]; unfold deg2rad; ring
    symm
    refine z_unique g gv 0 hs _ fun H => ?_
    have ho : (Real.sin (deg2rad φ) : ℂ) * Real.sin (deg2rad φ) + Real.cos (deg2rad φ) * Real.cos (deg2rad φ) = 1 := by
      have := Real.sin_sq_add_cos_sq (deg2rad φ)
      rw [pow_two, pow_two] at this
      exact_mod_cast this
    simp only [dHx, dHy, dEx, dEy, g1, g2, g3, g4, sub_zero, e90, Real.cos_add_pi_div_two, Real.sin_add_pi_div_two]
    simp only [Matrix.mulVec, dotProduct]
    rw [sum_two gv.h, sum_two gv.h]
    simp only [R, Matrix.mul_apply, Fin.sum_univ_two, Matrix.transpose_apply, Matrix.of_apply, Matrix.cons_val', Matrix.cons_val_zero, Matrix.cons_val_one, Matrix.cons_val_fin_one]
    push_cast
    simp only [Complex.ofReal_cos, Complex.ofReal_sin] at *
    generalize Complex.cos (deg2rad φ : ℂ) = c at *
    generalize Complex.sin (deg2rad φ : ℂ) = s at *
    generalize g.tf g.ex g.hx = t1
    generalize g.tf g.ex g.hy = t2
    generalize g.tf g.ey g.hx = t3
    generalize g.tf g.ey g.hy = t4
    generalize H g.hx = p
    generalize H g.hy = q
    constructor
    · linear_combination -(c * (t1 * p + t2 * q) - s * (t3 * p + t4 * q)) * ho
    · linear_combination -(s * (t1 * p + t2 * q) + c * (t3 * p + t4 * q)) * ho
  have hv2 : Valid (rewrite f) := ⟨hv.h, hv.e⟩
  rw [gen (rewrite f) θ hv2 h1 h2 h3 h4,
    gen { f with azHx := 2 * θ, azHy := 2 * θ + 90, azEx := 2 * θ, azEy := 2 * θ + 90 } (2 * θ) ⟨hv.h, hv.e⟩ rfl rfl rfl rfl]
  have hne := hv.h
  have hee := hv.e
  have hd : !![(rewrite f).tf (rewrite f).ex (rewrite f).hx, (rewrite f).tf (rewrite f).ex (rewrite f).hy;
      (rewrite f).tf (rewrite f).ey (rewrite f).hx, (rewrite f).tf (rewrite f).ey (rewrite f).hy] = zMat f 0 := by
    have ne1 : ∀ k, f.hz = some k → f.ex ≠ k ∧ f.ey ≠ k := fun k hk => ⟨(hz k hk).1.symm, (hz k hk).2.symm⟩
    ext i j
    unfold rewrite dataTf
    cases hk : f.hz with
    | none => fin_cases i <;> fin_cases j <;> simp [setE, hne, hee, hne.symm, hee.symm]
    | some k =>
      obtain ⟨n1, n2⟩ := ne1 k hk
      fin_cases i <;> fin_cases j <;> simp [setE, hne, hee, hne.symm, hee.symm, n1, n2]
  rw [hd, gen f θ hv h1 h2 h3 h4]
  have hR : R θ * R θ = R (2 * θ) := by
    have e2 : deg2rad (2 * θ) = deg2rad θ + deg2rad θ := by unfold deg2rad; ring
    ext i j
    fin_cases i <;> fin_cases j <;> simp [R, Matrix.mul_apply, Fin.sum_univ_two, e2, Complex.cos_add, Complex.sin_add] <;> ring
  rw [← hR, Matrix.transpose_mul]
  simp only [Matrix.mul_assoc]

/-! ## Concrete cases -/

/-- A file with the electric channels before and behind the vertical field, in a turned system. -/
noncomputable def file3 : ZFile 3 where
  hx := 1
  hy := 0
  ex := 2
  ey := 0
  hz := some 1
  azHx := 14
  azHy := 104
  azEx := 14
  azEy := 104
  tf := !![1, 2; 3, 4; 5, 6]
  sigmaS := 1
  sigmaE := 1

example : Valid file3 ∧ Real.sin (deg2rad (file3.azHy - file3.azHx)) ≠ 0 ∧ Real.cos (deg2rad (file3.azHy - file3.azHx)) = 0 ∧
    Real.cos (deg2rad (file3.azEy - file3.azEx)) = 0 ∧ file3.sigmaS.PosSemidef ∧ file3.sigmaE.PosSemidef ∧
    (∀ k, file3.hz = some k → k ≠ file3.ex ∧ k ≠ file3.ey) ∧ (impedance file3 0).isSome := by
  have h : file3.azHy - file3.azHx = 90 := by norm_num [file3]
  have h' : file3.azEy - file3.azEx = 90 := by norm_num [file3]
  refine ⟨⟨by decide, by decide⟩, ?_, ?_, ?_, Matrix.PosSemidef.one, Matrix.PosSemidef.one, ?_, ?_⟩
  · rw [h, deg90]; simp
  · rw [h, deg90]; simp
  · rw [h', deg90]; simp
  · intro k hk
    simp only [file3, Option.some.injEq] at hk
    subst hk
    constructor <;> decide
  · rw [(C128_present file3 0).1]
    norm_num [file3]

/-- Fields for `C129_errors`: two samples, unit powers. -/
example : ∃ x y : Fin 2 → ℂ, file3.sigmaS * Matrix.of (fun a b => ∑ t, (if a = file3.hx then x t else y t) *
    star (if b = file3.hx then x t else y t)) = 1 := by
  refine ⟨![1, 0], ![0, 1], ?_⟩
  ext i j
  fin_cases i <;> fin_cases j <;> simp [file3, Fin.sum_univ_two]

example : ∃ r : Fin 3 → Fin 3 → ℂ, ∀ i j, file3.sigmaE i j = ∑ t, r i t * star (r j t) := by
  refine ⟨fun i t => if i = t then 1 else 0, fun i j => ?_⟩
  fin_cases i <;> fin_cases j <;> simp [file3, Matrix.one_apply]

end Verif.Zmm
