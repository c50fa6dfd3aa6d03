import Mathlib.Analysis.SpecialFunctions.Trigonometric.Basic
import Mathlib.LinearAlgebra.Matrix.NonsingularInverse
import Mathlib.LinearAlgebra.Matrix.PosDef
import Mathlib.Data.Complex.Basic
import Mathlib.Analysis.Complex.Order

/-!
# Impedance and tipper of a Z file

Model of `mt_metadata/transfer_functions/io/zfiles/zmm.py`: `calculate_impedance` (L905-L1017),
`calculate_tippers` (L1019-L1088) and what `read` and `write` do with them (L560-L640, L650-L735,
L855-L903), for one period.

Simplifications: real and complex numbers are exact; `np.linalg.inv` is the matrix inverse (and the
zero matrix where NumPy raises `LinAlgError`); the channel indices (`number - 1`) are in range, which the
types say; a file is the numbers it holds (their text is not modelled here).
-/

namespace Verif.Zmm
open Matrix

/-- `m[i, j] = x` -/
def setE {m n : Type} [DecidableEq m] [DecidableEq n] {R : Type} (M : Matrix m n R) (i : m) (j : n) (x : R) :
    Matrix m n R := fun a b => if a = i ∧ b = j then x else M a b

/-- `np.deg2rad` -/
noncomputable def deg2rad (x : ℝ) : ℝ := x * (Real.pi / 180)

/-- What a Z file says about one period, with `n` predicted channels: indices and azimuths of the
channels (predicted channels counted from 0: `index - 2`), transfer functions, inverse signal power and
residual covariance. -/
structure ZFile (n : ℕ) where
  hx : Fin 2
  hy : Fin 2
  ex : Fin n
  ey : Fin n
  hz : Option (Fin n)
  azHx : ℝ
  azHy : ℝ
  azEx : ℝ
  azEy : ℝ
  tf : Matrix (Fin n) (Fin 2) ℂ
  sigmaS : Matrix (Fin 2) (Fin 2) ℂ
  sigmaE : Matrix (Fin n) (Fin n) ℂ

variable {n : ℕ}

/-- L958-L963: `u` before it is inverted. -/
noncomputable def uMat (f : ZFile n) (angle : ℝ) : Matrix (Fin 2) (Fin 2) ℝ :=
  let u : Matrix (Fin 2) (Fin 2) ℝ := 1
  let u := setE u f.hx f.hx (Real.cos (deg2rad (f.azHx - angle)))
  let u := setE u f.hx f.hy (Real.sin (deg2rad (f.azHx - angle)))
  let u := setE u f.hy f.hx (Real.cos (deg2rad (f.azHy - angle)))
  setE u f.hy f.hy (Real.sin (deg2rad (f.azHy - angle)))

/-- L964 -/
noncomputable def uInv (f : ZFile n) (angle : ℝ) : Matrix (Fin 2) (Fin 2) ℝ := (uMat f angle)⁻¹

/-- L967-L973 -/
noncomputable def vMat (f : ZFile n) (angle : ℝ) : Matrix (Fin n) (Fin n) ℝ :=
  let v : Matrix (Fin n) (Fin n) ℝ := 1
  let v := setE v f.ex f.ex (Real.cos (deg2rad (f.azEx - angle)))
  let v := setE v f.ey f.ex (Real.sin (deg2rad (f.azEx - angle)))
  let v := setE v f.ex f.ey (Real.cos (deg2rad (f.azEy - angle)))
  setE v f.ey f.ey (Real.sin (deg2rad (f.azEy - angle)))

/-- Real matrices among complex ones. -/
def toC {m k : Type} (M : Matrix m k ℝ) : Matrix m k ℂ := M.map Complex.ofReal

/-- L976-L978 -/
noncomputable def rotTf (f : ZFile n) (angle : ℝ) : Matrix (Fin n) (Fin 2) ℂ :=
  toC (vMat f angle) * (f.tf * (toC (uInv f angle))ᵀ)

/-- L979 -/
noncomputable def rotS (f : ZFile n) (angle : ℝ) : Matrix (Fin 2) (Fin 2) ℂ :=
  toC (uInv f angle) * (f.sigmaS * (toC (uInv f angle))ᵀ)

/-- L980 -/
noncomputable def rotE (f : ZFile n) (angle : ℝ) : Matrix (Fin n) (Fin n) ℂ :=
  toC (vMat f angle) * (f.sigmaE * (toC (vMat f angle))ᵀ)

/-- `np.sqrt` of a real number: `nan` (here `none`) below zero. -/
noncomputable def npSqrt (x : ℝ) : Option ℝ := if x < 0 then none else some (Real.sqrt x)

/-- L983-L987 -/
noncomputable def zMat (f : ZFile n) (angle : ℝ) : Matrix (Fin 2) (Fin 2) ℂ :=
  !![rotTf f angle f.ex f.hx, rotTf f angle f.ex f.hy;
     rotTf f angle f.ey f.hx, rotTf f angle f.ey f.hy]

/-- L990-L1007 -/
noncomputable def zVar (f : ZFile n) (angle : ℝ) : Matrix (Fin 2) (Fin 2) ℝ :=
  !![(rotE f angle f.ex f.ex * rotS f angle f.hx f.hx).re, (rotE f angle f.ex f.ex * rotS f angle f.hy f.hy).re;
     (rotE f angle f.ey f.ey * rotS f angle f.hx f.hx).re, (rotE f angle f.ey f.ey * rotS f angle f.hy f.hy).re]

open Classical in
/-- L905-L1017 `calculate_impedance`: the tensor and its errors, or nothing if two channels of a
kind have the same azimuth. -/
noncomputable def impedance (f : ZFile n) (angle : ℝ) :
    Option (Matrix (Fin 2) (Fin 2) ℂ × Matrix (Fin 2) (Fin 2) (Option ℝ)) :=
  if f.azHx = f.azHy then none
  else if f.azEx = f.azEy then none
  else some (zMat f angle, (zVar f angle).map npSqrt)

/-- L1061-L1063: the predicted channels are not turned (`v` is the unit matrix). -/
noncomputable def rotTfH (f : ZFile n) (angle : ℝ) : Matrix (Fin n) (Fin 2) ℂ :=
  toC 1 * (f.tf * (toC (uInv f angle))ᵀ)

/-- L1064: `v` is the unit matrix. -/
noncomputable def rotEH (f : ZFile n) : Matrix (Fin n) (Fin n) ℂ :=
  toC 1 * (f.sigmaE * (toC (1 : Matrix (Fin n) (Fin n) ℝ))ᵀ)

/-- L1067-L1069, of the channel with index `hz` -/
noncomputable def tipperAt (f : ZFile n) (angle : ℝ) (hz : Fin n) : Fin 2 → ℂ :=
  ![rotTfH f angle hz f.hx, rotTfH f angle hz f.hy]

/-- L1072-L1081: the errors of the tipper. -/
noncomputable def tipperErrAt (f : ZFile n) (angle : ℝ) (hz : Fin n) : Fin 2 → Option ℝ :=
  ![npSqrt (rotEH f hz hz * rotS f angle f.hx f.hx).re, npSqrt (rotEH f hz hz * rotS f angle f.hy f.hy).re]

/-- L1019-L1086 `calculate_tippers` -/
noncomputable def tipper (f : ZFile n) (angle : ℝ) : Option ((Fin 2 → ℂ) × (Fin 2 → Option ℝ)) :=
  match f.hz with
  | none => none
  | some hz => some (tipperAt f angle hz, tipperErrAt f angle hz)

/-- The transfer functions of the data set after reading (L862-L893). -/
noncomputable def dataTf (f : ZFile n) : Matrix (Fin n) (Fin 2) ℂ :=
  let t := setE f.tf f.ex f.hx (zMat f 0 0 0)
  let t := setE t f.ex f.hy (zMat f 0 0 1)
  let t := setE t f.ey f.hx (zMat f 0 1 0)
  let t := setE t f.ey f.hy (zMat f 0 1 1)
  match f.hz with
  | none => t
  | some hz => setE (setE t hz f.hx (tipperAt f 0 hz 0)) hz f.hy (tipperAt f 0 hz 1)

/-- L650-L735: a file that was read (turned, as is the default) and is written again: the turned
transfer functions under the azimuths of the file. -/
noncomputable def rewrite (f : ZFile n) : ZFile n := { f with tf := dataTf f }

end Verif.Zmm
