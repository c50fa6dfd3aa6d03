import Mathlib.LinearAlgebra.Matrix.NonsingularInverse
import Mathlib.Data.Complex.Basic
import Mathlib.Analysis.Complex.Norm
import Mathlib.LinearAlgebra.Matrix.Notation

/-!
# Impedance and tipper from the spectra of an EDI file

Model of `mt_metadata/transfer_functions/io/edi/edi.py`: `_read_spectra` from the cross powers on
(L532-L690), for one frequency.

Simplifications: exact numbers; no cross power is zero or the empty value of the header (those become
`nan`, L559-L560, and so do the results); `np.linalg.inv` is the matrix inverse (NumPy raises
`LinAlgError` where there is none); the channels are where `index_locator` (`Model/IoTools`) puts them. The
case without electric channels (L631-L638) cannot be reached from `read` (L342-L350) and is left
out.
-/

namespace Verif.EdiSpectra
open Matrix

/-- `m[i, j] = x` -/
def setE {m n : Type} [DecidableEq m] [DecidableEq n] {R : Type} (M : Matrix m n R) (i : m) (j : n) (x : R) :
    Matrix m n R := fun a b => if a = i ∧ b = j then x else M a b

/-- The spectra of one frequency: the square of numbers of the file, the number of averages and where
the channels are (`index_locator`; without remote channels `rhx` and `rhy` are `hx` and `hy`). -/
structure Spec (n : ℕ) where
  arr : Matrix (Fin n) (Fin n) ℝ
  avgt : ℝ
  hx : Fin n
  hy : Fin n
  ex : Fin n
  ey : Fin n
  rhx : Fin n
  rhy : Fin n
  hz : Option (Fin n)

variable {n : ℕ}

/-- L538-L557: the cross powers, of the real part below and the imaginary part above the diagonal. -/
noncomputable def sArr (p : Spec n) : Matrix (Fin n) (Fin n) ℂ := fun i j =>
  if i = j then (p.arr i i : ℂ)
  else if i < j then ⟨p.arr j i, -p.arr i j⟩
  else ⟨p.arr i j, p.arr j i⟩

/-- L578-L581 -/
noncomputable def rh (p : Spec n) : Matrix (Fin 2) (Fin 2) ℂ :=
  !![sArr p p.rhx p.hx, sArr p p.rhx p.hy; sArr p p.rhy p.hx, sArr p p.rhy p.hy]

/-- L583-L586 -/
noncomputable def rr (p : Spec n) : Matrix (Fin 2) (Fin 2) ℂ :=
  !![sArr p p.rhx p.rhx, sArr p p.rhx p.rhy; sArr p p.rhy p.rhx, sArr p p.rhy p.rhy]

/-- L588-L591 -/
noncomputable def hh (p : Spec n) : Matrix (Fin 2) (Fin 2) ℂ :=
  !![sArr p p.hx p.hx, sArr p p.hx p.hy; sArr p p.hy p.hx, sArr p p.hy p.hy]

/-- L594-L600: with a vertical channel. -/
noncomputable def re3 (p : Spec n) (hz : Fin n) : Matrix (Fin 2) (Fin 3) ℂ :=
  !![sArr p p.rhx p.ex, sArr p p.rhx p.ey, sArr p p.rhx hz;
     sArr p p.rhy p.ex, sArr p p.rhy p.ey, sArr p p.rhy hz]

/-- L602-L607 -/
noncomputable def he3 (p : Spec n) (hz : Fin n) : Matrix (Fin 2) (Fin 3) ℂ :=
  !![sArr p p.hx p.ex, sArr p p.hx p.ey, sArr p p.hx hz;
     sArr p p.hy p.ex, sArr p p.hy p.ey, sArr p p.hy hz]

/-- L609-L617 -/
noncomputable def ee3 (p : Spec n) (hz : Fin n) : Matrix (Fin 3) (Fin 3) ℂ :=
  !![sArr p p.ex p.ex, sArr p p.ex p.ey, sArr p p.ex hz;
     sArr p p.ey p.ex, sArr p p.ey p.ey, sArr p p.ey hz;
     sArr p hz p.ex, sArr p hz p.ey, sArr p hz hz]

/-- L619-L622: without a vertical channel; the third and the fourth assignment are to the same
element. -/
noncomputable def re2 (p : Spec n) : Matrix (Fin 2) (Fin 2) ℂ :=
  let re : Matrix (Fin 2) (Fin 2) ℂ := 0
  let re := setE re 0 0 (sArr p p.rhx p.ex)
  let re := setE re 0 1 (sArr p p.rhx p.ey)
  let re := setE re 1 0 (sArr p p.rhy p.ex)
  setE re 1 0 (sArr p p.rhy p.ey)

/-- L624-L627: the second and the third assignment are to the same element. -/
noncomputable def he2 (p : Spec n) : Matrix (Fin 2) (Fin 2) ℂ :=
  let he : Matrix (Fin 2) (Fin 2) ℂ := 0
  let he := setE he 0 0 (sArr p p.hx p.ex)
  let he := setE he 0 1 (sArr p p.hx p.ey)
  let he := setE he 0 1 (sArr p p.hy p.ex)
  setE he 1 1 (sArr p p.hy p.ey)

/-- L629-L632 -/
noncomputable def ee2 (p : Spec n) : Matrix (Fin 2) (Fin 2) ℂ :=
  !![sArr p p.ex p.ex, sArr p p.ex p.ey; sArr p p.ey p.ex, sArr p p.ey p.ey]

/-- L648-L649 -/
noncomputable def tf {m : ℕ} (rh : Matrix (Fin 2) (Fin 2) ℂ) (re : Matrix (Fin 2) (Fin m) ℂ) : Matrix (Fin m) (Fin 2) ℂ :=
  (rh⁻¹ * re)ᴴ

/-- L651-L653 -/
noncomputable def sig (rh rr : Matrix (Fin 2) (Fin 2) ℂ) : Matrix (Fin 2) (Fin 2) ℂ :=
  rh⁻¹ * (rr * (rhᴴ)⁻¹)

/-- L654-L659 -/
noncomputable def res {m : ℕ} (rh hh : Matrix (Fin 2) (Fin 2) ℂ) (re he : Matrix (Fin 2) (Fin m) ℂ)
    (ee : Matrix (Fin m) (Fin m) ℂ) (avgt : ℝ) : Matrix (Fin m) (Fin m) ℂ :=
  (avgt : ℂ)⁻¹ • (ee - tf rh re * he - heᴴ * (rh⁻¹ * re) + tf rh re * (hh * (rh⁻¹ * re)))

/-- L662-L667: roots of the moduli of the variances. -/
noncomputable def tfErr {m : ℕ} (res : Matrix (Fin m) (Fin m) ℂ) (sig : Matrix (Fin 2) (Fin 2) ℂ) :
    Matrix (Fin m) (Fin 2) ℝ := fun a b => Real.sqrt ‖res a a * sig b b‖

open Classical in
/-- L678-L679: an error of zero becomes one. -/
noncomputable def noZero (x : ℝ) : ℝ := if x = 0 then 1 else x

/-- What is stored for one frequency. -/
structure Result where
  z : Matrix (Fin 2) (Fin 2) ℂ
  zErr : Matrix (Fin 2) (Fin 2) ℝ
  t : Fin 2 → ℂ
  tErr : Fin 2 → ℝ

/-- L593-L689; without a vertical channel the tipper stays zero (L515-L516). -/
noncomputable def readSpectra (p : Spec n) : Result :=
  match p.hz with
  | some hz =>
    let tfm := tf (rh p) (re3 p hz)
    let err := tfErr (res (rh p) (hh p) (re3 p hz) (he3 p hz) (ee3 p hz) p.avgt) (sig (rh p) (rr p))
    { z := fun a b => tfm (Fin.castSucc a) b
      zErr := fun a b => noZero (err (Fin.castSucc a) b)
      t := tfm 2
      tErr := fun b => noZero (err 2 b) }
  | none =>
    let tfm := tf (rh p) (re2 p)
    let err := tfErr (res (rh p) (hh p) (re2 p) (he2 p) (ee2 p) p.avgt) (sig (rh p) (rr p))
    { z := tfm
      zErr := fun a b => noZero (err a b)
      t := 0
      tErr := 0 }

end Verif.EdiSpectra
