import Mathlib.Analysis.SpecialFunctions.Trigonometric.Basic
import Mathlib.Analysis.Complex.Trigonometric
import Mathlib.Analysis.SpecialFunctions.Sqrt
import Mathlib.Analysis.SpecialFunctions.Trigonometric.ComplexDeriv

/-!
# Impedances from apparent resistivity and phase in EDI files

Model of `mt_metadata/transfer_functions/io/edi/edi.py`, `_read_mt` L430-L446: what is done with
`RHOXX … RHOYY` and `PHSXX … PHSYY` of a file, for one element of the tensor and all `N` frequencies.

Simplifications: exact numbers; the arrays have the length of the frequencies; resistivities and
phases of all elements are there (a missing one leaves the element, L447-L448).
-/

namespace Verif.EdiRho

/-- `np.deg2rad` -/
noncomputable def deg2rad (x : ℝ) : ℝ := x * (Real.pi / 180)

variable {N : ℕ}

/-- `phase.mean()` -/
noncomputable def mean (x : Fin N → ℝ) : ℝ := (∑ k, x k) / N

/-- L434-L437 -/
noncomputable def zReal (freq rho phs : Fin N → ℝ) (k : Fin N) : ℝ :=
  Real.sqrt (5 * freq k * rho k / (Real.tan (deg2rad (phs k)) ^ 2 + 1))

/-- L438 -/
noncomputable def zImag (freq rho phs : Fin N → ℝ) (k : Fin N) : ℝ :=
  Real.tan (deg2rad (phs k)) * zReal freq rho phs k

open Classical in
/-- L432-L443, for the element `ii jj`, with the values `z` so far. -/
noncomputable def fromRho (ii jj : Fin 2) (freq rho phs : Fin N → ℝ) (z : Fin N → ℂ) : Fin N → ℂ :=
  if ∀ k, z k = 0 then
    if ii = 1 ∧ jj = 0 then
      if mean phs < 90 ∧ 0 < mean phs then fun k => -1 * (zReal freq rho phs k + zImag freq rho phs k * Complex.I)
      else z
    else fun k => zReal freq rho phs k + zImag freq rho phs k * Complex.I
  else z

open Classical in
/-- L444-L446: the error of the element. -/
noncomputable def errRho (freq rho phsErr : Fin N → ℝ) (z : Fin N → ℂ) (err : Fin N → ℝ) : Fin N → ℝ :=
  if ∀ k, z k = 0 then fun k => deg2rad (phsErr k) * Real.sqrt (rho k * (freq k * 5)) else err

end Verif.EdiRho
