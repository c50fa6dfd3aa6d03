import Verif.Model.Filters
import Mathlib.Analysis.SpecialFunctions.Log.Base

/-!
Model of the normalisation frequency of a pole zero filter:
`mt_metadata/timeseries/filters/pole_zero_filter.py` L195-L239 `normalization_frequency`, with
`mt_metadata/timeseries/filters/filter_base.py` L354-L457 `pass_band` for any window length and tolerance.

Simplifications: real numbers; the amplitudes of the response are given and finite; rounding to an integer is a function
`rnd` of the world; the tolerance is below the largest float. `np.NAN` (L225, L227) is the result `undefined`: not a number before
numpy 2, an `AttributeError` since.
-/

namespace Verif.PzNorm
open Verif.Filters

open Classical in
/-- filter_base.py L432-L438: the test of a window with smallest amplitude `mn` and largest amplitude `mx`; ratios that
are infinite or not a number fail. -/
noncomputable def flat (tol mn mx : ℝ) : Bool :=
  decide (0 < mn ∧ mx ≠ 1 ∧ |1 - Real.logb 10 mn / Real.logb 10 mx| ≤ tol)

/-- filter_base.py L438-L445: the windows that pass, of `n` windows of length `w`. -/
noncomputable def passing (tol : ℝ) (w n : ℕ) (amp : List ℝ) : List ℕ :=
  (List.range n).filter (fun i => flat tol (listMin ((amp.drop i).take w)) (listMax ((amp.drop i).take w)))

/-- filter_base.py L388-L457 `pass_band`. The smallest entry of windows of length 0 raises; the error is caught (L455). -/
noncomputable def band (rnd : ℝ → ℤ) (w : ℕ) (tol : ℝ) (f amp : List ℝ) : Option (List ℝ) :=
  match f with
  | [] => none
  | [x] => some [x]
  | _ =>
    if looksFlat rnd amp then some [listMin f, listMax f]
    else
      let dec := max 1 (f.length / 1000)
      let ampDec := every dec amp
      let n := ampDec.length - w
      if n = 0 ∨ w = 0 then some [listMin f, listMax f]
      else
        match passing tol w n ampDec with
        | [] => some [listMin f, listMax f]
        | i :: t =>
          let j := (i :: t).getLast (by simp) + w
          some [f.getD (i * dec) 0, f.getD (min (j * dec) (f.length - 1)) 0]

/-- What a call gives: a number, `np.NAN`, or `None` at the end of the function. -/
inductive Out where
  | value (v : ℝ)
  | undefined
  | nothing

/-- `np.median` of at most two numbers (a pass band has no more). -/
noncomputable def median : List ℝ → ℝ
  | [x] => x
  | [x, y] => (x + y) / 2
  | _ => 0

/-- pole_zero_filter.py L223-L239. -/
noncomputable def normFreq (rnd : ℝ → ℤ) (w : ℕ) (tol : ℝ) (estimate : String) (f amp : List ℝ) : Out :=
  match band rnd w tol f amp with
  | none => .undefined
  | some b =>
    if b.length = 0 then .undefined
    else if estimate = "mean" then .value (b.sum / b.length)
    else if estimate = "median" then .value (median b)
    else if estimate = "min" then .value (listMin b)
    else if estimate = "max" then .value (listMax b)
    else .nothing

end Verif.PzNorm
