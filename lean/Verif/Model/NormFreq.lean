import Verif.Model.Filters
import Mathlib.Analysis.SpecialFunctions.Log.Base
import Mathlib.Analysis.SpecialFunctions.Pow.Real

/-!
Model of the normalisation frequency of a channel response:
`mt_metadata/timeseries/filters/channel_response.py` L110-L175, `mt_metadata/timeseries/channel.py` L560-L575. The pass
band of a channel is `Verif.Filters.channelBand`.

Simplifications: real numbers; `np.round(·, 3)` is a function `r3` of the world; the filters are of the supported classes
and their units fit (L177-L232); units are left out.
-/

namespace Verif.NormFreq
open Verif.Filters

/-- The fields of a `ChannelResponse`. -/
structure Resp where
  norm : ℝ
  filters : List Filter
  freqs : List ℝ

/-- L122, L168-L169: `10 ** np.mean(np.log10([lo, hi]))`; the logarithm of 0 is minus infinity, its power 0. -/
noncomputable def middle (b : ℝ × ℝ) : ℝ :=
  if b.1 = 0 ∨ b.2 = 0 then 0 else (10 : ℝ) ^ ((Real.logb 10 b.1 + Real.logb 10 b.2) / 2)

/-- L154-L174: after every assignment; a frequency that is 0 is replaced if there are filters and a pass band. -/
noncomputable def update (r3 : ℝ → ℝ) (rnd : ℝ → ℤ) (r : Resp) : Resp :=
  if r.filters ≠ [] ∧ r.norm = 0 then
    match channelBand rnd r.filters r.freqs with
    | some b => { r with norm := r3 (middle b) }
    | none => r
  else r

/-- `ChannelResponse(filters_list=…, frequencies=…, normalization_frequency=…)`: the validator of the frequency
(L110-L131) does not see the other fields yet. -/
noncomputable def make (r3 : ℝ → ℝ) (rnd : ℝ → ℤ) (norm : ℝ) (filters : List Filter) (freqs : List ℝ) : Resp :=
  update r3 rnd ⟨norm, filters, freqs⟩

/-- L110-L131 with an assignment: 0 is replaced if there is a pass band. -/
noncomputable def validNorm (r3 : ℝ → ℝ) (rnd : ℝ → ℤ) (r : Resp) (v : ℝ) : ℝ :=
  if v = 0 then
    match channelBand rnd r.filters r.freqs with
    | some b => r3 (middle b)
    | none => v
  else v

/-- Assignments to a response. -/
inductive Op where
  | filters (l : List Filter)
  | freqs (l : List ℝ)
  | norm (v : ℝ)

/-- One assignment, validated (metadata.py L215). -/
noncomputable def step (r3 : ℝ → ℝ) (rnd : ℝ → ℤ) (r : Resp) : Op → Resp
  | .filters l => update r3 rnd { r with filters := l }
  | .freqs l => update r3 rnd { r with freqs := l }
  | .norm v => update r3 rnd { r with norm := validNorm r3 rnd r v }

/-- channel.py L560-L575 `channel_response`: filters that are not in the dictionary are left out; no frequencies are
given. -/
noncomputable def channelResponse (r3 : ℝ → ℝ) (rnd : ℝ → ℤ) (dict : List (Str × Filter)) (names : List Str) : Resp :=
  make r3 rnd 0 (names.filterMap fun n => OD.get? dict n) []

end Verif.NormFreq
