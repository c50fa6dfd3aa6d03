import Verif.Base.Py
import Mathlib.Analysis.SpecialFunctions.Trigonometric.Basic
import Mathlib.Analysis.SpecialFunctions.Log.Base
import Mathlib.Analysis.Complex.Trigonometric

/-!
Model of the filter classes in `mt_metadata/timeseries/filters/` and of `ChannelResponse`. Numbers are
real and complex numbers (no rounding). Where numpy divides by zero (a frequency exactly on a pole, a FIR filter without
gain) numpy gives `nan` or `inf` and this model 0; theorems exclude these cases where it matters.
-/

namespace Verif.Filters

/-- Symmetry of FIR coefficients (common/enumerations.py `SymmetryEnum`). -/
inductive Symmetry where
  | none
  | even
  | odd
  deriving DecidableEq

/-- The five supported filter classes (channel_response.py L41-L49) with their own attributes. -/
inductive Kind where
  | zpk (zeros poles : List ℂ) (normalization : ℝ)
  | coefficient
  | delay (d : ℝ)
  | fap (table : List (ℝ × ℝ × ℝ))
  | fir (coefficients : List ℝ) (symmetry : Symmetry) (gainFrequency rate decimation : ℝ)

/-- filter_base.py L50-L167: the attributes common to all filters that matter here. -/
structure Filter where
  name : Str
  unitsIn : Str
  unitsOut : Str
  gain : ℝ
  kind : Kind

/-- time_delay_filter.py L20-L34: the type is "time delay". -/
def isDelay (f : Filter) : Bool :=
  match f.kind with
  | .delay _ => true
  | _ => false

open Classical in
/-- filter_base.py L500-L512 `decimation_active`: only FIR filters have a decimation factor. -/
noncomputable def decimates (f : Filter) : Bool :=
  match f.kind with
  | .fir _ _ _ _ d => if d = 1 then false else true
  | _ => false

/-! ### responses of single filters -/

/-- pole_zero_filter.py L166-L182 with `scipy.signal.freqs_zpk`: `k ∏(jω - z) / ∏(jω - p)`. -/
noncomputable def zpkAt (zeros poles : List ℂ) (k : ℝ) (x : ℝ) : ℂ :=
  k * (zeros.map (fun z => Complex.I * (2 * Real.pi * x : ℝ) - z)).prod /
    (poles.map (fun p => Complex.I * (2 * Real.pi * x : ℝ) - p)).prod

/-- fir_filter.py L142-L149 `symmetry_corrected_coefficients`. -/
def corrected (s : Symmetry) (c : List ℝ) : List ℝ :=
  match s with
  | .even => c ++ c.reverse
  | .odd => c ++ (c.drop 1).reverse
  | .none => c

/-- `scipy.signal.freqz` of a list of taps: `∑ c_k exp(-2πi x k / rate)`, the tap number counted from `k`. -/
noncomputable def freqz (rate x : ℝ) : ℕ → List ℝ → ℂ
  | _, [] => 0
  | k, c :: t => c * Complex.exp (-(Complex.I * ((2 * Real.pi * x / rate * k : ℝ) : ℂ))) + freqz rate x (k + 1) t

open Classical in
/-- fir_filter.py L151-L168 `coefficient_gain`. -/
noncomputable def coefficientGain (taps : List ℝ) (gainFrequency rate : ℝ) : ℝ :=
  if gainFrequency = 0 then taps.sum else ‖freqz rate gainFrequency 0 taps‖

open Classical in
/-- fir_filter.py L174-L180 `corrective_scalar`. -/
noncomputable def correctiveScalar (taps : List ℝ) (gainFrequency rate gain : ℝ) : ℝ :=
  if coefficientGain taps gainFrequency rate ≠ gain then coefficientGain taps gainFrequency rate / gain else 1

/-- The straight line through two table points. -/
noncomputable def line (p q : ℝ × ℝ) (x : ℝ) : ℝ := p.2 + (x - p.1) * ((q.2 - p.2) / (q.1 - p.1))

open Classical in
/-- `scipy.interpolate.interp1d(kind="slinear", fill_value="extrapolate")` on an increasing table. scipy
refuses tables with fewer than two points; here they are constant. -/
noncomputable def interp : List (ℝ × ℝ) → ℝ → ℝ
  | [], _ => 0
  | [p], _ => p.2
  | [p, q], x => line p q x
  | p :: q :: t, x => if x ≤ q.1 then line p q x else interp (q :: t) x

/-- frequency_response_table_filter.py L210-L249 `complex_response`. -/
noncomputable def fapAt (gain : ℝ) (table : List (ℝ × ℝ × ℝ)) (x : ℝ) : ℂ :=
  gain * (interp (table.map (fun r => (r.1, r.2.1))) x *
    Complex.exp (Complex.I * (interp (table.map (fun r => (r.1, r.2.2))) x : ℂ)))

/-- The value of `f.complex_response` at one frequency: pole_zero_filter.py L166-L182, coefficient_filter.py L110-L126
(gain only), time_delay_filter.py L99-L123 (the gain is not used), frequency_response_table_filter.py L210-L249,
fir_filter.py L262-L286. -/
noncomputable def respAt (f : Filter) (x : ℝ) : ℂ :=
  match f.kind with
  | .zpk z p k => zpkAt z p (f.gain * k) x
  | .coefficient => f.gain
  | .delay d => Complex.exp (-(Complex.I * ((2 * Real.pi * x * d : ℝ) : ℂ)))
  | .fap t => fapAt f.gain t x
  | .fir c s g r _ => freqz r x 0 (corrected s c) / (correctiveScalar (corrected s c) g r f.gain : ℂ)

/-- `f.complex_response(frequencies)`. -/
noncomputable def resp (f : Filter) (xs : List ℝ) : List ℂ := xs.map (respAt f)

/-! ### channel response -/

/-- channel_response.py L222-L231: the loop over the remaining filters. -/
def checkLoop (previous : Str) : List Filter → Except PyErr Unit
  | [] => .ok ()
  | f :: t => if f.unitsIn ≠ previous then .error .valueError else checkLoop f.unitsOut t

/-- channel_response.py L215-L233 `_check_consistency_of_units`. -/
def checkUnits (l : List Filter) : Except PyErr (List Filter) :=
  match l with
  | [] => .ok []
  | [f] => .ok [f]
  | f :: t =>
    match checkLoop f.unitsOut t with
    | .error e => .error e
    | .ok () => .ok (f :: t)

/-- The part of a `ChannelResponse` that matters here. -/
structure Channel where
  unitsIn : Str
  unitsOut : Str
  filters : List Filter

/-- Assigning `filters_list` (channel_response.py L138-L155): an empty list keeps the units. -/
def setFilters (ch : Channel) (l : List Filter) : Except PyErr Channel :=
  match checkUnits l with
  | .error e => .error e
  | .ok [] => .ok { ch with filters := [] }
  | .ok (f :: t) => .ok ⟨f.unitsIn, ((f :: t).getLast (by simp)).unitsOut, f :: t⟩

/-- channel_response.py L302-L336 `get_list_of_filters_to_remove`. -/
noncomputable def selected (l : List Filter) (decimation delay : Bool) : List Filter :=
  let l := if delay then l else l.filter (fun f => !isDelay f)
  if decimation then l else l.filter (fun f => !decimates f)

/-- channel_response.py L338-L390 `complex_response` without normalisation. -/
noncomputable def channelResp (l : List Filter) (xs : List ℝ) (decimation delay : Bool) : List ℂ :=
  match selected l decimation delay with
  | [] => xs.map (fun _ => 1)
  | f :: t => t.foldl (fun acc g => List.zipWith (· * ·) acc (resp g xs)) (resp f xs)

/-- `normalize=True` (channel_response.py L388-L389). -/
noncomputable def normalized (l : List ℂ) : List ℂ :=
  l.map (· / ((l.map (fun z => ‖z‖)).foldr max 0 : ℝ))

/-- The attribute `delay`; only time delay filters have it. -/
def delayOf (f : Filter) : ℝ :=
  match f.kind with
  | .delay d => d
  | _ => 0

/-- channel_response.py L291-L300 `total_delay`. -/
noncomputable def totalDelay (l : List Filter) : ℝ :=
  (l.filter isDelay).foldl (fun acc f => acc + delayOf f) 0

/-! ### pass bands -/

/-- Smallest entry of a list that is not empty. -/
def listMin : List ℝ → ℝ
  | [] => 0
  | [x] => x
  | x :: t => min x (listMin t)

/-- Largest entry of a list that is not empty. -/
def listMax : List ℝ → ℝ
  | [] => 0
  | [x] => x
  | x :: t => max x (listMax t)

open Classical in
/-- filter_base.py L407: `np.round(amp, 6).all() == np.round(amp.mean(), 6)` compares a truth value with a number.
`rnd` rounds to the nearest integer. -/
noncomputable def looksFlat (rnd : ℝ → ℤ) (amp : List ℝ) : Bool :=
  let mean := (rnd (amp.sum / amp.length * 10 ^ 6) : ℝ) / 10 ^ 6
  if ∀ a ∈ amp, rnd (a * 10 ^ 6) ≠ 0 then decide (mean = 1) else decide (mean = 0)

open Classical in
/-- filter_base.py L435-L443: the test of a window, with `nan` and infinite ratios failing. -/
noncomputable def flatWindow (mn mx : ℝ) : Bool :=
  decide (0 < mn ∧ mx ≠ 1 ∧ |1 - Real.logb 10 mn / Real.logb 10 mx| ≤ 1 / 2)

/-- `l[::k]`: every k-th entry (`k ≥ 1`), `n` entries at most. -/
def every {α : Type} (k : ℕ) (l : List α) : List α :=
  (List.range ((l.length + k - 1) / k)).filterMap (fun i => l[i * k]?)

/-- filter_base.py L352-L466 `pass_band` with the default window length 5 for amplitudes `amp` of the frequencies
`f`, both of the same length. -/
noncomputable def passBand (rnd : ℝ → ℤ) (f amp : List ℝ) : Option (List ℝ) :=
  match f with
  | [] => none
  | [x] => some [x]
  | _ =>
    if looksFlat rnd amp then some [listMin f, listMax f]
    else
      let dec := max 1 (f.length / 1000)
      let ampDec := every dec amp
      let n := ampDec.length - 5
      if n = 0 then some [listMin f, listMax f]
      else
        let passing := (List.range n).filter (fun i =>
          flatWindow (listMin ((ampDec.drop i).take 5)) (listMax ((ampDec.drop i).take 5)))
        match passing with
        | [] => some [listMin f, listMax f]
        | i :: t =>
          let j := (i :: t).getLast (by simp) + 5
          some [f.getD (i * dec) 0, f.getD (min (j * dec) (f.length - 1)) 0]

/-- channel_response.py L246-L267 `pass_band`. -/
noncomputable def channelBand (rnd : ℝ → ℤ) (l : List Filter) (xs : List ℝ) : Option (ℝ × ℝ) :=
  if xs = [] then none
  else
    match l.filterMap (fun f => passBand rnd xs ((resp f xs).map (fun z => ‖z‖))) with
    | [] => none
    | bs => some (listMax (bs.map listMin), listMin (bs.map listMax))

/-! ### phases -/

open Classical in
/-- frequency_response_table_filter.py L118-L140 `validate_phases` for an array of numbers. -/
noncomputable def validatePhases (v : List ℝ) : List ℝ :=
  match v with
  | [] => []
  | _ =>
    if 1000 * Real.pi / 2 < listMax v then v.map (· / 1000)
    else if 6 * Real.pi < listMax (v.map (fun x => |x|)) then v.map (fun x => x * (Real.pi / 180))
    else v

end Verif.Filters
