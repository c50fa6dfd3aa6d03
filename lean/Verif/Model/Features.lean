import Mathlib.Analysis.Complex.Norm
import Verif.Base.Py
import Verif.Base.Text
import Verif.Model.Aurora

/-!
Model of `mt_metadata/features/{coherence,fc_coherence,striding_window_coherence}.py`, of the choice of the
class of a feature in `features/weights/feature_weight_spec.py`, and of
`processing/aurora/{stations,processing}.py` where stations are assigned and checked.

Simplifications: Fourier coefficients are complex numbers and powers real numbers, without rounding;
numpy's `x / 0`, which is infinite or not a number and is then replaced by 0, is Lean's `x / 0 = 0`, and
so is the mean of no windows. `scipy.signal.coherence` is a function parameter. A window that overlaps
the next by more samples than it has is left out.
-/

namespace Verif.Features
open Verif.Text

/-! ## fc_coherence.py -/

/-- `np.mean` of complex numbers over the windows. -/
noncomputable def meanC (l : List ℂ) : ℂ := l.sum / l.length

/-- `np.mean` of real numbers over the windows. -/
noncomputable def meanR (l : List ℝ) : ℝ := l.sum / l.length

/-- fc_coherence.py L107: the cross power; a column holds the coefficients of both channels, window by
window, at one frequency. -/
noncomputable def sxy (w : List (ℂ × ℂ)) : ℂ := meanC (w.map fun p => p.1 * (starRingEnd ℂ) p.2)

/-- fc_coherence.py L108 -/
noncomputable def sxx (w : List (ℂ × ℂ)) : ℝ := meanR (w.map fun p => ‖p.1‖ ^ 2)

/-- fc_coherence.py L109 -/
noncomputable def syy (w : List (ℂ × ℂ)) : ℝ := meanR (w.map fun p => ‖p.2‖ ^ 2)

/-- fc_coherence.py L111-L119 at one frequency. -/
noncomputable def coherence (w : List (ℂ × ℂ)) : ℝ := ‖sxy w‖ ^ 2 / (sxx w * syy w)

/-- fc_coherence.py L86-L120 `compute`: one value per frequency (the columns). -/
noncomputable def fcCompute (cols : List (List (ℂ × ℂ))) : List ℝ := cols.map coherence

/-! ## striding_window_coherence.py -/

/-- processing/window.py L51-L80: the fields used here. -/
structure Window where
  kind : Str
  num : ℕ
  overlap : ℕ
  args : List (Str × ℚ) := []
  deriving DecidableEq

/-- window.py L155-L158 `num_samples_advance` -/
def advance (w : Window) : ℕ := w.num - w.overlap

/-- `range(0, stop, step)` for a positive step. -/
def rangeStep (stop step : ℕ) : List ℕ := (List.range ((stop + step - 1) / step)).map (· * step)

/-- striding_window_coherence.py L149 `starts`: a step of zero is an error. -/
def starts (n len step : ℕ) : Except PyErr (List ℕ) :=
  if step = 0 then .error .valueError else .ok (rangeStep (n + 1 - len) step)

/-- `ts[start : start + len]` -/
def slice {α : Type} (ts : List α) (start len : ℕ) : List α := (ts.drop start).take len

section
variable {α F R : Type} (num : α → α) (coh : List α → List α → F × R)

/-- L19-L60 `_process_coherence_segment` and L182-L193: one window. -/
def segment (len : ℕ) (a b : List α) (start : ℕ) : F × R :=
  coh (slice a start len) (slice b start len)

/-- L151-L177: the parallel branch; `executor.map` keeps the order. -/
def finishPar (rs : List (F × R)) : Except PyErr (F × List R) :=
  match rs with
  | [] => .error .indexError
  | r :: rs => .ok (r.1, (r :: rs).map Prod.snd)

/-- L179-L196: the loop leaves the frequencies of the last window in `f`, which is unbound if there was
none (`UnboundLocalError` is a `NameError`). -/
def finishSeq (rs : List (F × R)) : Except PyErr (F × List R) :=
  match rs.getLast? with
  | none => .error .nameError
  | some r => .ok (r.1, rs.map Prod.snd)

/-- L109-L196 `compute`; `num` is `np.nan_to_num`, `coh` is `scipy.signal.coherence` with the arguments from
the sub-window bound. -/
def striding (parallel : Bool) (w : Window) (a b : List α) : Except PyErr (F × List R) :=
  (starts a.length w.num (advance w)).bind fun ss =>
    let rs := ss.map (segment coh w.num (a.map num) (b.map num))
    if parallel then finishPar rs else finishSeq rs

end

/-- L98-L107 `set_subwindow_from_window`; `int` drops the fraction of a number, which is not negative
here. -/
def subwindow (w : Window) (fraction : ℚ) : Window :=
  let n := ((w.num : ℚ) * fraction).floor.toNat
  { kind := w.kind, num := n, overlap := n / 2, args := w.args }

/-! ## coherence.py -/

/-- coherence.py L108-L173: the fields used by `validate_station_ids`. -/
structure Pair where
  ch1 : Str
  ch2 : Str
  st1 : Option Str := none
  st2 : Option Str := none
  deriving DecidableEq

/-- Truth of a station id: neither `None` nor empty. -/
def truthy (s : Option Str) : Bool :=
  match s with
  | none => false
  | some t => !t.isEmpty

/-- coherence.py L223-L226 `active_stations` -/
def active (loc : Str) (remote : Option Str) : List (Option Str) :=
  if truthy remote then [some loc, remote] else [some loc]

/-- L228-L239: a station that takes no part is dropped. -/
def dropInactive (loc : Str) (remote st : Option Str) : Option Str :=
  if truthy st && !(active loc remote).contains st then none else st

/-- L241-L251: a station that is not set follows from the name of the channel. -/
def deduce (loc : Str) (remote : Option Str) (ch : Str) (st : Option Str) : Option Str :=
  if truthy st then st
  else if (lower ch).head? = some 'r' then remote else some loc

/-- coherence.py L206-L265 `validate_station_ids`; the checks at the end only log. -/
def validateStations (loc : Str) (remote : Option Str) (p : Pair) : Pair :=
  { p with
    st1 := deduce loc remote p.ch1 (dropInactive loc remote p.st1)
    st2 := deduce loc remote p.ch2 (dropInactive loc remote p.st2) }

/-! ## feature_weight_spec.py -/

/-- The classes of features. -/
inductive FClass
  | base | coherence | fc | striding
  deriving DecidableEq

/-- feature_weight_spec.py L25-L30 `feature_classes` -/
def classOf (n : Str) : Option FClass :=
  if n = "base".toList then some .base
  else if n = "coherence".toList then some .coherence
  else if n = "fc_coherence".toList then some .fc
  else if n = "striding_window_coherence".toList then some .striding
  else none

/-- A value given for a feature: an object, a dictionary with its entries `name` and `feature` (other
entries are left out), or anything else. -/
inductive FVal
  | obj (c : FClass)
  | leaf (name : Option Str)
  | dict (name : Option Str) (feature : FVal)
  | other
  deriving DecidableEq

/-- The class a name leads to, the base class if it is unknown or not given (L137-L143). -/
def classOr (n : Option Str) : FClass := (n.bind classOf).getD .base

/-- L95-L98: unwrap while there is an entry `feature`. -/
def unwrapAll : FVal → FVal
  | .dict _ v => unwrapAll v
  | v => v

/-- L90-L113 `pre_process_feature` -/
def preProcess (v : FVal) : FVal :=
  match unwrapAll v with
  | .leaf (some n) =>
    match classOf n with
    | some c => .obj c
    | none => v
  | _ => v

/-- L124-L130: unwrap while the entry `feature` is itself a dictionary. -/
def unwrapDicts : FVal → FVal
  | .dict _ (.dict m v) => unwrapDicts (.dict m v)
  | .dict _ (.leaf m) => .leaf m
  | v => v

/-- L115-L159 `validate_feature`; the `None` it returns for anything else is rejected by pydantic. -/
def validateFeature (v : FVal) : Except PyErr FClass :=
  match unwrapDicts v with
  | .leaf n => .ok (classOr n)
  | .dict n _ => .ok (classOr n)
  | .obj c => .ok c
  | .other => .error .valueError

/-- The class of the feature of a specification made with that value. -/
def specFeature (v : FVal) : Except PyErr FClass := validateFeature (preProcess v)

/-! ## processing/aurora/stations.py and processing.py -/

/-- One value given for a remote station: an object, a dictionary (with the station it describes) or
anything else. -/
inductive Item
  | station (s : Aurora.Station)
  | dict (s : Aurora.Station)
  | other
  deriving DecidableEq

/-- A value assigned to `remote`. -/
inductive RVal
  | list (l : List Item)
  | one (s : Aurora.Station)
  | dict (s : Aurora.Station)
  | text (s : Str)
  | other
  deriving DecidableEq

/-- stations.py L67-L80: one item of a list. -/
def item : Item → Except PyErr Aurora.Station
  | .station s => .ok s
  | .dict s => .ok s
  | .other => .error .typeError

/-- stations.py L67-L80: the loop over a list. -/
def items : List Item → Except PyErr (List Aurora.Station)
  | [] => .ok []
  | i :: l => (item i).bind fun s => (items l).bind fun r => .ok (s :: r)

/-- stations.py L43-L102 `validate_remote` -/
def validateRemote : RVal → Except PyErr (List Aurora.Station)
  | .list l => items l
  | .dict s => .ok [{ s with remote := true }]
  | .one s => .ok [{ s with remote := true }]
  | .text s => if 4 < s.length then .error .valueError else .ok []
  | .other => .error .valueError

/-- aurora/estimator.py L15-L18 -/
inductive Engine
  | rmeRR | rme | other
  deriving DecidableEq

/-- aurora/processing.py: the stations and the estimators of the decimation levels. -/
structure Proc where
  stations : Aurora.Stations
  engines : List Engine
  deriving DecidableEq

/-- processing.py L364-L369: no remote reference without a remote station. -/
def singleStation : Engine → Engine
  | .rmeRR => .rme
  | e => e

/-- processing.py L350-L375 `validate_processing`, with the data frame of the data set. -/
def validateProcessing (p : Proc) (df : List Aurora.Row) : Except PyErr Proc :=
  let es := if p.stations.remote.isEmpty then p.engines.map singleStation else p.engines
  if p.stations.loc.id = "" then
    (Aurora.stationsFromDf p.stations df).bind fun st => .ok { stations := st, engines := es }
  else .ok { p with engines := es }

end Verif.Features
