import Verif.Base.Py
import Mathlib.Analysis.SpecialFunctions.Trigonometric.Basic

/-!
Model of `mt_metadata/timeseries/stationxml/fdsn_tools.py`: FDSN channel codes. Sample rates are
rationals, azimuths and cosines real numbers.
-/

namespace Verif.Fdsn

/-- L55-L72 `period_code_dict`, in the order in which `get_period_code` visits it (sorted by key). -/
def periods : List (Char × ℚ × ℚ) :=
  [('B', 10, 80), ('C', 250, 1000), ('D', 250, 1000), ('E', 80, 250), ('F', 1000, 5000),
   ('G', 1000, 5000), ('H', 80, 250), ('L', 95 / 100, 105 / 100), ('M', 1, 10),
   ('P', 1 / 100000, 1 / 10000), ('Q', 0, 1 / 1000000), ('R', 1 / 10000, 1 / 1000), ('S', 10, 80),
   ('T', 1 / 1000000, 1 / 100000), ('U', 95 / 10000, 105 / 10000), ('V', 95 / 1000, 105 / 1000)]

/-- L145-L160 `get_period_code`. -/
def periodCode (rate : ℚ) : Char :=
  match periods.find? (fun p => decide (p.2.1 ≤ rate) && decide (rate ≤ p.2.2)) with
  | some p => p.1
  | none => 'A'

/-- L74-L89 `measurement_code_dict`. -/
def measurements : List (Str × Char) :=
  [("tilt", 'A'), ("creep", 'B'), ("calibration", 'C'), ("pressure", 'D'), ("magnetic", 'F'),
   ("gravity", 'G'), ("humidity", 'I'), ("temperature", 'K'), ("water_current", 'O'),
   ("electric", 'Q'), ("rain_fall", 'R'), ("linear_strain", 'S'), ("tide", 'T'),
   ("wind", 'W')].map (fun p => (p.1.toList, p.2))

/-- `sub in s`. -/
def isSub (sub : Str) : Str → Bool
  | [] => sub.isPrefixOf []
  | c :: cs => sub.isPrefixOf (c :: cs) || isSub sub cs

/-- L163-L181 `get_measurement_code`: the last type that contains the given string. -/
def measurementCode (m : Str) : Char :=
  measurements.foldl (fun code p => if isSub (m.map Char.toLower) p.1 then p.2 else code) 'Y'

/-- L95-L96 `angle`. -/
noncomputable def angle (v : ℝ) : ℝ := |Real.cos (v * (Real.pi / 180))|

/-- `azimuth % 360`. -/
noncomputable def mod360 (a : ℝ) : ℝ := a - 360 * ⌊a / 360⌋

/-- L200-L217 `get_orientation_code` for a given azimuth. Unknown orientations give `None`. -/
noncomputable def orientationCode (azimuth : ℝ) (orientation : Str) : Option Char :=
  let value := angle (mod360 azimuth)
  open Classical in
  if orientation = "horizontal".toList then
    if angle 15 ≤ value then some 'N'
    else if value ≤ angle 105 then some 'E'
    else if value < angle 15 ∧ angle 45 ≤ value then some '1'
    else if value < angle 45 ∧ angle 105 ≤ value then some '2'
    else none
  else if orientation = "vertical".toList then
    if angle 15 ≤ value then some 'Z' else some '3'
  else none

/-- L219-L225 `get_orientation_code` for a given direction, with `forced_orientation` L124. -/
def directionCode (d : Str) : Except PyErr Char :=
  if d.map Char.toLower = ['x'] then .ok 'N'
  else if d.map Char.toLower = ['y'] then .ok 'E'
  else if d.map Char.toLower = ['z'] then .ok 'Z'
  else .error .valueError

/-- The orientation argument of `make_channel_code`. -/
inductive Azimuth where
  | num (a : ℝ)
  | dir (d : Str)

/-- L227-L252 `make_channel_code`. A missing orientation code is printed as `None`. -/
noncomputable def makeCode (rate : ℚ) (m : Str) (az : Azimuth) (orientation : Str) : Except PyErr Str :=
  match az with
  | .num a =>
    match orientationCode a orientation with
    | some o => .ok [periodCode rate, measurementCode m, o]
    | none => .ok (periodCode rate :: measurementCode m :: "None".toList)
  | .dir d =>
    match directionCode d with
    | .ok o => .ok [periodCode rate, measurementCode m, o]
    | .error e => .error e

/-- What `read_channel_code` returns. -/
structure Decoded where
  period : ℚ × ℚ
  measurement : Str
  orientation : ℚ × ℚ
  deriving DecidableEq

/-- L100-L107 `orientation_code_dict`: angle and variance. -/
def orientations : List (Char × ℚ × ℚ) :=
  [('N', 0, 15), ('E', 90, 15), ('Z', 0, 15), ('1', 30, 15), ('2', 60, 15), ('3', 0, 15)]

/-- The entry of a character in a table. -/
def lookup {β : Type} (c : Char) (l : List (Char × β)) : Option β := (l.find? (·.1 = c)).map (·.2)

/-- L91 `measurement_code_dict_reverse`. -/
def measurementOf (c : Char) : Option Str := (measurements.find? (·.2 = c)).map (·.1)

/-- L255-L306 `read_channel_code`. Tide (L281-L285) is read as magnetic. -/
def readCode (code : Str) : Except PyErr Decoded :=
  match code with
  | [p, m, o] =>
    let period := (lookup p periods).getD (1, 1)
    match measurementOf m with
    | none => .error .valueError
    | some comp =>
      let comp := if comp = "tide".toList then "magnetic".toList else comp
      match lookup o orientations with
      | none => .error .valueError
      | some orient => .ok { period := period, measurement := comp, orientation := orient }
  | _ => .error .valueError

/-- L109-L113 `mt_components_dict`. -/
def mtComponent (m : Str) : Option Str :=
  if m = "electric".toList then some ['e']
  else if m = "magnetic".toList then some ['h']
  else if m = "temperature".toList then some "temperature".toList
  else none

/-- L115-L122 `mt_orientation_dict`. -/
def mtOrientation (c : Char) : Option Char :=
  if c = 'N' ∨ c = '1' then some 'x'
  else if c = 'E' ∨ c = '2' then some 'y'
  else if c = 'Z' ∨ c = '3' then some 'z'
  else none

/-- L309-L334 `create_mt_component`. `read_channel_code` never answers tide, so L320-L326 is dead. -/
def mtName (code : Str) : Except PyErr Str :=
  match readCode code with
  | .error e => .error e
  | .ok d =>
    match mtComponent d.measurement with
    | none => .error .keyError
    | some c =>
      match code with
      | [_, _, o] =>
        match mtOrientation o with
        | none => .error .keyError
        | some x => .ok (c ++ [x])
      | _ => .error .indexError

end Verif.Fdsn
