import Verif.Model.MTime

/-!
Model of reading times from texts: `mt_metadata/common/mttime.py` L175-L265 (`_parse_string`,
`_fix_out_of_bounds_time_stamp`) and L349-L396 of `parse`.

Simplifications: texts are of the form `YYYY-MM-DDThh:mm:ss`, with a zone or without, and are given by their numbers
(months, days, hours, minutes and seconds of two digits, years 1 to 9998), or single words; what pandas and dateutil
read from such texts is part of the model: pandas refuses what is not a time of a calendar; dateutil tells hours that
are too large from other faults, after the date has been found to be one, and takes the second number for the day if
the day is said to come first and the third one can be a month.
-/

namespace Verif.MTime

/-- A text `YYYY-MM-DDThh:mm:ss`, with the offset of its zone in seconds. -/
structure Iso where
  year : Int
  month : Int
  day : Int
  hour : Int
  minute : Int
  second : Int
  zone : Option Int
  deriving DecidableEq

/-- A `datetime`: seconds of the clock since 1970-01-01, and the zone. -/
structure Clock where
  seconds : Int
  zone : Option Int
  deriving DecidableEq

/-- `ValueError("hour must be in 0..23")`, or another text. -/
inductive Msg where
  | hour
  | other
  deriving DecidableEq

/-- The seconds of a date and a time of day. -/
def clock (a : Date) (h m s : Int) : Int := (a.ordinal - 719163) * 86400 + h * 3600 + m * 60 + s

instance (a : Date) : Decidable a.Valid := by unfold Date.Valid; infer_instance

/-- `dateutil.parser.parse(text, dayfirst=…)` -/
def dateutil (dayfirst : Bool) (x : Iso) : Except Msg Clock :=
  let a : Date := if dayfirst ∧ x.day ≤ 12 then ⟨x.year, x.day, x.month⟩ else ⟨x.year, x.month, x.day⟩
  if ¬ a.Valid then .error .other
  else if x.hour < 0 ∨ 23 < x.hour then .error .hour
  else if x.minute < 0 ∨ 59 < x.minute ∨ x.second < 0 ∨ 59 < x.second then .error .other
  else .ok ⟨clock a x.hour x.minute x.second, x.zone⟩

/-- `pd.Timestamp(text)`; what is beyond the range is scaled (see `Stamp`). -/
def pandas (x : Iso) : Except PyErr Stamp :=
  match dateutil false x with
  | .ok c =>
    match c.zone with
    | none => .ok ⟨c.seconds * 1000000000, .naive⟩
    | some o => .ok ⟨(c.seconds - o) * 1000000000, .fixed o⟩
  | .error _ => .error .valueError

/-- mttime.py L199-L223 `_parse_string` without the words: hour 24 is replaced by hour 23 (L208) and an hour is added,
whatever minutes and seconds are; other hours raise again. -/
def parseString (x : Iso) : Except PyErr Clock :=
  match dateutil false x with
  | .ok c => .ok c
  | .error .hour =>
    match dateutil false (if x.hour = 24 then { x with hour := 23 } else x) with
    | .ok c => .ok { c with seconds := c.seconds + 3600 }
    | .error _ => .error .valueError
  | .error .other =>
    match dateutil true x with
    | .ok c => .ok c
    | .error _ => .error .valueError

/-- `dt.year` -/
def Clock.year (c : Clock) : Int := (ofOrdinal (c.seconds / 86400 + 719163)).y

/-- mttime.py L226-L265 `_fix_out_of_bounds_time_stamp`; `pd.Timestamp(dt, tz="UTC")` raises if `dt` has a zone. -/
def fixOutOfBounds (c : Clock) : Except PyErr (Bool × Stamp) :=
  if 2200 < c.year then .ok (true, ⟨tMax, .fixed 0⟩)
  else if c.year < 1900 then .ok (true, ⟨tMin, .fixed 0⟩)
  else match c.zone with
    | some _ => .error .valueError
    | none => .ok (false, ⟨c.seconds * 1000000000, .fixed 0⟩)

/-- mttime.py L382-L410: `parse` of a text. -/
def parseIso (x : Iso) (gps : Bool) : Except PyErr Stamp :=
  match pandas x with
  | .ok s => parseStamp s gps
  | .error _ => (parseString x).bind fun c => (fixOutOfBounds c).bind fun p => finish p.1 p.2 gps

/-- mttime.py L350: the words that are no time. -/
def noTime : List Str := ["", "none", "None", "NONE", "Na"].map String.toList

/-- The words pandas takes for no time. -/
def nat : List Str := ["NaT", "nat", "NAT", "nan", "NaN", "NAN"].map String.toList

/-- mttime.py L199: the words `_parse_string` takes for no time. -/
def nullWords : List Str := ["", "none", "None", "NONE", "null", "Null", "NULL"].map String.toList

/-- mttime.py L349-L410: `parse` of a word that is none of the names of months, days and times known to pandas and
dateutil. The time put for the words of L199 has a zone (L200). -/
def parseWord (s : Str) (gps : Bool) : Except PyErr Stamp :=
  if s ∈ noTime then parseNull gps
  else if s ∈ nat then parseNull gps
  else if s ∈ nullWords then
    (fixOutOfBounds ⟨315532800, some 0⟩).bind fun p => finish p.1 p.2 gps
  else .error .valueError

end Verif.MTime
