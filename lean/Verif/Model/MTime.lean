import Verif.Base.Py

/-!
Model of `mt_metadata/common/mttime.py`.

A pandas Timestamp is its integer nanosecond count plus its zone. Strings are not parsed here:
`pandas.Timestamp(str)` / `dateutil` are external, the model starts from the Timestamp
they deliver. Floats given as epochs are modelled when integral only.
-/

namespace Verif.MTime

/-! ### Calendar dates (the Python standard library's `datetime.date`) -/

/-- `datetime.date`. -/
structure Date where
  y : Int
  m : Int
  d : Int
  deriving DecidableEq, Repr

/-- `calendar.isleap`, used by `datetime`. -/
def isLeap (y : Int) : Bool := y % 4 == 0 && (y % 100 != 0 || y % 400 == 0)

/-- Days in a month (`datetime._days_in_month`). -/
def daysInMonth (y m : Int) : Int :=
  if m = 2 then (if isLeap y then 29 else 28)
  else if m = 4 ∨ m = 6 ∨ m = 9 ∨ m = 11 then 30 else 31

/-- The triples `datetime.date(y, m, d)` accepts (no upper year limit). -/
def Date.Valid (a : Date) : Prop :=
  1 ≤ a.y ∧ 1 ≤ a.m ∧ a.m ≤ 12 ∧ 1 ≤ a.d ∧ a.d ≤ daysInMonth a.y a.m

/-- `date.__lt__`: tuples compared lexicographically. -/
def Date.lt (a b : Date) : Prop := a.y < b.y ∨ a.y = b.y ∧ (a.m < b.m ∨ a.m = b.m ∧ a.d < b.d)

instance (a b : Date) : Decidable (a.lt b) := by unfold Date.lt; infer_instance

/-- `date.__ge__`. -/
def Date.ge (a b : Date) : Prop := ¬ a.lt b

instance (a b : Date) : Decidable (a.ge b) := by unfold Date.ge; infer_instance

/-- Days before January 1st of a year (`datetime._days_before_year`). -/
def daysBeforeYear (y : Int) : Int := (y - 1) * 365 + (y - 1) / 4 - (y - 1) / 100 + (y - 1) / 400

/-- Days before the month in a common year (`datetime._DAYS_BEFORE_MONTH`). -/
def daysBeforeMonthTable (m : Int) : Int :=
  if m = 1 then 0 else if m = 2 then 31 else if m = 3 then 59 else if m = 4 then 90
  else if m = 5 then 120 else if m = 6 then 151 else if m = 7 then 181 else if m = 8 then 212
  else if m = 9 then 243 else if m = 10 then 273 else if m = 11 then 304 else 334

/-- `datetime._days_before_month`. -/
def daysBeforeMonth (y m : Int) : Int :=
  daysBeforeMonthTable m + (if 2 < m ∧ isLeap y then 1 else 0)

/-- `date.toordinal` (`datetime._ymd2ord`): day 1 is 0001-01-01. -/
def Date.ordinal (a : Date) : Int := daysBeforeYear a.y + daysBeforeMonth a.y a.m + a.d

/-- Month of a zero-based day of the year (end of `datetime._ord2ymd`). -/
def monthOf (leap : Bool) (n : Int) : Int :=
  let m := (n + 50) / 32
  let preceding := daysBeforeMonthTable m + (if 2 < m ∧ leap then 1 else 0)
  if n < preceding then m - 1 else m

/-- `date.fromordinal` (`datetime._ord2ymd`). -/
def ofOrdinal (ord : Int) : Date :=
  let n := ord - 1
  let n400 := n / 146097
  let n := n % 146097
  let n100 := n / 36524
  let n := n % 36524
  let n4 := n / 1461
  let n := n % 1461
  let n1 := n / 365
  let n := n % 365
  let y := n400 * 400 + n100 * 100 + n4 * 4 + n1 + 1
  if n1 = 4 ∨ n100 = 4 then ⟨y - 1, 12, 31⟩
  else
    let m := monthOf (isLeap y) n
    ⟨y, m, n - daysBeforeMonth y m + 1⟩

/-! ### Leap seconds -/

/-- One row of `leap_second_dict`: the leap seconds, "min" and "max". -/
structure LeapRow where
  leap : Int
  min : Date
  max : Date

/-- mt_metadata/common/mttime.py L44-L64: `leap_second_dict`. -/
def leapTable : List LeapRow := [
  ⟨0, ⟨1980, 1, 1⟩, ⟨1981, 7, 1⟩⟩,
  ⟨1, ⟨1981, 7, 1⟩, ⟨1982, 7, 1⟩⟩,
  ⟨2, ⟨1982, 7, 1⟩, ⟨1983, 7, 1⟩⟩,
  ⟨3, ⟨1983, 7, 1⟩, ⟨1985, 7, 1⟩⟩,
  ⟨4, ⟨1985, 7, 1⟩, ⟨1988, 1, 1⟩⟩,
  ⟨5, ⟨1988, 1, 1⟩, ⟨1990, 1, 1⟩⟩,
  ⟨6, ⟨1990, 1, 1⟩, ⟨1991, 1, 1⟩⟩,
  ⟨7, ⟨1991, 1, 1⟩, ⟨1992, 7, 1⟩⟩,
  ⟨8, ⟨1992, 7, 1⟩, ⟨1993, 7, 1⟩⟩,
  ⟨9, ⟨1993, 7, 1⟩, ⟨1994, 7, 1⟩⟩,
  ⟨10, ⟨1994, 7, 1⟩, ⟨1996, 1, 1⟩⟩,
  ⟨11, ⟨1996, 1, 1⟩, ⟨1997, 7, 1⟩⟩,
  ⟨12, ⟨1997, 7, 1⟩, ⟨1999, 1, 1⟩⟩,
  ⟨13, ⟨1999, 1, 1⟩, ⟨2006, 1, 1⟩⟩,
  ⟨14, ⟨2006, 1, 1⟩, ⟨2009, 1, 1⟩⟩,
  ⟨15, ⟨2009, 1, 1⟩, ⟨2012, 6, 30⟩⟩,
  ⟨16, ⟨2012, 7, 1⟩, ⟨2015, 7, 1⟩⟩,
  ⟨17, ⟨2015, 7, 1⟩, ⟨2016, 12, 31⟩⟩,
  ⟨18, ⟨2017, 1, 1⟩, ⟨2026, 7, 1⟩⟩]

/-- mt_metadata/common/mttime.py L67-L138: `calculate_leap_seconds`. The argument is a date
`datetime.date` has already accepted. -/
def calculateLeapSeconds (g : Date) : Except PyErr Int :=
  match leapTable.find? (fun r => decide (g.lt r.max) && decide (g.ge r.min)) with
  | some r => .ok r.leap
  | none => .error .valueError

/-! ### Time stamps -/

/-- The zone of a pandas Timestamp: none, or a fixed offset in seconds (0 is UTC). -/
inductive Zone where
  | naive
  | fixed (seconds : Int)
  deriving DecidableEq, Repr

/-- A pandas Timestamp: `value` is the UTC instant in ns for an aware stamp, the
wall clock in ns for a naive one. Units coarser than ns are scaled to ns, so values beyond
the 64 bit ns range exist (pandas >= 2 delivers them with a coarser unit). -/
structure Stamp where
  value : Int
  zone : Zone
  deriving DecidableEq, Repr

/-- `TMIN.value`: `pd.Timestamp.min` (L171). -/
def tMin : Int := -9223372036854775807
/-- `TMAX.value`: `pd.Timestamp.max` (L172). -/
def tMax : Int := 9223372036854775807

/-- L144-L166: `_localize_utc`. Only naive stamps change; offsets are kept. -/
def localizeUtc (s : Stamp) : Stamp :=
  match s.zone with
  | .naive => ⟨s.value, .fixed 0⟩
  | .fixed _ => s

/-- L268-L299: `_check_timestamp`, returning (t_min_max, stamp). -/
def checkTimestamp (s : Stamp) : Bool × Stamp :=
  let s := localizeUtc s
  if s.value ≤ tMin then (true, ⟨tMin, .fixed 0⟩)
  else if tMax ≤ s.value then (true, ⟨tMax, .fixed 0⟩)
  else (false, s)

/-- `stamp.round(freq="us")`: nearest microsecond, halves to even; raises
OutOfBoundsDatetime (a ValueError) when the result leaves the ns range. -/
def roundUs (s : Stamp) : Except PyErr Stamp :=
  let r := s.value % 1000
  let q := s.value / 1000
  let v := if r < 500 ∨ r = 500 ∧ q % 2 = 0 then q * 1000 else (q + 1) * 1000
  if v < tMin ∨ tMax < v then .error .valueError else .ok ⟨v, s.zone⟩

/-- `round(n / 1000)` for a nanosecond field 0..999: Python rounds halves to even. -/
def pyRoundThousandth (n : Int) : Int := if n ≤ 500 then 0 else 1

/-- Seconds of offset of an aware stamp. -/
def offsetOf : Zone → Int
  | .naive => 0
  | .fixed o => o

/-- Nanoseconds per day. -/
def nsDay : Int := 86400000000000

/-- `date(stamp.year, stamp.month, stamp.day)`: the local calendar date (719163 is the ordinal of
1970-01-01). -/
def Stamp.date (s : Stamp) : Date :=
  ofOrdinal ((s.value + offsetOf s.zone * 1000000000) / nsDay + 719163)

/-- L400-L403: the round-off guard. -/
def roundOff (tMinMax : Bool) (s : Stamp) : Except PyErr Stamp :=
  if pyRoundThousandth (s.value % 1000) = 1 ∧ tMinMax = false then roundUs s else .ok s

/-- L397-L410: the common tail of `parse`: zone, round-off, GPS conversion. The subtraction can not
leave the ns range for dates in the leap table. -/
def finish (tMinMax : Bool) (s : Stamp) (gps : Bool) : Except PyErr Stamp := do
  let s ← roundOff tMinMax (localizeUtc s)
  if gps then
    let leap ← calculateLeapSeconds s.date
    .ok (localizeUtc ⟨s.value - leap * 1000000000, s.zone⟩)
  else .ok (localizeUtc s)

/-- L353-L354 and L375-L391: `parse` of a Timestamp (or of any input pandas turns into one). -/
def parseStamp (s : Stamp) (gps : Bool) : Except PyErr Stamp :=
  let (b, s) := checkTimestamp s
  finish b s gps

/-- `1980-01-01T00:00:00+00:00` (L351, L395). -/
def defaultStamp : Stamp := ⟨315532800000000000, .fixed 0⟩

/-- L349-L351: `parse(None)` and the other null inputs. -/
def parseNull (gps : Bool) : Except PyErr Stamp := finish false defaultStamp gps

/-- Nearest integer to `n / 1000`, halves to even (`datetime.fromtimestamp` rounds to µs). -/
def roundThousand (n : Int) : Int :=
  if n % 1000 < 500 ∨ n % 1000 = 500 ∧ (n / 1000) % 2 = 0 then n / 1000 else n / 1000 + 1

/-- `pd.Timestamp.utcfromtimestamp` at a whole number of microseconds: `datetime` only holds
years 1 to 9999. -/
def fromTimestampUs (us : Int) : Except PyErr Stamp :=
  if us < -62135596800000000 ∨ 253402300799999999 < us then .error .valueError
  else .ok ⟨us * 1000, .fixed 0⟩

/-- L356-L373: `parse` of an integer epoch: `ratio = x / 3e8`; above 1e3 it is
taken as nanoseconds (and then only microseconds survive), else as seconds. The float divisions are exact here. -/
def parseInt (x : Int) (gps : Bool) : Except PyErr Stamp :=
  if x < 300000000 ∧ gps = true then .error .valueError
  else do
    let us := if 300000000000 < x then roundThousand x else x * 1000000
    let s ← fromTimestampUs us
    let (b, s) := checkTimestamp s
    finish b s gps

/-! ### The MTime object -/

/-- An `MTime`: the `gps_time` flag and the stored stamp. -/
structure MT where
  gps : Bool
  ts : Stamp
  deriving DecidableEq, Repr

/-- `MTime(time_stamp=s, gps_time=gps)` L512-L542. -/
def MT.mk' (s : Stamp) (gps : Bool) : Except PyErr MT := do
  let t ← parseStamp s gps
  .ok ⟨gps, t⟩

/-- L585-L625: `__eq__` of two MTime: instants and zones equal. -/
def MT.eq (a b : MT) : Bool := a.ts.value == b.ts.value && a.ts.zone == b.ts.zone

/-- L648-L668 `__lt__`: pandas compares instants. -/
def MT.lt (a b : MT) : Bool := decide (a.ts.value < b.ts.value)

/-- L670-L691 `__le__`. -/
def MT.le (a b : MT) : Bool := decide (a.ts.value ≤ b.ts.value)

/-- L693-L710 `__gt__`: literally `not self.__lt__(other)`. -/
def MT.gt (a b : MT) : Bool := !a.lt b

/-- L712-L732 `__ge__`. -/
def MT.ge (a b : MT) : Bool := decide (b.ts.value ≤ a.ts.value)

/-- What `isoformat()` shows of an aware stamp: the wall clock and the offset. -/
def MT.iso (a : MT) : Int × Int :=
  (a.ts.value + offsetOf a.ts.zone * 1000000000, offsetOf a.ts.zone)

/-- L802 `__hash__`: a function of `isoformat()`. -/
def MT.hash (h : Int × Int → Int) (a : MT) : Int := h a.iso

/-- L735-L761 `__add__` of a whole number of nanoseconds (a Timedelta). pandas raises
(OverflowError / OutOfBounds) when the sum leaves the ns range; the result is parsed anew without gps. -/
def MT.add (a : MT) (td : Int) : Except PyErr MT :=
  let v := a.ts.value + td
  if v < tMin ∨ tMax < v then .error .valueError
  else MT.mk' ⟨v, a.ts.zone⟩ false

/-- L763-L800 `__sub__` with a Timedelta. -/
def MT.subDelta (a : MT) (td : Int) : Except PyErr MT :=
  let v := a.ts.value - td
  if v < tMin ∨ tMax < v then .error .valueError
  else MT.mk' ⟨v, a.ts.zone⟩ false

/-- L763-L800 `__sub__` with another MTime: the difference (in ns here, seconds in the code);
the other is passed twice through the constructor without gps. -/
def MT.sub (a b : MT) : Except PyErr Int := do
  let b1 ← MT.mk' b.ts false
  let b2 ← MT.mk' b1.ts false
  .ok (a.ts.value - b2.ts.value)

/-- L544-L561 `_serialize_model`, read back by `MTime(**dump)` or `parse(dict)`: the stored
(already converted) stamp with the gps flag. -/
def MT.reload (a : MT) : Except PyErr MT := MT.mk' a.ts a.gps

/-- L805-L809 `is_default`: pandas equality of instants. -/
def MT.isDefault (a : MT) : Bool := a.ts.value == defaultStamp.value

/-- L879-L892 the `epoch_seconds` setter for a whole number of nanoseconds: MTime
does not validate assignments, so the stamp is stored as it is. -/
def MT.setEpoch (a : MT) (ns : Int) : MT := ⟨a.gps, ⟨ns, .fixed 0⟩⟩

/-- L1077-L1089 `isodate`, which is also `MDate.isoformat` (L1229-L1241) and `str(MDate)`. -/
def MT.isodate (a : MT) : Date := a.ts.date

/-- L1220 `MDate.__hash__`: a function of `isodate()`; `MDate.__eq__` is inherited. -/
def MT.dateHash (h : Date → Int) (a : MT) : Int := h a.isodate

/-- What the `time_stamp` attribute may hold: `MTime.model_config` (L482-L484) does not set
`validate_assignment`, so an assignment stores any value as it is. -/
inductive Stored where
  | stamp (s : Stamp)
  | text (s : String)
  | number (n : Int)
  deriving DecidableEq

/-- L822-L836 `from_dict`: a plain assignment. -/
def fromDict (_old : Stored) (value : Stored) : Stored := value

/-- L1063-L1075 `isoformat()`: `str` and `int` have no such method. -/
def isoOf : Stored → Except PyErr (Int × Int)
  | .stamp s => .ok (MT.iso ⟨false, s⟩)
  | .text _ => .error .attributeError
  | .number _ => .error .attributeError

end Verif.MTime
