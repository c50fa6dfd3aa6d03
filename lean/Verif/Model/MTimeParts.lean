import Verif.Model.MTime

/-! The calendar parts of an `MTime` and their setters
(/repo/mt_metadata/common/mttime.py L909–L1045).

Every setter has the body `self.time_stamp = self.time_stamp.replace(<part>=value)`.  `pandas.Timestamp.replace` is
not part of the repository; it is modelled here as: take the eight parts of the wall clock, exchange one, let
`datetime(...)` check seven of them, add the nanoseconds, and check the bounds of the 64 bit stamp.  Values that are
not integers are left out. -/

namespace Verif.MTime

/-- The eight parts a time has (the properties of `MTime`, mttime.py L909–L1045). -/
structure Parts where
  y : Int
  m : Int
  d : Int
  h : Int
  mi : Int
  s : Int
  us : Int
  ns : Int
  deriving DecidableEq, Repr

/-- Which property is read or assigned. -/
inductive Part
  | year | month | day | hour | minutes | seconds | microseconds | nanoseconds
  deriving DecidableEq, Repr

/-- Nanoseconds of the wall clock since 1970-01-01T00:00 (`pandas`: `_value` shifted by the offset of the zone). -/
def Stamp.wall (s : Stamp) : Int := s.value + offsetOf s.zone * 1000000000

/-- Nanoseconds since midnight of the wall clock. -/
def Stamp.tod (s : Stamp) : Int := s.wall % nsDay

/-- The getters, all at once (mttime.py L910, L936, L965, L989, L1013, L1021, L1029, L1037). -/
def Stamp.parts (s : Stamp) : Parts where
  y := s.date.y
  m := s.date.m
  d := s.date.d
  h := s.tod / 3600000000000
  mi := s.tod / 60000000000 % 60
  s := s.tod / 1000000000 % 60
  us := s.tod / 1000 % 1000000
  ns := s.tod % 1000

/-- One property of a time (mttime.py L909–L1045, the getters). -/
def Stamp.get (s : Stamp) : Part → Int
  | .year => s.parts.y
  | .month => s.parts.m
  | .day => s.parts.d
  | .hour => s.parts.h
  | .minutes => s.parts.mi
  | .seconds => s.parts.s
  | .microseconds => s.parts.us
  | .nanoseconds => s.parts.ns

/-- Which keyword of `replace` a setter uses (mttime.py L933, L962, L986, L1010, L1018, L1026, L1034, L1042). -/
def Parts.put (p : Parts) (v : Int) : Part → Parts
  | .year => { p with y := v }
  | .month => { p with m := v }
  | .day => { p with d := v }
  | .hour => { p with h := v }
  | .minutes => { p with mi := v }
  | .seconds => { p with s := v }
  | .microseconds => { p with us := v }
  | .nanoseconds => { p with ns := v }

/-- What `datetime(year, …, microsecond)` accepts. -/
def Parts.Ok (p : Parts) : Prop :=
  (1 ≤ p.y ∧ p.y ≤ 9999) ∧ (1 ≤ p.m ∧ p.m ≤ 12) ∧ (1 ≤ p.d ∧ p.d ≤ daysInMonth p.y p.m) ∧
  (0 ≤ p.h ∧ p.h ≤ 23) ∧ (0 ≤ p.mi ∧ p.mi ≤ 59) ∧ (0 ≤ p.s ∧ p.s ≤ 59) ∧ (0 ≤ p.us ∧ p.us ≤ 999999)

instance (p : Parts) : Decidable p.Ok := by unfold Parts.Ok; infer_instance

/-- The wall clock of eight parts. -/
def Parts.wall (p : Parts) : Int :=
  ((⟨p.y, p.m, p.d⟩ : Date).ordinal - 719163) * nsDay + p.h * 3600000000000 + p.mi * 60000000000
    + p.s * 1000000000 + p.us * 1000 + p.ns

/-- The end of `Timestamp.replace`: `datetime(...)` raises `ValueError` for parts that do not exist, and
`OutOfBoundsDatetime`, a `ValueError`, is raised beyond 64 bits. -/
def stampOf (z : Zone) (p : Parts) : Except PyErr Stamp :=
  if p.Ok then
    let v := p.wall - offsetOf z * 1000000000
    if v < tMin ∨ tMax < v then .error .valueError else .ok ⟨v, z⟩
  else .error .valueError

/-- Assignment to one of the eight properties (mttime.py L920–L1045): `time_stamp` is exchanged, `gps_time` stays. -/
def MT.put (a : MT) (q : Part) (v : Int) : Except PyErr MT :=
  match stampOf a.ts.zone (a.ts.parts.put v q) with
  | .ok s => .ok { a with ts := s }
  | .error e => .error e

/-- Three assignments, `t.year = y; t.month = m; t.day = d`, as a caller writes them. -/
def MT.putDate (a : MT) (y m d : Int) : Except PyErr MT :=
  (a.put .year y).bind fun b => (b.put .month m).bind fun c => c.put .day d

end Verif.MTime
