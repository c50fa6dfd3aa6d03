import Verif.Model.MTimeParts

/-! Calculating with dates: `MDate` of /repo/mt_metadata/common/mttime.py L1130–L1269.

An `MDate` is an `MTime` (it keeps the time of day) that is shown, written and parsed as its date. Simplifications: numbers of
days are integers (`pd.Timedelta(days=n)` of a float is left out); differences are in nanoseconds (the code gives days, the
quotient by 86400 s); that a difference leaves the 64 bits of a `Timedelta` is left out. -/

namespace Verif.MTime

/-- `pd.Timestamp(self.isoformat())` (mttime.py L375-L377 with L1229-L1241): midnight of the date shown, without zone. -/
def MT.midnight (a : MT) : Stamp := ⟨a.ts.wall / nsDay * nsDay, .naive⟩

/-- `MTime(time_stamp=d)` or `MDate(time_stamp=d)` of an `MDate` or of what its `to_dict` gives (mttime.py L1243-L1252). -/
def MT.asDate (a : MT) : Except PyErr MT := MT.mk' a.midnight false

/-- `pd.Timedelta(days=n)`: out of bounds is a ValueError. -/
def days (n : Int) : Except PyErr Int :=
  if n * nsDay < tMin ∨ tMax < n * nsDay then .error .valueError else .ok (n * nsDay)

/-- mttime.py L1153-L1179: `__add__` of a number. -/
def MT.addDays (a : MT) (n : Int) : Except PyErr MT := (days n).bind fun td => a.add td

/-- mttime.py L1181-L1218: `__sub__` of a number. -/
def MT.subDays (a : MT) (n : Int) : Except PyErr MT := (days n).bind fun td => a.subDelta td

/-- mttime.py L1181-L1218: `__sub__` of another `MDate` (and L763-L800, of an `MDate` from an `MTime`): the other is made an
`MTime`, of the date it shows, and parsed once more. -/
def MT.subDate (a b : MT) : Except PyErr Int :=
  b.asDate.bind fun b1 => (MT.mk' b1.ts false).bind fun b2 => .ok (a.ts.value - b2.ts.value)

end Verif.MTime
