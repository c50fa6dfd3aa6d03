import Mathlib.Data.Int.Log
import Mathlib.Data.Rat.Floor
import Verif.Base.Text

/-! # Writing EMTF XML files again and again

`mt_metadata/transfer_functions/io/emtfxml/emtfxml.py` L150-L200 `__init__`, L304-L358 `read`, L360-L418 `write`, as to which elements
are written, the parts of the remote site and the periods; `metadata/remote_info.py` L51 `_order`, L87-L101 `to_xml`;
`metadata/period_range.py` L55-L81 `to_xml`; `metadata/data.py` L376-L380; `core.py` L2199-L2200.

Simplifications: periods are positive rational numbers, and a text of a period is the number it says (that `float` of it is the nearest
double is not modelled). Of a file there are the keys of its elements, the parts of `RemoteInfo`, the periods and their range. -/

namespace Verif.EmtfWrite

/-- L172-L191 `element_keys` -/
def elementKeys : List String :=
  ["description", "product_id", "sub_type", "notes", "tags", "external_url", "primary_data", "attachment", "provenance", "copyright",
    "site", "field_notes", "processing_info", "statistical_estimates", "data_types", "site_layout", "data", "period_range"]

/-- remote_info.py L51: what `_order` names. -/
inductive Part where
  | site
  | notes
  deriving DecidableEq

/-- L379, L390-L395: no value. -/
def noValue (s : Option String) : Bool :=
  match s with
  | none => true
  | some s => s == "" || s == "None" || s == "none"

/-- Rounding to an integer, halves to even ones, as printing does. -/
def roundEven (q : ℚ) : ℤ :=
  if q - ⌊q⌋ < 1 / 2 then ⌊q⌋
  else if 1 / 2 < q - ⌊q⌋ then ⌊q⌋ + 1
  else if ⌊q⌋ % 2 = 0 then ⌊q⌋ else ⌊q⌋ + 1

/-- The place of the last digit of a positive number with `d` digits after the first. -/
def unit (d : Nat) (x : ℚ) : ℚ := (10 : ℚ) ^ (Int.log 10 x - d)

/-- The number that `f"{x:.dE}"` says, for `x > 0`. -/
def printed (d : Nat) (x : ℚ) : ℚ := roundEven (x / unit d x) * unit d x

/-- `period.min()` and `period.max()`; of no periods they raise. -/
def extent : List ℚ → Option (ℚ × ℚ)
  | [] => none
  | p :: ps => some (ps.foldl min p, ps.foldl max p)

/-- An `EMTFXML`. `order` is `processing_info.remote_info._order`. -/
structure Obj where
  url : Option String := none
  remoteId : Option String := none
  order : List Part := [.site, .notes]
  period : List ℚ := []
  range : ℚ × ℚ := (0, 0)

/-- A file. -/
structure File where
  keys : List String
  remote : List Part
  period : List ℚ
  range : ℚ × ℚ

/-- L389 and L399: `remove` of what is not there raises ValueError, which is caught. -/
def orderFor (skip : Bool) (o : Obj) : List Part :=
  let l := if skip then o.order.erase .notes else o.order
  if noValue o.remoteId then l.erase .site else l

/-- L377-L384: whether an element is written. -/
def asked (skip : Bool) (o : Obj) (key : String) : Bool :=
  if key = "external_url" && noValue o.url then false else !(skip && key == "field_notes")

/-- L360-L418 `write`: the object afterwards, and the file. -/
def write (skip : Bool) (o : Obj) : Obj × File :=
  ({ o with order := orderFor skip o },
    { keys := elementKeys.filter (asked skip o)
      remote := orderFor skip o
      period := o.period.map (printed 12)
      range := (printed 5 o.range.1, printed 5 o.range.2) })

/-- What is done with an object. A file may have no link or no remote site (`none`); then there stays the one
that was. -/
inductive Step where
  | read (f : File) (url remoteId : Option (Option String))
  | setUrl (s : Option String)
  | setRemote (s : Option String)
  | setPeriod (l : List ℚ)
  | write (skip : Bool)

/-- L343-L344: what reading makes of the range. -/
def readRange (ps : List ℚ) (old : ℚ × ℚ) : ℚ × ℚ := (extent ps).getD old

/-- One step. A file without periods is not read (`min` raises); the periods are there then already. -/
def step (o : Obj) : Step → Obj
  | .read f url rid => { o with url := url.getD o.url, remoteId := rid.getD o.remoteId, period := f.period, range := readRange f.period o.range }
  | .setUrl s => { o with url := s }
  | .setRemote s => { o with remoteId := s }
  | .setPeriod l => { o with period := l }
  | .write skip => (write skip o).1

/-- All steps. -/
def run (o : Obj) (l : List Step) : Obj := l.foldl step o

/-- core.py L2136-L2208 `to_emtfxml`: an object with these periods. -/
def ofTf (ps : List ℚ) (rid : Option String) : Option Obj :=
  (extent ps).map fun r => { remoteId := rid, period := ps, range := r }

end Verif.EmtfWrite
