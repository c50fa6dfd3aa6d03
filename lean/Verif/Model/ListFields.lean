import Verif.Base.Num
import Verif.Base.Text

/-! # Values that may be given in several forms

`mt_metadata/common/rating.py` L58-L80 (`value` of a rating), `transfer_functions/io/jfiles/metadata/birrp_block.py` L83-L112
(`indices` of a block) and `common/funding_source.py` L108-L143 (`name`, `organization`, `grant_id` of a source of money).

Simplifications: digits are those of ASCII, and `int(text)` takes no underscores; lists given to `indices` have numbers and texts as
entries; truth values count as the integers they are. What pydantic does with the values afterwards changes nothing for these types. -/

namespace Verif.ListFields
open Verif.Text

/-- A number or text that is given. -/
inductive Val where
  | int (n : ℤ)
  | float (x : Fl)
  | text (s : Str)

/-- `int(text)`: blanks at the ends, a sign, digits. -/
def intOf (s : Str) : Except PyErr ℤ :=
  match strip s with
  | '-' :: t => (parseDigits t).elim (.error .valueError) (fun n => .ok (-(n : ℤ)))
  | '+' :: t => (parseDigits t).elim (.error .valueError) (fun n => .ok n)
  | t => (parseDigits t).elim (.error .valueError) (fun n => .ok n)

/-- `int(value)`: towards zero; ValueError for not-a-number, OverflowError for infinite values. -/
def toInt : Val → Except PyErr ℤ
  | .int n => .ok n
  | .float (.fin q) => .ok (trunc q)
  | .float .nan => .error .valueError
  | .float (.inf _) => .error .overflowError
  | .text s => intOf s

/-- `mt_metadata/__init__.py` L93-L104: the texts of NULL_VALUES. -/
def nullTexts : List Str :=
  ["".toList, "null".toList, "None".toList, "NONE".toList, "NULL".toList, "Null".toList, "none".toList, "1980-01-01T00:00:00".toList,
    "1980-01-01T00:00:00+00:00".toList]

/-- Is the value one of NULL_VALUES? -/
def isNull : Option Val → Bool
  | none => true
  | some (.text s) => nullTexts.contains s
  | some _ => false

/-- rating.py L58-L80 `validate_value`. The ValueError of the limits is caught and raised again. -/
def rating (v : Option Val) : Except PyErr (Option ℤ) :=
  if isNull v then .ok none
  else
    match v with
    | none => .ok none
    | some v =>
      match toInt v with
      | .ok n => if n < 0 ∨ n > 5 then .error .valueError else .ok (some n)
      | .error e => .error e

/-- What may be given as indices. -/
inductive Given where
  | none
  | one (v : Val)
  | list (l : List Val)
  | other

/-- `s.strip("[]")` -/
def stripBrackets (s : Str) : Str :=
  let p : Char → Bool := fun c => c == '[' || c == ']'
  ((s.dropWhile p).reverse.dropWhile p).reverse

/-- birrp_block.py L98-L100: the entries of a text that are digits only. -/
def textIndices (s : Str) : Except PyErr (List ℤ) :=
  ((splitC ',' (stripBrackets s)).filter (fun i => !(strip i).isEmpty && (strip i).all Char.isDigit)).mapM intOf

/-- birrp_block.py L83-L112 `validate_indices`. -/
def indices : Given → Except PyErr (List ℤ)
  | .none => .ok []
  | .one (.float x) => (toInt (.float x)).map (fun n => [n])
  | .one (.text s) => textIndices s
  | .one (.int n) => .ok [n]
  | .list l => l.mapM toInt
  | .other => .error .valueError

/-- What may be given as names of a source of money. -/
inductive Names where
  | none
  | text (s : Str)
  | list (l : List Str)
  | other

/-- funding_source.py L116-L143 `validate_input`. -/
def sourceNames : Names → Except PyErr (Option (List Str))
  | .list l => .ok (some l)
  | .text s => .ok (some ((splitC ',' s).map strip))
  | .none => .ok none
  | .other => .error .typeError

end Verif.ListFields
