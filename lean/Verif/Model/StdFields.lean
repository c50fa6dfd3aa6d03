import Verif.Model.Enums
import Verif.Base.Text

/-! # Types and options of fields in summaries of standards

`mt_metadata/utils/summarize.py` L106-L153 `_get_field_type`, L199-L216 `_get_field_options`.

Simplifications: annotations are those that occur: `None`, the six built-in types, enumerations, other classes (also generic ones such as
`list[float]`, that have the name of their class), unions of these. Names of enumerations and classes are given in lower case. -/

namespace Verif.StdFields
open Verif.Text

/-- Built-in types of the mapping L122-L129. -/
inductive Basic where
  | str
  | int
  | float
  | bool
  | list
  | dict
  deriving DecidableEq

/-- An annotation that is no union. Members of enumerations have names and values. -/
inductive Ann where
  | none
  | basic (b : Basic)
  | enum (name : Str) (members : List (Str × Str))
  | cls (name : Str)
  deriving DecidableEq

/-- An annotation. -/
inductive Annot where
  | one (a : Ann)
  | union (l : List Ann)
  deriving DecidableEq

/-- The names of types in a summary. -/
inductive Shown where
  | string
  | integer
  | float
  | boolean
  | list
  | dict
  | object
  deriving DecidableEq

/-- summarize.py L122-L129 -/
def mapping : Basic → Shown
  | .str => .string
  | .int => .integer
  | .float => .float
  | .bool => .boolean
  | .list => .list
  | .dict => .dict

/-- summarize.py L133-L151: the type of a class by its name. `NoneType` is a class, too. -/
def byName (name : Str) : Shown :=
  if "enum".toList <:+ name then .string
  else if hasSub "list".toList name || hasSub "array".toList name then .list
  else if hasSub "dict".toList name then .dict
  else .object

/-- summarize.py L131-L153; a union whose members are all `None` does not occur. -/
def shownOne : Ann → Shown
  | .none => byName "nonetype".toList
  | .basic b => mapping b
  | .enum n _ => byName n
  | .cls n => byName n

/-- summarize.py L106-L153 `_get_field_type`: of a union the first that is not `None`; a union as such is named `union`. -/
def fieldType : Annot → Shown
  | .one a => shownOne a
  | .union l =>
    match l.find? (fun a => decide (a ≠ Ann.none)) with
    | some a => shownOne a
    | Option.none => .object

/-- summarize.py L199-L216 `_get_field_options`: names of members of an enumeration and options of the field. -/
def fieldOptions (a : Annot) (extra : List Str) : List Str :=
  (match a with
    | .one (.enum _ ms) => ms.map Prod.fst
    | _ => []) ++ extra

/-- common/enumerations.py L14-L48 (`Enums`): what a field of an enumeration takes of texts. -/
def accepts (ms : List (Str × Str)) (s : Str) : Bool :=
  match Enums.validate (ms.map Prod.snd) (.str s) with
  | .ok _ => true
  | .error _ => false

/-- common/enumerations.py L190-L196 `ReleaseStatusEnum` -/
def releaseStatus : List (Str × Str) :=
  [("Unrestricted_release".toList, "Unrestricted Release".toList), ("Restricted_release".toList, "Restricted Release".toList),
    ("Paper_Citation_Required".toList, "Paper Citation Required".toList), ("Academic_Use_Only".toList, "Academic Use Only".toList),
    ("Conditions_Apply".toList, "Conditions Apply".toList), ("Data_Citation_Required".toList, "Data Citation Required".toList)]

end Verif.StdFields
