import Verif.Base.Py

/-! # Links of EMTF XML files and of persons

`mt_metadata/transfer_functions/io/emtfxml/metadata/external_url.py` L42-L67 `validate_url` of `ExternalUrl`;
`mt_metadata/common/person.py` L88-L101 `validate_url` of `Person`; `mt_metadata/base/metadata.py` L215 (assignments are validated).

Simplifications: a link is given by its text; `url` is what pydantic makes of a text, `none` if it is not a link. -/

namespace Verif.WebLinks

/-- What is assigned. -/
inductive Val where
  | none
  | text (s : Str)
  | link (u : Str)
  | other
  deriving DecidableEq

/-- external_url.py L44-L67: `existing` is the link as `info.data` has it, empty or `None` being `none`; the result `none` is the empty text. -/
def check (url : Str → Option Str) (existing : Option Str) : Val → Except PyErr (Option Str)
  | .link u => .ok (some u)
  | .other => .error .valueError
  | .none => if existing = none then .ok none else .error .valueError
  | .text [] => if existing = none then .ok none else .error .valueError
  | .text (c :: s) =>
    match url (c :: s) with
    | some u => .ok (some u)
    | none => .error .valueError

/-- An assignment: pydantic gives the validator (`info.data`) the other fields, not the one that is assigned. -/
def assign (url : Str → Option Str) (old : Option Str) (v : Val) : Option Str × Option PyErr :=
  match check url none v with
  | .ok u => (u, none)
  | .error e => (old, some e)

/-- Several, one after another; errors are caught by the caller. -/
def assigns (url : Str → Option Str) (old : Option Str) (l : List Val) : Option Str := l.foldl (fun o v => (assign url o v).1) old

/-- `mt_metadata/__init__.py` L93-L104 `NULL_VALUES`, those that are texts. -/
def nulls : List Str :=
  ["", "null", "None", "NONE", "NULL", "Null", "none", "1980-01-01T00:00:00", "1980-01-01T00:00:00+00:00"].map String.toList

/-- person.py L88-L101: a value of another type leads to no `return`, that is `None`. -/
def personUrl (url : Str → Option Str) : Val → Except PyErr (Option Str)
  | .text s =>
    if s ∈ nulls then .ok none
    else
      match url s with
      | some u => .ok (some u)
      | none => .error .valueError
  | .link u => .ok (some u)
  | .none => .ok none
  | .other => .ok none

end Verif.WebLinks
