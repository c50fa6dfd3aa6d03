import Verif.Base.Text

/-!
# Comments

Model of `mt_metadata/common/comment.py`.  The time stamp is an `MTime`, modelled on its own
in `Model/MTime`; here it is abstract: a type `T` of stamps with the two operations the
comment code uses, printing and parsing.

Simplifications: a text given as a list of strings (L80-81) is not modelled; `validate_value`
is the identity on `str | None`.  Assigning `self.value`, `self.time_stamp`, `self.author`
inside `set_variables` runs the validator again, on a text that no longer contains a bar; that
inner run does nothing (L96) and is left out.
-/

namespace Verif.Comment
open Verif.Text

/-- What the comment code needs of `MTime`: `str(t)`, `MTime(time_stamp=s)` with `none` for
the `ValidationError`, and the 1980 default (comment.py L45, mttime.py L349-351). -/
structure Clock (T : Type) where
  iso : T → Str
  parse : Str → Option T
  dflt : T

/-- common/comment.py L25-66: the three fields. -/
structure Comment (T : Type) where
  author : Option Str
  time : T
  value : Option Str
  deriving DecidableEq, Repr

variable {T : Type}

/-- `Comment()`: the defaults of L27, L45, L66. -/
def fresh (k : Clock T) : Comment T := ⟨none, k.dflt, none⟩

/-- common/comment.py L91-108 `set_variables`: cut a text with bars into time, author, text. -/
def setVars (k : Clock T) (c : Comment T) : Except PyErr (Comment T) :=
  match c.value with
  | none => .ok c
  | some v =>
    if '|' ∈ v then
      let parts := (splitC '|' v).map strip
      let c1 := { c with value := some (parts.getLastD []) }
      match parts with
      | [a, b, _] =>
        match k.parse a with
        | some t => .ok { c1 with time := t, author := some b }
        | none => .error .valueError
      | [a, _] =>
        match k.parse a with
        | some t => .ok { c1 with time := t }
        | none => .ok { c1 with author := some a }
      | _ => .ok c1
    else .ok c

/-- `comment.value = v` (pydantic stores the field, then runs `set_variables`). -/
def setValue (k : Clock T) (c : Comment T) (v : Option Str) : Except PyErr (Comment T) :=
  setVars k { c with value := v }

/-- `comment.author = a` -/
def setAuthor (k : Clock T) (c : Comment T) (a : Option Str) : Except PyErr (Comment T) :=
  setVars k { c with author := a }

/-- L69-75 `validate_time`: `None` gives the default time (mttime.py L349). -/
def parseTime (k : Clock T) : Option Str → Except PyErr T
  | none => .ok k.dflt
  | some s => match k.parse s with | some t => .ok t | none => .error .valueError

/-- `comment.time_stamp = s` -/
def setTime (k : Clock T) (c : Comment T) (s : Option Str) : Except PyErr (Comment T) :=
  match parseTime k s with
  | .ok t => setVars k { c with time := t }
  | .error e => .error e

/-- `x in [None, ""]` (L150, L153) -/
def noAuthor (a : Option Str) : Bool := a = none || a = some []

/-- `f"{self.author}"`; only used when there is an author. -/
def authorText (a : Option Str) : Str := a.getD []

/-- common/comment.py L139-157 `as_string` -/
def asString [DecidableEq T] (k : Clock T) (c : Comment T) : Str :=
  match c.value with
  | none => []
  | some v =>
    if c.time = k.dflt then
      if noAuthor c.author then v
      else ' ' :: (authorText c.author ++ [' ', '|', ' '] ++ v)
    else if noAuthor c.author then k.iso c.time ++ [' ', '|', ' '] ++ v
    else k.iso c.time ++ [' ', '|', ' '] ++ authorText c.author ++ [' ', '|', ' '] ++ v

/-- What `from_dict` (L159-197) is given: a string, a flat dictionary of strings and `None`s,
or a dictionary with one key holding such a dictionary. -/
inductive Inp where
  | str (s : Str)
  | flat (d : OD String (Option Str))
  | nested (key : String) (d : OD String (Option Str))
  deriving Repr

/-- `d.get(k, None)` -/
def getD (d : OD String (Option Str)) (k : String) : Option Str := (OD.get? d k).join

/-- L178-180 and L186-188: three assignments in this order. -/
def three (k : Clock T) (c : Comment T) (d : OD String (Option Str)) :
    Except PyErr (Comment T) :=
  match setTime k c (getD d "time_stamp") with
  | .error e => .error e
  | .ok c1 =>
    match setAuthor k c1 (getD d "author") with
    | .error e => .error e
    | .ok c2 => setValue k c2 (getD d "value")

/-- common/comment.py L159-197 `from_dict` -/
def fromDict (k : Clock T) (c : Comment T) : Inp → Except PyErr (Comment T)
  | .str s => setValue k c (some s)
  | .flat d =>
    if d.length > 1 then three k c d
    else match d with
      | [(_, some s)] => setValue k c (some s)
      | _ => .ok c
  | .nested _ d => three k c d

/-- `Comment(**d)`: every field from the dictionary or its default, then `set_variables`. -/
def construct (k : Clock T) (d : OD String (Option Str)) : Except PyErr (Comment T) :=
  match parseTime k (getD d "time_stamp") with
  | .error e => .error e
  | .ok t => setVars k ⟨getD d "author", t, getD d "value"⟩

/-- What a comment may be compared with. -/
inductive Other (T : Type) where
  | none
  | str (s : Str)
  | dict (d : OD String (Option Str))
  | com (c : Comment T)

/-- What `__eq__` returns: a truth value, or (L127-128) a new comment. -/
inductive EqRes where
  | bool (b : Bool)
  | obj
  deriving DecidableEq, Repr

/-- `bool(x)`: an object with `__len__` (metadata.py L517: its three attributes) is true. -/
def EqRes.truthy : EqRes → Bool
  | .bool b => b
  | .obj => true

/-- L133-137 -/
def same [DecidableEq T] (c d : Comment T) : Bool :=
  c.author = d.author && c.time = d.time && c.value = d.value

/-- common/comment.py L113-137 `__eq__` -/
def eq [DecidableEq T] (k : Clock T) (c : Comment T) : Other T → Except PyErr EqRes
  | .none => .ok .obj
  | .str s =>
    match setValue k (fresh k) (some s) with
    | .ok d => .ok (.bool (same c d))
    | .error e => .error e
  | .dict d =>
    match construct k d with
    | .ok d => .ok (.bool (same c d))
    | .error e => .error e
  | .com d => .ok (.bool (same c d))

/-- metadata.py L956-1105 `to_dict(single=True, required=False)` of a comment: the three
fields in the (sorted) order of `get_attribute_list`, the stamp as text. -/
def toDict (k : Clock T) (c : Comment T) : OD String (Option Str) :=
  [("author", c.author), ("time_stamp", some (k.iso c.time)), ("value", c.value)]

/-- `to_dict(single=True)` with the default `required=True`: fields without a value are left
out (none of the three is required, L32, L52, L62). -/
def toDictReq (k : Clock T) (c : Comment T) : OD String (Option Str) :=
  (toDict k c).filter (fun p => p.2.isSome)

/-- common/comment.py L232-253 `to_xml`: the element's author attribute and text, and the
comment afterwards (missing author and text are replaced by empty ones first). -/
def toXml (c : Comment T) : Comment T × Str × Str :=
  let c1 := { c with author := some (c.author.getD []), value := some (c.value.getD []) }
  (c1, c1.author.getD [], c1.value.getD [])

end Verif.Comment
