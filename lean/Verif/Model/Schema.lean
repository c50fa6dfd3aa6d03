import Verif.Model.Names
import Verif.Base.Text

/-!
Model of the descriptions of attributes: `mt_metadata/utils/validators.py` L99-L140, L302-L756 (the validators of
the parts of a description, of the default and of values) and `mt_metadata/base/schema.py` (`BaseDict`), which holds
descriptions by the names of attributes and reads and writes them.

Simplifications: values are atoms or lists of atoms; numbers with a point are their texts; Python types are given by
their texts; `int`, `float` and the formatting of numbers are functions of the world; the exceptions of the validators
are told apart from those of Python by `Err`; texts in lists have no quotes or backslashes (L317-L327 `repr`).
-/

namespace Verif.Schema
open Verif.Text

/-- A single value. -/
inductive A where
  | none
  | bool (b : Bool)
  | int (n : Int)
  | float (x : Str)
  | str (s : Str)
  deriving DecidableEq

/-- A value of a description. -/
inductive V where
  | atom (a : A)
  | list (l : List A)
  deriving DecidableEq

/-- `MTValidatorError`, `MTSchemaError` and exceptions of Python. -/
inductive Err where
  | validator
  | schema
  | value
  | type
  | key
  | index
  | unbound
  deriving DecidableEq

/-- Numbers: `int(text)`, `float(text)`, `f"{n}"`, `"{0:.0f}".format(n)`, `float(n)`, `int(x)`; `f"{list}"`. -/
structure World where
  parseInt : Str → Option Int
  parseFloat : Str → Option Str
  showInt : Int → Str
  fixInt : Int → Str
  ofInt : Int → Str
  trunc : Str → Option Int
  showList : List A → Str

/-- `str(value)` -/
def text (w : World) : A → Str
  | .none => "None".toList
  | .bool true => "True".toList
  | .bool false => "False".toList
  | .int n => w.showInt n
  | .float x => x
  | .str s => s

/-- validators.py L329-L347: the name of a type. -/
def typeName (t : Str) : Except Err Str :=
  if hasSub "int".toList (lower t) then .ok "integer".toList
  else if hasSub "float".toList (lower t) then .ok "float".toList
  else if hasSub "str".toList (lower t) then .ok "string".toList
  else if hasSub "bool".toList (lower t) then .ok "boolean".toList
  else if hasSub "list".toList (lower t) || hasSub "array".toList (lower t) then .ok "list".toList
  else if hasSub "dict".toList (lower t) then .ok "dict".toList
  else if hasSub "object".toList (lower t) then .ok "object".toList
  else if hasSub "h5py_reference".toList (lower t) then .ok t
  else .error .validator

/-- validators.py L308-L362 `validate_type` -/
def validateType : V → Except Err Str
  | .atom (.str s) => typeName (replaceC '>' [] (replaceSub "<class".toList [] s))
  | _ => .error .validator

/-- validators.py L278-L305 `validate_required` -/
def validateRequired : V → Except Err Bool
  | .atom (.bool b) => .ok b
  | .atom (.str s) =>
    if lower s = "false".toList then .ok false
    else if lower s = "true".toList then .ok true
    else .error .validator
  | _ => .error .validator

/-- validators.py L365-L390 `validate_units` -/
def validateUnits : V → Except Err (Option Str)
  | .atom .none => .ok none
  | .atom (.str s) =>
    if lower s ∈ ["none".toList, "empty".toList, []] then .ok none else .ok (some (lower s))
  | _ => .error .validator

/-- mt_metadata/__init__.py L57-L70 `ACCEPTED_STYLES` -/
def styles : List Str :=
  ["name", "url", "email", "number", "date", "free form", "time", "date time", "name list", "number list",
    "controlled vocabulary", "alpha numeric"].map String.toList

/-- validators.py L393-L421 `validate_style` -/
def validateStyle : V → Except Err Str
  | .atom .none => .ok "name".toList
  | .atom (.str s) => if lower s ∈ styles then .ok (lower s) else .error .validator
  | _ => .error .validator

/-- validators.py L424-L442 `validate_description` -/
def validateDescription : V → Except Err Str
  | .atom (.str s) => .ok s
  | _ => .error .validator

/-- validators.py L459-L464, L493-L498: the names in a text; what is no name is found before the blanks are taken off. -/
def names (t : Str) : List Str :=
  ((splitC '|' (strip (replaceC ']' [] (replaceC '[' [] t)))).filter
    fun n => !(lower n = "none".toList || lower n = [])).map strip

/-- validators.py L445-L475 `validate_options`, L478-L509 `validate_alias` -/
def validateNames (w : World) : V → Except Err (List Str)
  | .atom (.str s) => .ok (names s)
  | .atom .none => .error .validator
  | .atom a => .ok [text w a]
  | .list l => .ok (l.map (text w))

/-- validators.py L512-L528 `validate_example` -/
def validateExample (w : World) : V → Str
  | .atom a => text w a
  | .list l => w.showList l

/-- The types of Python. -/
inductive Kind where
  | str
  | int
  | float
  | bool
  | list
  | dict
  | object
  deriving DecidableEq

/-- validators.py L618-L627: the type of a name. -/
def kindOf (t : Str) : Except Err Kind :=
  if t = "string".toList then .ok .str
  else if t = "integer".toList then .ok .int
  else if t = "float".toList then .ok .float
  else if t = "boolean".toList then .ok .bool
  else if t = "list".toList then .ok .list
  else if t = "dict".toList then .ok .dict
  else if t = "object".toList then .ok .object
  else .error .key

/-- `isinstance(value, v_type)`; a bool is an int. -/
def isA : V → Kind → Bool
  | _, .object => true
  | .atom (.str _), .str => true
  | .atom (.int _), .int => true
  | .atom (.bool _), .int => true
  | .atom (.float _), .float => true
  | .atom (.bool _), .bool => true
  | .list _, .list => true
  | _, _ => false

/-- validators.py L603: values that are no values. -/
def isNull : V → Bool
  | .atom .none => true
  | .atom (.str s) => decide (s ∈ ["None".toList, "none".toList, "unknown".toList])
  | _ => false

/-- validators.py L633-L641: a list in a text. -/
def splitList (s : Str) : List Str :=
  (splitC (if ',' ∈ s then ',' else if ' ' ∈ strip s then ' ' else if ';' ∈ s then ';' else ' ')
    (replaceC ']' [] (replaceC '[' [] s))).map strip

/-- validators.py L648-L668: a text of another type; nothing is returned for lists and dictionaries. -/
def ofStr (w : World) (s : Str) : Kind → Except Err V
  | .int =>
    if lower s ∈ ["none".toList, "nan".toList, []] then .ok (.atom .none)
    else match w.parseInt s with
      | some n => .ok (.atom (.int n))
      | none => .error .schema
  | .float =>
    match w.parseFloat s with
    | some x => .ok (.atom (.float x))
    | none => .error .schema
  | .bool =>
    if lower s ∈ ["false".toList, "0".toList] then .ok (.atom (.bool false))
    else if lower s ∈ ["true".toList, "1".toList] then .ok (.atom (.bool true))
    else .error .schema
  | .str => .ok (.atom (.str s))
  | _ => .ok (.atom .none)

/-- validators.py L671-L676: a whole number of another type. -/
def ofWhole (w : World) (n : Int) : Kind → V
  | .float => .atom (.float (w.ofInt n))
  | .str => .atom (.str (w.fixInt n))
  | _ => .atom (.int n)

/-- validators.py L679-L684: a number with a point of another type. -/
def ofFloat (w : World) (x : Str) : Kind → Except Err V
  | .int =>
    match w.trunc x with
    | some n => .ok (.atom (.int n))
    | none => .error .value
  | .str => .ok (.atom (.str x))
  | _ => .ok (.atom (.float x))

/-- `float(v)` -/
def toFloat (w : World) : A → Except Err Str
  | .none => .error .type
  | .bool b => .ok (w.ofInt (if b then 1 else 0))
  | .int n => .ok (w.ofInt n)
  | .float x => .ok x
  | .str s =>
    match w.parseFloat s with
    | some x => .ok x
    | none => .error .value

/-- `int(float(v))` -/
def toInt (w : World) (a : A) : Except Err Int :=
  (toFloat w a).bind fun x =>
    match w.trunc x with
    | some n => .ok n
    | none => .error .value

/-- validators.py L697-L701: whether an entry of a list is true or false; others are left out. -/
def toBool (w : World) : A → Option Bool
  | .none => none
  | .bool b => some b
  | .int n => if n = 1 then some true else if n = 0 then some false else none
  | .float x => if x = w.ofInt 1 then some true else if x = w.ofInt 0 then some false else none
  | .str s =>
    if s ∈ ["true".toList, "True".toList, "TRUE".toList, "1".toList] then some true
    else if s ∈ ["false".toList, "False".toList, "FALSE".toList, "0".toList] then some false
    else none

/-- `f"{v}".replace("'", "").replace('"', "")` -/
def bare (w : World) (a : A) : Str := replaceC '"' [] (replaceC '\'' [] (text w a))

/-- Apply a function that can fail to the entries of a list, in order. -/
def each {α β : Type} (f : α → Except Err β) : List α → Except Err (List β)
  | [] => .ok []
  | a :: l => (f a).bind fun b => (each f l).bind fun r => .ok (b :: r)

/-- validators.py L687-L703: a list for another type. -/
def ofList (w : World) (l : List A) : Kind → Except Err V
  | .str => .ok (.list (l.map fun a => .str (bare w a)))
  | .int => (each (toInt w) l).bind fun r => .ok (.list (r.map .int))
  | .float => (each (toFloat w) l).bind fun r => .ok (.list (r.map .float))
  | .bool => .ok (.list ((l.filterMap (toBool w)).map .bool))
  | _ => .ok (.list l)

/-- validators.py L644-L711: a value for a type. -/
def convert (w : World) (k : Kind) (v : V) : Except Err V :=
  if isA v k then .ok v
  else match v with
    | .atom .none => .ok v
    | .atom (.str s) => ofStr w s k
    | .atom (.bool b) => .ok (ofWhole w (if b then 1 else 0) k)
    | .atom (.int n) => .ok (ofWhole w n k)
    | .atom (.float x) => ofFloat w x k
    | .list l => ofList w l k

/-- validators.py L631-L641: the style says that texts are lists. -/
def styled (style : Str) (v : V) : V :=
  match v with
  | .atom (.str s) => if hasSub "list".toList style then .list ((splitList s).map .str) else v
  | _ => v

/-- validators.py L579-L720 `validate_value_type`, for types given by texts. -/
def validateValue (w : World) (v : V) (t style : Str) : Except Err V :=
  if isNull v then .ok (.atom .none)
  else if t = "h5py_reference".toList then .ok v
  else (validateType (.atom (.str t))).bind fun n => (kindOf n).bind fun k => convert w k (styled style v)

/-- The time used for missing times. -/
def epoch : Str := "1980-01-01T00:00:00+00:00".toList

/-- validators.py L546-L566: the default of a required attribute without one. Types have been named by `validate_type`,
so that "bool" is not found (L563). -/
def noDefault (t style : Str) (options : List Str) : Except Err V :=
  if hasSub "list".toList style then .ok (.list [])
  else if hasSub "date".toList style || hasSub "time".toList style then .ok (.atom (.str epoch))
  else if hasSub "controlled".toList style then
    if "other".toList ∈ options then .ok (.atom .none)
    else match options with
      | o :: _ => .ok (.atom (.str o))
      | [] => .error .index
  else if t = "integer".toList ∨ t = "float".toList then .ok (.atom (.int 0))
  else if t = "string".toList then .ok (.atom (.str "none".toList))
  else if t = "bool".toList then .ok (.atom (.bool false))
  else if t = "h5py_reference".toList then .ok (.atom .none)
  else .error .unbound

/-- validators.py L531-L576 `validate_default` -/
def validateDefault (w : World) (required : Bool) (t style : Str) (options : List Str) (d : V) : Except Err V :=
  if required then
    if d = .atom .none then noDefault t style options else validateValue w d t style
  else if hasSub "date".toList style || hasSub "time".toList style then .ok (.atom (.str epoch))
  else .ok (.atom .none)

/-- A description after validation. -/
structure Entry where
  type : Str
  required : Bool
  units : Option Str
  style : Str
  description : Str
  options : List Str
  aliases : List Str
  sample : Str
  default : V
  deriving DecidableEq

/-- mt_metadata/__init__.py L72-L83 `REQUIRED_KEYS`, without "attribute" -/
def header : List Str :=
  ["type", "required", "units", "style", "description", "options", "alias", "example", "default"].map String.toList

/-- `value_dict[key]` -/
def field (d : List (Str × V)) (k : String) : V := (OD.get? d k.toList).getD (.atom .none)

/-- validators.py L723-L756 `validate_value_dict`; the sorted keys have to be those of the header (L99-L140), that is
they are the header in some order. -/
def validate (w : World) (d : List (Str × V)) : Except Err Entry :=
  if (d.map Prod.fst).isPerm header then
    (validateType (field d "type")).bind fun t =>
    (validateRequired (field d "required")).bind fun r =>
    (validateUnits (field d "units")).bind fun u =>
    (validateStyle (field d "style")).bind fun s =>
    (validateDescription (field d "description")).bind fun de =>
    (validateNames w (field d "options")).bind fun o =>
    (validateNames w (field d "alias")).bind fun al =>
    (validateDefault w r t s o (field d "default")).bind fun df =>
      .ok ⟨t, r, u, s, de, o, al, validateExample w (field d "example"), df⟩
  else .error .validator

/-- Units, or `None`. -/
def unitsA : Option Str → A
  | some u => .str u
  | none => .none

/-- The dictionary of a description: what is stored, and what is written to JSON files. -/
def Entry.dict (e : Entry) : List (Str × V) :=
  [("type".toList, .atom (.str e.type)),
   ("required".toList, .atom (.bool e.required)),
   ("units".toList, .atom (unitsA e.units)),
   ("style".toList, .atom (.str e.style)),
   ("description".toList, .atom (.str e.description)),
   ("options".toList, .list (e.options.map .str)),
   ("alias".toList, .list (e.aliases.map .str)),
   ("example".toList, .atom (.str e.sample)),
   ("default".toList, e.default)]

/-- base/schema.py `BaseDict` -/
abbrev Schema := List (Str × Entry)

/-- base/schema.py L67-L68 `__setitem__` -/
def setItem (w : World) (b : Schema) (k : Str) (d : List (Str × V)) : Except Err Schema :=
  (validate w d).bind fun e => .ok (OD.set b k e)

/-- base/schema.py L70-L88: what is returned for names that are not there; it has no alias, and options are missing. -/
def missing : List (Str × V) :=
  [("type".toList, .atom (.str "string".toList)), ("required".toList, .atom (.bool false)),
   ("style".toList, .atom (.str "free form".toList)), ("units".toList, .atom .none),
   ("options".toList, .atom .none), ("description".toList, .atom (.str "user defined".toList)),
   ("example".toList, .atom .none), ("default".toList, .atom .none)]

/-- base/schema.py L70-L88 `__getitem__` -/
def getItem (b : Schema) (k : Str) : List (Str × V) :=
  match OD.get? b k with
  | some e => e.dict
  | none => missing

/-- `update` of `MutableMapping`: entry by entry. -/
def update (w : World) (b : Schema) : List (Str × List (Str × V)) → Except Err Schema
  | [] => .ok b
  | (k, d) :: l => (setItem w b k d).bind fun b => update w b l

/-- base/schema.py L129-L167 `add_dict`; an empty name or list of keys counts as none. -/
def addDict (w : World) (b : Schema) (l : List (Str × List (Str × V))) (name : Str) (keys : List Str) :
    Except Err Schema :=
  let l := if keys = [] then l else l.filter fun p => decide (p.1 ∈ keys)
  update w b (if name = [] then l else l.map fun p => (name ++ ".".toList ++ p.1, p.2))

/-- base/schema.py L366-L393 `from_json`: entries are validated, and once more by `update`. -/
def fromJson (w : World) (b : Schema) (l : List (Str × List (Str × V))) : Except Err Schema :=
  (each (fun p => (validate w p.2).bind fun e => .ok (p.1, e.dict)) l).bind fun m => update w b m

/-- base/schema.py L341-L364 `to_json` -/
def toJson (b : Schema) : List (Str × List (Str × V)) :=
  (b.filter fun p => p.1 ≠ "logger".toList).map fun p => (p.1, p.2.dict)

/-- base/schema.py L319-L330: a value in a line. -/
def cell (w : World) : V → Str
  | .list [] => "None".toList
  | .list l =>
    "\"[".toList ++ join "| ".toList (l.map fun a => replaceC '\'' [] (replaceC ',' "|".toList (text w a))) ++ "]\"".toList
  | .atom a => text w a

/-- base/schema.py L317-L330: the line of an attribute. -/
def csvLine (w : World) (k : Str) (e : Entry) : Str := join ",".toList (k :: (e.dict.map fun p => cell w p.2))

/-- `s.split(c, n)` -/
def splitMax (c : Char) : Nat → Str → List Str
  | 0, s => [s]
  | n + 1, s =>
    match split1 c s with
    | (a, some r) => a :: splitMax c n r
    | (a, none) => [a]

/-- base/schema.py L283-L296: a line of a file whose header is the one that is written; validated twice. -/
def readLine (w : World) (line : Str) : Except Err (Str × Entry) :=
  match (splitMax ',' header.length (strip line)).map strip with
  | [] => .error .key
  | k :: cells =>
    match Names.validateName k with
    | .error _ => .error .validator
    | .ok k =>
      (validate w (header.zip (cells.map fun c => .atom (.str c)))).bind fun e =>
        (validate w e.dict).bind fun e => .ok (k, e)

end Verif.Schema
