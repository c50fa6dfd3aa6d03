import Verif.Model.Dicts
import Mathlib.Algebra.Order.Ring.Rat
import Mathlib.Algebra.Order.Group.Unbundled.Abs

/-!
Model of the generic parts of `mt_metadata/base/metadata.py`: `update`, `__eq__`, `to_dict`,
`from_dict` and the dotted keyword constructor.

An object is its flat field map (dotted field name -> value), in the sorted order of
`get_attribute_list`. Validation of a value that comes from an object of the same class is the
identity; cross-field validators (Run, Station, ...) are modelled elsewhere. Comments and
lists of objects are not modelled here.
-/

namespace Verif.Metadata

/-- Field values. `num` stands for `int` and `float`, `list` for lists of strings, `arr` for 1-d
numpy arrays. -/
inductive Val where
  | none
  | str (s : String)
  | num (q : ℚ)
  | bool (b : Bool)
  | list (l : List String)
  | arr (l : List ℚ)
  deriving DecidableEq

/-- An object of a class: its flat fields. -/
abbrev Obj := OD String Val

/-- mt_metadata/__init__.py L93-L104 `NULL_VALUES`. -/
def nullStrings : List String :=
  ["", "null", "None", "NONE", "NULL", "Null", "none", "1980-01-01T00:00:00",
   "1980-01-01T00:00:00+00:00"]

/-- `value in NULL_VALUES`. -/
def inNullValues : Val → Bool
  | .none => true
  | .str s => nullStrings.contains s
  | _ => false

/-- Python numbers: bool is a number. -/
def asNum : Val → Option ℚ
  | .num q => some q
  | .bool b => some (if b then 1 else 0)
  | _ => Option.none

/-- `v == w` for values that are not arrays (`True == 1.0`, `False == 0.0`). -/
def pyEq (v w : Val) : Bool :=
  match asNum v, asNum w with
  | some a, some b => decide (a = b)
  | _, _ => decide (v = w)

/-- helpers.py L1185-L1203 `_should_include_coordinate_field`. -/
def coordinateFields : List String :=
  ["negative.x", "negative.y", "negative.z", "positive.x2", "positive.y2", "positive.z2",
   "location.x", "location.y", "location.z"]

/-- helpers.py L1206-L1218 `_should_convert_none_to_empty_string`. -/
def emptyStringFields : List String :=
  ["data_logger.firmware.author", "provenance.software.author", "provenance.software.version", "url"]

/-- metadata.py L1122-L1137: is the field written by `to_dict(required=True)`? -/
def kept (required : List String) (name : String) (v : Val) : Bool :=
  match v with
  | .arr l => name == "zeros" || name == "poles" || l.all (fun q => decide (q ≠ 0))
  | v =>
    !([Val.none, .str "1980-01-01T00:00:00+00:00", .str "1980", .list [], .str ""].any (pyEq v)) ||
      required.contains name || coordinateFields.contains name || emptyStringFields.contains name

/-- metadata.py L1138-L1147: None of a few fields is written as 0.0 or "". -/
def fillNone (name : String) (v : Val) : Val :=
  if coordinateFields.contains name ∧ v = .none then .num 0
  else if emptyStringFields.contains name ∧ v = .none then .str ""
  else v

/-- metadata.py L956-L1160 `to_dict(single=True, required=...)` (flat). `fields` are the names marked
required in the standards. -/
def toDict (fields : List String) (required : Bool) (o : Obj) : Obj :=
  if required then
    (o.filter (fun p => kept fields p.1 p.2)).map (fun p => (p.1, fillNone p.1 p.2))
  else o

/-- metadata.py L605-L609: `v not in [None, 0.0, [], "", default time] + NULL_VALUES`, with Python's
`==` (so `False == 0.0`). -/
def skipped (v : Val) : Bool :=
  [Val.none, .num 0, .list [], .str "", .str "1980-01-01T00:00:00+00:00"].any (pyEq v) ||
    inNullValues v

/-- metadata.py L600-L610: the assignment of one item in `update`. -/
def updateOne (a : Obj) (p : String × Val) : Obj :=
  match p.2 with
  | .arr l => if 0 < l.length then OD.set a p.1 p.2 else a
  | v => if skipped v then a else OD.set a p.1 p.2

/-- metadata.py L592-L599: the `match` test of `update`. A missing name raises KeyError. -/
def checkMatch (a b : Obj) : List String → Except PyErr Unit
  | [] => .ok ()
  | k :: ks =>
    match OD.get? a k, OD.get? b k with
    | some v, some w => if pyEq v w then checkMatch a b ks else .error .valueError
    | _, _ => .error .keyError

/-- metadata.py L574-L610 `update(other, match)` for objects of one class. The `match` test
raises before anything is assigned. -/
def update (fields : List String) (a b : Obj) (matchNames : List String) : Except PyErr Obj :=
  match checkMatch a b matchNames with
  | .error e => .error e
  | .ok () => .ok ((toDict fields true b).foldl updateOne a)

/-- `np.isclose(a, b)` with the default tolerances. -/
def isClose (a b : ℚ) : Bool := decide (|a - b| ≤ 1 / 100000000 + 1 / 100000 * |b|)

/-- metadata.py L467-L470: the coordinate suffixes of `__eq__`. -/
def coordSuffix (key : String) : Bool :=
  [".x", ".y", ".z", ".x2", ".y2", ".z2"].any (fun s => s.toList.isSuffixOf key.toList)

/-- Python `a in b` for strings. -/
def substring (a b : List Char) : Bool :=
  match b with
  | [] => a.isEmpty
  | c :: cs => a.isPrefixOf (c :: cs) || substring a cs

/-- `skip_key in key` for the private `_skip_equals` (L223, L445-L450). -/
def skipKey (key : String) : Bool :=
  ["processed_date", "creation_time"].any (fun s => substring s.toList key.toList)

/-- metadata.py L453-L491: comparison of one field. -/
def fieldEq (key : String) (v w : Val) : Except PyErr Bool :=
  match v with
  | .arr l =>
    match w with
    | .arr m => .ok (l.length == m.length && decide (l = m))
    | _ => .error .attributeError
  | .num _ | .bool _ =>
    match asNum v, w with
    | some q, .none => .ok (coordSuffix key && decide (q = 0))
    | some q, w =>
      match asNum w with
      | some r => .ok (isClose q r)
      | Option.none => .error .typeError
    | Option.none, _ => .error .typeError
  | v => .ok ((inNullValues v && inNullValues w) || pyEq v w)

/-- metadata.py L443-L497: the loop over the fields of `self`; a key missing from the other is
only logged. -/
def eqLoop (other : Obj) : Obj → Except PyErr Bool
  | [] => .ok true
  | (k, v) :: rest => do
    if skipKey k then eqLoop other rest
    else match OD.get? other k with
      | Option.none => eqLoop other rest
      | some w =>
        let here ← fieldEq k v w
        let there ← eqLoop other rest
        .ok (here && there)

/-- Does a value make the plain dict comparison raise? (arrays, L436-L441) -/
def isArr : Val → Bool
  | .arr _ => true
  | _ => false

/-- metadata.py L325-L497 `__eq__` with another object. The dict comparison of L437 succeeds when the
keys agree and all values are equal; an array makes it raise, which is ignored. -/
def objEq (a b : Obj) : Except PyErr Bool :=
  if a.map Prod.fst = b.map Prod.fst ∧ (a.all (fun p => !isArr p.2)) ∧ (b.all (fun p => !isArr p.2)) ∧
      ((a.zip b).all (fun p => pyEq p.1.2 p.2.2)) then .ok true
  else eqLoop b a

/-- metadata.py L528-L572 `load`: every branch ends without a return value. The first
component is the filled object (or an exception), the second what the call returns. -/
def loadDict (fresh : Obj) (d : Obj) : Obj × Option Obj :=
  (d.foldl (fun acc p => OD.set acc p.1 p.2) fresh, Option.none)

/-- metadata.py L411-L427 `__eq__` with a dict: compares what `load` returned. -/
def eqDict (a : Obj) (d : Obj) : Except PyErr Bool :=
  match (loadDict [] d).2 with
  | Option.none => .ok false
  | some o => objEq a o

/-- metadata.py L1162-L1216 `from_dict` of a flat dict (already unwrapped from its class name). -/
def fromDict (o : Obj) (d : Obj) (skipNone : Bool) : Obj :=
  d.foldl (fun acc p => if skipNone && inNullValues p.2 then acc else OD.set acc p.1 p.2) o

/-! ### The dotted keyword constructor -/

open Dicts

variable {β : Type}

/-- `key.split(".")`. -/
def splitDots : Str → List Str
  | [] => [[]]
  | c :: cs =>
    if c = '.' then [] :: splitDots cs
    else match splitDots cs with
      | [] => [[c]]
      | w :: ws => (c :: w) :: ws

/-- metadata.py L110-L144 `_set_nested_attribute`: a missing or non-dict intermediate is replaced by
an empty dict. -/
def setNested : List Str → Tree β → Dict β → Dict β
  | [], _, d => d
  | [k], v, d => OD.set d k v
  | k :: k' :: ks, v, d =>
    let sub : Dict β := match OD.get? d k with
      | some (.node kids) => kids
      | _ => []
    OD.set d k (.node (setNested (k' :: ks) v sub))

/-- metadata.py L90-L98: one item of a dict passed under the class name. Only values
that are dicts have their key split at dots. -/
def wrappedOne (s : Dict β × Dict β) (q : Str × Tree β) : Dict β × Dict β :=
  match q.2 with
  | .node _ => (s.1, setNested (splitDots q.1) q.2 s.2)
  | .leaf _ => (OD.set s.1 q.1 q.2, s.2)

/-- metadata.py L81-L103: one keyword, updating (flat_data, nested_data). `cls` is
`validate_name(class name)`. -/
def initOne (cls : Str) (s : Dict β × Dict β) (p : Str × Tree β) : Dict β × Dict β :=
  if '.' ∈ p.1 then (s.1, setNested (splitDots p.1) p.2 s.2)
  else if p.1 = cls then
    match p.2 with
    | .node kids => kids.foldl wrappedOne s
    | .leaf _ => (OD.set s.1 p.1 p.2, s.2)
  else (OD.set s.1 p.1 p.2, s.2)

/-- metadata.py L76-L108: what is passed to pydantic. -/
def initData (cls : Str) (data : Dict β) : Dict β :=
  let s := data.foldl (initOne cls) ([], [])
  s.2.foldl (fun (acc : Dict β) q => OD.set acc q.1 q.2) s.1

end Verif.Metadata
