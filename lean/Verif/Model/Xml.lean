import Verif.Base.Py

/-!
Model of the dictionary/XML conversion of `mt_metadata/base/helpers.py`
(`recursive_split_xml`, `dict_to_xml`, `element_to_dict`).

Simplifications: `attr_dict=None`, so no XML attributes (units/type) are written or read; the
element tree is in memory (no serialisation to text, no pretty-printing); values are dicts with
string keys, lists/tuples, strings, `None` and numbers (given by their `str()`); any other value type
(ValueError) is not representable.
-/

namespace Verif.Xml

/-- Values of a metadata dictionary. `num s` is a number whose `str()` is `s`. -/
inductive J where
  | null
  | str (s : Str)
  | num (s : Str)
  | list (l : List J)
  | dict (kids : List (String × J))

/-- An `xml.etree` element: tag, text, children. -/
inductive Elem where
  | mk (tag : String) (text : Option Str) (children : List Elem)

mutual
/-- The element `tag` filled by `recursive_split_xml` (helpers.py L755-788). -/
def fill (tag : String) : J → Elem
  | .dict kids => .mk tag none (fillKids kids)
  | .list l => .mk tag none (fillItems l)
  | .str s => .mk tag (some s) []
  | .null => .mk tag none []
  | .num s => .mk tag (some s) []
/-- helpers.py L759-763 -/
def fillKids : List (String × J) → List Elem
  | [] => []
  | (k, v) :: rest => fill k v :: fillKids rest
/-- helpers.py L765-767: every list entry becomes a child called "item" -/
def fillItems : List J → List Elem
  | [] => []
  | v :: rest => fill "item" v :: fillItems rest
end

/-- `dict_to_xml({cls: {...}})` (helpers.py L791-807): the root element `cls` with one filled
child per key. -/
def dictToXml (cls : String) (kids : List (String × J)) : Elem := .mk cls none (fillKids kids)

/-- Python's default `str.strip()` whitespace (ASCII part; Unicode spaces are not modelled). -/
def isSpace (c : Char) : Bool :=
  c = ' ' || c = '\n' || c = '\t' || c = '\r' || c = '\x0b' || c = '\x0c'

/-- `str.strip()` -/
def strip (s : Str) : Str := ((s.dropWhile isSpace).reverse.dropWhile isSpace).reverse

/-- `child_dict[k].append(v)` on a `defaultdict(list)` (helpers.py L824-827). -/
def addChild (d : OD String (List J)) (p : String × J) : OD String (List J) :=
  match OD.get? d p.1 with
  | some vs => OD.set d p.1 (vs ++ [p.2])
  | none => OD.set d p.1 [p.2]

/-- `v[0] if len(v) == 1 else v` (helpers.py L829). -/
def single : List J → J
  | [v] => v
  | vs => .list vs

mutual
/-- The value `element_to_dict(e)[e.tag]` (helpers.py L810-873) for an element without attributes. -/
def value : Elem → J
  | .mk _ text children =>
    let base : J :=
      match children with
      | [] => .null
      | _ :: _ =>
        let d := ((values children).foldl addChild []).map (fun p => (p.1, single p.2))
        match OD.get? d "item" with
        | some v => v
        | none => .dict d
    match text with
    | none => base
    | some [] => base
    | some (c :: cs) =>
      let t := strip (c :: cs)
      match children with
      | [] => .str t
      | _ :: _ => if t ≠ [] then .str t else base
/-- `map(element_to_dict, children)`: one `{tag: value}` per child. -/
def values : List Elem → List (String × J)
  | [] => []
  | .mk tag text ch :: rest => (tag, value (.mk tag text ch)) :: values rest
end

/-- `element_to_dict` (helpers.py L810-873): `{tag: value}`. -/
def elementToDict : Elem → String × J
  | .mk tag text ch => (tag, value (.mk tag text ch))

end Verif.Xml
