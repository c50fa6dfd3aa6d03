import Verif.Base.Text
import Verif.Base.Num
import Verif.Model.Names

/-!
# The data of an EMTF XML file

Model of `mt_metadata/transfer_functions/io/emtfxml/metadata/data.py` (writing and reading of the arrays), of the way
from elements to dictionaries (`base/helpers.py` L810-L873 with attributes; `metadata/helpers.py` L27-L64, L142-L205)
and of the lists that `emtfxml.py` derives from the arrays (L418-L525).

Numbers are of any type `F` (with `nan`); printing, reading (`float`), `nan_to_num` and the comparison with zero are
parameters. An array is a list by period, output and input of pairs of real and imaginary part; those of real arrays
(`z_var`, `t_var`) have no imaginary part.

Simplifications: writing the tree as text and parsing it gives the same tree, except that elements with children
get white space as text (`pretty`); `count` is a natural number; arrays have three dimensions.
-/

namespace Verif.EmtfData
open Verif.Text

/-- Printing (`.6e`, `.12e`) and reading of numbers, `nan_to_num` and the numbers 0 and 1e32. -/
structure Nums (F : Type) where
  f6 : F → Str
  f12 : F → Str
  parse : Str → Option F
  fix : F → F
  isZero : F → Bool
  zero : F
  big : F

variable {F : Type}

/-- A complex number. -/
abbrev C (F : Type) := F × F

/-- data.py L270-L280: the arrays, in this order. -/
inductive Key
  | z
  | zVar
  | zInv
  | zRes
  | t
  | tVar
  | tInv
  | tRes
deriving DecidableEq, Repr

def Key.all : List Key := [.z, .zVar, .zInv, .zRes, .t, .tVar, .tInv, .tRes]

/-- data.py L271-L280 -/
def Key.name : Key → Str
  | .z => "z".toList
  | .zVar => "z_var".toList
  | .zInv => "z_invsigcov".toList
  | .zRes => "z_residcov".toList
  | .t => "t".toList
  | .tVar => "t_var".toList
  | .tInv => "t_invsigcov".toList
  | .tRes => "t_residcov".toList

/-- data.py L46-L56: complex arrays. -/
def Key.cplx : Key → Bool
  | .zVar => false
  | .tVar => false
  | _ => true

/-- data.py L162-L183 `_write_dict` -/
def Key.outs : Key → List Str
  | .z => ["ex".toList, "ey".toList]
  | .zVar => ["ex".toList, "ey".toList]
  | .zInv => ["hx".toList, "hy".toList]
  | .zRes => ["ex".toList, "ey".toList]
  | .t => ["hz".toList]
  | .tVar => ["hz".toList]
  | .tInv => ["hx".toList, "hy".toList]
  | .tRes => ["hz".toList]

def Key.ins : Key → List Str
  | .z => ["hx".toList, "hy".toList]
  | .zVar => ["hx".toList, "hy".toList]
  | .zInv => ["hx".toList, "hy".toList]
  | .zRes => ["ex".toList, "ey".toList]
  | .t => ["hx".toList, "hy".toList]
  | .tVar => ["hx".toList, "hy".toList]
  | .tInv => ["hx".toList, "hy".toList]
  | .tRes => ["hz".toList]

/-- data.py L35 `_units_dict` -/
def Key.units : Key → Option Str
  | .z => some "[mV/km]/[nT]".toList
  | .t => some "[]".toList
  | _ => none

/-- data.py L36-L43 `_name_dict` -/
def nameOf (s : Str) : Option Str :=
  OD.get? [("exhx".toList, "zxx".toList), ("exhy".toList, "zxy".toList), ("eyhx".toList, "zyx".toList),
    ("eyhy".toList, "zyy".toList), ("hzhx".toList, "tx".toList), ("hzhy".toList, "ty".toList)] s

/-- data.py L28 `_index_dict` -/
def indexOf (s : Str) : Option Nat :=
  OD.get? [("hx".toList, 0), ("hy".toList, 1), ("ex".toList, 0), ("ey".toList, 1), ("hz".toList, 0)] s

/-- data.py L186-L211 `_derived_keys` -/
def derived : List Str :=
  ["rho", "rho_var", "phs", "phs_var", "tipphs", "tipphs_var", "tipmag", "tipmag_var", "zstrike", "zstrike_var", "zskew",
    "zskew_var", "zellip", "zellip_var", "tstrike", "tstrike_var", "tskew", "tskew_var", "tellip", "tellip_var", "indmag",
    "indmag_var", "indang", "indang_var"].map String.toList

/-- By period, output and input. -/
abbrev Arr (F : Type) := List (List (List (C F)))

/-- data.py L58-L160: the periods and the arrays (`None` or an array, empty by default). -/
structure Data (F : Type) where
  period : List F
  arr : Key → Option (Arr F)

/-- An element: tag, attributes, text, children. -/
inductive El where
  | mk (tag : Str) (attrib : List (Str × Str)) (text : Option Str) (kids : List El)

/-- Values of the dictionaries read. -/
inductive J where
  | null
  | str (s : Str)
  | list (l : List J)
  | dict (d : List (Str × J))

/-! ## Writing -/

/-- `str.upper` -/
def upper (s : Str) : Str := s.map Char.toUpper

/-- `str.capitalize` -/
def capitalize : Str → Str
  | [] => []
  | c :: cs => c.toUpper :: lower cs

/-- `size == 0` -/
def sizeZero (a : Arr F) : Bool := a.flatten.flatten.isEmpty

/-- data.py L393-L399: `nan_to_num`, and 1e32 for zero. -/
def clean (N : Nums F) (cplx : Bool) (v : C F) : C F :=
  match cplx with
  | true => if N.isZero (N.fix v.1) && N.isZero (N.fix v.2) then (N.big, N.big) else (N.fix v.1, N.fix v.2)
  | false => if N.isZero (N.fix v.1) then (N.big, N.zero) else (N.fix v.1, N.zero)

/-- data.py L428-L431 -/
def valueText (N : Nums F) (cplx : Bool) (v : C F) : Str :=
  match cplx with
  | true => N.f6 v.1 ++ ' ' :: N.f6 v.2
  | false => N.f6 v.1

/-- `dict[i]` for the dictionaries 0, 1, … of `_write_dict`. -/
def label (l : List Str) (i : Nat) : Except PyErr Str :=
  match l[i]? with
  | some s => .ok s
  | none => .error .keyError

/-- data.py L417-L431: the element of an entry. -/
def entryEl (N : Nums F) (k : Key) (i j : Nat) (v : C F) : Except PyErr El := do
  let o ← label k.outs i
  let n ← label k.ins j
  let a := [("output".toList, capitalize o), ("input".toList, capitalize n)]
  let a := match nameOf (o ++ n) with
    | some s => ("name".toList, capitalize s) :: a
    | none => a
  .ok (.mk "value".toList a (some (valueText N k.cplx (clean N k.cplx v))) [])

/-- `str(arr.shape)[1:-1].replace(",", "")` of an array of two dimensions -/
def sizeText (m : List (List (C F))) : Str := showNat m.length ++ ' ' :: showNat (m.headD []).length

/-- data.py L401-L408 -/
def compAttrs (k : Key) (m : List (List (C F))) : List (Str × Str) :=
  [("type".toList, if k.cplx then "complex".toList else "real".toList), ("size".toList, sizeText m)] ++
    (match k.units with
      | some u => [("units".toList, u)]
      | none => [])

/-- data.py L410-L412: `key.replace("_", ".").upper()` -/
def Key.tag (k : Key) : Str := upper (replaceC '_' ['.'] k.name)

/-- data.py L401-L431: the element of an array. -/
def compEl (N : Nums F) (k : Key) (m : List (List (C F))) : Except PyErr El := do
  let rows ← m.zipIdx.mapM fun r => r.1.zipIdx.mapM fun v => entryEl N k r.2 v.2 v.1
  .ok (.mk k.tag (compAttrs k m) none rows.flatten)

/-- data.py L386-L392: what is written of an array. -/
def compOf (N : Nums F) (d : Data F) (index : Nat) (k : Key) : Except PyErr (Option El) :=
  match d.arr k with
  | none => .ok none
  | some a =>
    if sizeZero a then .ok none
    else match a[index]? with
      | none => .error .indexError
      | some m => (compEl N k m).map some

/-- data.py L369-L433 `write_block` -/
def writeBlock (N : Nums F) (d : Data F) (index : Nat) (p : F) : Except PyErr El := do
  let comps ← Key.all.mapM (compOf N d index)
  .ok (.mk "Period".toList [("value".toList, N.f12 p), ("units".toList, "secs".toList)] none (comps.filterMap id))

/-- data.py L435-L452 `to_xml` -/
def toXml (N : Nums F) (d : Data F) : Except PyErr El := do
  let blocks ← d.period.zipIdx.mapM fun p => writeBlock N d p.2 p.1
  .ok (.mk "Data".toList [("count".toList, showNat d.period.length)] none blocks)

/-- Letters. -/
def isAlpha (c : Char) : Bool := c.isUpper || c.isLower

/-- `str.title` (for the letters of ASCII). -/
def title : Bool → Str → Str
  | _, [] => []
  | b, c :: cs => (if b then c.toLower else c.toUpper) :: title (isAlpha c) cs

/-- metadata/helpers.py L27-L48 `_capwords` -/
def capwords (s : Str) : Str :=
  if s.contains '_' then (title false (s.map fun c => if c = '_' then ' ' else c)).filter (· ≠ ' ')
  else if s.all (fun c => !c.isUpper) then title false s
  else s

/-- mt_metadata/__init__.py L93-L104 `NULL_VALUES`, without `None`. -/
def nullValues : List Str :=
  ["", "null", "None", "NONE", "NULL", "Null", "none", "1980-01-01T00:00:00", "1980-01-01T00:00:00+00:00"].map String.toList

/-- metadata/helpers.py L176-L205 `_remove_null_values` of a text. -/
def noNull (t : Option Str) : Option Str :=
  match t with
  | none => some []
  | some s => if nullValues.contains s then some [] else some s

/-- `minidom` adds line ends and blanks to elements that have children. -/
def spaced (depth : Nat) (text : Option Str) (kids : List El) : Option Str :=
  match kids with
  | [] => text
  | _ :: _ => some ('\n' :: (List.replicate (4 * depth) ' ' ++ text.getD []))

mutual
/-- emtfxml.py L404-L416: tags (metadata/helpers.py L51-L64), null values and pretty printing. -/
def pretty (depth : Nat) : El → El
  | .mk tag attrib text kids =>
    .mk (if tag = "value".toList then tag else capwords tag)
      (attrib.map fun p => (p.1, if nullValues.contains p.2 then [] else p.2))
      (spaced (depth + 1) (noNull text) kids) (prettyAll (depth + 1) kids)
def prettyAll (depth : Nat) : List El → List El
  | [] => []
  | e :: es => pretty depth e :: prettyAll depth es
end

/-- The data as they are found in the file. -/
def file (N : Nums F) (d : Data F) : Except PyErr El := (toXml N d).map (pretty 1)

/-! ## From elements to dictionaries -/

/-- `d[k] = v` -/
def setItem (j : J) (k : Str) (v : J) : Except PyErr J :=
  match j with
  | .dict d => .ok (.dict (OD.set d k v))
  | _ => .error .typeError

/-- base/helpers.py L824-L827 -/
def addChild (d : OD Str (List J)) (p : Str × J) : OD Str (List J) :=
  match OD.get? d p.1 with
  | some vs => OD.set d p.1 (vs ++ [p.2])
  | none => OD.set d p.1 [p.2]

/-- base/helpers.py L829 -/
def single : List J → J
  | [v] => v
  | vs => .list vs

/-- base/helpers.py L821-L832 -/
def base (attrib : List (Str × Str)) (kids : List (Str × J)) : J :=
  match kids with
  | [] => if attrib.isEmpty then .null else .dict []
  | _ :: _ =>
    let d := (kids.foldl addChild []).map fun p => (p.1, single p.2)
    match OD.get? d "item".toList with
    | some v => v
    | none => .dict d

/-- base/helpers.py L842-L844: the units are left out. -/
def dropUnits (attrib : List (Str × Str)) (p : Str × Str) : Bool := p.1 == "units".toList && decide (attrib.length ≤ 2)

/-- base/helpers.py L845-L856: the type is left out. -/
def dropType (attrib : List (Str × Str)) (p : Str × Str) : Bool :=
  p.1 == "type".toList && decide (attrib.length ≤ 1) &&
    (["float", "string", "integer", "boolean", "list", "tuple"].map String.toList).contains p.2

/-- base/helpers.py L838-L858 -/
def setAttrs (attrib : List (Str × Str)) (v : J) : Except PyErr J :=
  (attrib.filter fun p => !(dropUnits attrib p || dropType attrib p)).foldlM (fun v p => setItem v p.1 (.str p.2)) v

/-- base/helpers.py L840-L841, L859-L862: the attributes that remain. -/
def remaining (attrib : List (Str × Str)) : List (Str × Str) :=
  attrib.filter fun p => !(dropUnits attrib p || dropType attrib p ||
    (p.1 == "type".toList && attrib.any fun q => q.1 == "units".toList))

/-- base/helpers.py L863-L872 -/
def addText (rest : List (Str × Str)) (hasKids : Bool) (text : Option Str) (v : J) : Except PyErr J :=
  match text with
  | none => .ok v
  | some [] => .ok v
  | some (c :: cs) =>
    let t := strip (c :: cs)
    if hasKids || !rest.isEmpty then
      if t.isEmpty then .ok v
      else if rest.isEmpty then .ok (.str t)
      else setItem v "value".toList (.str t)
    else .ok (.str t)

/-- base/helpers.py L821-L873 -/
def finish (attrib : List (Str × Str)) (text : Option Str) (kids : List (Str × J)) : Except PyErr J := do
  let v ← setAttrs attrib (base attrib kids)
  addText (remaining attrib) (!kids.isEmpty) text v

mutual
/-- base/helpers.py L810-L873 `element_to_dict(e)[e.tag]` -/
def toDict : El → Except PyErr J
  | .mk _ attrib text kids => do finish attrib text (← toDicts kids)
def toDicts : List El → Except PyErr (List (Str × J))
  | [] => .ok []
  | .mk tag attrib text kids :: es => do
    let v ← toDict (.mk tag attrib text kids)
    let vs ← toDicts es
    .ok ((tag, v) :: vs)
end

mutual
/-- metadata/helpers.py L142-L173 `_convert_keys_to_lower_case`: anything but a dictionary or a list becomes an
empty dictionary. -/
def lowerKeys : J → Except PyErr J
  | .dict d => do .ok (.dict (← lowerKids d []))
  | .list l => do .ok (.list (← lowerItems l))
  | .null => .ok (.dict [])
  | .str _ => .ok (.dict [])
def lowerKids : List (Str × J) → OD Str J → Except PyErr (OD Str J)
  | [], res => .ok res
  | (k, v) :: rest, res => do
    let k' ← Names.validateName k
    let v' ← match v with
      | .dict d => lowerKeys (.dict d)
      | .list l => lowerKeys (.list l)
      | .null => .ok .null
      | .str s => .ok (.str s)
    lowerKids rest (OD.set res k' v')
def lowerItems : List J → Except PyErr (List J)
  | [] => .ok []
  | v :: vs => do .ok ((← lowerKeys v) :: (← lowerItems vs))
end

/-! ## Reading -/

/-- `v[k]` -/
def J.get (v : J) (k : Str) : Except PyErr J :=
  match v with
  | .dict d => match OD.get? d k with
    | some x => .ok x
    | none => .error .keyError
  | _ => .error .typeError

/-- A text, as `.split()`, `.strip()`, `.lower()` and `float` need it. -/
def J.text (v : J) : Except PyErr Str :=
  match v with
  | .str s => .ok s
  | _ => .error .attributeError

/-- `float(s)` -/
def float (N : Nums F) (s : Str) : Except PyErr F :=
  match N.parse s with
  | some x => .ok x
  | none => .error .valueError

/-- `float(v)`: `None`, lists and dictionaries raise `TypeError`. -/
def floatOf (N : Nums F) (v : J) : Except PyErr F :=
  match v with
  | .str s => float N s
  | _ => .error .typeError

/-- `l[i]` -/
def nth (l : List Str) (i : Nat) : Except PyErr Str :=
  match l[i]? with
  | some s => .ok s
  | none => .error .indexError

/-- A number read. -/
inductive V (F : Type) where
  | real (x : F)
  | cplx (x y : F)

/-- data.py L29-L34 `_dtype_dict`: a type of Python, or one of the names `"complex"` and `"real"`, for which there is no
branch. -/
inductive DType
  | complex
  | float
  | name
  | unknown
deriving DecidableEq, Repr

def dtypeOf (s : Str) : DType :=
  if s = "complex".toList then .complex
  else if s = "real".toList then .float
  else if s = "complex128".toList ∨ s = "float64".toList then .name
  else .unknown

/-- data.py L332-L333, L337-L338 -/
def cplxOf (N : Nums F) (ws : List Str) : Except PyErr (V F) := do
  let x ← float N (← nth ws 0)
  let y ← float N (← nth ws 1)
  .ok (.cplx x y)

/-- data.py L331-L340: the number of an item; without a branch it is that of the item before. -/
def itemValue (N : Nums F) (t : DType) (item : J) (last : Option (V F)) : Except PyErr (V F) :=
  match t with
  | .complex => do
    let s ← (← item.get "value".toList).text
    cplxOf N (words s)
  | .float => do .ok (.real (← floatOf N (← item.get "value".toList)))
  | .name => match last with
    | some v => .ok v
    | none => .error .nameError
  | .unknown => do
    let ws := words (← (← item.get "value".toList).text)
    if 1 < ws.length then cplxOf N ws
    else .ok (.real (← float N (← nth ws 0)))

/-- data.py L329-L330 -/
def itemIndex (item : J) (k : Str) : Except PyErr Nat := do
  let s ← (← item.get k).text
  match indexOf (lower s) with
  | some i => .ok i
  | none => .error .keyError

/-- The arrays while they are read. -/
abbrev Arrs (F : Type) := Key → Arr F

/-- The array of a name. -/
def keyOf (s : Str) : Option Key := Key.all.find? fun k => k.name == s

/-- A number in an array of numbers of another type: complex numbers are no real ones. -/
def cast (N : Nums F) (cplx : Bool) (v : V F) : Except PyErr (C F) :=
  match v with
  | .real x => .ok (x, N.zero)
  | .cplx x y => if cplx then .ok (x, y) else .error .typeError

/-- `a[p, i, j] = v` -/
def setAt (a : Arr F) (p i j : Nat) (v : C F) : Except PyErr (Arr F) :=
  match (a[p]?.getD [])[i]? with
  | some r => if j < r.length then .ok (a.modify p fun m => m.modify i fun r => r.set j v) else .error .indexError
  | none => .error .indexError

/-- data.py L342; if both index and type are wrong, which of the two errors is raised is not modelled. -/
def store (N : Nums F) (s : Arrs F) (comp : Str) (p i j : Nat) (v : V F) : Except PyErr (Arrs F) :=
  match keyOf comp with
  | none => .error .keyError
  | some k => do
    let a ← setAt (s k) p i j (← cast N k.cplx v)
    .ok fun k' => if k' = k then a else s k'

/-- data.py L328-L342: one item. -/
def readItem (N : Nums F) (comp : Str) (t : DType) (p : Nat) (st : Arrs F × Option (V F)) (item : J) :
    Except PyErr (Arrs F × Option (V F)) := do
  let i ← itemIndex item "output".toList
  let j ← itemIndex item "input".toList
  let v ← itemValue N t item st.2
  .ok (← store N st.1 comp p i j v, some v)

/-- data.py L313-L316 -/
def blockType (b : J) : Except PyErr DType :=
  match b.get "type".toList with
  | .ok (.str s) => .ok (dtypeOf s)
  | .ok .null => .ok .unknown
  | .ok _ => .error .typeError
  | .error .keyError => .ok .unknown
  | .error e => .error e

/-- data.py L326-L327 -/
def itemsOf : J → List J
  | .list l => l
  | v => [v]

/-- data.py L306: `key.replace("_", "").replace(".", "_")` -/
def compName (key : Str) : Str := replaceC '.' ['_'] (replaceC '_' [] key)

/-- data.py L305-L342: one key of a block. -/
def readKey (N : Nums F) (p : Nat) (st : Arrs F × Option (V F)) (kv : Str × J) : Except PyErr (Arrs F × Option (V F)) :=
  let comp := compName kv.1
  if comp = "value".toList then .ok st
  else if derived.contains comp then .ok st
  else do
    let t ← blockType kv.2
    match kv.2.get "value".toList with
    | .error .keyError => .ok st
    | .error e => .error e
    | .ok v => (itemsOf v).foldlM (readItem N comp t p) st

/-- data.py L292-L342 `read_block` -/
def readBlock (N : Nums F) (p : Nat) (block : List (Str × J)) (s : Arrs F) : Except PyErr (Arrs F) := do
  let st ← block.foldlM (readKey N p) (s, none)
  .ok st.1

/-- data.py L360-L361: `len`. -/
def lenOf : J → Except PyErr Nat
  | .list l => .ok l.length
  | .dict d => .ok d.length
  | .str s => .ok s.length
  | .null => .error .typeError

/-- data.py L358-L361 -/
def countOf (data : J) : Except PyErr Nat :=
  match data.get "count".toList with
  | .ok v => do
    match parseDigits (strip (← v.text)) with
    | some n => .ok n
    | none => .error .valueError
  | .error .keyError => do lenOf (← data.get "period".toList)
  | .error e => .error e

/-- data.py L240-L266 `initialize_arrays` -/
def initArrs (N : Nums F) (n : Nat) : Arrs F := fun k =>
  List.replicate n (List.replicate k.outs.length (List.replicate k.ins.length (N.zero, N.zero)))

/-- The blocks that are read: those of a list; iterating a dictionary or a text gives texts. -/
def blocksOf : J → Except PyErr (List J)
  | .list l => .ok l
  | .dict d => .ok (d.map fun p => .str p.1)
  | .str s => .ok (s.map fun c => .str [c])
  | .null => .error .typeError

/-- data.py L364-L366 -/
def readPeriod (N : Nums F) (st : List F × Arrs F) (b : J × Nat) : Except PyErr (List F × Arrs F) := do
  let x ← floatOf N (← b.1.get "value".toList)
  if b.2 < st.1.length then
    match b.1 with
    | .dict d => .ok (st.1.set b.2 x, ← readBlock N b.2 d st.2)
    | _ => .error .attributeError
  else .error .indexError

/-- data.py L344-L366 `read_dict` -/
def readDict (N : Nums F) (root : J) : Except PyErr (List F × Arrs F) := do
  let data ← root.get "data".toList
  let n ← countOf data
  let blocks ← blocksOf (← data.get "period".toList)
  blocks.zipIdx.foldlM (readPeriod N) (List.replicate n N.zero, initArrs N n)

/-- emtfxml.py L323-L339, the data: the dictionary of the root has one key for every child. -/
def readFile (N : Nums F) (kids : List El) : Except PyErr (Data F) := do
  let root ← toDict (.mk "EM_TF".toList [] (some ['\n']) kids)
  let root ← lowerKeys root
  let r ← readDict N root
  .ok { period := r.1, arr := fun k => some (r.2 k) }

/-! ## What is derived from the arrays -/

/-- `np.all(a == 0.0)` -/
def allZero (N : Nums F) (a : Arr F) : Bool := a.all fun m => m.all fun r => r.all fun v => N.isZero v.1 && N.isZero v.2

/-- emtfxml.py L47-L112: names of the estimates. -/
inductive Est
  | variance
  | inverseSignalPower
  | residualCovariance
deriving DecidableEq, Repr

/-- emtfxml.py L424-L433, L435-L444, L446-L455 -/
def listed (N : Nums F) (z t : Option (Arr F)) (e : Est) : List Est :=
  match z with
  | some a => if allZero N a then [] else [e]
  | none => match t with
    | some a => if allZero N a then [] else [e]
    | none => []

/-- emtfxml.py L418-L455 `_get_statistical_estimates` -/
def estimates (N : Nums F) (d : Data F) : List Est :=
  listed N (d.arr .zVar) (d.arr .tVar) .variance ++ listed N (d.arr .zInv) (d.arr .tInv) .inverseSignalPower ++
    listed N (d.arr .zRes) (d.arr .tRes) .residualCovariance

/-- emtfxml.py L114-L147: names of the data types. -/
inductive DataType
  | impedance
  | tipper
deriving DecidableEq, Repr

/-- emtfxml.py L457-L472 `_get_data_types` -/
def dataTypes (N : Nums F) (d : Data F) : List DataType :=
  (match d.arr .z with
    | some a => if allZero N a then [] else [.impedance]
    | none => []) ++
  (match d.arr .t with
    | some a => if allZero N a then [] else [.tipper]
    | none => [])

/-- A channel of the site layout: its name and what else is known about it. -/
structure Chan (μ : Type) where
  name : Str
  rest : μ

variable {μ : Type}

/-- `(a != 0).any()`; `None` has no `any`. -/
def anyNonzero (N : Nums F) (a : Option (Arr F)) : Except PyErr Bool :=
  match a with
  | some a => .ok (!allZero N a)
  | none => .error .attributeError

/-- emtfxml.py L482-L493 -/
def inputNames (z t : Bool) : List Str := if z || t then ["hx".toList, "hy".toList] else []
def outputNames (z t : Bool) : List Str :=
  (if z then ["ex".toList, "ey".toList] else []) ++ (if t then ["hz".toList] else [])

/-- Comparison of texts. -/
def leStr (a b : Str) : Bool := !(decide (b < a))

/-- emtfxml.py L496-L510, L513-L525: a channel that is missing is made from its name
(site_layout.py L82-L93, `fresh`). -/
def updateChannels (fresh : Str → Chan μ) (wanted : List Str) (cur : List (Chan μ)) : List (Chan μ) :=
  if pySorted leStr wanted = pySorted leStr (cur.map fun c => lower c.name) then cur
  else wanted.flatMap fun w =>
    let found := cur.filter fun c => lower c.name = lower w
    if found.isEmpty then [fresh w] else found

/-- emtfxml.py L474-L525 `_update_site_layout`: input and output channels. -/
def updateLayout (N : Nums F) (fresh : Str → Chan μ) (d : Data F) (lay : List (Chan μ) × List (Chan μ)) :
    Except PyErr (List (Chan μ) × List (Chan μ)) := do
  let z ← anyNonzero N (d.arr .z)
  let t ← anyNonzero N (d.arr .t)
  .ok (updateChannels fresh (inputNames z t) lay.1, updateChannels fresh (outputNames z t) lay.2)

end Verif.EmtfData
