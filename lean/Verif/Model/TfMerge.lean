import Verif.Model.Tf
import Mathlib.Order.Defs.LinearOrder

/-!
# Merging, comparing and naming transfer functions

Model of `mt_metadata/transfer_functions/core.py`, class `TF`: `merge` (L1660-L1881), `__eq__` (L166-L200), the
name and type of a file in `write` (L1883-L1960) and `read` (L1968-L2013), and `_read_write_dict` (L79-L88).

Simplifications: in `merge` a data set is the list of its periods, each with all numbers there (`rowsOf`), and all data
sets have the same labels; periods are of any linear order. A transfer function is not merged with itself.
xarray and pandas are modelled as used: `sortby` (stable, ascending), `.loc` with a slice (`Index.slice_indexer`), `where`
with `drop`, and `combine_by_coords` (`xarray/structure/combine.py`: `_infer_concat_order_from_coords`,
`_combine_single_variable_hypercube`). A path is a directory and a name; names have no slashes.
-/

namespace Verif.TfMerge

open Verif.Tf

variable {P R : Type} [LinearOrder P]

/-- A data set along `period`. -/
abbrev Rows (P R : Type) := List (P × R)

/-- The periods of a data set, each with its numbers. -/
def rowsOf (d : DS P) : Rows P (Var → Str → Str → Val) :=
  d.periods.zipIdx.map fun x => (x.1, fun v => d.arr v x.2)

/-- The coordinate `period`. -/
def periods (d : Rows P R) : List P := d.map Prod.fst

/-- pandas `is_monotonic_increasing` -/
def incr (l : List P) : Bool := decide (l.Pairwise (· ≤ ·))

/-- pandas `is_monotonic_decreasing` -/
def decr (l : List P) : Bool := decide (l.Pairwise (· ≥ ·))

/-- L1720-L1724 `sort_by_period` -/
def sortRows (d : Rows P R) : Rows P R := pySorted (fun a b => decide (a.1 ≤ b.1)) d

/-- pandas `Index.get_slice_bound`: the place of a label, by its order in a monotonic index and by the label else;
a label that is there several times in an index that is not monotonic is an error. -/
def bound (l : List P) (x : P) (right : Bool) : Except PyErr ℕ :=
  if incr l then .ok (l.countP fun p => if right then decide (p ≤ x) else decide (p < x))
  else if decr l then .ok (l.countP fun p => if right then decide (x ≤ p) else decide (x < p))
  else if l.count x = 1 then .ok (l.idxOf x + if right then 1 else 0)
  else .error .keyError

/-- `ds.loc[{"period": slice(lo, hi)}]` -/
def loc (d : Rows P R) (lo hi : Option P) : Except PyErr (Rows P R) :=
  match (match lo with | none => .ok 0 | some x => bound (periods d) x false : Except PyErr ℕ) with
  | .error e => .error e
  | .ok a =>
    match (match hi with | none => .ok d.length | some x => bound (periods d) x true : Except PyErr ℕ) with
    | .error e => .error e
    | .ok b => .ok ((d.take b).drop a)

/-- Within the bounds that are given. -/
def inside (lo hi : Option P) (p : P) : Bool :=
  (match lo with | none => true | some x => decide (x ≤ p)) &&
    (match hi with | none => true | some x => decide (p ≤ x))

/-- L1803-L1848 `get_slice`; without bounds `.loc` does not raise. -/
def getSlice (d : Rows P R) (lo hi : Option P) : Rows P R :=
  match loc d lo hi with
  | .ok x => x
  | .error _ => d.filter fun r => inside lo hi r.1

/-- What is merged: another transfer function, a dictionary, a dictionary with other keys, or anything else. -/
inductive Item (P R : Type)
  | tf (d : Rows P R)
  | dict (d : Rows P R) (lo hi : Option P)
  | badDict
  | other

/-- The transfer function of an item. -/
def Item.rows : Item P R → Option (Rows P R)
  | .tf d => some d
  | .dict d _ _ => some d
  | _ => none

/-- L1726-L1801 `is_tf`, `validate_dict` and `is_dict`: the item afterwards and the data set. -/
def prepare : Item P R → Item P R × Except PyErr (Rows P R)
  | .tf d => (.tf d, .ok (sortRows d))
  | .dict d lo hi => (.dict (sortRows d) lo hi, .ok (getSlice (sortRows d) lo hi))
  | .badDict => (.badDict, .error .keyError)
  | .other => (.other, .error .typeError)

/-- L1855-L1863: the loop over the items. -/
def prepareAll : List (Item P R) → List (Item P R) × Except PyErr (List (Rows P R))
  | [] => ([], .ok [])
  | i :: l =>
    match prepare i with
    | (i', .error e) => (i' :: l, .error e)
    | (i', .ok d) =>
      match prepareAll l with
      | (l', .error e) => (i' :: l', .error e)
      | (l', .ok ds) => (i' :: l', .ok (d :: ds))

/-- The data sets with their first periods. -/
def pairs (l : List (Rows P R)) : List (P × Rows P R) := l.filterMap fun e => (periods e).head?.map fun p => (p, e)

/-- The data sets one after the other, ordered by their first period. They are put into a dictionary by their place in
that order, so that the last one with some first period stays. -/
def joined (asc : Bool) (l : List (Rows P R)) : Rows P R :=
  ((pySorted (fun a b => if asc then decide (a.1 ≤ b.1) else decide (b.1 ≤ a.1)) (OD.ofPairs (pairs l))).map
    Prod.snd).flatten

/-- `xr.combine_by_coords`: several data sets with the same periods cannot be ordered. -/
def combine (l : List (Rows P R)) : Except PyErr (Rows P R) :=
  match l with
  | [] => .error .valueError
  | [d] => .ok d
  | d :: rest =>
    if rest.all (fun e => decide (periods e = periods d)) then .error .valueError
    else if (l.all fun e => incr (periods e)) = false ∧ (l.all fun e => decr (periods e)) = false then
      .error .valueError
    else if l.any fun e => e.isEmpty then .error .valueError
    else if incr (periods (joined (l.all fun e => incr (periods e)) l)) ||
        decr (periods (joined (l.all fun e => incr (periods e)) l)) then
      .ok (joined (l.all fun e => incr (periods e)) l)
    else .error .valueError

/-- L1850-L1874 `merge`: the items afterwards and the new data set. -/
def merge (self : Rows P R) (others : List (Item P R)) (lo hi : Option P) :
    List (Item P R) × Except PyErr (Rows P R) :=
  match prepareAll others with
  | (o, .error e) => (o, .error e)
  | (o, .ok ds) => (o, combine (getSlice self lo hi :: ds))

/-- L1876-L1881: the transfer function afterwards, and what is returned. -/
def mergeInto (self : Rows P R) (others : List (Item P R)) (lo hi : Option P) (inplace : Bool) :
    Rows P R × Except PyErr (Option (Rows P R)) :=
  match (merge self others lo hi).2 with
  | .error e => (self, .error e)
  | .ok d => if inplace then (d, .ok none) else (self, .ok (some d))

/-! ## Comparing -/

/-- An object with its metadata. -/
structure Obj (P M : Type) where
  tf : TF P
  station : M
  survey : M

/-- `self.transfer_function.equals(other.transfer_function)`: labels, periods and numbers, `nan` being equal to `nan`. -/
def sameTf (a b : TF P) (x y : List (List (List Val))) : Prop :=
  a.names.exeyhz = b.names.exeyhz ∧ a.names.hxhy = b.names.hxhy ∧ a.ds.periods = b.ds.periods ∧ x = y

open Classical in
/-- L166-L200 `__eq__`; `none` is an object of another class without `station_metadata`. `ne` compares metadata. -/
noncomputable def eq {M : Type} (ne : M → M → Bool) (a : Obj P M) (b : Option (Obj P M)) : Except PyErr Bool :=
  match b with
  | none => .error .attributeError
  | some b =>
    let ok1 := !ne a.station b.station
    let ok2 := !ne a.survey b.survey
    match get a.tf .tf, get b.tf .tf with
    | .error e, _ => .error e
    | .ok none, .error e => .error e
    | .ok (some _), .error e => .error e
    | .ok (some x), .ok (some y) => .ok (ok1 && ok2 && decide (sameTf a.tf b.tf x y))
    | .ok none, .ok none => .ok (ok1 && ok2)
    | _, _ => .ok false

/-! ## Names of files -/

/-- The formats. -/
inductive Kind
  | edi
  | xml
  | j
  | zmm
  | avg
deriving DecidableEq

/-- L79-L88 `_read_write_dict` -/
def kindOf (t : Str) : Option Kind :=
  if t = "edi".toList then some .edi
  else if t = "xml".toList then some .xml
  else if t = "emtfxml".toList then some .xml
  else if t = "j".toList then some .j
  else if t = "zmm".toList then some .zmm
  else if t = "zrr".toList then some .zmm
  else if t = "zss".toList then some .zmm
  else if t = "avg".toList then some .avg
  else none

/-- `Path.suffix`: from the last dot, if it is neither the first nor the last character. -/
def suffix (name : Str) : Str :=
  if name.contains '.' then
    let tail := (name.reverse.takeWhile (· != '.')).reverse
    if tail = [] then []
    else if tail.length + 1 = name.length then []
    else '.' :: tail
  else []

/-- `suffix.lower()[1:]` -/
def typeOf (name : Str) : Str := ((suffix name).map Char.toLower).drop 1

/-- `f"{name}.{file_type}"` -/
def dotted (name : Str) (t : Option Str) : Str := name ++ '.' :: t.getD "None".toList

/-- The arguments of `write`. -/
structure Args where
  fn : Option (Str × Str) := none
  saveDir : Option Str := none
  base : Option Str := none
  fileType : Option Str := some "edi".toList

/-- L1929-L1960: directory, name and format of the file that is written. `TFError` is `valueError`; `with_name` on an
empty name is an error; `to_jfile` (L2257-L2269) is not implemented. -/
def write (dir station : Str) (a : Args) : Except PyErr (Str × Str × Kind) :=
  let dir1 := match a.fn with | some f => f.1 | none => dir
  let base1 := match a.fn with | some f => some f.2 | none => a.base
  let type1 := match a.fn with | some f => some (typeOf f.2) | none => a.fileType
  let dir2 := a.saveDir.getD dir1
  let base2 : Except PyErr Str := match base1 with
    | none => .ok (dotted station type1)
    | some b => if suffix b = [] then (if b = [] then .error .valueError else .ok (dotted b type1)) else .ok b
  match base2 with
  | .error e => .error e
  | .ok name =>
    let t := type1.getD (typeOf name)
    match kindOf t with
    | none => .error .valueError
    | some .j => .error .notImplementedError
    | some k => .ok (dir2, name, k)

/-- L2004-L2011: the format as which a file is read. -/
def readKind (name : Str) (fileType : Option Str) : Except PyErr Kind :=
  match kindOf (fileType.getD (typeOf name)) with
  | none => .error .keyError
  | some k => .ok k

end Verif.TfMerge
