import Verif.Base.Py

/-! # Copies of metadata objects

`mt_metadata/base/metadata.py` L614-L694 `copy`, `mt_metadata/common/list_dict.py` L89-L111 `__deepcopy__`, `copy`, L234-L254 `extend`,
`timeseries/run.py` L469-L477, `timeseries/station.py` L339-L344 and `timeseries/survey.py` L552-L556 `merge`; `model_copy` of pydantic.

Objects are cells of a heap, since the question is which objects share parts. Names of attributes are `hdf5`, `mth5` and others (keys of a
`ListDict` are names too).

Simplifications: an object that is reached twice in one object is copied twice (`memo` is left out), an object that has itself as a part
cannot be copied; an item of a `ListDict` with an HDF5 reference would be rebuilt by itself, here the whole object is. `rebuild` is
`type(self)()` and `from_dict(self.to_dict())` (L680-L682); `check` is what the validators of an attribute make of a value. -/

namespace Verif.Copies

/-- Names of attributes. -/
inductive Name where
  | hdf5
  | mth5
  | other (n : Nat)
  deriving DecidableEq

/-- Values of attributes: `None`, texts and numbers, objects, HDF5 references (which cannot be copied). -/
inductive Val where
  | none
  | plain (n : Nat)
  | ref (a : Nat)
  | raw (n : Nat)
  deriving DecidableEq

/-- An object. -/
abbrev Cell := OD Name Val

/-- All objects. -/
abbrev Heap := List Cell

/-- Why there is no copy. -/
inductive Fail where
  | uncopyable
  | tooDeep
  | dangling
  deriving DecidableEq

/-- The parts of an object, one after another. -/
def deepL (f : Heap → Val → Except Fail (Heap × Val)) : Heap → Cell → Except Fail (Heap × Cell)
  | h, [] => .ok (h, [])
  | h, (k, v) :: r =>
    match f h v with
    | .error e => .error e
    | .ok (h1, v1) =>
      match deepL f h1 r with
      | .error e => .error e
      | .ok (h2, r2) => .ok (h2, (k, v1) :: r2)

/-- `copy.deepcopy`, list_dict.py L98-L104: a new object with copies of all parts. -/
def deep : Nat → Heap → Val → Except Fail (Heap × Val)
  | _, h, .none => .ok (h, .none)
  | _, h, .plain n => .ok (h, .plain n)
  | _, _, .raw _ => .error .uncopyable
  | 0, _, .ref _ => .error .tooDeep
  | n + 1, h, .ref a =>
    match h[a]? with
    | none => .error .dangling
    | some c =>
      match deepL (deep n) h c with
      | .error e => .error e
      | .ok (h1, c1) => .ok (h1 ++ [c1], .ref h1.length)

/-- L655-L672: the update with what is always put into it. -/
def fullUpdate (isDeep : Bool) (c upd : Cell) : Cell :=
  let u := match OD.get? c .hdf5 with
    | some v => if isDeep && decide (v ≠ .none) then OD.set upd .hdf5 .none else upd
    | none => upd
  match OD.get? c .mth5 with
  | some v => if v ≠ .none then OD.set u .mth5 v else u
  | none => u

/-- `model_copy`: the update is written without validation. -/
def writeAll (c upd : Cell) : Cell := upd.foldl (fun d p => OD.set d p.1 p.2) c

/-- L684-L687: only names the new object has, with validation. -/
def assignAll (check : Name → Val → Val) (c upd : Cell) : Cell :=
  upd.foldl (fun d p => if p.1 ∈ OD.keys d then OD.set d p.1 (check p.1 p.2) else d) c

/-- L614-L694 `copy`: the new heap and the copy. -/
def copy (rebuild : Heap → Nat → Except Fail (Heap × Nat)) (check : Name → Val → Val) (fuel : Nat) (h : Heap) (a : Nat) (upd : Cell)
    (isDeep : Bool) : Except Fail (Heap × Nat) :=
  match h[a]? with
  | none => .error .dangling
  | some c =>
    let u := fullUpdate isDeep c upd
    if isDeep then
      match deepL (deep fuel) h c with
      | .ok (h1, c1) => .ok (h1 ++ [writeAll c1 u], h1.length)
      | .error .uncopyable =>
        match rebuild h a with
        | .error e => .error e
        | .ok (h1, b) => .ok (h1.modify b (fun d => assignAll check d u), b)
      | .error e => .error e
    else .ok (h ++ [writeAll c u], h.length)

/-- The object that a dotted name leads to. -/
def resolve (h : Heap) : Nat → List Name → Option Nat
  | a, [] => some a
  | a, k :: p =>
    match h[a]? with
    | none => none
    | some c =>
      match OD.get? c k with
      | some (.ref b) => resolve h b p
      | _ => none

/-- Assignment of a text or number through a dotted name; nothing happens if the name leads nowhere. -/
def assign (h : Heap) (a : Nat) (p : List Name) (k : Name) (n : Nat) : Heap :=
  match resolve h a p with
  | none => h
  | some b => h.modify b (fun c => OD.set c k (.plain n))

/-- list_dict.py L249-L252 `extend` without keys to skip: the items themselves. -/
def extend (h : Heap) (a b : Nat) : Heap :=
  match h[b]? with
  | none => h
  | some d => h.modify a (fun c => d.foldl (fun e p => OD.set e p.1 p.2) c)

end Verif.Copies
