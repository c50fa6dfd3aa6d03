import Verif.Base.Py

/-!
Model of `mt_metadata/common/list_dict.py` (class `ListDict`).

Simplifications, for the whole file:
* keys are Python strings or `None` (`Option String`): these are the only ids/components
  the package puts in; other hashable keys are not modelled;
* objects are values of an arbitrary type `α`; mutating a stored object through another
  reference is the explicit operation `Op.mutate`;
* `bool` indexes (a subclass of `int` in Python) are not modelled.
-/

namespace Verif.ListDict

/-- A dictionary key: a string or `None`. -/
abbrev Key := Option String

/-- What `hasattr(obj, "id")`, `hasattr(obj, "component")` see (list_dict.py L82-85).
`none`: the attribute does not exist; `some k`: it exists with value `k`. -/
class PyObj (α : Type) where
  idAttr : α → Option Key
  componentAttr : α → Option Key

/-- The `_home` OrderedDict (list_dict.py L26-27). -/
abbrev LD (α : Type) := OD Key α

/-- An index argument as the methods distinguish it with `isinstance`:
`str`, `int`, `None`, anything else. Slices are handled by `getSlice`. -/
inductive Idx where
  | str (s : String)
  | int (i : Int)
  | none
  | other
  deriving DecidableEq, Repr

variable {α : Type} [PyObj α]

/-- `_get_key_from_object` (list_dict.py L72-87): `id`, else `component`, else TypeError. -/
def keyOf (x : α) : Except PyErr Key :=
  match PyObj.idAttr x with
  | some k => .ok k
  | none =>
    match PyObj.componentAttr x with
    | some k => .ok k
    | none => .error .typeError

/-- `_get_key_from_index` (list_dict.py L58-63): the key at position `i`;
KeyError when no position equals `i` (negative or too large). -/
def keyAt (d : LD α) (i : Int) : Except PyErr Key :=
  if 0 ≤ i then
    match d.keys[i.toNat]? with
    | some k => .ok k
    | none => .error .keyError
  else .error .keyError

/-- `_get_index_from_key` (list_dict.py L65-70). -/
def indexOf (d : LD α) (k : Key) : Except PyErr Nat :=
  match d.keys.findIdx? (· = k) with
  | some i => .ok i
  | none => .error .keyError

/-- `self._home[k]` -/
def homeGet (d : LD α) (k : Key) : Except PyErr α :=
  match d.get? k with
  | some v => .ok v
  | none => .error .keyError

/-- `__getitem__` for non-slices (list_dict.py L143-152, 161-162). -/
def getItem (d : LD α) : Idx → Except PyErr α
  | .str s => homeGet d (some s)
  | .int i => do homeGet d (← keyAt d i)
  | .none => .error .typeError
  | .other => .error .typeError

/-- A slice bound: absent, an int, a string key, or another type. -/
inductive Bound where
  | absent
  | int (i : Int)
  | str (s : String)
  | other
  deriving DecidableEq, Repr

/-- One bound of `_get_index_slice_from_slice` (list_dict.py L127-139). -/
def boundIndex (d : LD α) : Bound → Except PyErr (Option Int)
  | .absent => .ok none
  | .int i => .ok (some i)
  | .str s => do return some ((← indexOf d (some s) : Nat) : Int)
  | .other => .error .typeError

/-- Python's clamping of one slice bound for a positive step
(`slice.indices`): negative counts from the end, then clamp to `[0, n]`. -/
def clampBound (n : Nat) (i : Int) : Nat :=
  if i < 0 then (i + n).toNat else min i.toNat n

/-- `l[a:b]` for Python lists with step 1. -/
def pySlice {β : Type} (l : List β) (a b : Option Int) : List β :=
  let lo := match a with | none => 0 | some i => clampBound l.length i
  let hi := match b with | none => l.length | some i => clampBound l.length i
  (l.take hi).drop lo

/-- `OrderedDict(pairs)`: assign the pairs in order. -/
def ofPairs (l : List (Key × α)) : LD α := l.foldl (fun d p => d.set p.1 p.2) []

/-- `ld[a:b]` (list_dict.py L114-141, L154-159). Slice steps other than the default
are not modelled. -/
def getSlice (d : LD α) (a b : Bound) : Except PyErr (LD α) := do
  let lo ← boundIndex d a
  let hi ← boundIndex d b
  return ofPairs (pySlice d lo hi)

/-- `__setitem__` for non-slices (list_dict.py L164-177): an index that is neither a
string nor an int is silently ignored (no `else` branch). `str(index)` is decimal. -/
def setItem (d : LD α) (ix : Idx) (v : α) : LD α :=
  match ix with
  | .str s => d.set (some s) v
  | .int i =>
    match keyAt d i with
    | .ok k => d.set k v
    | .error _ =>
      match keyOf v with
      | .ok k => d.set k v
      | .error _ => d.set (some (toString i)) v
  | .none => d
  | .other => d

/-- `append` (list_dict.py L196-212). -/
def append (d : LD α) (x : α) : LD α :=
  match keyOf x with
  | .ok k => d.set k x
  | .error _ => d.set (some (Nat.repr d.keys.length)) x

/-- `self._home.__delitem__(k)` -/
def homeDel (d : LD α) (k : Key) : Except PyErr (LD α) :=
  if k ∈ d.keys then .ok (d.erase k) else .error .keyError

/-- `remove` (list_dict.py L214-238). -/
def remove (d : LD α) : Idx → Except PyErr (LD α)
  | .str s => homeDel d (some s)
  | .int i => do homeDel d (← keyAt d i)
  | .none => homeDel d none
  | .other => .error .typeError

/-- The argument of `extend`/`update` as tested by `isinstance`. -/
inductive Other (α : Type) where
  /-- a `dict` or `OrderedDict` -/
  | dict (e : LD α)
  /-- a `ListDict` -/
  | listDict (e : LD α)
  | notADict

/-- `extend` (list_dict.py L240-260); a string `skip_keys` is the one-element list.
`dict` and `ListDict` behave alike here (both use `.items()`). -/
def extend (d : LD α) (other : Other α) (skip : List Key) : Except PyErr (LD α) :=
  let go (e : LD α) := e.foldl (fun d p => if p.1 ∈ skip then d else d.set p.1 p.2) d
  match other with
  | .dict e => .ok (go e)
  | .listDict e => .ok (go e)
  | .notADict => .error .typeError

/-- `OrderedDict.update(ListDict)`: a `ListDict` is not a `dict` but has `keys()`, so Python runs
`for k in other.keys(): self[k] = other[k]`; `other[None]` is a TypeError raised midway. -/
def updateLoop (d : LD α) (e : LD α) : List Key → LD α × Except PyErr Unit
  | [] => (d, .ok ())
  | k :: ks =>
    match k with
    | none => (d, .error .typeError)
    | some s =>
      match getItem e (.str s) with
      | .ok v => updateLoop (d.set (some s) v) e ks
      | .error err => (d, .error err)

/-- `update` (list_dict.py L276-287). Returns the new state and the outcome, because a
TypeError can be raised after part of the update was done. -/
def update (d : LD α) : Other α → LD α × Except PyErr Unit
  | .dict e => (e.foldl (fun d p => d.set p.1 p.2) d, .ok ())
  | .listDict e => updateLoop d e e.keys
  | .notADict => (d, .error .typeError)

/-- Order of two keys under Python's `sorted` (only strings are comparable). -/
def keyLe : Key → Key → Bool
  | some a, some b => decide (a ≤ b)
  | none, _ => true
  | some _, none => false

/-- `sorted(self._home.keys())`: raises TypeError when `None` must be compared with a
string, i.e. when `None` is one of at least two keys. -/
def sortedKeys (d : LD α) : Except PyErr (List Key) :=
  if none ∈ d.keys ∧ 2 ≤ d.length then .error .typeError
  else .ok (pySorted keyLe d.keys)

/-- The `od` built by `sort` (list_dict.py L267-269). -/
def sortedOD (d : LD α) : Except PyErr (LD α) := do
  let ks ← sortedKeys d
  ks.foldlM (fun od k => do return od.set k (← homeGet d k)) []

/-- `pop` (list_dict.py L289-302): `popitem(last=key)` — the key is passed as the flag
`last`, so a truthy key pops the last item, a falsy one (`""` or `None`) the first. -/
def pop (d : LD α) (k : Key) : Except PyErr (LD α × (Key × α)) :=
  if k ∈ d.keys then
    let last : Bool := match k with | none => false | some s => s ≠ ""
    if last then
      match d.getLast? with
      | some p => .ok (d.dropLast, p)
      | none => .error .keyError
    else
      match d with
      | p :: d' => .ok (d', p)
      | [] => .error .keyError
  else .error .keyError

/-- `update_keys` (list_dict.py L304-332): returns the new collection and the old→new map. -/
def updateKeys (d : LD α) : LD α × OD Key Key :=
  d.foldl (fun (acc : LD α × OD Key Key) p =>
    let newKey := match keyOf p.2 with | .ok k => k | .error _ => p.1
    (acc.1.set newKey p.2, if p.1 ≠ newKey then acc.2.set p.1 newKey else acc.2))
    ([], [])

/-- An index built from a key as `__deepcopy__` passes it to `__setitem__`. -/
def Idx.ofKey : Key → Idx
  | Option.some s => .str s
  | Option.none => .none

/-- `copy` / `__deepcopy__` (list_dict.py L89-112): `copied[key] = value` for each item.
`value.copy()` is taken to return an equal value. -/
def copy (d : LD α) : LD α := d.foldl (fun c p => setItem c (Idx.ofKey p.1) p.2) []

/-- The public mutating calls. -/
inductive Op (α : Type) where
  | setItem (ix : Idx) (v : α)
  | append (x : α)
  | remove (ix : Idx)
  | extend (other : Other α) (skip : List Key)
  | update (other : Other α)
  | updateKeys
  | sort
  | pop (k : Key)
  | clear
  /-- the object stored under `k` is changed through another reference -/
  | mutate (k : Key) (v : α)

/-- One call. A call that raises leaves the state as the code leaves it. -/
def step (d : LD α) : Op α → LD α
  | .setItem ix v => setItem d ix v
  | .append x => append d x
  | .remove ix => match remove d ix with | .ok d' => d' | .error _ => d
  | .extend o s => match extend d o s with | .ok d' => d' | .error _ => d
  | .update o => (update d o).1
  | .updateKeys => (updateKeys d).1
  | .sort => match sortedOD d with | .ok d' => d' | .error _ => d
  | .pop k => match pop d k with | .ok r => r.1 | .error _ => d
  | .clear => []
  | .mutate k v => if k ∈ d.keys then d.set k v else d

/-- The state after a history of calls on `ListDict()`. -/
def run (h : List (Op α)) : LD α := h.foldl step []

end Verif.ListDict
