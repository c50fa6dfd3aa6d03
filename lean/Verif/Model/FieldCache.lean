import Verif.Base.Text

/-! # Descriptions of attributes, kept in memory and on disk

`mt_metadata/base/pydantic_helpers.py`: L90-L143 `get_all_fields_serializable`, L192-L200 `clear_field_caches`, L207-L252
`_compute_fields_tree`, L330-L382 `_to_serializable_field`, L704-L752 `_model_fingerprint`, L755-L772 `_disk_cache_path`, L775-L800
`_load_fields_from_disk`, L803-L828 `_save_fields_to_disk`. The files on disk stay when the process ends, also when another version of
the package is installed.

Simplifications: of the summary of a field there is what the fingerprint has (name, deprecated, annotation, default,
json_schema_extra) and the rest as one text (description, options of enumerations, limits, validators). The annotation is either the
class of the field, whose repr is its qualified name, or a text (also for MTime, L71, L244). The hash of the fingerprint is taken to be
one-to-one, files that can be written can be read, and a class is known by its qualified name. -/

namespace Verif.FieldCache

/-- `__module__` and `__qualname__` of a class. -/
abbrev Cls := Str

/-- The annotation of a field: a class that is expanded, or anything else. -/
inductive Ann where
  | simple (repr : Str)
  | model (c : Cls)
  deriving DecidableEq

/-- L740-L749: what the fingerprint has of a field. -/
structure Part where
  name : Str
  deprecated : Option Str
  ann : Ann
  default : Str
  extra : Str
  deriving DecidableEq

/-- A field of a class: the parts of the fingerprint, and what else its summary has. -/
structure Field where
  part : Part
  rest : Str
  deriving DecidableEq

/-- One version of the package (and of pydantic): the fields of every class. -/
structure Lib where
  pyd : Str
  fields : Cls → List Field

/-- A tree of descriptions: summaries of fields, and trees of the classes of fields. -/
inductive Tree where
  | leaf (f : Field)
  | node (fs : List (Str × Tree))

/-- The first entry of a name. -/
def lookup {α : Type} (l : List (Str × α)) (n : Str) : Option α := (l.find? (fun p => p.1 == n)).map (·.2)

/-- The name of a file: class, version of pydantic and fingerprint. -/
structure Key where
  cls : Cls
  pyd : Str
  parts : List Part

/-- L704-L752, L755-L772: the key of a class. -/
def keyOf (lib : Lib) (c : Cls) : Key := ⟨c, lib.pyd, (lib.fields c).map Field.part⟩

/-- The fingerprint is of the sorted parts (L751), so their order does not count. -/
def sameKey (a b : Key) : Bool := a.cls == b.cls && a.pyd == b.pyd && a.parts.isPerm b.parts

/-- What is in memory (the last entry of a class first) and on disk (the last file written first). -/
structure State where
  mem : List (Cls × Tree) := []
  disk : List (Key × Tree) := []

/-- L775-L800 `_load_fields_from_disk`. -/
def load (disk : List (Key × Tree)) (k : Key) : Option Tree := (disk.find? (fun p => sameKey p.1 k)).map (·.2)

/-- L229-L250: the entries of the tree of a class; `get` gives the trees of other classes. -/
def entries (get : State → Cls → State × Tree) : State → List Field → State × List (Str × Tree)
  | s, [] => (s, [])
  | s, f :: fs =>
    if f.part.deprecated.isSome then entries get s fs
    else
      match f.part.ann with
      | .model d => ((entries get (get s d).1 fs).1, (f.part.name, (get s d).2) :: (entries get (get s d).1 fs).2)
      | .simple _ => ((entries get s fs).1, (f.part.name, .leaf f) :: (entries get s fs).2)

/-- L90-L143 `get_all_fields_serializable`: from memory, from disk, or computed; `{}` is in memory meanwhile. The first argument bounds
the depth of the calls, `disk` says if files are used (L76-L80). -/
def get (disk : Bool) (lib : Lib) : Nat → State → Cls → State × Tree
  | 0, s, _ => (s, .node [])
  | n + 1, s, c =>
    match lookup s.mem c with
    | some t => (s, t)
    | none =>
      match if disk then load s.disk (keyOf lib c) else none with
      | some t => ({ s with mem := (c, t) :: s.mem }, t)
      | none =>
        let r := entries (get disk lib n) { s with mem := (c, .node []) :: s.mem } (lib.fields c)
        ({ mem := (c, .node r.2) :: r.1.mem, disk := if disk then (keyOf lib c, .node r.2) :: r.1.disk else r.1.disk }, .node r.2)

/-- What happens to a computer: a description is asked for, the memory is cleared (L192-L200), the process ends and another one with
its version of the package begins, a file is lost. -/
inductive Step where
  | ask (c : Cls)
  | clear
  | start (lib : Lib) (disk : Bool)
  | lose (i : Nat)

/-- A computer with a running process. -/
structure World where
  lib : Lib
  disk : Bool
  state : State := {}

/-- One step; `n` bounds the depth of calls. -/
def step (n : Nat) (w : World) : Step → World
  | .ask c => { w with state := (get w.disk w.lib n w.state c).1 }
  | .clear => { w with state := { w.state with mem := [] } }
  | .start lib disk => ⟨lib, disk, { w.state with mem := [] }⟩
  | .lose i => { w with state := { w.state with disk := w.state.disk.eraseIdx i } }

/-- All steps. -/
def run (n : Nat) (w : World) (l : List Step) : World := l.foldl (step n) w

/-- The description of a class that is asked for now. -/
def answer (n : Nat) (w : World) (c : Cls) : Tree := (get w.disk w.lib n w.state c).2

/-- L179: the dotted name below a prefix. -/
def path (pre n : Str) : Str := if pre = [] then n else pre ++ '.' :: n

mutual
/-- L146-L189 `flatten_field_tree_map`: what is written below a dotted name, in order. -/
def flatten (pre : Str) : Tree → List (Str × Field)
  | .leaf f => [(pre, f)]
  | .node fs => flattenAll pre fs
/-- L178-L187: the entries of a node. -/
def flattenAll (pre : Str) : List (Str × Tree) → List (Str × Field)
  | [] => []
  | e :: r => flattenOne pre e ++ flattenAll pre r
/-- L179-L187: one entry. -/
def flattenOne (pre : Str) : Str × Tree → List (Str × Field)
  | (n, t) => flatten (path pre n) t
end

/-- The dictionary `out`: the last one written stays. -/
def flatGet (t : Tree) (k : Str) : Option Field := lookup (flatten [] t).reverse k

end Verif.FieldCache
