import Verif.Base.Py

/-! # Summaries of fields that several objects share

`mt_metadata/base/metadata.py` L224 `_fields`, L696-L713 `get_all_fields`, L715-L725 `get_attribute_list`, L727-L752 `_required_fields`;
`mt_metadata/base/pydantic_helpers.py` L114-L118 (the tree of a class is made once), L175-L189 (the flat dictionary is new, the summaries
in it are those of the tree).

Simplifications: a summary is an object in memory with its entry `required`; which summaries a class has, and which of them other classes
have as well (those of the classes of its fields, if the tree was computed and not read from a file), is given. The caches are not cleared. -/

namespace Verif.FieldShare

/-- The summaries in memory (whether required), and the dictionary each object has (L224, empty at first). -/
structure Mem where
  heap : Nat → Bool
  fields : Nat → List (Str × Nat)

/-- The program: the class of each object, the flat dictionary of each class. -/
structure Lib where
  cls : Nat → Nat
  tree : Nat → List (Str × Nat)

/-- L709-L713 `get_all_fields`: an empty dictionary is made anew. -/
def fieldsOf (L : Lib) (m : Mem) (o : Nat) : List (Str × Nat) :=
  if m.fields o = [] then L.tree (L.cls o) else m.fields o

/-- … and kept with the object. -/
def ask (L : Lib) (m : Mem) (o : Nat) : Mem :=
  { m with fields := fun x => if x = o then fieldsOf L m o else m.fields x }

/-- Look up a name. -/
def look (l : List (Str × Nat)) (n : Str) : Option Nat := (l.find? (fun p => p.1 == n)).map (·.2)

/-- What a user does with what `get_all_fields` of object `o` gives. -/
inductive Op where
  /-- nothing, as `get_attribute_list` -/
  | ask (o : Nat)
  /-- `o.get_all_fields()[n]["required"] = b` -/
  | mark (o : Nat) (n : Str) (b : Bool)
  /-- `del o.get_all_fields()[n]` -/
  | drop (o : Nat) (n : Str)

/-- The object an operation is on. -/
def Op.obj : Op → Nat
  | .ask o => o
  | .mark o _ _ => o
  | .drop o _ => o

/-- One operation; a name that is not there is a KeyError, which the caller catches. -/
def step (L : Lib) (m : Mem) : Op → Mem
  | .ask o => ask L m o
  | .mark o n b =>
    match look (fieldsOf L m o) n with
    | none => ask L m o
    | some i => { ask L m o with heap := fun j => if j = i then b else m.heap j }
  | .drop o n =>
    { m with fields := fun x => if x = o then (fieldsOf L m o).filter (fun p => p.1 != n) else m.fields x }

/-- Several, one after another. -/
def steps (L : Lib) (m : Mem) (l : List Op) : Mem := l.foldl (step L) m

/-- L727-L752 `_required_fields` -/
def required (L : Lib) (m : Mem) (o : Nat) : List Str := ((fieldsOf L m o).filter (fun p => m.heap p.2)).map (·.1)

/-- The names of `get_all_fields`, in order (`get_attribute_list` L725 sorts them). -/
def names (L : Lib) (m : Mem) (o : Nat) : List Str := (fieldsOf L m o).map (·.1)

end Verif.FieldShare
