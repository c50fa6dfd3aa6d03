import Verif.Base.Py
import Verif.Base.Text

/-!
Model of attributes by dotted names: `mt_metadata/base/metadata.py` (`update_attribute`,
`get_attr_from_name`, `set_attr_from_name`) and `mt_metadata/base/helpers.py` (`recursive_split_getattr`,
`recursive_split_setattr`).

Simplifications: an object is a tree of attributes, a value that is not an object has none (methods and
properties are left out); classes allow extra attributes (metadata.py L206 `extra="allow"`). What an
assignment stores (pydantic's validation) is a function of the world of the path of the attribute and
the value; that it may change other attributes is left out. Lists of dictionaries given to
`recursive_split_setattr` are values like others.
-/

namespace Verif.AttrNames
open Verif.Text

/-- An object with its attributes, or any other value. -/
inductive Obj (β : Type)
  | leaf (v : β)
  | node (attrs : List (Str × Obj β))

/-- What assigning a value to the attribute at a path stores. -/
abbrev Store (β : Type) := List Str → Obj β → Except PyErr (Obj β)

variable {β : Type}

/-- `getattr(o, key)` -/
def getAttr (o : Obj β) (k : Str) : Except PyErr (Obj β) :=
  match o with
  | .leaf _ => .error .attributeError
  | .node kids =>
    match OD.get? kids k with
    | none => .error .attributeError
    | some v => .ok v

/-- The object with another value of an attribute. -/
def put (o : Obj β) (k : Str) (v : Obj β) : Obj β :=
  match o with
  | .leaf b => .leaf b
  | .node kids => .node (OD.set kids k v)

/-- `setattr(o, key, value)`; `path` is the path of the attribute from the object at the top. -/
def setAttr (store : Store β) (path : List Str) (o : Obj β) (k : Str) (v : Obj β) : Except PyErr (Obj β) :=
  match o with
  | .leaf _ => .error .attributeError
  | .node kids => (store path v).bind fun x => .ok (.node (OD.set kids k x))

/-- helpers.py L653-L659: the last key; an attribute that is not there is `None`. -/
def getLast (o : Obj β) (k : Str) : Option (Obj β) :=
  match getAttr o k with
  | .ok v => some v
  | .error _ => none

/-- The rest of a name after a separator is shorter. -/
theorem split1_lt (c : Char) (s : Str) : ∀ r, (split1 c s).2 = some r → r.length < s.length := by
  induction s with
  | nil => intro r h; cases h
  | cons x s ih =>
    intro r h
    by_cases hx : x = c
    · simp only [split1, if_pos hx, Option.some.injEq] at h
      rw [← h]; simp
    · simp only [split1, if_neg hx] at h
      have := ih r h
      simp only [List.length_cons]; omega

/-- helpers.py L645-L665 `recursive_split_getattr`: the recursion does not pass the separator on
(L650). -/
def splitGet (sep : Char) (o : Obj β) (name : Str) : Except PyErr (Option (Obj β)) :=
  match h : (split1 sep name).2 with
  | some rest => (getAttr o (split1 sep name).1).bind fun sub =>
      have := split1_lt sep name rest h
      splitGet '.' sub rest
  | none => .ok (getLast o (split1 sep name).1)
  termination_by name.length

/-- helpers.py L668-L711 `recursive_split_setattr`: neither here (L691). -/
def splitSet (store : Store β) (sep : Char) (pre : List Str) (o : Obj β) (name : Str) (v : Obj β) :
    Except PyErr (Obj β) :=
  match h : (split1 sep name).2 with
  | some rest => (getAttr o (split1 sep name).1).bind fun sub =>
      have := split1_lt sep name rest h
      (splitSet store '.' (pre ++ [(split1 sep name).1]) sub rest v).bind fun sub' =>
        .ok (put o (split1 sep name).1 sub')
  | none => setAttr store (pre ++ [(split1 sep name).1]) o (split1 sep name).1 v
  termination_by name.length

/-- metadata.py L823-L859 `get_attr_from_name` -/
def getName (o : Obj β) (name : Str) : Except PyErr (Option (Obj β)) := splitGet '.' o name

/-- metadata.py L864-L886 `set_attr_from_name`: there is nothing but a description. -/
def setName (o : Obj β) (_name : Str) (_v : Obj β) : Except PyErr (Obj β) := .ok o

/-- metadata.py L175-L188: to the object that holds the last attribute, which is assigned twice. -/
def descend (store : Store β) (path : List Str) (v : Obj β) : List Str → Obj β → Except PyErr (Obj β)
  | [], o => .ok o
  | [k], o => (setAttr store path o k v).bind fun o' => setAttr store path o' k v
  | k :: k' :: ks, o => (getAttr o k).bind fun sub =>
      (descend store path v (k' :: ks) sub).bind fun sub' => .ok (put o k sub')

/-- metadata.py L146-L188 `update_attribute` -/
def updateAttr (store : Store β) (o : Obj β) (name : Str) (v : Obj β) : Except PyErr (Obj β) :=
  if '.' ∈ name then descend store (splitC '.' name) v (splitC '.' name) o
  else setAttr store [name] o name v

end Verif.AttrNames
