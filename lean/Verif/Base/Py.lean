/-
Python basics shared by every model file: exceptions as values and the
insertion-ordered dictionary.
-/

namespace Verif

/-- The Python exception classes that the modelled code can raise. -/
inductive PyErr where
  | keyError
  | indexError
  | typeError
  | valueError
  | attributeError
  | notImplementedError
  | zeroDivisionError
  | nameError
  | overflowError
  deriving DecidableEq, Repr

instance {ε α : Type} [DecidableEq ε] [DecidableEq α] : DecidableEq (Except ε α)
  | .ok a, .ok b => if h : a = b then isTrue (by rw [h]) else isFalse (by simpa using h)
  | .error a, .error b => if h : a = b then isTrue (by rw [h]) else isFalse (by simpa using h)
  | .ok _, .error _ => isFalse (by simp)
  | .error _, .ok _ => isFalse (by simp)

/-- Python strings in models that look inside them: lists of characters. -/
abbrev Str := List Char

/-- Python's `dict` / `collections.OrderedDict`: an association list in insertion order.
The invariant "keys are distinct" is `OD.WF`, proved as a theorem, not baked in the type. -/
abbrev OD (κ ν : Type) := List (κ × ν)

namespace OD
variable {κ ν : Type} [DecidableEq κ]

/-- `list(d.keys())` -/
def keys (d : OD κ ν) : List κ := d.map Prod.fst

/-- `list(d.values())` -/
def values (d : OD κ ν) : List ν := d.map Prod.snd

/-- `d[k]`, `none` standing for `KeyError` -/
def get? : OD κ ν → κ → Option ν
  | [], _ => none
  | (k', v) :: d, k => if k' = k then some v else get? d k

/-- `d[k] = v`: replace in place if the key exists, else add at the end. -/
def set : OD κ ν → κ → ν → OD κ ν
  | [], k, v => [(k, v)]
  | (k', v') :: d, k, v => if k' = k then (k', v) :: d else (k', v') :: set d k v

/-- `del d[k]` for a present key; the identity for an absent one (callers test first). -/
def erase : OD κ ν → κ → OD κ ν
  | [], _ => []
  | (k', v') :: d, k => if k' = k then d else (k', v') :: erase d k

/-- `dict(pairs)`: assign the pairs in order (first position, last value). -/
def ofPairs (l : List (κ × ν)) : OD κ ν := l.foldl (fun d p => set d p.1 p.2) []

/-- Distinct keys. -/
def WF (d : OD κ ν) : Prop := d.keys.Nodup

end OD

/-- Insert into an already sorted list, before the first element not smaller. -/
def insertSorted {β : Type} (le : β → β → Bool) (a : β) : List β → List β
  | [] => [a]
  | b :: l => if le a b then a :: b :: l else b :: insertSorted le a l

/-- Python's `sorted`: the stable sorted permutation (here by insertion). -/
def pySorted {β : Type} (le : β → β → Bool) : List β → List β
  | [] => []
  | a :: l => insertSorted le a (pySorted le l)

end Verif
