import Verif.Base.Py

/-!
Model of the applied filters of a channel: `mt_metadata/timeseries/filtered.py` (class `AppliedFilter`) and
`mt_metadata/timeseries/channel.py` L397-L540. Comments of filters are left out. Strings are ASCII as
far as `lower` is concerned.
-/

namespace Verif.Applied

/-- filtered.py L20-L69 `AppliedFilter`. -/
structure AF where
  name : Str
  applied : Bool
  stage : Option Int
  deriving DecidableEq

/-- `value.replace("/", " per ").lower()`. -/
def norm (s : Str) : Str :=
  (s.flatMap (fun c => if c = '/' then " per ".toList else [c])).map Char.toLower

/-- filtered.py L82-L94 `validate_name`. -/
def mkName (s : Str) : Except PyErr Str :=
  if s.all Char.isWhitespace then .error .valueError else .ok (norm s)

/-- channel.py L402, L540: the sort key, a missing stage counts as 0. -/
def key (f : AF) : Int := f.stage.getD 0

/-- channel.py L530-L540 `_sort_filters`, and the sort in `validate_filters` L396-L415. -/
def sortFilters (l : List AF) : List AF := pySorted (fun a b => decide (key a ≤ key b)) l

/-- channel.py L417-L449 `add_filter(applied_filter=f)`: no sort. -/
def addObj (l : List AF) (f : AF) : List AF :=
  if l.any (fun g => g.name = f.name) then l
  else l ++ [match f.stage with
    | none => { f with stage := some (l.length + 1) }
    | some _ => f]

/-- channel.py L450-L474 `add_filter(name=…)`: the given name is compared, its normal form stored. -/
def addName (l : List AF) (name : Str) (applied : Bool) (stage : Option Int) : Except PyErr (List AF) :=
  if l.any (fun g => g.name = name) then .ok l
  else
    match mkName name with
    | .error e => .error e
    | .ok n => .ok (sortFilters (l ++ [⟨n, applied, some (stage.getD (l.length + 1))⟩]))

/-- channel.py L499-L507: the loop of `remove_filter`. -/
def removeLoop (name : Str) (reset : Bool) : List AF → List AF → List AF
  | acc, [] => acc
  | acc, f :: l =>
    if f.name = name then removeLoop name reset acc l
    else removeLoop name reset
      (acc ++ [if reset then { f with stage := some (acc.length + 1) } else f]) l

/-- channel.py L488-L508 `remove_filter`; the assignment sorts (L396-L415). -/
def remove (l : List AF) (name : Str) (reset : Bool) : List AF := sortFilters (removeLoop name reset [] l)

/-- channel.py L510-L528 `get_filter`. -/
def get (l : List AF) (name : Str) : Option AF := l.find? (fun f => f.name = name)

/-- A call. -/
inductive Op where
  | addObj (f : AF)
  | addName (name : Str) (applied : Bool) (stage : Option Int)
  | remove (name : Str) (reset : Bool)

/-- The filters after a call; a raising call leaves them as they were. -/
def step (l : List AF) : Op → List AF
  | .addObj f => addObj l f
  | .addName n a s =>
    match addName l n a s with
    | .ok l' => l'
    | .error _ => l
  | .remove n r => remove l n r

/-- The filters of a new channel after some calls. -/
def run (ops : List Op) : List AF := ops.foldl step []

end Verif.Applied
