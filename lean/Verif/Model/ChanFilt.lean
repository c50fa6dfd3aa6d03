import Verif.Base.Text
import Verif.Model.Applied

/-! Filters of channels in dictionaries: `Channel.from_dict` with its three formats
(/repo/mt_metadata/timeseries/channel.py L321–L415, L417–L474, L591–L806) and the dictionaries of filters
(timeseries/filtered.py, base/metadata.py L956–L1216).

Only the filters of a channel are modelled, the other keys of the dictionary do not touch them.  Comments of filters are
left out, as in Model/Applied.  `json.loads`, `ast.literal_eval` and `eval` together are one function of the world.
What an error leaves behind is not modelled. -/

namespace Verif.ChanFilt
open Verif.Text

/-- An `AppliedFilter` (filtered.py L20–L69); its name is `None` as long as it was given none. -/
structure F where
  name : Option Str
  applied : Bool
  stage : Option Int
  deriving DecidableEq, Repr

/-- `AppliedFilter()` (filtered.py L21–L54: the defaults). -/
def empty : F := ⟨none, true, none⟩

/-- The dictionary of a filter: `none` is a key that is missing, `some none` is `None`. -/
structure D where
  name : Option (Option Str)
  applied : Option Bool
  stage : Option (Option Int)
  deriving DecidableEq, Repr

/-- An entry of the list `filters` of a dictionary. -/
inductive Item
  /-- `{"applied_filter": {...}}`, as `to_dict` writes it -/
  | wrapped (d : D)
  /-- `{"name": ..., ...}` -/
  | plain (d : D)
  | obj (f : F)
  /-- anything else: a text, a number -/
  | other
  deriving DecidableEq, Repr

/-- base/metadata.py L956–L1160 `to_dict(required=...)` of a filter: `name` and `applied` are required, `stage` is
left out if it is `None`. -/
def toD (required : Bool) (f : F) : D :=
  ⟨some f.name, some f.applied, if required then f.stage.map some else some f.stage⟩

/-- base/metadata.py L1099–L1108 with L1148–L1157: the list `filters` in the dictionary of a channel. -/
def toItems (required : Bool) (l : List F) : List Item := l.map fun f => .wrapped (toD required f)

/-- filtered.py L82–L94: a name is normalised, a blank one and `None` are errors of validation. -/
def giveName : Option Str → Except PyErr (Option Str)
  | none => .error .valueError
  | some s => match Applied.mkName s with
    | .ok n => .ok (some n)
    | .error e => .error e

/-- base/metadata.py L1188–L1216 `from_dict` of a new filter, and `AppliedFilter(**d)`: keys that are missing keep the
default. -/
def ofD (d : D) : Except PyErr F :=
  match d.name with
  | none => .ok ⟨none, d.applied.getD true, d.stage.getD none⟩
  | some n => match giveName n with
    | .error e => .error e
    | .ok n => .ok ⟨n, d.applied.getD true, d.stage.getD none⟩

/-- channel.py L438–L449 `add_filter(applied_filter=f)`: skipped if the name is there, no sort. -/
def addObj (l : List F) (f : F) : List F :=
  if l.any (fun g => g.name = f.name) then l
  else l ++ [match f.stage with
    | none => { f with stage := some (l.length + 1) }
    | some _ => f]

/-- channel.py L794–L806: one entry of `filters`. -/
def addItem (l : List F) : Item → Except PyErr (List F)
  | .wrapped d => match ofD d with
    | .ok f => .ok (addObj l f)
    | .error e => .error e
  | .plain d => match ofD d with
    | .ok f => .ok (addObj l f)
    | .error e => .error e
  | .obj f => .ok (addObj l f)
  | .other => .ok l

/-- channel.py L793: the loop over `filters`. -/
def addItems : List F → List Item → Except PyErr (List F)
  | l, [] => .ok l
  | l, i :: is => match addItem l i with
    | .ok m => addItems m is
    | .error e => .error e

/-- channel.py L402, L540: the sort by stage, a missing stage counts as 0. -/
def sortF (l : List F) : List F := pySorted (fun a b => decide (a.stage.getD 0 ≤ b.stage.getD 0)) l

/-! ### The old formats -/

/-- A value of `applied` in a list: a boolean or a text. -/
inductive Flag
  | bool (b : Bool)
  | text (s : Str)
  deriving DecidableEq, Repr

/-- The value of `filtered.applied`. -/
inductive Applied
  | list (l : List Flag)
  | text (s : Str)
  deriving DecidableEq, Repr

/-- The value of `filtered.name`. -/
inductive Names
  | list (l : List Str)
  | text (s : Str)
  deriving DecidableEq, Repr

/-- channel.py L842–L861 `_applied_values_map(treat_null_values_as=False)`, the texts. -/
def valuesMap : List (Str × Bool) :=
  [("none".toList, false), ("None".toList, false), ("NONE".toList, false), ("null".toList, false),
   ("1".toList, true), ("True".toList, true), ("true".toList, true),
   ("0".toList, false), ("False".toList, false), ("false".toList, false)]

/-- Look up in a dictionary. -/
def lookup (m : List (Str × Bool)) (s : Str) : Option Bool := (m.find? (fun p => p.1 = s)).map (·.2)

/-- channel.py L613–L618: the text of a list. -/
def flagTexts (s : Str) : List Flag :=
  let s := if s.contains '[' then replaceC ']' [] (replaceC '[' [] s) else s
  if s.contains ',' then (splitC ',' s).map fun t => .text (lower (strip t))
  else (words s).map fun t => .text (lower t)

/-- channel.py L591–L626 `_validate_filtered_applied`. -/
def validateApplied : Applied → List Flag
  | .list l => l
  | .text s => match lookup valuesMap s with
    | some b => [.bool b]
    | none => flagTexts s

/-- channel.py L628–L644 `_validate_filtered_name`. -/
def validateNames : Names → List Str
  | .text s => (splitC ',' s).map fun t => lower (strip t)
  | .list l => l.map fun t => lower (strip t)

/-- What pydantic takes for a boolean, after lowering the case. -/
def boolTexts : List (Str × Bool) :=
  [("true".toList, true), ("1".toList, true), ("yes".toList, true), ("on".toList, true), ("t".toList, true),
   ("y".toList, true), ("false".toList, false), ("0".toList, false), ("no".toList, false), ("off".toList, false),
   ("f".toList, false), ("n".toList, false)]

/-- pydantic: a field of type `bool` (filtered.py L33). -/
def toBool : Flag → Except PyErr Bool
  | .bool b => .ok b
  | .text s => match lookup boolTexts (lower s) with
    | some b => .ok b
    | none => .error .valueError

/-- channel.py L450–L474 `add_filter(name=..., applied=...)`: the given name is compared with those stored. -/
def addName (l : List F) (name : Str) (flag : Flag) : Except PyErr (List F) :=
  if l.any (fun g => g.name = some name) then .ok l
  else match Applied.mkName name, toBool flag with
    | .ok n, .ok b => .ok (sortF (l ++ [⟨some n, b, some (l.length + 1)⟩]))
    | .error e, _ => .error e
    | _, .error e => .error e

/-- channel.py L765–L766: the loop over names and values. -/
def addNames : List F → List (Str × Flag) → Except PyErr (List F)
  | l, [] => .ok l
  | l, (n, b) :: ps => match addName l n b with
    | .ok m => addNames m ps
    | .error e => .error e

/-- channel.py L748–L771: one of the two old formats; nothing if a key is missing or a list is empty, `MTSchemaError`
for different lengths (here `typeError`). -/
def addLegacy (l : List F) : Option Applied → Option Names → Except PyErr (List F)
  | some a, some n =>
    let fa := validateApplied a
    let fn := validateNames n
    if fa = [] ∨ fn = [] then .ok l
    else if fa.length ≠ fn.length then .error .typeError
    else addNames l (fn.zip fa)
  | _, _ => .ok l

/-! ### Assignment and the whole of `from_dict` -/

/-- Parsing of texts. -/
structure World where
  /-- channel.py L334–L364: the entries of the text of a list, `none` if no way of reading succeeds -/
  parse : Str → Option (List Item)

/-- channel.py L366–L378: entries from a text; both kinds of dictionaries are understood, others are left out. -/
def ofText : List Item → Except PyErr (List F)
  | [] => .ok []
  | .wrapped d :: is => match ofD d, ofText is with
    | .ok f, .ok l => .ok (f :: l)
    | .error e, _ => .error e
    | _, .error e => .error e
  | .plain d :: is => match ofD d, ofText is with
    | .ok f, .ok l => .ok (f :: l)
    | .error e, _ => .error e
    | _, .error e => .error e
  | .obj _ :: is => ofText is
  | .other :: is => ofText is

/-- channel.py L384–L394: entries of a list.  A dictionary is taken as it is, so that `applied_filter` is an attribute
nobody knows of (base/metadata.py L217 allows it) and the filter has the defaults. -/
def ofList : List Item → Except PyErr (List F)
  | [] => .ok []
  | .wrapped _ :: is => match ofList is with
    | .ok l => .ok (empty :: l)
    | .error e => .error e
  | .plain d :: is => match ofD d, ofList is with
    | .ok f, .ok l => .ok (f :: l)
    | .error e, _ => .error e
    | _, .error e => .error e
  | .obj f :: is => match ofList is with
    | .ok l => .ok (f :: l)
    | .error e => .error e
  | .other :: is => ofList is

/-- channel.py L321–L415: `channel.filters = [...]`, and the keyword `filters` of a new channel. -/
def assignList (is : List Item) : Except PyErr (List F) :=
  match ofList is with
  | .ok l => .ok (sortF l)
  | .error e => .error e

/-- channel.py L326–L382, L396–L415: `channel.filters = "..."`; a text that is not a list gives no filters, a blank one
is an error of validation. -/
def assignText (W : World) (s : Str) : Except PyErr (List F) :=
  let t := strip s
  if t.head? = some '[' ∧ t.getLast? = some ']' then
    match W.parse s with
    | none => .ok []
    | some is => match ofText is with
      | .ok l => .ok (sortF l)
      | .error e => .error e
  else if t = [] then .error .valueError
  else .ok []

/-- The value of `filters` in a dictionary. -/
inductive Value
  | list (l : List Item)
  | text (s : Str)

/-- The keys of a (flattened) dictionary of a channel that matter here. -/
structure ChannelDict where
  filterApplied : Option Applied := none
  filterName : Option Names := none
  filteredApplied : Option Applied := none
  filteredName : Option Names := none
  filters : Option Value := none

/-- channel.py L685–L806 `from_dict`: the two old formats, then `filters`.  A text replaces the filters, a list is
added to them. -/
def fromDict (W : World) (l : List F) (d : ChannelDict) : Except PyErr (List F) :=
  (addLegacy l d.filterApplied d.filterName).bind fun l =>
  (addLegacy l d.filteredApplied d.filteredName).bind fun l =>
  match d.filters with
  | none => .ok l
  | some (.list is) => addItems l is
  | some (.text s) => assignText W s

/-- `channel.to_dict()`: `filters` is a required key (channel.py L211–L225). -/
def toDict (l : List F) : ChannelDict := { filters := some (.list (toItems true l)) }

end Verif.ChanFilt
