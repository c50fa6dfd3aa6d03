import Verif.Model.Metadata

/-!
Model of `mt_metadata/timeseries/run.py` (channel bookkeeping, time period, channel type).

Simplifications: instants are integers with 0 standing for the default stamp
1980-01-01T00:00:00+00:00 (all stamps in UTC, where MTime's comparisons are the order of instants, see
C16); objects are values, so sharing of channel objects between runs is not visible here; component names are already validated (lower case, not None); a channel's
remaining metadata is a flat field map, updated as in Model/Metadata.
-/

namespace Verif.Runs
open Verif.Metadata (Obj)

/-- The three channel classes. -/
inductive Kind where
  | electric
  | magnetic
  | auxiliary
  deriving DecidableEq, Repr

/-- A channel object (timeseries/channel.py, electric.py, magnetic.py, auxiliary.py). -/
structure Chan where
  comp : String
  kind : Kind
  start : Int := 0
  stop : Int := 0
  info : Obj := []
  deriving DecidableEq

/-- A run: its channels (ListDict), the three name lists, its time period. -/
structure Run where
  channels : OD String Chan := []
  elec : List String := []
  mag : List String := []
  aux : List String := []
  start : Int := 0
  stop : Int := 0
  deriving DecidableEq

/-- Order of Python strings. -/
def strLe (a b : String) : Bool := decide (a ≤ b)

/-- `sorted(names)` -/
def sortNames (l : List String) : List String := pySorted strLe l

/-- The component that `_update_channels_recorded` leaves out, per class (run.py L400-L415). -/
def reserved : Kind → String
  | .electric => "e_default"
  | .magnetic => "h_default"
  | .auxiliary => "auxiliary_default"

/-- run.py L79-L86 `channels_recorded_all`. -/
def recordedAll (r : Run) : List String := sortNames (r.channels.map (fun p => p.2.comp))

/-- run.py L576-L608 `has_channel`. -/
def hasChannel (r : Run) (c : String) : Bool := (recordedAll r).contains c

/-- run.py L400-L418: the names of the stored channels of one class. -/
def namesOf (k : Kind) (r : Run) : List String :=
  sortNames (((OD.values r.channels).filter
    (fun ch => decide (ch.kind = k) && decide (ch.comp ≠ reserved k))).map Chan.comp)

/-- run.py L368-L418 `_update_channels_recorded`. Each of the three assignments runs the
validator L300-L316 again; a name that is not a key leads to `add_channel`, whose `has_channel` is true
(components) while `self.channels[component]` (keys) raises KeyError. If all names are keys
the validator does nothing. -/
def updateRecorded (r : Run) : Except PyErr Run :=
  if ∀ k ∈ [Kind.auxiliary, .electric, .magnetic], ∀ n ∈ namesOf k r, n ∈ OD.keys r.channels then
    .ok { r with aux := namesOf .auxiliary r, elec := namesOf .electric r,
                 mag := namesOf .magnetic r }
  else .error .keyError

/-- `min(list)` of a non-empty list. -/
def minList : Int → List Int → Int
  | m, [] => m
  | m, x :: xs => minList (if x < m then x else m) xs

/-- `max(list)` of a non-empty list. -/
def maxList : Int → List Int → Int
  | m, [] => m
  | m, x :: xs => maxList (if m < x then x else m) xs

/-- run.py L963-L968: the new start, given the non-default channel starts. -/
def newStart (own : Int) : List Int → Int
  | [] => own
  | x :: xs => if own = 0 then minList x xs else if minList x xs < own then minList x xs else own

/-- run.py L970-L975: the new end, given the non-default channel ends. -/
def newStop (own : Int) : List Int → Int
  | [] => own
  | x :: xs => if own = 0 then maxList x xs else if own < maxList x xs then maxList x xs else own

/-- run.py L909-L975 `update_time_period`. -/
def updateTime (r : Run) : Run :=
  { r with
    start := newStart r.start (((OD.values r.channels).map Chan.start).filter (· ≠ 0))
    stop := newStop r.stop (((OD.values r.channels).map Chan.stop).filter (· ≠ 0)) }

/-- metadata.py L574-L610 `update` of a channel by a channel: only for the same class (otherwise a
warning); default times and null values are skipped. -/
def Chan.update (req : List String) (a b : Chan) : Chan :=
  if a.kind = b.kind then
    { a with
      start := if b.start = 0 then a.start else b.start
      stop := if b.stop = 0 then a.stop else b.stop
      info := (Metadata.toDict req true b.info).foldl Metadata.updateOne a.info }
  else a

/-- run.py L773-L784: the body of `add_channel` before the time period. -/
def putChannel (req : List String) (r : Run) (ch : Chan) : Except PyErr Run :=
  if hasChannel r ch.comp then
    match OD.get? r.channels ch.comp with
    | some old => .ok { r with channels := OD.set r.channels ch.comp (old.update req ch) }
    | none => .error .keyError
  else .ok { r with channels := OD.set r.channels ch.comp ch }

/-- run.py L687-L787 `add_channel` of a channel object. -/
def addChannel (req : List String) (r : Run) (ch : Chan) (upd : Bool) : Except PyErr Run :=
  match putChannel req r ch with
  | .error e => .error e
  | .ok r1 =>
    match updateRecorded r1 with
    | .error e => .error e
    | .ok r2 => .ok (if upd then updateTime r2 else r2)

/-- run.py L649-L685 `get_channel`. -/
def getChannel (r : Run) (c : String) : Except PyErr (Option Chan) :=
  if hasChannel r c then
    match OD.get? r.channels c with
    | some ch => .ok (some ch)
    | none => .error .keyError
  else .ok none

/-- run.py L789-L828 `remove_channel`; an unknown name only logs. -/
def removeChannel (r : Run) (c : String) : Except PyErr Run :=
  if hasChannel r c then
    if c ∈ OD.keys r.channels then updateRecorded { r with channels := OD.erase r.channels c }
    else .error .keyError
  else .ok r

/-- run.py L423-L481 `merge`: the new state of `self` and what is returned. -/
def merge (r o : Run) (inplace : Bool) : Except PyErr (Run × Option Run) :=
  match updateRecorded { r with
      channels := o.channels.foldl (fun (acc : OD String Chan) p => OD.set acc p.1 p.2) r.channels } with
  | .error e => .error e
  | .ok r1 => if inplace then .ok (updateTime r1, none) else .ok (r1, some r1)

/-- run.py L307-L315: one step of the validator, a listed name without a channel gets one. -/
def ensure (req : List String) (k : Kind) (r : Run) (n : String) : Except PyErr Run :=
  if n ∈ OD.keys r.channels then .ok r else addChannel req r { comp := n, kind := k } true

/-- Run the validator step over a list of names. -/
def ensureAll (req : List String) (k : Kind) : List String → Run → Except PyErr Run
  | [], r => .ok r
  | n :: ns, r =>
    match ensure req k r n with
    | .error e => .error e
    | .ok r1 => ensureAll req k ns r1

/-- run.py L300-L316 `validate_channels_recorded` (each list is read when its loop starts). -/
def validate (req : List String) (r : Run) : Except PyErr Run :=
  match ensureAll req .electric r.elec r with
  | .error e => .error e
  | .ok r1 =>
    match ensureAll req .magnetic r1.mag r1 with
    | .error e => .error e
    | .ok r2 => ensureAll req .auxiliary r2.aux r2

/-- `run.channels_recorded_<kind> = names`. -/
def assignList (req : List String) (k : Kind) (names : List String) (r : Run) : Except PyErr Run :=
  validate req (match k with
    | .electric => { r with elec := names }
    | .magnetic => { r with mag := names }
    | .auxiliary => { r with aux := names })

/-- run.py L559-L566: in `update`, a list is assigned only if it is not empty. -/
def updateList (req : List String) (k : Kind) (names : List String) (r : Run) : Except PyErr Run :=
  if names = [] then .ok r else assignList req k names r

/-- `for ch in other.channels: self.add_channel(ch)` -/
def addAll (req : List String) : List Chan → Run → Except PyErr Run
  | [], r => .ok r
  | ch :: chs, r =>
    match addChannel req r ch true with
    | .error e => .error e
    | .ok r1 => addAll req chs r1

/-- run.py L483-L574 `update(other)` without `match`: the lists are assigned in key order, the
time period likewise when not default; then the channels are added. -/
def update (req : List String) (r o : Run) : Except PyErr Run :=
  match updateList req .auxiliary o.aux r with
  | .error e => .error e
  | .ok r1 =>
    match updateList req .electric o.elec r1 with
    | .error e => .error e
    | .ok r2 =>
      match updateList req .magnetic o.mag r2 with
      | .error e => .error e
      | .ok r3 =>
        addAll req (OD.values o.channels)
          { r3 with
            stop := if o.stop = 0 then r3.stop else o.stop
            start := if o.start = 0 then r3.start else o.start }

/-! ### Channel class from a description -/

/-- run.py L1056-L1066: the class for a component string. -/
def kindOfName (name : Str) : Kind :=
  let n := name.map Char.toLower
  if ['e'].isPrefixOf n then .electric
  else if ['h'].isPrefixOf n ∨ ['b'].isPrefixOf n ∨ n = "magnetic".toList then .magnetic
  else .auxiliary

/-- run.py L1074-L1083: the class for a type string; "b" is tested twice, "h" never. -/
def kindOfType (t : Str) : Kind :=
  let n := t.map Char.toLower
  if ['e'].isPrefixOf n then .electric
  else if ['b'].isPrefixOf n ∨ ['b'].isPrefixOf n ∨ n = "magnetic".toList then .magnetic
  else .auxiliary

/-- run.py L1068-L1088: the class for a dict with optional entries `type` (which may be None) and
`component`. -/
def kindOfDict (type : Option (Option Str)) (component : Option Str) : Except PyErr Kind :=
  match type with
  | none => .error .keyError
  | some (some t) => .ok (kindOfType t)
  | some none =>
    match component with
    | none => .error .keyError
    | some [] => .error .indexError
    | some (c :: _) => .ok (kindOfType [c])

end Verif.Runs
