import Verif.Model.Run

/-!
Model of `mt_metadata/processing/fourier_coefficients/{decimation,fc,fc_channel}.py`: the channel and
level bookkeeping and the time periods.

Simplifications as in Model/Run: instants are integers, 0 stands for the default stamp; objects are
values; a channel's (level's) component (id) is not changed behind the container's back; other
metadata of a channel is a flat field map, other metadata of a level is left out. Python sets
are iterated in an unknown order: `ord`.
-/

namespace Verif.FCs
open Verif.Runs (newStart newStop)
open Verif.Metadata (Obj)

/-- A Fourier coefficient channel (fc_channel.py L14-L107). -/
structure FcChan where
  comp : String
  start : Int := 0
  stop : Int := 0
  info : Obj := []
  deriving DecidableEq

/-- A decimation level (decimation.py L18-L97): its id, `channels_estimated`, the channels (ListDict), the
time period. -/
structure Dec where
  id : String := ""
  estimated : List String := []
  channels : OD String FcChan := []
  start : Int := 0
  stop : Int := 0
  deriving DecidableEq

/-- metadata.py L574-L610 `update` of a channel: default times and null values are skipped. -/
def FcChan.update (req : List String) (a b : FcChan) : FcChan :=
  { a with
    start := if b.start = 0 then a.start else b.start
    stop := if b.stop = 0 then a.stop else b.stop
    info := (Metadata.toDict req true b.info).foldl Metadata.updateOne a.info }

/-- decimation.py L199-L200: the estimated names without a channel. -/
def missing (d : Dec) : List String :=
  d.estimated.eraseDups.filter (fun n => !(OD.keys d.channels).contains n)

/-- decimation.py L209: the stored names that are not listed. -/
def extra (d : Dec) : List String :=
  (OD.keys d.channels).filter (fun n => !d.estimated.contains n)

/-- decimation.py L173-L216 `validate_channels_consistency`, run by every assignment to an attribute
of the level. Both differences are taken before anything changes. -/
def sync (ord : List String → List String) (d : Dec) : Dec :=
  { d with
    channels := (ord (missing d)).foldl (
      fun (acc : OD String FcChan) n => OD.set acc n { comp := n }) d.channels
    estimated := d.estimated ++ ord (extra d) }

/-- decimation.py L295-L309 `has_channel`. -/
def hasChannel (d : Dec) (c : String) : Bool := d.estimated.contains c

/-- decimation.py L318-L331 `get_channel`. -/
def getChannel (d : Dec) (c : String) : Except PyErr (Option FcChan) :=
  if hasChannel d c then
    match OD.get? d.channels c with
    | some ch => .ok (some ch)
    | none => .error .keyError
  else .ok none

/-- decimation.py L375-L399 `update_time_period`: the ends are taken where the *start* is not the default. -/
def updateTime (d : Dec) : Dec :=
  { d with
    start := newStart d.start (((OD.values d.channels).map FcChan.start).filter (· ≠ 0))
    stop := newStop d.stop (((OD.values d.channels).filter (fun c => c.start ≠ 0)).map FcChan.stop) }

/-- decimation.py L333-L356 `add_channel`: a channel that is listed is updated, any other is stored;
`channels_estimated` is not touched. -/
def addChannel (req : List String) (d : Dec) (ch : FcChan) : Except PyErr Dec :=
  if hasChannel d ch.comp then
    match OD.get? d.channels ch.comp with
    | some old => .ok (updateTime { d with
        channels := OD.set d.channels ch.comp (old.update req ch) })
    | none => .error .keyError
  else .ok (updateTime { d with channels := OD.set d.channels ch.comp ch })

/-- decimation.py L358-L373 `remove_channel`. -/
def removeChannel (d : Dec) (c : String) : Except PyErr Dec :=
  if hasChannel d c then
    if c ∈ OD.keys d.channels then
      .ok (updateTime { d with channels := OD.erase d.channels c, estimated := d.estimated.erase c })
    else .error .keyError
  else .ok (updateTime d)

/-- decimation.py L218-L231 `add`: `channels.extend`. -/
def merge (d o : Dec) : Dec :=
  { d with
    channels := o.channels.foldl (fun (acc : OD String FcChan) p => OD.set acc p.1 p.2) d.channels }

/-- `level.channels_estimated = names` (decimation.py L117-L129 and the validator). -/
def assignEstimated (ord : List String → List String) (d : Dec) (names : List String) : Dec :=
  sync ord { d with estimated := names }

/-- `level.channels = [ch, …]` (decimation.py L131-L171 and the validator); the channels are rebuilt. -/
def assignChannels (ord : List String → List String) (d : Dec) (chs : List FcChan) : Dec :=
  sync ord { d with channels := OD.ofPairs (chs.map (fun c => (c.comp, c))) }

/-- `for ch in other.channels: self.add_channel(ch)` -/
def addAll (req : List String) : List FcChan → Dec → Except PyErr Dec
  | [], d => .ok d
  | c :: cs, d =>
    match addChannel req d c with
    | .error e => .error e
    | .ok d1 => addAll req cs d1

/-- decimation.py L283-L290: the attributes of the other level that are not null, in the order
of their names. -/
def copyAttrs (ord : List String → List String) (d o : Dec) : Dec :=
  let d1 := if o.estimated = [] then d else assignEstimated ord d o.estimated
  let d2 := if o.id = "" then d1 else sync ord { d1 with id := o.id }
  { d2 with
    stop := if o.stop = 0 then d2.stop else o.stop
    start := if o.start = 0 then d2.start else o.start }

/-- decimation.py L253-L293 `update` without `match`. -/
def update (ord : List String → List String) (req : List String) (d o : Dec) : Except PyErr Dec :=
  addAll req (OD.values o.channels) (copyAttrs ord d o)

/-- A call on a decimation level. -/
inductive Op where
  | add (ch : FcChan)
  | remove (c : String)
  | touch
  | setEstimated (names : List String)
  | setChannels (chs : List FcChan)

/-- One call. `touch` is an assignment to any other attribute, which runs the validator. -/
def step (ord : List String → List String) (req : List String) (d : Dec) : Op → Except PyErr Dec
  | .add ch => addChannel req d ch
  | .remove c => removeChannel d c
  | .touch => .ok (sync ord d)
  | .setEstimated names => .ok (assignEstimated ord d names)
  | .setChannels chs => .ok (assignChannels ord d chs)

/-- A history of calls, each returning normally. -/
inductive Hist (ord : List String → List String) (req : List String) : Dec → List Op → Dec → Prop
  | nil (d : Dec) : Hist ord req d [] d
  | cons {d d1 d2 : Dec} {o : Op} {os : List Op} :
      step ord req d o = .ok d1 → Hist ord req d1 os d2 → Hist ord req d (o :: os) d2

/-! ### The group of levels -/

/-- fc.py L25-L123 `FC`: `decimation_levels`, `levels`, time period. -/
structure FC where
  names : List String := []
  levels : OD String Dec := []
  start : Int := 0
  stop : Int := 0
  deriving DecidableEq

/-- fc.py L198-L204: a level for every listed name. -/
def createMissing : List String → OD String Dec → OD String Dec
  | [], ls => ls
  | n :: ns, ls =>
    createMissing ns (if n ∈ OD.keys ls then ls else OD.set ls n { id := n })

/-- fc.py L206-L209: a name for every level. -/
def addNames : List String → List String → List String
  | [], names => names
  | k :: ks, names => addNames ks (if k ∈ names then names else names ++ [k])

/-- fc.py L190-L211 `synchronize_levels`. -/
def syncLevels (f : FC) : FC :=
  let ls := createMissing f.names f.levels
  { f with levels := ls, names := addNames (OD.keys ls) f.names }

/-- fc.py L213-L226 `has_decimation_level`. -/
def hasLevel (f : FC) (l : String) : Bool := f.names.contains l

/-- fc.py L236-L248 `get_decimation_level`. -/
def getLevel (f : FC) (l : String) : Except PyErr (Option Dec) :=
  if hasLevel f l then
    match OD.get? f.levels l with
    | some d => .ok (some d)
    | none => .error .keyError
  else .ok none

/-- fc.py L228-L234 `decimation_level_index`: ValueError if the name is no key. -/
def levelIndex (f : FC) (l : String) : Except PyErr (Option Nat) :=
  if hasLevel f l then
    if l ∈ OD.keys f.levels then .ok (some ((OD.keys f.levels).idxOf l)) else .error .valueError
  else .ok none

/-- fc.py L304-L328 `update_time_period`, again with the start test for the ends. -/
def updateTimes (f : FC) : FC :=
  { f with
    start := newStart f.start (((OD.values f.levels).map Dec.start).filter (· ≠ 0))
    stop := newStop f.stop (((OD.values f.levels).filter (fun d => d.start ≠ 0)).map Dec.stop) }

/-- fc.py L250-L275 `add_decimation_level`. -/
def addLevel (ord : List String → List String) (req : List String) (f : FC) (d : Dec) :
    Except PyErr FC :=
  if hasLevel f d.id then
    match OD.get? f.levels d.id with
    | none => .error .keyError
    | some old =>
      match update ord req old d with
      | .error e => .error e
      | .ok new => .ok (updateTimes { f with levels := OD.set f.levels d.id new })
  else
    .ok (updateTimes { f with
      levels := OD.set f.levels d.id d
      names := if d.id ∈ f.names then f.names else f.names ++ [d.id] })

/-- fc.py L277-L296 `remove_decimation_level`. -/
def removeLevel (f : FC) (l : String) : Except PyErr FC :=
  if hasLevel f l then
    if l ∈ OD.keys f.levels then
      .ok (updateTimes { f with
        levels := OD.erase f.levels l
        names := if l ∈ f.names then f.names.erase l else f.names })
    else .error .keyError
  else .ok (updateTimes f)

/-- `fc.decimation_levels = names` (fc.py L125-L146 and the validator). -/
def assignNames (f : FC) (names : List String) : FC := syncLevels { f with names := names }

/-- A call on the group. -/
inductive LevelOp where
  | add (d : Dec)
  | remove (l : String)
  | touch
  | setNames (names : List String)

/-- One call. -/
def levelStep (ord : List String → List String) (req : List String) (f : FC) :
    LevelOp → Except PyErr FC
  | .add d => addLevel ord req f d
  | .remove l => removeLevel f l
  | .touch => .ok (syncLevels f)
  | .setNames names => .ok (assignNames f names)

/-- A history of calls, each returning normally. -/
inductive LevelHist (ord : List String → List String) (req : List String) :
    FC → List LevelOp → FC → Prop
  | nil (f : FC) : LevelHist ord req f [] f
  | cons {f f1 f2 : FC} {o : LevelOp} {os : List LevelOp} :
      levelStep ord req f o = .ok f1 → LevelHist ord req f1 os f2 →
      LevelHist ord req f (o :: os) f2

end Verif.FCs
