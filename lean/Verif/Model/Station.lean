import Verif.Model.Run

/-!
Model of `mt_metadata/timeseries/station.py`: run bookkeeping, recorded channels, time period.

Runs are stored under their id (`ListDict.append` uses the id as key). Same simplifications as in
Model/Run. `validate_station_id` (L287-L298) only touches the id and is not modelled.
-/

namespace Verif.Stations
open Runs

/-- A station. -/
structure Station where
  runs : OD String Run := []
  runList : List String := []
  recorded : List String := []
  start : Int := 0
  stop : Int := 0
  deriving DecidableEq

/-- `set(list)`: first occurrences. -/
def dedup : List String → List String
  | [] => []
  | n :: ns => if n ∈ ns then dedup ns else n :: dedup ns

/-- station.py L402-L413 `_get_channels_recorded`. -/
def getRecorded (s : Station) : List String :=
  sortNames (dedup ((OD.values s.runs).flatMap recordedAll))

/-- station.py L429-L452 `update_time_period`. -/
def updateTime (s : Station) : Station :=
  { s with
    start := newStart s.start (((OD.values s.runs).map Run.start).filter (· ≠ 0))
    stop := newStop s.stop (((OD.values s.runs).map Run.stop).filter (· ≠ 0)) }

/-- `run.add_channel(name)` with a string (run.py L1056-L1066, L687-L787). -/
def addNamed (req : List String) (r : Run) (n : String) : Except PyErr Run :=
  addChannel req r { comp := n, kind := kindOfName n.toList } true

/-- Add a list of names to a run. -/
def addNames (req : List String) : List String → Run → Except PyErr Run
  | [], r => .ok r
  | n :: ns, r =>
    match addNamed req r n with
    | .error e => .error e
    | .ok r1 => addNames req ns r1

/-- station.py L275-L284, the second half of the validator, when `run_list` agrees with the runs:
recorded names without a channel are added to the first run if there are more recorded
names than estimated ones; otherwise `channels_recorded` is replaced by the estimate (the
nested validation then finds nothing to do). -/
def fixChannels (req : List String) (s : Station) : Except PyErr Station :=
  if s.recorded = getRecorded s then .ok s
  else if (getRecorded s).length < s.recorded.length then
    match s.runs with
    | [] => .ok s
    | (id, r) :: rest =>
      match addNames req (s.recorded.filter (fun n => !(getRecorded s).contains n)) r with
      | .error e => .error e
      | .ok r1 => .ok { s with runs := (id, r1) :: rest }
  else .ok { s with recorded := getRecorded s }

/-- station.py L454-L461 `update_all`: time period, then `run_list = list(runs.keys())`, whose
assignment runs the validator L261-L285 (first half satisfied). -/
def updateAll (req : List String) (s : Station) : Except PyErr Station :=
  fixChannels req { updateTime s with runList := OD.keys s.runs }

/-- station.py L361-L373 `has_run`. -/
def hasRun (s : Station) (id : String) : Bool := s.runList.contains id

/-- station.py L463-L486 `add_run`. -/
def addRun (req : List String) (s : Station) (id : String) (r : Run) (upd : Bool) :
    Except PyErr Station :=
  match (if hasRun s id then
      match OD.get? s.runs id with
      | none => .error .keyError
      | some old =>
        match Runs.update req old r with
        | .error e => .error e
        | .ok r1 => .ok { s with runs := OD.set s.runs id r1 }
    else .ok { s with runs := OD.set s.runs id r } : Except PyErr Station) with
  | .error e => .error e
  | .ok s1 => if upd then updateAll req s1 else .ok s1

/-- station.py L488-L501 `get_run`. -/
def getRun (s : Station) (id : String) : Except PyErr (Option Run) :=
  if hasRun s id then
    match OD.get? s.runs id with
    | some r => .ok (some r)
    | none => .error .keyError
  else .ok none

/-- station.py L503-L517 `remove_run`. -/
def removeRun (req : List String) (s : Station) (id : String) (upd : Bool) : Except PyErr Station :=
  if hasRun s id then
    if id ∈ OD.keys s.runs then
      if upd then updateAll req { s with runs := OD.erase s.runs id }
      else .ok { s with runs := OD.erase s.runs id }
    else .error .keyError
  else .ok s

/-- station.py L339-L348 `merge`: the receiver is changed whatever `inplace` is. -/
def merge (req : List String) (s o : Station) : Except PyErr Station :=
  updateAll req { s with
    runs := o.runs.foldl (fun (acc : OD String Run) p => OD.set acc p.1 p.2) s.runs }

/-- station.py L269-L272: runs named in `run_list` but not stored are created. -/
def appendMissing (s : Station) : Station :=
  let f := fun (acc : OD String Run) (id : String) =>
    if id ∈ OD.keys acc then acc else OD.set acc id ({} : Run)
  { s with runs := s.runList.foldl f s.runs }

/-- station.py L261-L285, the validator that runs after any attribute of the station is assigned.
In the first half a longer `run_list` creates runs, any other difference calls `update_all`. In
the second half, assigning `channels_recorded` validates again, which can only bring
`run_list` in line. -/
def touch (req : List String) (s : Station) : Except PyErr Station :=
  match (if s.runList = OD.keys s.runs then .ok s
    else if (OD.keys s.runs).length < s.runList.length then .ok (appendMissing s)
    else updateAll req s : Except PyErr Station) with
  | .error e => .error e
  | .ok s1 =>
    if s1.recorded ≠ getRecorded s1 ∧ ¬ (getRecorded s1).length < s1.recorded.length ∧
        s1.runList ≠ OD.keys s1.runs ∧ ¬ (OD.keys s1.runs).length < s1.runList.length then
      updateAll req { s1 with recorded := getRecorded s1 }
    else fixChannels req s1

/-- station.py L542-L568 `sort_runs_by_time`: `run.time_period.start` is an MTime, which has no
`split`. -/
def sortRunsByTime (s : Station) : Except PyErr Station :=
  match s.runs with
  | [] => .ok s
  | _ :: _ => .error .attributeError

end Verif.Stations
