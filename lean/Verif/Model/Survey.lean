import Verif.Model.Station
import Mathlib.Data.Rat.Defs
import Mathlib.Algebra.Order.Ring.Rat

/-!
Model of `mt_metadata/timeseries/survey.py`: stations, bounding box, time period; and of the parts
of `mt_metadata/timeseries/experiment.py` that add and merge surveys.

Simplifications: a station is its id, its coordinates and its run bookkeeping (Model/Station);
other fields are left out. Coordinates are rational numbers. Instants are integers (nanoseconds
since 1980-01-01, the default), survey dates are whole days.
-/

namespace Verif.Surveys
open Stations Runs

/-- A station as stored in a survey. -/
structure St where
  id : String
  lat : Option ℚ := some 0
  lon : Option ℚ := some 0
  body : Station := {}
  deriving DecidableEq

/-- Assigning `station.channels_recorded` (base/metadata.py L574-L611 skips an empty list), then
the validator (station.py L261-L285). -/
def assignRecorded (req : List String) (s : Station) (l : List String) : Except PyErr Station :=
  if l = [] then .ok s else touch req { s with recorded := l }

/-- Assigning `station.run_list` likewise. -/
def assignRunList (req : List String) (s : Station) (l : List String) : Except PyErr Station :=
  if l = [] then .ok s else touch req { s with runList := l }

/-- base/metadata.py L574-L611 `station.update(other)`. The fields of `other.to_dict()` are assigned
in alphabetical order: `channels_recorded`, …, `id` (runs the validator), `location.…`,
`run_list`, `time_period.…`. `runs` is not among them: `ListDict.to_dict` returns `None`
(common/list_dict.py L334-L336). Default values are skipped. -/
def St.update (req : List String) (a b : St) : Except PyErr St :=
  match assignRecorded req a.body b.body.recorded with
  | .error e => .error e
  | .ok s1 =>
    match touch req s1 with
    | .error e => .error e
    | .ok s2 =>
      match assignRunList req s2 b.body.runList with
      | .error e => .error e
      | .ok s3 => .ok {
          id := b.id
          lat := if b.lat = none ∨ b.lat = some 0 then a.lat else b.lat
          lon := if b.lon = none ∨ b.lon = some 0 then a.lon else b.lon
          body := { s3 with
            start := if b.body.start = 0 then s3.start else b.body.start
            stop := if b.body.stop = 0 then s3.stop else b.body.stop } }

/-- Nanoseconds per day. -/
def day : Int := 86400000000000

/-- A survey. -/
structure Survey where
  id : String := ""
  stations : OD String St := []
  seLat : ℚ := 0
  seLon : ℚ := 0
  nwLat : ℚ := 0
  nwLon : ℚ := 0
  startDay : Int := 0
  stopDay : Int := 0
  deriving DecidableEq

/-- `min` of a nonempty list. -/
def minOf {α : Type} [Min α] : α → List α → α := List.foldl min
/-- `max` of a nonempty list. -/
def maxOf {α : Type} [Max α] : α → List α → α := List.foldl max

/-- survey.py L698-L717 `update_bounding_box`. -/
def updateBox (s : Survey) : Survey :=
  let s1 := match (OD.values s.stations).filterMap St.lat with
    | [] => s
    | x :: xs => { s with seLat := minOf x xs, nwLat := maxOf x xs }
  match (OD.values s.stations).filterMap St.lon with
  | [] => s1
  | x :: xs => { s1 with seLon := maxOf x xs, nwLon := minOf x xs }

/-- survey.py L732-L737: `start_date` is stored as the day; a day compares as its midnight. -/
def newStartDay (own : Int) : List Int → Int
  | [] => own
  | x :: xs => if own = 0 then minOf x xs / day else if minOf x xs < own * day then minOf x xs / day else own

/-- survey.py L739-L744. -/
def newStopDay (own : Int) : List Int → Int
  | [] => own
  | x :: xs => if own = 0 then maxOf x xs / day else if own * day < maxOf x xs then maxOf x xs / day else own

/-- survey.py L719-L744 `update_time_period`. -/
def updateTime (s : Survey) : Survey :=
  { s with
    startDay := newStartDay s.startDay
      (((OD.values s.stations).map (fun x => x.body.start)).filter (· ≠ 0))
    stopDay := newStopDay s.stopDay
      (((OD.values s.stations).map (fun x => x.body.stop)).filter (· ≠ 0)) }

/-- survey.py L675-L696 `update_station_keys` (common/list_dict.py L304-L332). -/
def updateKeys (s : Survey) : Survey :=
  { s with stations := s.stations.foldl (fun (acc : OD String St) p => OD.set acc p.2.id p.2) [] }

/-- survey.py L585-L597 `has_station`. -/
def hasStation (s : Survey) (id : String) : Bool := (OD.keys s.stations).contains id

/-- survey.py L614-L639 `add_station`. -/
def addStation (req : List String) (s : Survey) (x : St) (upd : Bool) : Except PyErr Survey :=
  match (if hasStation s x.id then
      match OD.get? s.stations x.id with
      | none => .error .keyError
      | some old =>
        match old.update req x with
        | .error e => .error e
        | .ok y => .ok { s with stations := OD.set s.stations x.id y }
    else .ok { s with stations := OD.set s.stations x.id x } : Except PyErr Survey) with
  | .error e => .error e
  | .ok s1 => if upd then .ok (updateKeys (updateTime (updateBox s1))) else .ok s1

/-- survey.py L641-L656 `get_station`. -/
def getStation (s : Survey) (id : String) : Except PyErr (Option St) :=
  if hasStation s id then
    match OD.get? s.stations id with
    | some x => .ok (some x)
    | none => .error .keyError
  else .ok none

/-- survey.py L658-L673 `remove_station`. -/
def removeStation (s : Survey) (id : String) (upd : Bool) : Except PyErr Survey :=
  if hasStation s id then
    if upd then .ok (updateTime (updateBox { s with stations := OD.erase s.stations id }))
    else .ok { s with stations := OD.erase s.stations id }
  else .ok s

/-- survey.py L533-L562 `merge`: the receiver is changed whatever `inplace` is. -/
def mergeSurvey (s o : Survey) : Survey :=
  let s1 := { s with
    stations := o.stations.foldl (fun (acc : OD String St) p => OD.set acc p.1 p.2) s.stations }
  updateBox (updateTime s1)

/-! ### Experiments -/

/-- An experiment: its surveys by id. -/
abbrev Experiment := OD String Survey

/-- base/metadata.py L574-L611 `survey.update(other)`: `stations` and `filters` are `ListDict`s, which
have no dictionary form and are skipped; the corners and the period are taken over unless they
are default. -/
def Survey.update (a b : Survey) : Survey :=
  { a with
    id := b.id
    seLat := if b.seLat = 0 then a.seLat else b.seLat
    seLon := if b.seLon = 0 then a.seLon else b.seLon
    nwLat := if b.nwLat = 0 then a.nwLat else b.nwLat
    nwLon := if b.nwLon = 0 then a.nwLon else b.nwLon
    startDay := b.startDay
    stopDay := b.stopDay }

/-- experiment.py L191-L215 `add_survey`. -/
def addSurvey (e : Experiment) (s : Survey) : Experiment :=
  match OD.get? e s.id with
  | some old => OD.set e s.id (old.update s)
  | none => OD.set e s.id s

/-- experiment.py L105-L117 `merge`. -/
def mergeExp (e o : Experiment) : Experiment :=
  o.foldl (fun (acc : Experiment) p => OD.set acc p.1 p.2) e

/-- experiment.py L217-L233 `get_survey`. -/
def getSurvey (e : Experiment) (id : String) : Option Survey := OD.get? e id

/-- experiment.py L235-L248 `remove_survey`. -/
def removeSurvey (e : Experiment) (id : String) : Experiment := OD.erase e id

end Verif.Surveys
