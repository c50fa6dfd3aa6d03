import Verif.Model.Station
import Verif.Model.ExperimentXml
import Verif.Model.Applied

/-! # Experiments as dictionaries

`mt_metadata/timeseries/experiment.py` L250-L369 and L610-L634 (`to_dict`, `from_dict`, `from_json`, `sort`), with the validators
of collections that reading a dictionary runs: `run.py` L318-L349, `station.py` L300-L337, `survey.py` L381-L514,
`experiment.py` L123-L157.

Runs and stations are those of Model/Run and Model/Station. The attributes of stations and surveys that are not named there are
values of a type `A`; what becomes of them when an object is written to a dictionary and read into a new object
(C80, C81) is a parameter, as for the attributes of a channel. Dictionaries have the entries of required attributes and of those with a
value (`required=True`, the default); in this order: the attributes by name, then the collection. -/

namespace Verif.ExpDict
open Verif.Runs Verif.Stations

/-- What is not modelled: attributes through a dictionary. -/
structure World (A B : Type) where
  /-- attributes of a channel through `to_dict` and the constructor -/
  chan : Kind → Metadata.Obj → Metadata.Obj
  /-- attributes of a station through `to_dict` and `from_dict` -/
  station : A → A
  /-- attributes of a survey -/
  survey : B → B
  /-- attributes of a filter but for its name through `to_dict` and `from_dict` -/
  filter : ExpXml.Cls → Nat → Nat
  /-- attributes of a survey updated by those of another (base/metadata.py L574-L611) -/
  update : B → B → B
  /-- required attributes (base/metadata.py L728-L752) -/
  req : List String

/-! ## Runs -/

/-- The text of `type`: every class has its own, whatever is assigned (channel.py L303-L319). -/
def typeName : Kind → Str
  | .electric => "electric".toList
  | .magnetic => "magnetic".toList
  | .auxiliary => "auxiliary".toList

/-- The dictionary of a channel. -/
structure ChanD where
  type : Str
  comp : String
  start : Int
  stop : Int
  info : Metadata.Obj

/-- base/metadata.py L956-L1160 `to_dict` of a channel. -/
def chanDict (c : Chan) : ChanD := ⟨typeName c.kind, c.comp, c.start, c.stop, c.info⟩

/-- run.py L1068-L1088: a channel of the class that the dictionary names. -/
def readChan {A B : Type} (W : World A B) (d : ChanD) : Chan :=
  { comp := d.comp, kind := kindOfType d.type, start := d.start, stop := d.stop, info := W.chan (kindOfType d.type) d.info }

/-- The dictionary of a run. -/
structure RunD where
  id : String
  aux : List String
  elec : List String
  mag : List String
  start : Int
  stop : Int
  channels : List ChanD

/-- experiment.py L274-L279. -/
def runDict (id : String) (r : Run) : RunD :=
  ⟨id, r.aux, r.elec, r.mag, r.start, r.stop, (OD.values r.channels).map chanDict⟩

/-- run.py L318-L349 `validate_channels` and `ListDict.append` (common/list_dict.py L196-L212): a later channel with the same
component replaces an earlier one. -/
def keyed (l : List Chan) : OD String Chan := l.foldl (fun (acc : OD String Chan) c => OD.set acc c.comp c) []

/-- station.py L317-L320, base/metadata.py L1212-L1216 `from_dict` of a new run: the entries are assigned one after the other,
each assignment of an attribute of the run itself is followed by its validator. -/
def readRun {A B : Type} (W : World A B) (d : RunD) : Except PyErr Run :=
  (assignList W.req .auxiliary d.aux {}).bind fun r =>
  (assignList W.req .electric d.elec r).bind fun r =>
  (assignList W.req .magnetic d.mag r).bind fun r =>
  validate W.req { r with start := d.start, stop := d.stop, channels := keyed (d.channels.map (readChan W)) }

/-! ## Stations -/

/-- A station of a survey. -/
structure St (A : Type) where
  id : String
  attrs : A
  body : Station

/-- The dictionary of a station. -/
structure StD (A : Type) where
  id : String
  attrs : A
  recorded : List String
  runList : List String
  start : Int
  stop : Int
  runs : List RunD

/-- experiment.py L271-L280. -/
def stDict {A : Type} (s : St A) : StD A :=
  ⟨s.id, s.attrs, s.body.recorded, s.body.runList, s.body.start, s.body.stop, s.body.runs.map fun p => runDict p.1 p.2⟩

/-- station.py L300-L337 `validate_runs` (only `KeyError` is turned into a `TypeError`). -/
def readRuns {A B : Type} (W : World A B) (acc : OD String Run) : List RunD → Except PyErr (OD String Run)
  | [] => .ok acc
  | d :: ds =>
    match readRun W d with
    | .error .keyError => .error .typeError
    | .error e => .error e
    | .ok r => readRuns W (OD.set acc d.id r) ds

/-- survey.py L398-L403, base/metadata.py L1212-L1216: `from_dict` of a new station; `channels_recorded`, then `id` and other
attributes, `run_list`, the time period, and `runs` last. -/
def readSt {A B : Type} (W : World A B) (d : StD A) : Except PyErr (St A) :=
  (touch W.req { ({} : Station) with recorded := d.recorded }).bind fun s =>
  (touch W.req s).bind fun s =>
  (touch W.req { s with runList := d.runList }).bind fun s =>
  (readRuns W [] d.runs).bind fun rs =>
  (touch W.req { s with start := d.start, stop := d.stop, runs := rs }).bind fun s =>
  .ok ⟨d.id, W.station d.attrs, s⟩

/-! ## Surveys and experiments -/

/-- A survey: its id, attributes, stations and filters. -/
structure Sv (A B : Type) where
  id : String
  attrs : B
  stations : OD String (St A) := []
  filters : OD Str ExpXml.Filt := []

/-- The dictionary of a survey. -/
structure SvD (A B : Type) where
  id : String
  attrs : B
  stations : List (StD A)
  filters : List (Str × ExpXml.Filt)

/-- The text of `type` of a filter (timeseries/filters: `_filter_type`; filter_base.py L180-L195). -/
def filterType : ExpXml.Cls → Str
  | .poleZero => "zpk".toList
  | .coefficient => "coefficient".toList
  | .timeDelay => "time delay".toList
  | .table => "frequency response table".toList
  | .fir => "fir".toList

/-- experiment.py L267-L284. -/
def svDict {A B : Type} (s : Sv A B) : SvD A B :=
  ⟨s.id, s.attrs, (OD.values s.stations).map stDict, (OD.values s.filters).map fun f => (filterType f.cls, f)⟩

/-- survey.py L448-L468: the class for the text of `type`. -/
def filterClass (t : Str) : Option ExpXml.Cls :=
  if Names.lower t = "zpk".toList then some .poleZero
  else if Names.lower t = "coefficient".toList then some .coefficient
  else if Names.lower t = "time delay".toList then some .timeDelay
  else if Names.lower t = "fir".toList then some .fir
  else if Names.lower t = "frequency response table".toList then some .table
  else none

/-- survey.py L443-L472 `validate_filters` of a list of dictionaries: the filters by their names. Any other type is an error in the
end, or at once when there is no filter yet that could be used for it (`UnboundLocalError` is a `NameError`). -/
def readFilters {A B : Type} (W : World A B) (acc : OD Str ExpXml.Filt) : List (Str × ExpXml.Filt) → Except PyErr (OD Str ExpXml.Filt)
  | [] => .ok acc
  | (t, f) :: fs =>
    match filterClass t with
    | none => if acc.isEmpty then .error .nameError else .error .typeError
    | some c => readFilters W (OD.set acc f.name ⟨c, f.name, W.filter c f.body⟩) fs

/-- survey.py L474-L481 `survey.filters = [f, …]`: the filters by their names. -/
def filtersOfList (l : List ExpXml.Filt) : OD Str ExpXml.Filt :=
  l.foldl (fun (acc : OD Str ExpXml.Filt) f => OD.set acc f.name f) []

/-- survey.py L495-L511 `survey.filters = {key: f, …}`: the keys in lower case. -/
def filtersOfDict (l : List (Str × ExpXml.Filt)) : OD Str ExpXml.Filt :=
  l.foldl (fun (acc : OD Str ExpXml.Filt) p => OD.set acc (Names.lower p.1) p.2) []

/-- channel.py L560-L575 `channel_response(survey.filters)`: the filters applied, those not found are left out (with a message). -/
def response (d : OD Str ExpXml.Filt) (l : List Applied.AF) : List ExpXml.Filt := l.filterMap fun a => OD.get? d a.name

/-- survey.py L381-L418 `validate_stations`: stations by their ids. -/
def readSts {A B : Type} (W : World A B) (acc : OD String (St A)) : List (StD A) → Except PyErr (OD String (St A))
  | [] => .ok acc
  | d :: ds =>
    match readSt W d with
    | .error .keyError => .error .typeError
    | .error e => .error e
    | .ok s => readSts W (OD.set acc s.id s) ds

/-- experiment.py L305-L307: `from_dict` of a new survey; the filters come after the stations. -/
def readSv {A B : Type} (W : World A B) (d : SvD A B) : Except PyErr (Sv A B) :=
  (readSts W [] d.stations).bind fun sts =>
  (readFilters W [] d.filters).bind fun fs =>
  .ok ⟨d.id, W.survey d.attrs, sts, fs⟩

/-- An experiment: its surveys. -/
abbrev Exp (A B : Type) := OD String (Sv A B)

/-- experiment.py L250-L286 `to_dict`. -/
def toDict {A B : Type} (e : Exp A B) : List (SvD A B) := (OD.values e).map svDict

/-- experiment.py L191-L215 `add_survey`: a survey with a known id updates the attributes only, collections have no
dictionary (Model/Survey). -/
def addSurvey {A B : Type} (W : World A B) (e : Exp A B) (s : Sv A B) : Exp A B :=
  match OD.get? e s.id with
  | some old => OD.set e s.id { old with attrs := W.update old.attrs s.attrs }
  | none => OD.set e s.id s

/-- experiment.py L288-L309 `from_dict`. -/
def fromDict {A B : Type} (W : World A B) (e : Exp A B) : List (SvD A B) → Except PyErr (Exp A B)
  | [] => .ok e
  | d :: ds =>
    match readSv W d with
    | .error x => .error x
    | .ok s => fromDict W (addSurvey W e s) ds

/-- common/list_dict.py L253-L263 `sort`: by keys. -/
def sortOD {ν : Type} (d : OD String ν) : OD String ν := pySorted (fun a b => strLe a.1 b.1) d

/-- experiment.py L621-L628 `sort` in place: surveys, stations, runs and channels. -/
def sorted {A B : Type} (e : Exp A B) : Exp A B :=
  sortOD (e.map fun p => (p.1, { p.2 with
    stations := sortOD (p.2.stations.map fun q => (q.1, { q.2 with
      body := { q.2.body with
        runs := sortOD (q.2.body.runs.map fun r => (r.1, { r.2 with channels := sortOD r.2.channels })) } })) }))

/-- experiment.py L610-L634 `sort(inplace)`: the new state of the experiment, and what is returned. -/
def sort {A B : Type} (W : World A B) (e : Exp A B) (inplace : Bool) : Except PyErr (Exp A B × Option (Exp A B)) :=
  if inplace then .ok (sorted e, none)
  else (fromDict W [] (toDict e)).bind fun c => .ok (e, some (sorted c))

/-! ## JSON -/

/-- Files and texts that can be read as JSON. -/
structure Disk (J : Type) where
  /-- what is in a file, `none` if there is no such file -/
  file : Str → Option Str
  /-- `json.loads` -/
  loads : Str → Except PyErr J

/-- experiment.py L343-L368 `from_json(json_str)`, base/metadata.py L1248-L1275: the argument as text. What is read from a file is
replaced. -/
def ofText {J : Type} (D : Disk J) (s : Str) : Except PyErr J :=
  match D.file s with
  | some t => (D.loads t).bind fun _ => D.loads s
  | none => D.loads s

/-- The same with a `Path`: without the file, `json_dict` is not bound (`UnboundLocalError` is a `NameError`). -/
def ofPath {J : Type} (D : Disk J) (s : Str) : Except PyErr J :=
  match D.file s with
  | some t => D.loads t
  | none => .error .nameError

end Verif.ExpDict
