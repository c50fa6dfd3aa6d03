import Verif.Base.Text

/-! # An experiment from a directory of MT XML files

`timeseries/tools/from_many_mt_files.py`: how `MT2StationXML` sorts the files of a directory into stations, runs and channels, and what
`make_experiment` does with them. Files are what `rglob("*.xml")` lists, in its order: a directory and the stem of the name (the name
without `.xml`; a file of the name `.xml` is not modelled). A table is a list of rows. Runs of the same name are sorted in the order of
the list (pandas does not say in which). What is in the files is not modelled: reading them does not raise. -/

namespace Verif.ManyFiles
open Verif.Text

/-- A file below `xml_path`. -/
structure Fn where
  dir : Str
  stem : Str
deriving DecidableEq, Repr

/-- `fn.name` -/
def Fn.name (f : Fn) : Str := f.stem ++ ".xml".toList

/-- from_many_mt_files.py L78-L80 `is_a_filter_xml` -/
def isFilters (f : Fn) : Bool := ["filters".toList, "_filters".toList].contains f.stem

/-- from_many_mt_files.py L82-L84 `is_a_survey_xml` -/
def isSurvey (f : Fn) : Bool := ["survey".toList, "_survey".toList].contains f.stem

/-- from_many_mt_files.py L86-L90 `is_a_station_xml` -/
def isStation (f : Fn) : Bool :=
  if !["filters".toList, "_filters".toList, "_survey".toList, "survey".toList].contains f.stem then f.stem.count '.' == 0 else false

/-- from_many_mt_files.py L92-L94 `is_a_run_xml` -/
def isRun (f : Fn) : Bool := f.stem.count '.' == 1

/-- from_many_mt_files.py L96-L98 `is_a_channel_xml` -/
def isChannel (f : Fn) : Bool := decide (f.stem.count '.' > 1)

/-- from_many_mt_files.py L126 `fn.stem.split(".")[0]` -/
def stationOf (f : Fn) : Str := (splitC '.' f.stem).headD []

/-- from_many_mt_files.py L127-L130 -/
def runOf (f : Fn) : Option Str := if isRun f || isChannel f then (splitC '.' f.stem)[1]? else none

/-- from_many_mt_files.py L139-L143 `stations` -/
def stations (fs : List Fn) : List Str := (fs.filter isStation).map stationOf

/-- `….fn.values[0]` -/
def first (fs : List Fn) : Except PyErr Fn :=
  match fs with
  | [] => .error .indexError
  | f :: _ => .ok f

/-- from_many_mt_files.py L158-L170 `_get_runs`; names of runs are compared by their characters. -/
def getRuns (fs : List Fn) (station : Str) : List Fn :=
  pySorted (fun a b => decide ((runOf a).getD [] ≤ (runOf b).getD [])) (fs.filter fun f => stationOf f == station && isRun f)

/-- from_many_mt_files.py L172: the default of `order`. -/
def components : List Str := ["hx".toList, "hy".toList, "hz".toList, "ex".toList, "ey".toList]

/-- from_many_mt_files.py L193: whether the name of a file after that of its station has the component. -/
def shows (station : Str) (f : Fn) (ch : Str) : Bool := hasSub ch (lower (f.name.drop station.length))

/-- from_many_mt_files.py L182-L188: the channel files of a run. -/
def channelFiles (fs : List Fn) (station : Str) (run : Option Str) : List Fn :=
  fs.filter fun f => stationOf f == station && (runOf f == run) && isChannel f

/-- from_many_mt_files.py L172-L197 `_get_channels`: for each component the first file that shows it. -/
def getChannels (fs : List Fn) (station : Str) (run : Option Str) : List Fn :=
  components.filterMap fun ch => (channelFiles fs station run).find? fun f => shows station f ch

/-- from_many_mt_files.py L227-L230: a run. -/
structure RunFiles where
  fn : Fn
  channels : List Fn
deriving DecidableEq, Repr

/-- from_many_mt_files.py L219-L231: a station. -/
structure StationFiles where
  fn : Fn
  runs : List RunFiles
deriving DecidableEq, Repr

/-- from_many_mt_files.py L206-L210 -/
structure Sorted where
  survey : Fn
  filters : Fn
  stations : List StationFiles
deriving DecidableEq, Repr

/-- from_many_mt_files.py L218-L231: one station. -/
def sortStation (fs : List Fn) (station : Str) : Except PyErr StationFiles :=
  (first (fs.filter fun f => stationOf f == station && isStation f)).map fun f =>
    ⟨f, (getRuns fs station).map fun r => ⟨r, getChannels fs station (runOf r)⟩⟩

/-- from_many_mt_files.py L212-L219: the stations that are sorted. -/
def wanted (fs : List Fn) (chosen : Option (List Str)) : List Str :=
  match chosen with
  | none => stations fs
  | some [] => stations fs
  | some (s :: l) => s :: l

/-- from_many_mt_files.py L199-L234 `sort_by_station`; a single text is a list with that text. -/
def sortByStation (fs : List Fn) (chosen : Option (List Str)) : Except PyErr Sorted :=
  (first (fs.filter isSurvey)).bind fun survey =>
  (first (fs.filter isFilters)).bind fun filters =>
  ((wanted fs chosen).mapM (sortStation fs)).map fun l => ⟨survey, filters, l⟩

/-- from_many_mt_files.py L250-L287 `_make_channel`: another type than electric and magnetic leaves `ch` without a value, and channels
have no attribute `filter` (timeseries/channel.py L744-L777). -/
def makeChannel (f : Fn) : Except PyErr Fn :=
  match (splitC '.' f.stem)[2]? with
  | none => .error .indexError
  | some t => if ["electric".toList, "magnetic".toList].contains (lower t) then .error .attributeError else .error .nameError

/-- from_many_mt_files.py L289-L311 `_make_run` -/
def makeRun (r : RunFiles) : Except PyErr RunFiles := (r.channels.mapM makeChannel).map fun l => ⟨r.fn, l⟩

/-- from_many_mt_files.py L313-L361 `_make_station` -/
def makeStation (s : StationFiles) : Except PyErr StationFiles := (s.runs.mapM makeRun).map fun l => ⟨s.fn, l⟩

/-- from_many_mt_files.py L363-L397 `_make_survey`, L431-L445 `make_experiment`: the experiment as to the files its parts are made of. -/
def makeExperiment (fs : List Fn) (chosen : Option (List Str)) : Except PyErr Sorted :=
  (sortByStation fs chosen).bind fun t => (t.stations.mapM makeStation).map fun l => ⟨t.survey, t.filters, l⟩

end Verif.ManyFiles
