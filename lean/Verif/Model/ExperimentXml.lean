import Verif.Model.Names

/-!
Model of how `mt_metadata/timeseries/experiment.py` writes an experiment to XML and reads it back:
which elements are written, and when reading raises. Of every object only its place in the
hierarchy is kept; of a filter its class, its name and an opaque payload (constructing a filter
from its own dictionary is taken to give the filter back).
-/

namespace Verif.ExpXml

/-- The filter classes. -/
inductive Cls where
  | poleZero | coefficient | timeDelay | table | fir
  deriving DecidableEq

/-- Their Python class names (timeseries/filters/). -/
def Cls.pyName : Cls → Str
  | .poleZero => "PoleZeroFilter".toList
  | .coefficient => "CoefficientFilter".toList
  | .timeDelay => "TimeDelayFilter".toList
  | .table => "FrequencyResponseTableFilter".toList
  | .fir => "FIRFilter".toList

/-- A filter. -/
structure Filt where
  cls : Cls
  name : Str
  body : Nat := 0
  deriving DecidableEq

/-- base/metadata.py L1152-L1156: the element is named `validate_name(class name)`. -/
def Cls.tag (c : Cls) : Str :=
  match Names.validateName c.pyName with
  | .ok t => t
  | .error _ => []

/-- experiment.py L391-L393: the children of the `filters` element. -/
def written (fs : List Filt) : List (Str × Filt) := fs.map (fun f => (f.cls.tag, f))

/-- base/helpers.py L823-L830 `element_to_dict`: children collected by tag, in order of first
occurrence. -/
def group (l : List (Str × Filt)) : OD Str (List Filt) :=
  l.foldl (fun (acc : OD Str (List Filt)) p =>
    OD.set acc p.1 ((OD.get? acc p.1).getD [] ++ [p.2])) []

/-- The tags known to the reader with their constructor, experiment.py L563-L606. -/
def knownTag (t : Str) : Bool :=
  t == "pole_zero_filter".toList || t == "coefficient_filter".toList ||
  t == "time_delay_filter".toList || t == "frequency_response_table_filter".toList ||
  t == "fir_filter".toList

/-- experiment.py L560-L608 `_read_filter_dict`, one group: a group of one is not a list and
the class is called with a positional argument, which `__init__(self, **data)` rejects; groups with an
unknown tag are passed over. -/
def readGroup (acc : OD Str Filt) (t : Str) (fs : List Filt) : Except PyErr (OD Str Filt) :=
  if knownTag t then
    if fs.length = 1 then .error .typeError
    else .ok (fs.foldl (fun (a : OD Str Filt) f => OD.set a (Names.lower f.name) f) acc)
  else .ok acc

/-- experiment.py L548-L608 `_read_filter_dict`. -/
def readGroups (acc : OD Str Filt) : OD Str (List Filt) → Except PyErr (OD Str Filt)
  | [] => .ok acc
  | (t, fs) :: rest =>
    match readGroup acc t fs with
    | .error e => .error e
    | .ok a => readGroups a rest

/-- experiment.py L463-L466: first `survey.from_dict`, which flattens the groups of one into attribute
names `filters.<tag>.<field>` and fails on them (base/metadata.py L183-L190), then
`_read_filter_dict`. -/
def readFilters (g : OD Str (List Filt)) : Except PyErr (OD Str Filt) :=
  if g.any (fun p => p.2.length == 1) then .error .attributeError else readGroups [] g

/-- Write and read back the filters of a survey. -/
def filtersBack (fs : List Filt) : Except PyErr (OD Str Filt) := readFilters (group (written fs))

/-- A run: whether it has electric, magnetic, auxiliary channels. -/
structure XRun where
  electric : Bool
  magnetic : Bool
  auxiliary : Bool

/-- A survey: its stations' runs, its filters. -/
structure XSurvey where
  stations : List (List XRun)
  filters : List Filt

/-- experiment.py L471-L490: every station must have a `run` element (`_pop_dictionary` raises
`KeyError`); missing channel classes are caught. -/
def readStations : List (List XRun) → Except PyErr Unit
  | [] => .ok ()
  | runs :: rest => if runs = [] then .error .keyError else readStations rest

/-- experiment.py L460-L492, one survey. -/
def readSurvey (s : XSurvey) : Except PyErr (OD Str Filt) :=
  if s.stations = [] then .error .keyError
  else
    match filtersBack s.filters with
    | .error e => .error e
    | .ok fs =>
      match readStations s.stations with
      | .error e => .error e
      | .ok _ => .ok fs

/-- experiment.py L435-L495 `from_xml` of the result of `to_xml` (L370-L433). -/
def readBack : List XSurvey → Except PyErr (List (OD Str Filt))
  | [] => .ok []
  | s :: rest =>
    match readSurvey s with
    | .error e => .error e
    | .ok fs =>
      match readBack rest with
      | .error e => .error e
      | .ok l => .ok (fs :: l)

end Verif.ExpXml
