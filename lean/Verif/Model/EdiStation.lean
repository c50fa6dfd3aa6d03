import Verif.Model.EdiInfo

/-! # Station and survey metadata of an EDI object

`mt_metadata/transfer_functions/io/edi/edi.py` L946-L1423: the properties `station`, `survey_metadata`,
`station_metadata` with their setters, and the metadata of the channels, as far as they pass through the header and the
information section.

Simplifications: the attributes of an object are a dictionary of dotted names (what `to_dict(single=True)` returns and
`update_attribute` sets); numbers, dates and enumerations are their texts; `update_attribute` fails if the first name of a
dotted one is not an attribute, later names are taken to exist; what pydantic does to a value is left out.
Runs and channels that the measurement section adds are not modelled here (`Model/EdiMeta`), nor are the comments, which
are the whole information section after reading and are not written (L1237-L1239 asks for a text where the attribute is an
object). -/

namespace Verif.EdiStation
open Verif.Text Verif.EdiInfo

/-- Attributes of an object. -/
abbrev Attrs := OD Str IV

/-- mt_metadata/__init__.py L93-L104 `NULL_VALUES`, the texts. -/
def nullTexts : List Str :=
  ["".toList, "null".toList, "None".toList, "NONE".toList, "NULL".toList, "Null".toList, "none".toList,
    "1980-01-01T00:00:00".toList, "1980-01-01T00:00:00+00:00".toList]

/-- `value in NULL_VALUES` -/
def isNull : IV → Bool
  | .null => true
  | .text s => nullTexts.contains s
  | .list _ => false

/-- tf/transfer_function.py L22-L211: the transfer function of a station. -/
structure Transfer where
  attrs : Attrs
  runs : List Str
  remotes : List Str
  params : List Str
  deriving DecidableEq

/-- A channel. -/
structure Channel where
  component : Str
  attrs : Attrs
  deriving DecidableEq

/-- A run. -/
structure Run where
  id : Str
  attrs : Attrs
  channels : List Channel
  deriving DecidableEq

/-- tf/station.py: a station with its transfer function. -/
structure Station where
  attrs : Attrs
  tf : Transfer
  runs : List Run
  deriving DecidableEq

/-- `getattr`; a missing attribute is `None`. -/
def attr (a : Attrs) (k : String) : IV := (a.get? k.toList).getD .null

/-- `f"{a}.{b}"` -/
def dot (a b : Str) : Str := a ++ '.' :: b

/-! ## Writing -/

/-- L1222-L1236: the attributes of the header taken from the station; the units from the transfer function. -/
def headerPairs : List (String × String) :=
  [("acqby", "acquired_by.author"), ("acqdate", "time_period.start"),
    ("coordinate_system", "orientation.reference_frame"), ("dataid", "id"), ("declination", "location.declination.value"),
    ("elevation", "location.elevation"), ("fileby", "provenance.submitter.author"),
    ("filedate", "provenance.creation_time"), ("latitude", "location.latitude"), ("longitude", "location.longitude"),
    ("datum", "location.datum"), ("enddate", "time_period.end")]

/-- L1222-L1236 -/
def writeHeader (h : Attrs) (st : Station) : Attrs :=
  let h := headerPairs.foldl (fun h p => h.set p.1.toList (attr st.attrs p.2)) h
  let h := h.set "units".toList (attr st.tf.attrs "units")
  if attr st.attrs "geographic_name" = .null then h else h.set "loc".toList (attr st.attrs "geographic_name")

/-- `transfer_function.to_dict(single=True)`; the order of the names is not that of the code. -/
def Transfer.items (t : Transfer) : List (Str × IV) :=
  t.attrs ++ [("processing_parameters".toList, .list t.params), ("remote_references".toList, .list t.remotes),
    ("runs_processed".toList, .list t.runs)]

/-- L1244-L1248: one parameter for each text `name=value`; without an equal sign two names cannot be unpacked. -/
def writeParams : Info → List Str → Except PyErr Info
  | d, [] => .ok d
  | d, s :: t =>
    match split1 '=' s with
    | (p, some v) => writeParams (d.set ("transfer_function.processing_parameters.".toList ++ p) (.text v)) t
    | (_, none) => .error .valueError

/-- L1241-L1251 -/
def writeTransfer : Info → List (Str × IV) → Except PyErr Info
  | d, [] => .ok d
  | d, (k, v) :: t =>
    if isNull v then writeTransfer d t
    else if k = "processing_parameters".toList then
      match v with
      | .list l => (writeParams d l).bind fun d => writeTransfer d t
      | .text s => (writeParams d (s.map fun c => [c])).bind fun d => writeTransfer d t
      | .null => writeTransfer d t
    else writeTransfer (d.set ("transfer_function.".toList ++ k) v) t

/-- L143-L175 `_channel_skip_list` -/
def skipped : List String :=
  ["filter.name", "filter.applied", "time_period.start", "time_period.end", "location.elevation", "location.latitude",
    "location.longitude", "location.x", "location.y", "location.z", "positive.latitude", "positive.longitude",
    "positive.elevation", "positive.x", "positive.x2", "positive.y", "positive.y2", "positive.z", "positive.z2",
    "negative.latitude", "negative.longitude", "negative.elevation", "negative.x", "negative.x2", "negative.y",
    "negative.y2", "negative.z", "negative.z2", "sample_rate", "data_quality.rating.value", "data_quality.flag"]

/-- Write the attributes that have a value under a name. -/
def writeAttrs (pre : Str) (d : Info) (l : List (Str × IV)) : Info :=
  (l.filter (fun p => !isNull p.2)).foldl (fun d p => d.set (dot pre p.1) p.2) d

/-- L1264-L1273 -/
def writeChannel (run : Str) (d : Info) (c : Channel) : Info :=
  writeAttrs (dot run c.component) d (c.attrs.filter (fun p => !(skipped.map String.toList).contains p.1))

/-- L1257-L1273 -/
def writeRun (d : Info) (r : Run) : Info := r.channels.foldl (writeChannel r.id) (writeAttrs r.id d r.attrs)

/-- `station.provenance.to_dict(single=True)` -/
def provenance (a : Attrs) : Attrs :=
  (a.filter (fun p => "provenance.".toList.isPrefixOf p.1)).map (fun p => (p.1.drop "provenance.".length, p.2))

/-- L1211-L1273 `station_metadata.setter`. -/
def writeStation (h : Attrs) (d : Info) (st : Station) : Except PyErr (Attrs × Info) :=
  (writeTransfer d st.tf.items).bind fun d =>
  .ok (writeHeader h st, st.runs.foldl writeRun (writeAttrs "provenance".toList d (provenance st.attrs)))

/-- L995-L1024 `survey_metadata.setter`; the summary, written first, is an attribute as the others. -/
def writeSurvey (h : Attrs) (d : Info) (s : Attrs) : Attrs × Info :=
  let h := h.set "survey".toList (attr s "id")
  let h := h.set "project".toList (attr s "project")
  let h := h.set "loc".toList (attr s "geographic_name")
  let h := h.set "country".toList (attr s "country")
  (h, writeAttrs "survey".toList d (s.filter (fun p =>
    !(hasSub "northwest".toList p.1 || hasSub "southeast".toList p.1 || hasSub "time_period".toList p.1))))

/-! ## Reading -/

/-- The attributes of `Station`: timeseries/station.py L32-L228, tf/station.py L17. -/
def stationFields : List String :=
  ["channel_layout", "channels_recorded", "comments", "data_type", "fdsn", "geographic_name", "id", "run_list", "location",
    "orientation", "acquired_by", "provenance", "time_period", "runs", "transfer_function"]

/-- base/metadata.py L146-L187 `update_attribute` of a station. -/
def update (st : Station) (k : Str) (v : IV) : Except PyErr Station :=
  match splitC '.' k with
  | first :: _ :: _ =>
    if (stationFields.map String.toList).contains first then .ok { st with attrs := st.attrs.set k v }
    else .error .attributeError
  | _ => .ok { st with attrs := st.attrs.set k v }

/-- `f"{value}"`; `rep` prints a list. -/
def show' (rep : List Str → Str) : IV → Str
  | .null => "None".toList
  | .text s => s
  | .list l => rep l

/-- L1074-L1083: the items of a list; an item with two equal signs cannot be unpacked. -/
def readParams : List Str → List Str → Except PyErr (List Str)
  | acc, [] => .ok acc
  | acc, s :: t =>
    match splitC '=' s with
    | [_] => readParams (acc ++ [s]) t
    | [p, v] => readParams (acc ++ [p ++ '=' :: v]) t
    | _ => .error .valueError

/-- L1069-L1123: an item of the transfer function, `k` its name without `transfer_function.`. The names that
are asked for when there are two dots or more have one only, nothing is done then. -/
def readTransfer (rep : List Str → Str) (t : Transfer) (k : Str) (v : IV) : Except PyErr Transfer :=
  if hasSub "processing_parameters".toList k then
    match v with
    | .list l => (readParams t.params l).bind fun p => .ok { t with params := p }
    | _ => .ok { t with params := t.params ++ [(splitC '.' k).getLastD [] ++ '=' :: show' rep v] }
  else if hasSub "remote_references".toList k then
    if 1 < k.count '.' then .ok t
    else match v with
      | .list l => .ok { t with remotes := t.remotes ++ l }
      | .text s => .ok { t with remotes := t.remotes ++ [s] }
      | .null => .ok t
  else if hasSub "runs_processed".toList k then .ok t
  else .ok { t with attrs := t.attrs.set k v }

/-- Set an attribute of the channel `comp`, which is added if it is missing. -/
def setChannel (comp k : Str) (v : IV) : List Channel → List Channel
  | [] => [⟨comp, [(k, v)]⟩]
  | c :: t => if c.component = comp then { c with attrs := c.attrs.set k v } :: t else c :: setChannel comp k v t

/-- L1137-L1144: the channels that are known. -/
def known : List String := ["ex", "ey", "hx", "hy", "hz", "rrhx", "rrhy"]

/-- The attributes of a run that have attributes: timeseries/run.py L36-L240. -/
def runParts : List String := ["comments", "acquired_by", "metadata_by", "provenance", "time_period", "data_logger", "fdsn"]

/-- L1125-L1163: an item of the run, `k` its name without `run.`; only names with a dot are looked at. -/
def readRun (rs : List Run) (k : Str) (v : IV) : List Run :=
  match rs with
  | [] => []
  | r :: t =>
    match split1 '.' k with
    | (comp, some k) =>
      let v := if k = "comments".toList then (match v with
        | .list l => .text (join [','] l)
        | v => v) else v
      if (runParts.map String.toList).contains comp then { r with attrs := r.attrs.set (dot comp k) v } :: t
      else if (known.map String.toList).contains comp then { r with channels := setChannel comp k v r.channels } :: t
      else r :: t
    | (_, none) => r :: t

/-- `value.split(",")` if there is a comma, else `value.split()`. -/
def listOf (s : Str) : List Str := if ',' ∈ s then splitC ',' s else words s

/-- L1174-L1184: the runs in a list, those that are missing are added. -/
def addRuns (rs : List Run) (ids : List Str) : List Run :=
  ids.foldl (fun rs i => if rs.any (fun r => decide (r.id = i)) then rs else rs ++ [⟨i, [], []⟩]) rs

/-- L1164-L1191: the other names. -/
def readOther (rep : List Str → Str) (st : Station) (k : Str) (v : IV) : Except PyErr Station :=
  if k = "processedby".toList ∨ k = "processed_by".toList then
    .ok { st with tf := { st.tf with attrs := st.tf.attrs.set "processed_by.name".toList v } }
  else if k = "runlist".toList ∨ k = "run_list".toList then
    match v with
    | .text s => .ok { st with tf := { st.tf with runs := listOf s }, runs := addRuns st.runs (listOf s) }
    | _ => .error .attributeError
  else if k = "sitename".toList then .ok { st with attrs := st.attrs.set "geographic_name".toList v }
  else if k = "signconvention".toList then
    .ok { st with tf := { st.tf with attrs := st.tf.attrs.set "sign_convention".toList v } }
  else if hasSub "mtft".toList k || hasSub "emtf".toList k || hasSub "mtedit".toList k then
    .ok { st with tf := { st.tf with params := st.tf.params ++ [k ++ '=' :: show' rep v] } }
  else .ok st

/-- L1165-L1173: an item of the processing, `k` its name without `processing.`. -/
def readProcessing (st : Station) (k : Str) (v : IV) : Except PyErr Station :=
  if k = "software".toList then .ok { st with tf := { st.tf with attrs := st.tf.attrs.set "software.name".toList v } }
  else if k = "tag".toList then
    match v with
    | .text s => .ok { st with tf := { st.tf with remotes := listOf s } }
    | _ => .error .attributeError
  else .ok st

/-- `key.split(sep)[1]` -/
def second (sep k : Str) : Except PyErr Str :=
  match (splitSub sep k)[1]? with
  | none => .error .indexError
  | some k => .ok k

/-- L1125-L1191: a name that is neither of provenance nor of the transfer function. -/
def readField (rep : List Str → Str) (st : Station) (k : Str) (v : IV) : Except PyErr Station :=
  if "run.".toList.isPrefixOf k then
    (second "run.".toList k).bind fun k => .ok { st with runs := readRun st.runs k v }
  else if "data_logger".toList.isPrefixOf k then
    match st.runs with
    | [] => .error .keyError
    | r :: t => .ok { st with runs := { r with attrs := r.attrs.set k v } :: t }
  else if "station.".toList.isPrefixOf k then (second "station.".toList k).bind fun k => update st k v
  else if hasSub "processing.".toList k then
    (second "processing.".toList k).bind fun k => readProcessing st k v
  else readOther rep st k v

/-- L1066-L1191: an item with a value, its name in lower case. -/
def readKey (rep : List Str → Str) (st : Station) (k : Str) (v : IV) : Except PyErr Station :=
  if hasSub "provenance".toList k then update st k v
  else if hasSub "transfer_function".toList k then
    (second "transfer_function.".toList k).bind fun k =>
    (readTransfer rep st.tf k v).bind fun t => .ok { st with tf := t }
  else readField rep st k v

/-- L1060-L1191: one item of the information section. -/
def readItem (rep : List Str → Str) (st : Station) (k : Str) (v : IV) : Except PyErr Station :=
  if isNull v then .ok st else readKey rep st (lower k) v

/-- L1059-L1191: the loop over the information section. -/
def readItems (rep : List Str → Str) : Station → Info → Except PyErr Station
  | st, [] => .ok st
  | st, (k, v) :: t => (readItem rep st k v).bind fun st => readItems rep st t

/-- L946-L954 `station`: the name in the header, which is a text always. -/
def stationName (h : Attrs) : Str :=
  match attr h "dataid" with
  | .text s => replaceC '/' "_".toList s
  | _ => []

/-- Set an attribute unless the value is `None`. -/
def setSome (a : Attrs) (k : String) (v : IV) : Attrs := if v = .null then a else a.set k.toList v

/-- L1039: the first word of the coordinate system, of which the header allows a few values only, none of them empty. -/
def firstWord : IV → IV
  | .text s => .text ((words s).headD [])
  | v => v

/-- L1027-L1057: what is taken from the header before the information is read. -/
def fromHeader (h : Attrs) : Station :=
  let name := stationName h
  let a : Attrs := [("id".toList, .text name), ("data_type".toList, .text "MT".toList),
    ("location.latitude".toList, attr h "latitude"), ("location.longitude".toList, attr h "longitude"),
    ("location.elevation".toList, attr h "elevation"), ("location.datum".toList, attr h "datum"),
    ("location.declination.value".toList, attr h "declination"),
    ("orientation.reference_frame".toList, firstWord (attr h "coordinate_system"))]
  let a := setSome a "geographic_name" (attr h "loc")
  let a := setSome a "acquired_by.author" (attr h "acqby")
  let a := a.set "provenance.creation_time".toList (attr h "filedate")
  let a := a.set "provenance.submitter.author".toList (attr h "fileby")
  let a := a.set "provenance.software.name".toList (attr h "fileby")
  let a := a.set "provenance.software.version".toList (attr h "progvers")
  let a := setSome a "time_period.start" (attr h "acqdate")
  let a := setSome a "time_period.end" (attr h "enddate")
  { attrs := a
    tf := ⟨[("processed_date".toList, attr h "filedate"), ("id".toList, .text name)], [name ++ ['a']], [], []⟩
    runs := [⟨name ++ ['a'], [], []⟩] }

/-- L1027-L1209 `station_metadata` -/
def readStation (rep : List Str → Str) (h : Attrs) (d : Info) : Except PyErr Station :=
  (readItems rep (fromHeader h) d).bind fun st =>
  .ok { st with tf := { st.tf with attrs := setSome st.tf.attrs "processed_date" (attr h "filedate") } }

/-- L987-L992: the items of the survey. -/
def readSurveyItems : Attrs → Info → Except PyErr Attrs
  | s, [] => .ok s
  | s, (k, v) :: t =>
    if "survey.".toList.isPrefixOf (lower k) then
      match (splitSub "survey.".toList (lower k))[1]? with
      | none => .error .indexError
      | some k => readSurveyItems (s.set k v) t
    else readSurveyItems s t

/-- L964-L992 `survey_metadata`, without the station. -/
def readSurvey (h : Attrs) (d : Info) : Except PyErr Attrs :=
  let s : Attrs := if attr h "project" = .null then setSome [] "project" (attr h "prospect")
    else [("project".toList, attr h "project")]
  let s := s.set "id".toList (if attr h "survey" = .null then .text ['0'] else attr h "survey")
  let s := setSome s "acquired_by.author" (attr h "acqby")
  let s := setSome s "geographic_name" (attr h "loc")
  let s := s.set "country".toList (attr h "country")
  readSurveyItems s d

/-- core.py L2042-L2060 `to_edi` and L2077-L2110 `from_edi`: write a survey and a station to an EDI object with the header
`h`, read them. -/
def convert (rep : List Str → Str) (h : Attrs) (s : Attrs) (st : Station) : Except PyErr (Attrs × Station) :=
  (writeStation (writeSurvey h [] s).1 (writeSurvey h [] s).2 st).bind fun p =>
  (readSurvey p.1 p.2).bind fun s' =>
  (readStation rep p.1 p.2).bind fun st' => .ok (s', st')

/-! ## Channels -/

/-- L1314-L1325: manufacturer and type of the electrodes. -/
def readElectrode (comp : Str) (a : Attrs) (p : Str × IV) : Attrs :=
  match (splitSub (comp ++ ['.']) p.1)[1]? with
  | none => a
  | some k =>
    if strip k = "manufacturer".toList then (a.set "negative.manufacturer".toList p.2).set "positive.manufacturer".toList p.2
    else if strip k = "type".toList then (a.set "negative.type".toList p.2).set "positive.type".toList p.2
    else a

/-- L1340-L1348 -/
def readElectricItem (comp : Str) (a : Attrs) (p : Str × IV) : Attrs :=
  if hasSub ".type".toList p.1 then a
  else match (splitOnce (dot [] (comp ++ ['.'])) p.1).2 with
    | none => a
    | some k => a.set k p.2

/-- L1291-L1352 `_get_electric_metadata` of a channel that was measured: the attributes taken from the information. -/
def readElectric (comp : Str) (d : Info) : Attrs :=
  d.foldl (readElectricItem comp) (d.foldl (readElectrode comp)
    [("positive.type".toList, .text "electric".toList), ("negative.type".toList, .text "electric".toList)])

/-- L1392-L1402 -/
def readMagneticItem (comp : Str) (a : Attrs) (p : Str × IV) : Attrs :=
  match (splitSub (comp ++ ['.']) p.1)[1]? with
  | none => a
  | some k =>
    let k := strip k
    if k = "manufacturer".toList then a.set "sensor.manufacturer".toList p.2
    else if k = "type".toList then a.set "sensor.type".toList p.2
    else if "sensor.".toList.isPrefixOf k then a.set k p.2
    else a

/-- L1362-L1403 `_get_magnetic_metadata`, as above. -/
def readMagnetic (comp : Str) (d : Info) : Attrs :=
  d.foldl (readMagneticItem comp) [("sensor.type".toList, .text "magnetic".toList)]

end Verif.EdiStation
