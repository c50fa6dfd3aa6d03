import Verif.Model.Survey

/-! # The metadata of a transfer function object

`mt_metadata/transfer_functions/core.py` L227-L265 (`_add_channels`, `_initialize_metadata`), L366-L475 (the setters of
`survey_metadata`, `station_metadata`, `run_metadata`), L1588-L1605 (`station`), and the parts of `from_edi` (L2134-L2135), `from_emtfxml`
(L2233-L2234), `from_jfile` (L2307-L2308), `from_zmm` (L2447-L2456) and `from_avg` (L2597) that set metadata.

The metadata of a TF is a survey (Model/Survey). Objects are values. Runs are stored under their ids. Dictionaries given instead of objects
(core.py L268-L364) are read as in Model/ExperimentDict and are not repeated here. -/

namespace Verif.TfMeta
open Verif.Runs Verif.Stations Verif.Surveys

/-- core.py L227-L250 `_add_channels` with the default channels. -/
def addChannels (req : List String) (r : Run) : Except PyErr Run :=
  addAll req [⟨"ex", .electric, 0, 0, []⟩, ⟨"ey", .electric, 0, 0, []⟩, ⟨"hx", .magnetic, 0, 0, []⟩, ⟨"hy", .magnetic, 0, 0, []⟩,
    ⟨"hz", .magnetic, 0, 0, []⟩] r

/-- core.py L252-L265 `_initialize_metadata`: station and run are appended to the dictionaries, which validates nothing. -/
def fresh (req : List String) : Except PyErr Survey :=
  (addChannels req {}).map fun r => { id := "0", stations := [("0", { id := "0", body := { runs := [("0", r)] } })] }

/-- core.py L388, base/metadata.py L574-L611: an empty id is skipped. -/
def updateSurvey (a b : Survey) : Survey := { a.update b with id := if b.id = "" then a.id else b.id }

/-- core.py L390-L391. -/
def addStations (req : List String) : List St → Survey → Except PyErr Survey
  | [], s => .ok s
  | x :: xs, s =>
    match addStation req s { x with body := Stations.updateTime x.body } true with
    | .error e => .error e
    | .ok s1 => addStations req xs s1

/-- core.py L393-L397. -/
def dropPlaceholder (s : Survey) : Survey :=
  Surveys.updateTime
    (if 1 < (OD.keys s.stations).length ∧ "0" ∈ OD.keys s.stations then { s with stations := OD.erase s.stations "0" } else s)

/-- core.py L374-L397, `tf.survey_metadata = sv`. -/
def setSurvey (req : List String) (tf sv : Survey) : Except PyErr Survey :=
  (addStations req (OD.values sv.stations) (updateSurvey tf sv)).map dropPlaceholder

/-- core.py L400-L405 `station_metadata`. -/
def stationOf (tf : Survey) : Except PyErr St :=
  match tf.stations with
  | [] => .error .keyError
  | p :: _ => .ok p.2

/-- core.py L439-L445 `run_metadata`. -/
def runOf (tf : Survey) : Except PyErr (String × Run) :=
  (stationOf tf).bind fun st =>
    match st.body.runs with
    | [] => .error .keyError
    | p :: _ => .ok p

/-- core.py L427-L429: unless its id is "0", a first run is kept. -/
def startRuns (old : String × Run) : OD String Run := if old.1 ≠ "0" then [old] else []

/-- core.py L430-L432. -/
def orOne (d : OD String Run) : OD String Run := if d = [] then [("0", {})] else d

/-- core.py L433-L435. -/
def withChannels (req : List String) : OD String Run → Except PyErr (OD String Run)
  | [] => .error .keyError
  | (k, r) :: d => if r.channels = [] then (addChannels req r).map fun r' => (k, r') :: d else .ok ((k, r) :: d)

/-- core.py L427-L435. -/
def newRuns (req : List String) (old : String × Run) (st : Station) : Except PyErr (OD String Run) :=
  withChannels req (orOne (st.runs.foldl (fun (acc : OD String Run) p => OD.set acc p.1 p.2) (startRuns old)))

/-- core.py L407-L442, `tf.station_metadata = st`. -/
def setStation (req : List String) (tf : Survey) (st : St) : Except PyErr Survey :=
  (runOf tf).bind fun old =>
  (newRuns req old st.body).bind fun runs =>
  (touch req { st.body with runs := runs }).bind fun body =>
  .ok (Surveys.updateTime { tf with stations := [(st.id, { st with body := Stations.updateTime body })] })

/-- core.py L1588-L1605, `tf.station = name` (`name` after `validate_name`): the id of the first station is assigned, it stays under its
key. -/
def setName (req : List String) (tf : Survey) (name : String) : Except PyErr Survey :=
  match tf.stations with
  | [] => .error .keyError
  | (k, st) :: rest => (touch req st.body).map fun b => { tf with stations := (k, { st with id := name, body := b }) :: rest }

/-- core.py L2134-L2135, L2307-L2308, L2597: `from_edi`, `from_jfile`, `from_avg`. -/
def fromEdi (req : List String) (tf sv : Survey) : Except PyErr Survey := setSurvey req tf sv

/-- core.py L2233-L2234 `from_emtfxml`. -/
def fromEmtfxml (req : List String) (tf sv : Survey) : Except PyErr Survey :=
  (setSurvey req tf sv).bind fun t => (stationOf t).bind fun st => setStation req t st

/-- core.py L2447-L2456 `from_zmm`; zmm.py L1096-L1100: the survey of a ZMM object is a new one with its station. -/
def fromZmm (req : List String) (tf : Survey) (st : St) : Except PyErr Survey :=
  (addStation req {} st true).bind fun sv => (setSurvey req tf sv).bind fun t => setStation req t st

/-- The attributes and methods of a TF object (core.py): those set by `__init__` (L45-L110) and those of the class. -/
def tfNames : List String :=
  ["__deepcopy__", "__eq__", "__init__", "__ne__", "__repr__", "__str__", "_add_channels", "_ch_input_dict", "_ch_output_dict",
   "_channel_nomenclature", "_compute_error_from_covariance", "_compute_impedance_error_from_covariance",
   "_compute_tipper_error_from_covariance", "_dataset_attr_dict", "_fn", "_get_template_key", "_initialize_metadata",
   "_initialize_transfer_function", "_inverse_channel_nomenclature", "_read_write_dict", "_rotation_angle", "_set_data_array",
   "_survey_metadata", "_template_cache", "_transfer_function", "_validate_input_dataarray", "_validate_input_ndarray",
   "_validate_run_metadata", "_validate_station_metadata", "_validate_survey_metadata", "channel_nomenclature", "copy", "dataset",
   "decimation_dict", "elevation", "ex", "ex_ey", "ex_ey_hz", "ey", "fn", "frequency", "from_avg", "from_edi", "from_emtfxml",
   "from_jfile", "from_ts_station_metadata", "from_zmm", "from_zrr", "from_zss", "has_impedance", "has_inverse_signal_power",
   "has_residual_covariance", "has_tipper", "has_transfer_function", "hx", "hx_hy", "hy", "hz", "impedance", "impedance_error",
   "impedance_model_error", "index_tzx", "index_tzy", "index_zxx", "index_zxy", "index_zyx", "index_zyy", "inverse_channel_nomenclature",
   "inverse_signal_power", "latitude", "longitude", "make_zmm_run", "merge", "period", "read", "read_tf_file", "residual_covariance",
   "run_metadata", "save_dir", "station", "station_metadata", "survey", "survey_metadata", "tf_id", "tipper", "tipper_error",
   "tipper_model_error", "to_avg", "to_edi", "to_emtfxml", "to_jfile", "to_ts_station_metadata", "to_zmm", "to_zrr", "to_zss",
   "transfer_function", "transfer_function_error", "transfer_function_model_error", "write", "write_tf_file"]

/-- `self.name`; `extra` are the attributes set by keyword arguments of `__init__` (L103-L104) or by the user. -/
def hasName (extra : List String) (n : String) : Except PyErr Unit :=
  if n ∈ tfNames ++ extra then .ok () else .error .attributeError

/-- core.py L447-L475, `tf.run_metadata = run`: L464 reads `self.component`. What is done with it afterwards is not modelled: the new run is the
first one. -/
def setRun (extra : List String) (tf : Survey) (id : String) (r : Run) : Except PyErr Survey :=
  (hasName extra "component").bind fun _ =>
    match tf.stations with
    | [] => .error .keyError
    | (k, st) :: rest => .ok { tf with stations := (k, { st with body := { st.body with runs := (id, r) :: OD.erase st.body.runs id } }) :: rest }

end Verif.TfMeta
