import Mathlib.Data.Rat.Defs
import Verif.Base.Py
import Verif.Model.Enums

/-!
Model of `mt_metadata/processing/aurora/{station,stations,run,channel,channel_nomenclature}.py`: data frames
of stations, lookup of stations, channel nomenclature.

Simplifications: a data frame is its list of rows; a time stamp is an integer (nanoseconds), so the
text and pandas forms of a stamp are taken to denote the same instant (C15-C21 treat the text form);
pandas' requirement that the stamps of one column share one text format is left out. Objects are
values. Scale factors and sample rates are rationals.
-/

namespace Verif.Aurora

/-- channel.py L12-L39 -/
structure Chan where
  id : String
  scale : ℚ := 1
  deriving DecidableEq

/-- run.py L14-L86; a time period is (start, end). -/
structure Run where
  id : String
  inputs : List Chan := []
  outputs : List Chan := []
  periods : List (Int × Int) := []
  rate : ℚ := 1
  deriving DecidableEq

/-- station.py L15-L69 -/
structure Station where
  id : String := ""
  path : String := ""
  remote : Bool := false
  runs : List Run := []
  deriving DecidableEq

/-- One row of a data set data frame; `scales` is `none` when the data frame has no such column. -/
structure Row where
  station : String
  run : String
  start : Int
  stop : Int
  path : String
  rate : ℚ
  inputs : List String
  outputs : List String
  remote : Bool
  scales : Option (OD String ℚ)
  deriving DecidableEq

/-- run.py L137-L144 `channel_scale_factors` -/
def scaleFactors (r : Run) : OD String ℚ :=
  OD.ofPairs ((r.inputs ++ r.outputs).map fun c => (c.id, c.scale))

/-- run.py L162-L167: the body of the loops of `set_channel_scale_factors`. -/
def setScale (d : OD String ℚ) (c : Chan) : Chan :=
  match OD.get? d c.id with
  | some v => { c with scale := v }
  | none => c

/-- run.py L146-L167 `set_channel_scale_factors` -/
def setScales (d : OD String ℚ) (r : Run) : Run :=
  { r with inputs := r.inputs.map (setScale d), outputs := r.outputs.map (setScale d) }

/-- station.py L166-L180: the rows of one run. -/
def runRows (s : Station) (r : Run) : List Row :=
  r.periods.map fun p =>
    { station := s.id, run := r.id, start := p.1, stop := p.2, path := s.path, rate := r.rate,
      inputs := r.inputs.map Chan.id, outputs := r.outputs.map Chan.id, remote := s.remote,
      scales := some (scaleFactors r) }

/-- station.py L145-L187 `to_dataset_dataframe` -/
def toDf (s : Station) : List Row := s.runs.flatMap (runRows s)

/-- station.py L234-L247: a run made from a row. -/
def newRun (w : Row) : Run :=
  setScales (w.scales.getD [])
    { id := w.run, inputs := w.inputs.map (fun n => { id := n }), outputs := w.outputs.map (fun n => { id := n }),
      periods := [(w.start, w.stop)], rate := w.rate }

/-- station.py L228-L231: append a time period to the run of that id (the ids are distinct here: a run is
added only when its id is not yet in `run_dict`). -/
def addPeriod (w : Row) (r : Run) : Run :=
  if r.id = w.run then { r with periods := r.periods ++ [(w.start, w.stop)] } else r

/-- station.py L226-L248: one turn of the loop. -/
def addRow (rs : List Run) (w : Row) : List Run :=
  if w.run ∈ rs.map Run.id then rs.map (addPeriod w) else rs ++ [newRun w]

/-- station.py L189-L248 `from_dataset_dataframe` -/
def fromDf (s : Station) (df : List Row) : Station :=
  match df with
  | [] => { s with runs := [] }
  | w :: ws =>
    { id := w.station, path := w.path, remote := w.remote, runs := (w :: ws).foldl addRow [] }

/-- stations.py L14-L41 -/
structure Stations where
  loc : Station := {}
  remote : List Station := []
  deriving DecidableEq

/-- `Series.unique()`: the distinct values in order of first appearance. -/
def unique : List String → List String
  | [] => []
  | a :: l => a :: (unique l).filter (fun b => decide (b ≠ a))

/-- stations.py L104-L125 `add_remote` -/
def addRemote (st : Stations) (s : Station) : Stations :=
  { st with remote := st.remote ++ [{ s with remote := true }] }

/-- The rows of one station: `df[df.station == name]`. -/
def rowsOf (df : List Row) (name : String) : List Row := df.filter fun w => decide (w.station = name)

/-- stations.py L141-L167 `from_dataset_dataframe` -/
def stationsFromDf (st : Stations) (df : List Row) : Except PyErr Stations :=
  if df = [] then .ok st else
  match unique ((df.filter fun w => !w.remote).map Row.station) with
  | [] => .error .indexError
  | name :: _ =>
    .ok ((unique ((df.filter fun w => w.remote).map Row.station)).foldl
      (fun acc n => addRemote acc (fromDf {} (rowsOf df n)))
      { st with loc := fromDf st.loc (rowsOf df name) })

/-- stations.py L169-L186 `to_dataset_dataframe` -/
def stationsToDf (st : Stations) : List Row := toDf st.loc ++ st.remote.flatMap toDf

/-- stations.py L127-L139 `remote_dict` -/
def remoteDict (st : Stations) : OD String Station := OD.ofPairs (st.remote.map fun s => (s.id, s))

/-- stations.py L188-L210 `get_station` -/
def getStation (st : Stations) (id : String) : Except PyErr Station :=
  if st.loc.id = id then .ok st.loc else
  match OD.get? (remoteDict st) id with
  | some s => .ok s
  | none => .error .keyError

/-! ### Channel nomenclature -/

open Verif.Enums (In validate)

/-- The five channels. -/
inductive Fld where
  | hx | hy | hz | ex | ey
  deriving DecidableEq

/-- channel_nomenclature.py L14-L51: the labels each channel may have. -/
def allowed : Fld → List Str
  | .ex => ["ex", "e1", "e2", "e3", "e4"].map String.toList
  | .ey => ["ey", "e1", "e2", "e3", "e4"].map String.toList
  | .hx => ["bx", "hx", "h1", "h2", "h3"].map String.toList
  | .hy => ["by", "hy", "h1", "h2", "h3"].map String.toList
  | .hz => ["bz", "hz", "h1", "h2", "h3"].map String.toList

/-- channel_nomenclature.py L54-L59 -/
def keywords : List Str := ["default", "lemi12", "lemi34", "musgraves", "phoenix123"].map String.toList

/-- transfer_functions/__init__.py L64-L73 `CHANNEL_MAPS`, each map in order hx hy hz ex ey. -/
def channelMaps : OD Str (OD Fld Str) :=
  let m (a b c d e : String) : OD Fld Str :=
    [(.hx, a.toList), (.hy, b.toList), (.hz, c.toList), (.ex, d.toList), (.ey, e.toList)]
  [("default".toList, m "hx" "hy" "hz" "ex" "ey"), ("lemi12".toList, m "bx" "by" "bz" "e1" "e2"),
   ("lemi34".toList, m "bx" "by" "bz" "e3" "e4"), ("phoenix123".toList, m "h1" "h2" "h3" "e1" "e2"),
   ("musgraves".toList, m "bx" "by" "bz" "ex" "ey"), ("nims".toList, m "hx" "hy" "hz" "ex" "ey")]

/-- channel_nomenclature.py L62-L145 -/
structure Nom where
  hx : Str := "hx".toList
  hy : Str := "hy".toList
  hz : Str := "hz".toList
  ex : Str := "ex".toList
  ey : Str := "ey".toList
  keyword : Str := "default".toList
  deriving DecidableEq

/-- attribute access -/
def Nom.get (n : Nom) : Fld → Str
  | .hx => n.hx
  | .hy => n.hy
  | .hz => n.hz
  | .ex => n.ex
  | .ey => n.ey

/-- attribute store -/
def Nom.put (n : Nom) : Fld → Str → Nom
  | .hx, v => { n with hx := v }
  | .hy, v => { n with hy := v }
  | .hz, v => { n with hz := v }
  | .ex, v => { n with ex := v }
  | .ey, v => { n with ey := v }

/-- `nomenclature.<f> = v`: validated by the enumeration of that channel. -/
def setField (n : Nom) (f : Fld) (v : In) : Except PyErr Nom :=
  match validate (allowed f) v with
  | .ok m => .ok (n.put f m)
  | .error e => .error e

/-- channel_nomenclature.py L189-L199 `get_channel_map` (`keyword.lower()` of an enumeration member is its
value in lower case). -/
def getMap (n : Nom) : Except PyErr (OD Fld Str) :=
  match OD.get? channelMaps (Enums.lower n.keyword) with
  | some m => .ok m
  | none => .error .notImplementedError

/-- Assign `channel_map[f]` to field `f`, for each field in turn. -/
def assignAll (m : OD Fld Str) : List Fld → Nom → Except PyErr Nom
  | [], n => .ok n
  | f :: fs, n =>
    match OD.get? m f with
    | none => .error .keyError
    | some v =>
      match setField n f (.str v) with
      | .error e => .error e
      | .ok n1 => assignAll m fs n1

/-- channel_nomenclature.py L201-L210 `update` -/
def Nom.update (n : Nom) : Except PyErr Nom :=
  match getMap n with
  | .error e => .error e
  | .ok m => assignAll m [.ex, .ey, .hx, .hy, .hz] n

/-- channel_nomenclature.py L147-L152 `check_keyword` -/
def checkKeyword : In → In
  | .none => .str "default".toList
  | v => v

/-- channel_nomenclature.py L221-L233 `__setattr__` for `keyword`: validated, stored, then all names are
updated. -/
def setKeyword (n : Nom) (v : In) : Except PyErr Nom :=
  match validate keywords (checkKeyword v) with
  | .error e => .error e
  | .ok k => { n with keyword := k }.update

/-- Validate the explicitly given labels of a constructor call. -/
def setGiven : List (Fld × In) → Nom → Except PyErr Nom
  | [], n => .ok n
  | p :: ps, n =>
    match setField n p.1 p.2 with
    | .error e => .error e
    | .ok n1 => setGiven ps n1

/-- `ChannelNomenclature(ex=…, …, keyword=…)`: the given values are validated, then
`model_post_init` (L235-L238) updates. -/
def construct (given : List (Fld × In)) (keyword : Option In) : Except PyErr Nom :=
  match setGiven given {} with
  | .error e => .error e
  | .ok n =>
    match keyword with
    | none => n.update
    | some k =>
      match validate keywords (checkKeyword k) with
      | .error e => .error e
      | .ok k' => { n with keyword := k' }.update

/-- channel_nomenclature.py L215-L219 `channels` -/
def channels (n : Nom) : Except PyErr (List Str) :=
  match getMap n with
  | .error e => .error e
  | .ok m => .ok (OD.values m)

/-- An attribute assignment by the user. -/
inductive Op where
  | field (f : Fld) (v : In)
  | keyword (v : In)
  deriving DecidableEq

/-- A failing assignment raises and leaves the object as it was (the validation fails before the store). -/
def step (n : Nom) : Op → Nom
  | .field f v => match setField n f v with
    | .ok n1 => n1
    | .error _ => n
  | .keyword v => match setKeyword n v with
    | .ok n1 => n1
    | .error _ => n

/-- Any history of assignments. -/
def runOps (n : Nom) (ops : List Op) : Nom := ops.foldl step n

end Verif.Aurora
