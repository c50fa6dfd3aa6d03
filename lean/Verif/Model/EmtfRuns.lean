import Verif.Model.EmtfData

/-! # Runs and channels of a station in an EMTF XML object

`mt_metadata/transfer_functions/io/emtfxml/emtfxml.py`: the field notes and the site layout that the setter of
`station_metadata` makes of the runs (L1404-L1557), and the runs that the getter makes of them (L1033-L1168); with
`_update_site_layout` (`Model/EmtfData`) in between, as in `to_emtfxml` and `from_emtfxml`
(`mt_metadata/transfer_functions/core.py` L2137-L2256).

Simplifications: channels whose names begin with `h` are magnetic, those with `e` electric (other channels are not looked at);
what `add_run` does to the times of the station is not
modelled here; `Comment(value=s)` and `as_string` of it are parameters, and so is what an assignment of a text to an
attribute of the field notes does that is not one of the comments or the errors. -/

namespace Verif.EmtfRuns
open Verif.Text Verif.EmtfData

/-- common/instrument.py L12-L82, as far as used. -/
structure Inst where
  id : Option Str := some []
  name : Option Str := none
  manufacturer : Option Str := some []
  type : Option Str := some []
  deriving DecidableEq, Repr

/-- timeseries/electrode.py: an instrument with a location (common/location.py L70-L272). -/
structure Pole (F : Type) where
  inst : Inst
  x : F
  y : F
  z : F
  x2 : F
  y2 : F
  z2 : F
  deriving DecidableEq, Repr

/-- timeseries/channel.py L71-L250, timeseries/magnetic.py, as far as used. -/
structure Mag (F T : Type) where
  sensor : Inst
  x : F
  y : F
  z : F
  azimuth : F
  translated : Option F
  start : T
  stop : T
  deriving DecidableEq, Repr

/-- timeseries/electric.py, as far as used. -/
structure Elec (F T : Type) where
  pos : Pole F
  neg : Pole F
  length : F
  azimuth : F
  translated : Option F
  start : T
  stop : T
  deriving DecidableEq, Repr

/-- timeseries/run.py L35-L240, as far as used: the magnetic and electric channels under their names. -/
structure Run (F T : Type) where
  id : Str
  logger : Inst
  rate : F
  start : T
  stop : T
  comments : Option Str
  mag : OD Str (Mag F T)
  elec : OD Str (Elec F T)
  deriving DecidableEq, Repr

/-- emtfxml/metadata/electrode.py -/
structure Pot where
  location : Str
  number : Str
  comments : Str
  deriving DecidableEq, Repr

/-- emtfxml/metadata/dipole.py L17-L88 -/
structure Dipole (F : Type) where
  name : Str
  azimuth : Option F
  length : F
  manufacturer : Option Str
  pots : List Pot
  deriving DecidableEq, Repr

/-- emtfxml/metadata/run.py L21-L139: the field notes of a run. -/
structure Notes (F T : Type) where
  run : Str
  inst : Inst
  rate : F
  start : T
  stop : T
  author : Option Str := none
  value : Option Str := none
  errors : Option Str := none
  mags : List Inst := []
  dipoles : List (Dipole F) := []
  deriving DecidableEq, Repr

/-- emtfxml/metadata/magnetic.py, electric.py: place and orientation of a channel of the site layout. -/
structure Place (F : Type) where
  x : F
  y : F
  z : F
  x2 : F
  y2 : F
  z2 : F
  orientation : F
  deriving DecidableEq, Repr

/-- What is left to the classes below. -/
structure World (F T : Type) where
  zero : F
  /-- `Comment(value=s).as_string()` (common/comment.py L90-L157) -/
  comment : Str → Str
  /-- `Comment(value=s).value` -/
  value : Str → Str
  /-- The start of a channel that has none. -/
  noTime : T
  /-- `update_attribute` of the field notes for names that are not modelled. -/
  assign : Notes F T → Str → Str → Except PyErr (Notes F T)

variable {F T : Type} [DecidableEq F]

/-! ## Writing: emtfxml.py L1404-L1557 -/

/-- emtfxml/metadata/run.py L21-L139 and base/metadata.py: names that field notes know. -/
def noteNames : List Str :=
  ["errors", "run", "sampling_rate", "start", "end", "comments", "instrument", "magnetometer", "dipole"].map String.toList

/-- base/metadata.py L146-L187 `update_attribute` of the field notes: unknown names are added (`extra="allow"`) and used
nowhere; a dotted name whose first part is unknown raises. -/
def setNote (W : World F T) (n : Notes F T) (k v : Str) : Except PyErr (Notes F T) :=
  if k = "comments.author".toList then .ok { n with author := some v }
  else if k = "comments.value".toList then .ok { n with value := some v }
  else if k = "errors".toList then .ok { n with errors := some v }
  else if '.' ∈ k then
    if (splitC '.' k).headD [] ∈ noteNames then W.assign n k v else .error .attributeError
  else if k ∈ noteNames then W.assign n k v
  else .ok n

/-- emtfxml.py L1426-L1432: one comment; what fails in it raises AttributeError. -/
def writeComment (W : World F T) (n : Notes F T) (c : Str) : Except PyErr (Notes F T) :=
  match split1 ':' c with
  | (_, none) => .ok n
  | (k, some v) =>
    match setNote W n (strip k) (strip v) with
    | .ok n => .ok n
    | .error _ => .error .attributeError

/-- emtfxml.py L1418-L1432 -/
def writeComments (W : World F T) (n : Notes F T) (c : Option Str) : Except PyErr (Notes F T) :=
  match c with
  | none => .ok n
  | some s => (splitC ';' s).foldlM (writeComment W) n

/-- emtfxml.py L1444-L1451: a magnetometer of three components. -/
def longPeriod (i : Inst) : Bool :=
  (i.name = some "NIMS".toList || i.name = some "LEMI".toList) && i.type = some "fluxgate".toList

/-- emtfxml.py L1434-L1456 -/
def writeMags (r : Run F T) : List Str → List Inst
  | [] => []
  | c :: cs =>
    match OD.get? r.mag c with
    | none => writeMags r cs
    | some ch =>
      { id := ch.sensor.id, name := some c, manufacturer := ch.sensor.manufacturer, type := ch.sensor.type } ::
        (if longPeriod ch.sensor then [] else writeMags r cs)

/-- A text is needed (emtfxml/metadata/electrode.py L30-L66). -/
def need (s : Option Str) : Except PyErr Str :=
  match s with
  | some t => .ok t
  | none => .error .valueError

/-- emtfxml.py L1460-L1481: a dipole. -/
def writeDipole (W : World F T) (comp : Str) (c : Elec F T) : Except PyErr (Dipole F) :=
  (need c.pos.inst.id).bind fun pid =>
  (need c.pos.inst.type).bind fun pty =>
  (need c.neg.inst.id).bind fun nid =>
  .ok { name := capitalize comp, azimuth := c.translated, length := c.length, manufacturer := c.pos.inst.manufacturer,
        pots := [⟨if comp = "ex".toList then "N".toList else "E".toList, pid, W.comment pty⟩,
                 ⟨if comp = "ex".toList then "S".toList else "W".toList, nid, W.comment pty⟩] }

/-- emtfxml.py L1458-L1484 -/
def writeDipoles (W : World F T) (r : Run F T) : List Str → Except PyErr (List (Dipole F))
  | [] => .ok []
  | c :: cs =>
    match OD.get? r.elec c with
    | none => writeDipoles W r cs
    | some ch => (writeDipole W c ch).bind fun d => (writeDipoles W r cs).map fun l => d :: l

/-- emtfxml.py L1408-L1486: the field notes of a run. -/
def writeNotes (W : World F T) (r : Run F T) : Except PyErr (Notes F T) :=
  (writeComments W
    { run := r.id, inst := { id := r.logger.id, name := r.logger.type, manufacturer := r.logger.manufacturer },
      rate := r.rate, start := r.start, stop := r.stop } r.comments).bind fun n =>
  (writeDipoles W r ["ex".toList, "ey".toList]).map fun ds =>
  { n with mags := writeMags r ["hx".toList, "hy".toList, "hz".toList], dipoles := ds }

/-- emtfxml.py L1505-L1508, L1544-L1547 -/
def turned (translated : Option F) (azimuth : F) : F :=
  match translated with
  | some a => a
  | none => azimuth

/-- emtfxml.py L1488-L1510: the place of a magnetic channel. -/
def magPlace (W : World F T) (c : Mag F T) : Place F :=
  ⟨c.x, c.y, c.z, W.zero, W.zero, W.zero, turned c.translated c.azimuth⟩

/-- emtfxml.py L1519-L1557: the place of an electric channel. -/
def elecPlace (W : World F T) (comp : Str) (c : Elec F T) : Place F :=
  let flat := c.neg.x = W.zero ∧ c.neg.y = W.zero ∧ c.pos.x2 = W.zero ∧ c.pos.y2 = W.zero
  { x := c.neg.x, y := c.neg.y, z := c.neg.z,
    x2 := if flat ∧ comp = "ex".toList then c.length else c.pos.x2,
    y2 := if flat ∧ comp = "ey".toList then c.length else c.pos.y2,
    z2 := c.pos.z2, orientation := turned c.translated c.azimuth }

/-- emtfxml.py L1488-L1557: the input and output channels so far, and those of one more run. -/
def addPlaces (W : World F T) (st : OD Str (Place F) × OD Str (Place F)) (r : Run F T) :
    OD Str (Place F) × OD Str (Place F) :=
  let mag := fun (d : OD Str (Place F)) (c : Str) => match OD.get? r.mag c with
    | some ch => OD.set d c (magPlace W ch)
    | none => d
  let elec := fun (d : OD Str (Place F)) (c : Str) => match OD.get? r.elec c with
    | some ch => OD.set d c (elecPlace W c ch)
    | none => d
  (mag (mag st.1 "hx".toList) "hy".toList, elec (elec (mag st.2 "hz".toList) "ex".toList) "ey".toList)

/-- A channel of the site layout, with its name. -/
abbrev LayChan (F : Type) := EmtfData.Chan (Place F)

/-- emtfxml.py L1559-L1560 -/
def layChans (d : OD Str (Place F)) : List (LayChan F) := d.map fun p => ⟨capitalize p.1, p.2⟩

/-- An EMTF XML object: field notes and site layout. -/
structure Obj (F T : Type) where
  notes : List (Notes F T)
  inputs : List (LayChan F)
  outputs : List (LayChan F)

/-- emtfxml.py L1404-L1560 -/
def write (W : World F T) (runs : List (Run F T)) : Except PyErr (Obj F T) :=
  (runs.mapM (writeNotes W)).map fun ns =>
    let lay := runs.foldl (addPlaces W) ([], [])
    { notes := ns, inputs := layChans lay.1, outputs := layChans lay.2 }

/-- emtfxml/metadata/site_layout.py L82-L93: a channel made from its name. -/
def fresh (W : World F T) (c : Str) : LayChan F := ⟨c, ⟨W.zero, W.zero, W.zero, W.zero, W.zero, W.zero, W.zero⟩⟩

/-- core.py L2205: `_update_site_layout`, by whether impedance and tipper have an entry that is not zero. -/
def refresh (W : World F T) (z t : Bool) (o : Obj F T) : Obj F T :=
  { o with inputs := updateChannels (fresh W) (inputNames z t) o.inputs,
           outputs := updateChannels (fresh W) (outputNames z t) o.outputs }

/-! ## Reading: emtfxml.py L1033-L1168 -/

/-- emtfxml.py L1045-L1052: the comments of a run. -/
def readComments (n : Notes F T) : Str :=
  let part := fun (k : Str) (v : Option Str) => match v with
    | some (c :: cs) => [k ++ c :: cs]
    | _ => []
  join "; ".toList (part "comments.author:".toList n.author ++ part "comments.value:".toList n.value ++
    part "errors:".toList n.errors)

/-- A magnetic channel as it is made (timeseries/magnetic.py). -/
def newMag (W : World F T) (n : Notes F T) (i : Inst) : Mag F T :=
  { sensor := i, x := W.zero, y := W.zero, z := W.zero, azimuth := W.zero, translated := none, start := n.start, stop := n.stop }

/-- emtfxml.py L1055-L1080: the magnetic channels. -/
def readMags (W : World F T) (n : Notes F T) : OD Str (Mag F T) :=
  match n.mags with
  | [i] => ["hx".toList, "hy".toList, "hz".toList].map fun c => (c, newMag W n i)
  | l => l.foldl (fun d i => match i.name with
    | some c => OD.set d (lower c) (newMag W n i)
    | none => d) []

/-- An electrode as it is made. -/
def newPole (W : World F T) : Pole F := ⟨{}, W.zero, W.zero, W.zero, W.zero, W.zero, W.zero⟩

/-- emtfxml.py L1089-L1100: an electrode. -/
def readPot (m : Option Str) (p : Pole F × Pole F) (pot : Pot) : Pole F × Pole F :=
  let set := fun (q : Pole F) => { q with inst := { q.inst with id := some pot.number, type := some pot.comments, manufacturer := m } }
  if lower pot.location ∈ ["n".toList, "e".toList] then (set p.1, p.2)
  else if lower pot.location ∈ ["s".toList, "w".toList] then (p.1, set p.2)
  else p

/-- emtfxml.py L1082-L1103: an electric channel. -/
def readDipole (W : World F T) (n : Notes F T) (d : Dipole F) : Elec F T :=
  let p := d.pots.foldl (readPot d.manufacturer) (newPole W, newPole W)
  { pos := p.1, neg := p.2, length := d.length, azimuth := W.zero, translated := d.azimuth, start := n.start, stop := n.stop }

/-- emtfxml.py L1082-L1103 -/
def readDipoles (W : World F T) (n : Notes F T) : OD Str (Elec F T) :=
  n.dipoles.foldl (fun e d => OD.set e (lower d.name) (readDipole W n d)) []

/-- emtfxml.py L1117-L1120, L1130-L1134: place and orientation of a magnetic channel. -/
def placeMag (start stop : T) (k : Str) (p : Place F) (m : Mag F T) : Mag F T :=
  if k ∈ ["hx".toList, "hy".toList, "hz".toList] then
    { m with x := p.x, y := p.y, z := p.z, azimuth := p.orientation, translated := some p.orientation, start := start, stop := stop }
  else { m with azimuth := p.orientation, translated := some p.orientation, start := start, stop := stop }

/-- emtfxml.py L1122-L1134: place and orientation of an electric channel. -/
def placeElec (start stop : T) (k : Str) (p : Place F) (e : Elec F T) : Elec F T :=
  if k ∈ ["ex".toList, "ey".toList] then
    { e with neg := { e.neg with x := p.x, y := p.y, z := p.z }, pos := { e.pos with x2 := p.x2, y2 := p.y2, z2 := p.z2 },
             azimuth := p.orientation, translated := some p.orientation, start := start, stop := stop }
  else { e with azimuth := p.orientation, translated := some p.orientation, start := start, stop := stop }

/-- emtfxml.py L1105-L1134: a channel of the layout gives place and orientation to the channel of the run;
`get_channel` returns None for a channel that is not there (timeseries/run.py L684-L685), which has no `component`. -/
def placeChannel (start stop : T) (r : Run F T) (c : LayChan F) : Except PyErr (Run F T) :=
  match OD.get? r.mag (lower c.name) with
  | some m => .ok { r with mag := OD.set r.mag (lower c.name) (placeMag start stop (lower c.name) c.rest m) }
  | none =>
    match OD.get? r.elec (lower c.name) with
    | some e => .ok { r with elec := OD.set r.elec (lower c.name) (placeElec start stop (lower c.name) c.rest e) }
    | none => .error .attributeError

/-- emtfxml.py L1036-L1104: a run before the site layout. -/
def bareRun (W : World F T) (n : Notes F T) : Run F T :=
  { id := n.run, logger := { id := n.inst.id, type := n.inst.name, manufacturer := n.inst.manufacturer }, rate := n.rate,
    start := n.start, stop := n.stop, comments := some (W.value (readComments n)), mag := readMags W n, elec := readDipoles W n }

/-- emtfxml.py L1036-L1136: a run. -/
def readRun (W : World F T) (o : Obj F T) (n : Notes F T) : Except PyErr (Run F T) :=
  (o.inputs ++ o.outputs).foldlM (placeChannel n.start n.stop) (bareRun W n)

/-- emtfxml.py L1138-L1165: the run that is made if there are no field notes. -/
def defaultRun (W : World F T) (station : Str) (t : Bool) : Run F T :=
  let m := (if t then ["hx".toList, "hy".toList, "hz".toList] else ["hx".toList, "hy".toList])
  { id := station ++ "a".toList, logger := {}, rate := W.zero, start := W.noTime, stop := W.noTime, comments := none,
    mag := m.map fun c => (c, ⟨{}, W.zero, W.zero, W.zero, W.zero, none, W.noTime, W.noTime⟩),
    elec := ["ex".toList, "ey".toList].map fun c => (c, ⟨newPole W, newPole W, W.zero, W.zero, none, W.noTime, W.noTime⟩) }

/-- emtfxml.py L1033-L1168: the runs of the station; those without sampling rate are left out. -/
def read (W : World F T) (station : Str) (start stop : T) (t : Bool) (o : Obj F T) : Except PyErr (List (Run F T)) :=
  match o.notes with
  | [] => ((o.inputs ++ o.outputs).foldlM (placeChannel start stop) (defaultRun W station t)).map fun r => [r]
  | ns => (ns.filter fun n => n.rate ≠ W.zero).mapM (readRun W o)

/-- `from_emtfxml(to_emtfxml())` for the runs of a station: `z` and `t` tell whether the impedance and the tipper have an
entry that is not zero. -/
def convert (W : World F T) (station : Str) (start stop : T) (z t : Bool) (runs : List (Run F T)) : Except PyErr (List (Run F T)) :=
  (write W runs).bind fun o => read W station start stop t (refresh W z t o)

end Verif.EmtfRuns
