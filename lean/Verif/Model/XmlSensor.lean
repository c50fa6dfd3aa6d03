import Verif.Model.XmlText

/-!
Model of the sensors of channels in StationXML:
`mt_metadata/timeseries/stationxml/xml_channel_mt_channel.py` L48-L55, L239-L356, L396-L409, L601-L655
(`_sensor_to_mt`, `_mt_to_sensor`, `_parse_dipole_length`, `_deduce_sensor_type`); the texts of electrode ids are in
`Verif.Model.XmlText`.

Simplifications: the inventory is kept in memory; the `type` of a channel is that of its class (for auxiliary channels
anything but electric and magnetic); writing a number and `float` of a text are functions of the world.
-/

namespace Verif.XmlSensor
open Verif.Text Verif.XmlText

/-- How numbers are written, and `float(text)`. -/
structure World (F : Type) where
  fmt : F → Str
  float : Str → Option F
  zero : F

/-- `common/instrument.py` L12-L85 -/
structure Instr where
  id : Option Str
  manufacturer : Option Str
  type : Option Str
  model : Option Str
  name : Option Str
  deriving DecidableEq

/-- `Instrument()` -/
def Instr.new : Instr := ⟨some [], some [], some [], none, none⟩

/-- The sensors of a channel. -/
inductive Chan (F : Type) where
  | electric (len : F) (pos neg : Instr)
  | magnetic (s : Instr)
  | aux (s : Instr)
  deriving DecidableEq

/-- The classes of channels. -/
inductive Kind where
  | electric
  | magnetic
  | aux
  deriving DecidableEq

/-- L108-L113: the channel that is filled. -/
def Chan.new {F : Type} (w : World F) : Kind → Chan F
  | .electric => .electric w.zero .new .new
  | .magnetic => .magnetic .new
  | .aux => .aux .new

/-- `obspy.core.inventory.Equipment` -/
structure Equip where
  type : Option Str
  description : Option Str
  manufacturer : Option Str
  model : Option Str
  serial : Option Str
  deriving DecidableEq

/-- `if text:` -/
def truthy : Option Str → Bool
  | some (_ :: _) => true
  | _ => false

/-- L323-L331: what is written of the electrodes; the second test is that of the first again. -/
def ofElectrodes (p n : Option Str) : Option Str := if truthy p then p else if truthy p then n else none

/-- L339-L344: the first word of the model. -/
def firstWord (m : Option Str) : Except PyErr (Option Str) :=
  match m with
  | some (c :: s) =>
    match words (c :: s) with
    | x :: _ => .ok (some x)
    | [] => .error .indexError
  | _ => .ok none

/-- L314-L356 `_mt_to_sensor` -/
def toSensor {F : Type} (w : World F) : Chan F → Except PyErr Equip
  | .electric len p n =>
    .ok ⟨some "dipole".toList, some (w.fmt len ++ " meters".toList), ofElectrodes p.manufacturer n.manufacturer,
      ofElectrodes p.model n.model, some (electrodeText p.id n.id)⟩
  | .magnetic s => (firstWord s.model).bind fun m => .ok ⟨s.type, s.name, s.manufacturer, m, s.id⟩
  | .aux s => .ok ⟨s.type, s.name, s.manufacturer, s.model, s.id⟩

/-- L48-L55 -/
def understood : List Str := ["logger", "magnetometer", "induction coil", "coil", "dipole", "electrode"].map String.toList

/-- L637-L648: the type told by the description. -/
def fromDescription (d : Str) : Str :=
  if hasSub "bf-4".toList (lower d) && hasSub "schlumberger".toList (lower d) then "magnetometer".toList
  else if hasSub "electric".toList (lower d) && hasSub "dipole".toList (lower d) then "dipole".toList
  else if d = "Bartington 3-Axis Fluxgate Sensor".toList then "magnetometer".toList
  else []

/-- L601-L655 `_deduce_sensor_type` -/
def deduce (e : Equip) : Option Str :=
  let t := e.type.getD []
  if lower t ∈ understood then some t
  else if lower t = "bartington".toList then some "magnetometer".toList
  else if t ≠ [] then some t
  else if fromDescription (e.description.getD []) ≠ [] then some (fromDescription (e.description.getD []))
  else e.type

/-- L396-L409 `_parse_dipole_length` -/
def dipoleLength {F : Type} (w : World F) : Option Str → Except PyErr F
  | none => .error .attributeError
  | some d =>
    match words d with
    | x :: _ => .ok ((w.float x).getD w.zero)
    | [] => .error .indexError

/-- L257 -/
def magTypes : List Str := ["magnetometer", "induction coil", "coil"].map String.toList
/-- L273 -/
def elTypes : List Str := ["dipole", "electrode"].map String.toList

/-- L265-L269 -/
def fillMag (e : Equip) (t : Str) : Instr :=
  ⟨e.serial, e.manufacturer, some t, some (showOpt e.model ++ [' '] ++ showOpt e.description), e.description⟩

/-- L281-L284: the ids of the electrodes. -/
def electrodeIds (e : Equip) (p n : Instr) : Except PyErr (Instr × Instr) :=
  match e.serial with
  | some (c :: s) => (parseElectrodes (c :: s)).bind fun x => .ok ({ p with id := some x.1 }, { n with id := some x.2 })
  | _ => .ok (p, n)

/-- L286-L292 -/
def fillElectrode (e : Equip) (i : Instr) : Instr :=
  { i with manufacturer := e.manufacturer, model := e.model, type := some "electrode".toList }

/-- L281-L296 -/
def fillElectric {F : Type} (w : World F) (e : Equip) (p n : Instr) : Except PyErr (Chan F) :=
  (electrodeIds e p n).bind fun x =>
    (dipoleLength w e.description).bind fun len => .ok (.electric len (fillElectrode e x.1) (fillElectrode e x.2))

/-- L307-L310: the name is not read. -/
def fillAux (e : Equip) (t : Str) (i : Instr) : Instr :=
  { i with type := some t, manufacturer := e.manufacturer, id := e.serial,
           model := some (showOpt e.model ++ [' '] ++ showOpt e.description) }

/-- L257-L312 for a sensor of type `t`. -/
def fill {F : Type} (w : World F) (e : Equip) (t : Str) (c : Chan F) : Except PyErr (Chan F) :=
  if lower t ∈ magTypes then
    match c with
    | .magnetic _ => .ok (.magnetic (fillMag e t))
    | _ => .error .valueError
  else if lower t ∈ elTypes then
    match c with
    | .electric _ p n => fillElectric w e p n
    | _ => .error .valueError
  else
    match c with
    | .aux i => .ok (.aux (fillAux e t i))
    | _ => .error .valueError

/-- L239-L312 `_sensor_to_mt`: the sensor of the inventory is changed (L252), then the channel is filled. -/
def toMt {F : Type} (w : World F) (e : Equip) (c : Chan F) : Equip × Except PyErr (Chan F) :=
  let e' := { e with type := deduce e }
  (e', match e'.type with
    | some (x :: s) => fill w e' (x :: s) c
    | _ => .ok c)

end Verif.XmlSensor
