import Verif.Model.EmtfFile
import Verif.Model.EmtfRuns

/-! # Runs of a station in EMTF XML files

`TF.to_emtfxml`, `EMTFXML.write`, `EMTFXML.read` and `TF.from_emtfxml` (transfer_functions/core.py, io/emtfxml/emtfxml.py L309-L430)
for the runs of a station: `Model/EmtfRuns` makes field notes and site layout from runs and runs from them, `Model/EmtfFile`
writes and reads the file. The two modules keep different attributes of the same objects; those below fit them together. -/

namespace Verif.EmtfRunFile
open Verif.Text

variable {F T : Type}

/-- The instruments of field notes: the model and the settings are never set from a run (emtfxml.py L1408-L1456). -/
def toTool (i : EmtfRuns.Inst) : EmtfFile.Tool :=
  { id := i.id, manufacturer := i.manufacturer, type := i.type, model := none, name := i.name, settings := none }

/-- The attributes of an instrument that runs are made from (emtfxml.py L1039-L1080). -/
def ofTool (t : EmtfFile.Tool) : EmtfRuns.Inst := { id := t.id, name := t.name, manufacturer := t.manufacturer, type := t.type }

/-- emtfxml.py L1468-L1479: an electrode. -/
def toPot (p : EmtfRuns.Pot) : EmtfFile.Pot := { location := p.location, number := p.number, value := [], comments := p.comments }

/-- emtfxml.py L1089-L1100: `value` is assigned and then replaced by the comments. -/
def ofPot (p : EmtfFile.Pot) : EmtfRuns.Pot := { location := p.location, number := p.number, comments := p.comments }

/-- emtfxml.py L1460-L1466: a dipole of wire. -/
def toDipole (d : EmtfRuns.Dipole F) : EmtfFile.Dipole F :=
  { manufacturer := d.manufacturer, length := some d.length, azimuth := d.azimuth, name := some d.name, type := some "wire".toList,
    pots := d.pots.map toPot }

/-- emtfxml.py L1082-L1103: a dipole without length has length zero. -/
def ofDipole (zero : F) (d : EmtfFile.Dipole F) : EmtfRuns.Dipole F :=
  { name := d.name.getD [], azimuth := d.azimuth, length := d.length.getD zero, manufacturer := d.manufacturer, pots := d.pots.map ofPot }

/-- Field notes of a run. -/
def toNotes (n : EmtfRuns.Notes F T) : EmtfFile.Notes F T :=
  { run := n.run, inst := toTool n.inst, rate := some n.rate, start := n.start, stop := n.stop, author := n.author, value := n.value,
    errors := n.errors, mags := n.mags.map toTool, dipoles := n.dipoles.map toDipole }

/-- Field notes as runs are made from them; those without sampling rate are left out like those with 0 (emtfxml.py L1037-L1038). -/
def ofNotes (zero : F) (n : EmtfFile.Notes F T) : EmtfRuns.Notes F T :=
  { run := n.run, inst := ofTool n.inst, rate := n.rate.getD zero, start := n.start, stop := n.stop, author := n.author,
    value := n.value, errors := n.errors, mags := n.mags.map ofTool, dipoles := n.dipoles.map (ofDipole zero) }

/-- A channel of the layout: electric if it is one of `ex` and `ey` (emtfxml.py L1488-L1557, site_layout.py L63-L106). -/
def toChan (c : EmtfRuns.LayChan F) : EmtfFile.Chan F :=
  { electric := lower c.name ∈ ["ex".toList, "ey".toList], name := c.name, orientation := c.rest.orientation, x := c.rest.x, y := c.rest.y,
    z := c.rest.z, x2 := c.rest.x2, y2 := c.rest.y2, z2 := c.rest.z2 }

/-- A channel of the layout. -/
def ofChan (c : EmtfFile.Chan F) : EmtfRuns.LayChan F := ⟨c.name, ⟨c.x, c.y, c.z, c.x2, c.y2, c.z2, c.orientation⟩⟩

/-- `from_emtfxml` of a file that was written from `to_emtfxml()`: the runs of a station. The layout is made to fit impedance and
tipper before it is written and after it was read (core.py L2205, emtfxml.py L353). -/
def viaFile [DecidableEq F] [DecidableEq T] (W : EmtfRuns.World F T) (V : EmtfFile.World F T) (station : Str) (start stop : T) (z t : Bool)
    (runs : List (EmtfRuns.Run F T)) : Except PyErr (List (EmtfRuns.Run F T)) :=
  (EmtfRuns.write W runs).bind fun o =>
  let o := EmtfRuns.refresh W z t o
  (EmtfFile.writeNotes V (o.notes.map toNotes)).bind fun es =>
  (EmtfFile.readNotes V es).bind fun ns =>
  (EmtfFile.readLayout V W.zero (EmtfFile.writeLayout V (o.inputs.map toChan, o.outputs.map toChan))).bind fun l =>
  EmtfRuns.read W station start stop t
    (EmtfRuns.refresh W z t ⟨ns.map (ofNotes W.zero), l.1.map ofChan, l.2.map ofChan⟩)

end Verif.EmtfRunFile
