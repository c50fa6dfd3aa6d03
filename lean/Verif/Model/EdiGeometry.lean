import Mathlib.Analysis.SpecialFunctions.Complex.Arg
import Verif.Base.Py
import Verif.Base.Text

/-!
Model of the geometry of channels in EDI files:
`mt_metadata/transfer_functions/io/edi/metadata/define_measurement.py` (`from_metadata`),
`emeasurement.py`, `hmeasurement.py` (the measurement objects) and
`mt_metadata/transfer_functions/io/edi/edi.py` (`_get_electric_metadata`, `_get_magnetic_metadata`, the
channel part of the setter of `station_metadata`).

Simplifications: real numbers for floats; the two decimals of the written lines are left out (the
measurement objects themselves are read). `float(text)` is a function of the world. Channel numbers are
integers, of which `channel_number` takes the digits of the decimal text (the absolute value). Depths of
electrodes are never given (define_measurement.py L539-L550) and zero. Of the information section the
entries of the channel in one run are modelled.
-/

namespace Verif.EdiGeometry
open Verif.Text

/-- timeseries/electric.py L13, magnetic.py L13, auxiliary.py L13. -/
inductive Kind
  | electric | magnetic | auxiliary
  deriving DecidableEq

/-- The attributes of a channel that have to do with its place: timeseries/channel.py L41-L165 and
L825, electric.py L13 ff., common/location.py (coordinates are numbers, never `None`). -/
structure Ch where
  kind : Kind
  comp : Str
  id : Option Str
  number : ℤ
  mAz : ℝ
  tAz : Option ℝ
  tilt : ℝ
  dipole : ℝ
  nx : ℝ
  ny : ℝ
  px : ℝ
  py : ℝ
  lx : ℝ
  ly : ℝ

/-- emeasurement.py L20-L150: an electric measurement. -/
structure EMeas where
  comp : Str
  id : ℝ
  x : ℝ
  y : ℝ
  x2 : ℝ
  y2 : ℝ
  azm : ℝ
  acq : ℤ

/-- hmeasurement.py L13-L137: a magnetic measurement. -/
structure HMeas where
  comp : Str
  id : ℝ
  x : ℝ
  y : ℝ
  azm : ℝ
  dip : ℝ
  acq : ℤ

/-- What is put into the dictionary of measurements. -/
inductive Meas
  | e (m : EMeas)
  | h (m : HMeas)

/-- `float(text)` -/
abbrev World := Str → Option ℝ

/-- `[a-zA-Z0-9_]` -/
def wordChar (c : Char) : Bool :=
  ('a' ≤ c && c ≤ 'z') || ('A' ≤ c && c ≤ 'Z') || ('0' ≤ c && c ≤ '9') || c == '_'

/-- `[a-zA-Z0-9_]+$` -/
def wordy (s : Str) : Bool := !s.isEmpty && s.all wordChar

/-- The patterns `^(RR|rr|[..])[a-zA-Z0-9_]+$` of `chtype`: emeasurement.py L41, hmeasurement.py L34. -/
def chtypeOk (first : List Char) (s : Str) : Bool :=
  match s with
  | [] => false
  | c :: r =>
    (first.contains c && wordy r) ||
    (match c, r with
     | 'R', 'R' :: r' => wordy r'
     | 'r', 'r' :: r' => wordy r'
     | _, _ => false)

/-- define_measurement.py L523-L527 -/
noncomputable def azmOf (c : Ch) : ℝ :=
  open Classical in
  match (if some c.mAz ≠ c.tAz then c.tAz else some c.mAz) with
  | none => 0
  | some a => a

/-- emeasurement.py L177-L190 (hmeasurement.py L140-L153): `validate_id`. -/
def idOf (w : World) : Option Str → Except PyErr ℝ
  | none => .ok 0
  | some s =>
    match w s with
    | none => .error .valueError
    | some v => .ok v

/-- `np.rad2deg` -/
noncomputable def deg (a : ℝ) : ℝ := a * 180 / Real.pi

/-- `np.deg2rad` -/
noncomputable def rad (a : ℝ) : ℝ := a * Real.pi / 180

/-- `np.arctan2(y, x)` -/
noncomputable def atan2 (y x : ℝ) : ℝ := Complex.arg ⟨x, y⟩

/-- emeasurement.py L222-L229: `azimuth`. -/
noncomputable def EMeas.azimuth (m : EMeas) : ℝ := deg (atan2 (m.y2 - m.y) (m.x2 - m.x))

/-- emeasurement.py L209-L220: `dipole_length`. -/
noncomputable def EMeas.dipole (m : EMeas) : ℝ :=
  Real.sqrt ((m.x2 - m.x) ^ 2 + (m.y2 - m.y) ^ 2 + (0 - 0) ^ 2)

/-- emeasurement.py L192-L202: `update_azimuth_from_coords`. -/
noncomputable def EMeas.checked (m : EMeas) : EMeas :=
  open Classical in
  if m.x ≠ 0 ∨ m.y ≠ 0 ∨ m.x2 ≠ 0 ∨ m.y2 ≠ 0 then
    if m.azm = 0 then { m with azm := m.azimuth } else m
  else m

/-- emeasurement.py L231-L242, hmeasurement.py L161-L172: `channel_number`, the digits of the text. -/
def channelNumber (acq : ℤ) : ℤ := acq.natAbs

/-- define_measurement.py L529-L538: attributes that are `None` are set to zero. -/
noncomputable def filled (c : Ch) : Ch :=
  { c with tAz := match c.tAz with | none => some 0 | some a => some a }

/-- define_measurement.py L539-L550: the measurement of a channel with an "e" in its name. -/
noncomputable def toE (w : World) (azm : ℝ) (c : Ch) : Except PyErr EMeas :=
  if chtypeOk ['e', 'E'] c.comp then
    (idOf w c.id).bind fun i =>
      .ok (EMeas.checked { comp := c.comp, id := i, x := c.nx, x2 := c.px, y := c.ny, y2 := c.py,
                           azm := azm, acq := c.number })
  else .error .valueError

/-- define_measurement.py L557-L567: the measurement of a channel with an "h" in its name. -/
def toH (w : World) (azm : ℝ) (c : Ch) : Except PyErr HMeas :=
  if chtypeOk ['h', 'H', 'b', 'B'] c.comp then
    (idOf w c.id).bind fun i =>
      .ok { comp := c.comp, id := i, x := c.lx, y := c.ly, azm := azm, dip := c.tilt, acq := c.number }
  else .error .valueError

/-- define_measurement.py L508-L568: `from_metadata`: the channel after the call and the measurement
stored, if any. Only electric channels have electrodes; electric channels have no location, but their
names begin with an "e" (electric.py L19) or an "E". -/
noncomputable def fromMetadata (w : World) (c : Ch) : Except PyErr (Ch × Option (Str × Meas)) :=
  if 'e' ∈ c.comp then
    if c.kind = .electric then
      (toE w (azmOf c) (filled c)).bind fun m => .ok (filled c, some (lower c.comp, .e m))
    else .error .attributeError
  else if 'h' ∈ c.comp then
    if c.kind = .electric then .error .attributeError
    else (toH w (azmOf c) c).bind fun m => .ok (c, some (lower c.comp, .h m))
  else .ok (c, none)

/-- edi.py L1265-L1274: the entries of the information section of one channel that have to do with its
geometry; those in the list of skipped names (edi.py L143-L175: coordinates) are not written, nor those
that are `None`. -/
structure Info where
  mAz : Option ℝ
  tAz : Option ℝ
  dipole : Option ℝ
  number : Option ℤ

/-- edi.py L1265-L1274 for a channel. -/
def infoOf (c : Ch) : Info := { mAz := some c.mAz, tAz := c.tAz, dipole := some c.dipole, number := some c.number }

/-- A file without information about the channel. -/
def noInfo : Info := { mAz := none, tAz := none, dipole := none, number := none }

/-- edi.py L1296-L1320: the electric channel from its measurement. -/
noncomputable def fromE (m : EMeas) : Ch :=
  { kind := .electric, comp := m.comp, id := none, number := channelNumber m.acq, mAz := m.azimuth,
    tAz := some m.azimuth, tilt := 0, dipole := m.dipole, nx := m.x, ny := m.y, px := m.x2, py := m.y2,
    lx := 0, ly := 0 }

/-- edi.py L1332-L1343: electrodes from length and azimuth. -/
noncomputable def electrodes (az : ℝ) (c : Ch) : Ch :=
  open Classical in
  if c.px = 0 ∧ c.py = 0 ∧ c.nx = 0 ∧ c.ny = 0 then
    { c with px := c.dipole * Real.cos (rad az), py := c.dipole * Real.sin (rad az) }
  else c

/-- edi.py L1344-L1351: the entries of the information section. -/
def withInfo (i : Info) (c : Ch) : Ch :=
  { c with mAz := i.mAz.getD c.mAz, tAz := (match i.tAz with | none => c.tAz | some a => some a),
           dipole := i.dipole.getD c.dipole, number := i.number.getD c.number }

/-- edi.py L1291-L1352: `_get_electric_metadata` of a channel that was measured. -/
noncomputable def readE (m : EMeas) (i : Info) : Ch := withInfo i (electrodes m.azimuth (fromE m))

/-- edi.py L1362-L1403: `_get_magnetic_metadata` of a channel that was measured; the geometry in the
information section is not read. -/
def readH (m : HMeas) : Ch :=
  { kind := .magnetic, comp := m.comp, id := none, number := channelNumber m.acq, mAz := m.azm,
    tAz := some m.azm, tilt := 0, dipole := 0, nx := 0, ny := 0, px := 0, py := 0, lx := m.x, ly := m.y }

end Verif.EdiGeometry
