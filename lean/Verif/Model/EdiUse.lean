import Mathlib.Data.Rat.Defs
import Verif.Base.Py

/-! # One `EDI` object for several files

`mt_metadata/transfer_functions/io/edi/edi.py` L296-L324 `read`, `edi/metadata/header.py` L397-L433 `read_header` as to positions and the
Phoenix format, `edi/metadata/define_measurement.py` L367-L421 `read_measurement` as to positions and channels.

Simplifications: of a file there are the values of its lines of positions (none if there is no line; the last one counts), whether a line
`PROGVERS` has "mt-editor", and its lines of channels (type in lower case, and the measurement). `line` is `write_meas_line`, `rename`
changes the type of a measurement. A position that was never set counts as 0, as in L316-L322. Reading data is left out. `phoenix_edi` does not exist until it is set, which counts as false. -/

namespace Verif.EdiUse

/-- Latitude, longitude, elevation. -/
inductive Part where
  | lat
  | lon
  | elev
  deriving DecidableEq

/-- A file. -/
structure File (M : Type) where
  head : Part → Option ℚ
  ref : Part → Option ℚ
  phoenix : Bool
  meas : List (Str × M)

/-- An object. -/
structure Obj (M : Type) where
  head : Part → ℚ := fun _ => 0
  ref : Part → ℚ := fun _ => 0
  phoenix : Bool := false
  meas : OD Str M := []

/-- Remote channels. -/
def rr (t : Str) : Str := 'r' :: 'r' :: t

/-- define_measurement.py L403-L421: a channel that is there already and is not the same becomes a remote one. -/
def addMeas {M L : Type} [DecidableEq L] (line : M → L) (rename : Str → M → M) (d : OD Str M) (x : Str × M) : OD Str M :=
  match OD.get? d x.1 with
  | none => OD.set d x.1 x.2
  | some m => if line m ≠ line x.2 then OD.set d (rr x.1) (rename (rr x.1) x.2) else d

/-- edi.py L308-L324: no part of the object is made anew; positions that are 0 are those of the reference. -/
def read {M L : Type} [DecidableEq L] (line : M → L) (rename : Str → M → M) (o : Obj M) (f : File M) : Obj M :=
  let ref := fun c => (f.ref c).getD (o.ref c)
  { head := fun c => if (f.head c).getD (o.head c) = 0 then ref c else (f.head c).getD (o.head c)
    ref := ref
    phoenix := o.phoenix || f.phoenix
    meas := f.meas.foldl (addMeas line rename) o.meas }

/-- Several files, one after another. -/
def readAll {M L : Type} [DecidableEq L] (line : M → L) (rename : Str → M → M) (o : Obj M) (l : List (File M)) : Obj M :=
  l.foldl (read line rename) o

end Verif.EdiUse
