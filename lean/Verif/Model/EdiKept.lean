import Verif.Base.Py

/-! # Data of an `EDI` object that reads several files

`mt_metadata/transfer_functions/io/edi/edi.py` L268-L353 `read`, `_read_data`, what `_read_mt` (L355-L458) and `_read_spectra` (L460-L688)
set; `edi/metadata/data_section.py` L225-L231, L246-L269 `get_data`.

Simplifications: a line is the first of a section (`>=` and `sect`), another line with `>`, or text. What lines of data give is a parameter:
the arrays that are set and the error that may come after (how they are read is in `EdiData`, `EdiRho`, `EdiSpectra`). `pre` is an error
before the data section is read, `bad` one of the data section or of matching channels. Arrays are frequencies, impedance, tipper and their
errors; covariances are those four arrays that only spectra have. -/

namespace Verif.EdiKept

/-- data_section.py L257-L260: what the data are. -/
inductive Kind where
  | z
  | spectra
  deriving DecidableEq

/-- A line; the first line of a section may be of another section, as `>=EMAPSECT`. -/
inductive Line (X : Type) where
  | sect (k : Option Kind)
  | mark (x : X)
  | text (x : X)

/-- `_line_num`, `_data_type_in`, `nchan` (0 at first, L83-L95). -/
structure Sect where
  start : Nat := 0
  kind : Kind := .z
  nchan : Nat := 0
  deriving DecidableEq

/-- data_section.py L246-L269 `get_data`: `i` is the number of the line, `found` whether there was a section. -/
def scan {X : Type} : Nat → Bool → Sect → List (Line X) → Sect
  | _, _, s, [] => s
  | i, _, s, .sect k :: ls =>
    scan (i + 1) true { s with
      start := i
      kind := k.getD s.kind } ls
  | i, true, s, .mark _ :: _ => { s with start := i }
  | i, false, s, .mark _ :: ls => scan (i + 1) false s ls
  | i, b, s, .text _ :: ls => scan (i + 1) b s ls

/-- A file: lines, the number of channels its section gives (before an error, if there is one), errors that come before data are read. -/
structure File (X : Type) where
  lines : List (Line X)
  nchan : Option Nat
  pre : Option PyErr
  bad : Option PyErr

/-- What lines of data give. `Ar` arrays, `C` covariances, `R` angles. -/
structure Reader (X Ar C R : Type) where
  mt : List (Line X) → Option Ar × Except PyErr R
  spectra : List Str → List (Line X) → Option (Ar × C) × Option PyErr

/-- An object. -/
structure Obj (Ar C R : Type) where
  sect : Sect := {}
  arrays : Option Ar := none
  cov : Option C := none
  rot : Option R := none

/-- edi.py L342-L349: components of the columns of spectra, by their number. -/
def compList (n : Nat) : Option (List Str) :=
  if n = 5 then some ["hx".toList, "hy".toList, "hz".toList, "ex".toList, "ey".toList]
  else if n = 4 then some ["hx".toList, "hy".toList, "ex".toList, "ey".toList]
  else if n = 6 then some ["hx".toList, "hy".toList, "ex".toList, "ey".toList, "rhx".toList, "rhy".toList]
  else if n = 7 then some ["hx".toList, "hy".toList, "hz".toList, "ex".toList, "ey".toList, "rhx".toList, "rhy".toList]
  else none

/-- What a reader gave is set; what it did not give stays. -/
def keep {A : Type} (new old : Option A) : Option A := new.or old

variable {X Ar C R : Type}

/-- edi.py L330-L353 `_read_data`; `c_list` has no value for other numbers of channels (L350). -/
def readData (D : Reader X Ar C R) (o : Obj Ar C R) (ls : List (Line X)) : Obj Ar C R × Option PyErr :=
  match o.sect.kind with
  | .spectra =>
    match compList o.sect.nchan with
    | none => (o, some .nameError)
    | some cs =>
      let r := D.spectra cs (ls.drop o.sect.start)
      ({ o with
          arrays := keep (r.1.map Prod.fst) o.arrays
          cov := keep (r.1.map Prod.snd) o.cov }, r.2)
  | .z =>
    let r := D.mt (ls.drop o.sect.start)
    match r.2 with
    | .ok a => ({ o with arrays := keep r.1 o.arrays
                         rot := some a }, none)
    | .error e => ({ o with arrays := keep r.1 o.arrays }, some e)

/-- edi.py L296-L314 `read`: what the object is afterwards, and the error, if any. -/
def read (D : Reader X Ar C R) (o : Obj Ar C R) (f : File X) : Obj Ar C R × Option PyErr :=
  match f.pre with
  | some e => (o, some e)
  | none =>
    let s := scan 0 false o.sect f.lines
    let o := { o with sect := { s with nchan := f.nchan.getD s.nchan } }
    match f.bad with
    | some e => (o, some e)
    | none => readData D o f.lines

/-- Several files, one after another; errors are caught by the caller. -/
def readAll (D : Reader X Ar C R) (o : Obj Ar C R) (l : List (File X)) : Obj Ar C R := l.foldl (fun o f => (read D o f).1) o

/-- The column that `_read_spectra` takes for a component (edi.py L342-L351, tools.py `index_locator`). -/
def columnUsed (n : Nat) (c : Str) : Option Nat := (compList n).bind (fun cs => cs.idxOf? c)

end Verif.EdiKept
