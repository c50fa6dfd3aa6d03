import Verif.Base.Text
import Verif.Base.Num
import Verif.Model.IoTools

/-! The header, measurement and data sections of an EDI file:
`mt_metadata/transfer_functions/io/edi/metadata/header.py` (L308-L517),
`define_measurement.py` (L276-L506), `emeasurement.py`, `hmeasurement.py` (`write_meas_line`) and
`data_section.py` (L246-L371).

Simplifications, for the whole file: a section is the list of the lines of the file, without their
line ends (the code writes strings with a `\n` before or after the line); upper and lower case are
those of the ASCII letters; `setattr` on the metadata object is recorded as a pair of a name and a
value, the field validators of pydantic are not modelled except where said; objects are values. -/

namespace Verif.EdiMeta
open Verif.Text

/-- `str.upper` -/
def upper (s : Str) : Str := s.map Char.toUpper

/-- An ASCII letter, digit or underscore: `[a-zA-Z0-9_]`. -/
def wordChar (c : Char) : Bool := c.isAlphanum || c == '_'

/-! ## The header -/

/-- What an assignment sets: an attribute of the header, or the value of its declination. -/
inductive Target where
  | attr (name : Str)
  | declination
  deriving DecidableEq, Repr

/-- header.py L334-L359 `get_header_list`; the boolean is `head_find`.  The list of `key=value` is
kept as pairs (L398-L400 splits it at the same sign again; neither part has an equal sign). -/
def headerList : Bool → List Str → List (Str × Str)
  | _, [] => []
  | found, l :: ls =>
    if '>' ∈ l ∧ hasSub "head".toList (lower l) = true then headerList true ls
    else if '>' ∈ l then (if found then [] else headerList false ls)
    else if found = true ∧ 2 < (strip l).length then
      match splitC '=' (replaceC '"' [] (strip l)) with
      | [k, v] => (strip k, strip v) :: headerList found ls
      | _ => headerList found ls
    else headerList found ls

/-- utils/validators.py L193-L226 `validate_station_name`; `MTValidatorError` is a `ValueError`. -/
def stationName (s : Str) : Except PyErr Str :=
  let t := replaceC '.' ['_'] (replaceC '-' ['_'] (replaceC ' ' ['_'] (strip s)))
  if t ≠ [] ∧ t.all wordChar = true then .ok t else .error .valueError

/-- header.py L405-L412 -/
def coordSystem (v : Str) : Str :=
  if hasSub "geomagnetic".toList (lower v) = true then "geomagnetic".toList
  else if hasSub "geographic".toList (lower v) = true then "geographic".toList
  else if hasSub "station".toList (lower v) = true then "station".toList
  else lower v

/-- header.py L397-L433, one line: which attribute is set to which text.  (The flag `phoenix_edi`
of L402-L404 is left out.) -/
def assign (p : Str × Str) : Except PyErr (Target × Str) :=
  let key := lower p.1
  let value :=
    if key = "coordinate_system".toList then coordSystem p.2
    else if key = "stdvers".toList then
      (if p.2 ∈ ["N/A".toList, "None".toList, "null".toList] then "SEG 1.0".toList else p.2)
    else if key = "units".toList then
      (if p.2 ∈ ["m".toList, "M".toList] then "m".toList else p.2)
    else p.2
  if key = "declination".toList then .ok (.declination, value)
  else if key ∈ ["long".toList, "lon".toList, "lonigutde".toList] then
    .ok (.attr "longitude".toList, value)
  else if key ∈ ["lat".toList, "latitude".toList] then .ok (.attr "latitude".toList, value)
  else if key ∈ ["elev".toList, "elevation".toList] then .ok (.attr "elevation".toList, value)
  else if key = "dataid".toList then do
    let v ← stationName value
    return (.attr key, v)
  else .ok (.attr key, value)

/-- header.py L397-L433 `read_header`: the assignments in order. -/
def readHeader (lines : List Str) : Except PyErr (List (Target × Str)) :=
  (headerList false lines).mapM assign

/-- header.py L497-L502: the name under which a key is written. -/
def headerKey (lonKey k : Str) : Str :=
  if k = "latitude".toList then "lat".toList
  else if k = "longitude".toList then lower lonKey
  else if k = "elevation".toList then "elev".toList
  else k

/-- header.py L492-L515, one item of `to_dict(single=True)`.  The value is the text that is printed
(`str(value)`, the position or elevation in its format, a list joined by commas), `none` is `None`;
`decl0` says that the declination is zero. -/
def headerItem (lonKey : Str) (decl0 : Bool) (p : Str × Option Str) : List Str :=
  if p.1 ∈ ["x".toList, "x2".toList, "y".toList, "y2".toList, "z".toList, "z2".toList] then []
  else match p.2 with
    | none => []
    | some v =>
      if v = "None".toList then []
      else if hasSub "declination".toList (headerKey lonKey p.1) = true ∧ decl0 = true then []
      else ['\t' :: (upper (headerKey lonKey p.1) ++ '=' :: v)]

/-- header.py L486-L517 `write_header`; `items` is what `to_dict(single=True)` returns after the
file date, the program name and its version have been set. -/
def writeHeader (lonKey : Str) (decl0 : Bool) (items : List (Str × Option Str)) : List Str :=
  ">HEAD".toList :: (items.flatMap (headerItem lonKey decl0) ++ [[]])

/-! ## Measurements -/

/-- What the code needs of floating point numbers: `f"{x:<.2f}"`, `f"{x:<}"`, `float(text)`, zero,
the azimuth of a dipole (emeasurement.py L223-L229), `x <= y` and `float` of a count. -/
structure Num (N : Type) where
  show2 : N → Str
  showId : N → Str
  parse : Str → Option N
  zero : N
  azimuth : N → N → N → N → N
  le : N → N → Bool
  ofNat : Nat → N

/-- `EMeasurement` or `HMeasurement`. -/
inductive Kind where
  | elec | mag
  deriving DecidableEq, Repr

/-- A measurement.  `x2`, `y2`, `z2` are attributes of an `EMeasurement` only, `dip` of an
`HMeasurement` only; they are zero in the other kind. -/
structure Meas (N : Type) where
  kind : Kind
  id : N
  chtype : Str
  x : N
  y : N
  z : N
  x2 : N
  y2 : N
  z2 : N
  azm : N
  dip : N
  acqchan : Str
  deriving DecidableEq, Repr

variable {N : Type}

/-- `_fmt_dict` (emeasurement.py L162-L175, hmeasurement.py L127-L138) with the values printed. -/
def Meas.items (D : Num N) (m : Meas N) : List (Str × Str) :=
  match m.kind with
  | .elec => [("ID".toList, D.showId m.id), ("CHTYPE".toList, m.chtype), ("X".toList, D.show2 m.x),
      ("Y".toList, D.show2 m.y), ("Z".toList, D.show2 m.z), ("X2".toList, D.show2 m.x2),
      ("Y2".toList, D.show2 m.y2), ("Z2".toList, D.show2 m.z2), ("AZM".toList, D.show2 m.azm),
      ("ACQCHAN".toList, m.acqchan)]
  | .mag => [("ID".toList, D.showId m.id), ("CHTYPE".toList, m.chtype), ("X".toList, D.show2 m.x),
      ("Y".toList, D.show2 m.y), ("Z".toList, D.show2 m.z), ("AZM".toList, D.show2 m.azm),
      ("DIP".toList, D.show2 m.dip), ("ACQCHAN".toList, m.acqchan)]

def Kind.name : Kind → Str
  | .elec => "EMEAS".toList
  | .mag => "HMEAS".toList

/-- emeasurement.py L244-L260, hmeasurement.py L174-L190 `write_meas_line` (the numbers are never
`None`, so nothing falls back to `0.0`). -/
def Meas.line (D : Num N) (m : Meas N) : Str :=
  '>' :: (m.kind.name ++ ' ' :: join [' '] ((m.items D).map fun p => p.1 ++ '=' :: p.2))

/-- The pattern `^(RR|rr|[..])[a-zA-Z0-9_]+$` of `chtype`, with the letters in the bracket. -/
def chtypeOk (heads : List Char) (s : Str) : Bool :=
  let rest (t : Str) : Bool := !t.isEmpty && t.all wordChar
  match s with
  | 'R' :: 'R' :: t => rest t
  | 'r' :: 'r' :: t => rest t
  | c :: t => heads.contains c && rest t
  | [] => false

/-- A number among the keyword arguments; a missing one is `0.0` (its default).  A text that is no
number is a validation error. -/
def numArg (D : Num N) (d : OD Str Str) (k : String) : Except PyErr N :=
  match d.get? k.toList with
  | none => .ok D.zero
  | some s => match D.parse s with
    | some x => .ok x
    | none => .error .valueError

/-- define_measurement.py L404-L411 with the validators of the two classes: the measurement of a
dictionary of texts, by the letters of its channel type.  `none`: neither an `h` nor an `e` in the
type, no object is made (L406, L408).  An electric one of azimuth zero gets the azimuth of its
coordinates (emeasurement.py L192-L201, define_measurement.py L410-L411).  Keys that are no fields
are extra attributes and left out. -/
def makeMeas [DecidableEq N] (D : Num N) (d : OD Str Str) (chtype : Str) :
    Except PyErr (Option (Meas N)) :=
  let text (k : String) : Str := (d.get? k.toList).getD []
  if 'h' ∈ lower chtype then do
    let id ← numArg D d "id"
    let x ← numArg D d "x"
    let y ← numArg D d "y"
    let z ← numArg D d "z"
    let azm ← numArg D d "azm"
    let dip ← numArg D d "dip"
    if chtypeOk ['h', 'H', 'b', 'B'] chtype then
      return some ⟨.mag, id, chtype, x, y, z, D.zero, D.zero, D.zero, azm, dip, text "acqchan"⟩
    else .error .valueError
  else if 'e' ∈ lower chtype then do
    let id ← numArg D d "id"
    let x ← numArg D d "x"
    let y ← numArg D d "y"
    let z ← numArg D d "z"
    let x2 ← numArg D d "x2"
    let y2 ← numArg D d "y2"
    let z2 ← numArg D d "z2"
    let azm ← numArg D d "azm"
    if chtypeOk ['e', 'E'] chtype then
      return some ⟨.elec, id, chtype, x, y, z, x2, y2, z2,
        if azm = D.zero then D.azimuth x y x2 y2 else azm, D.zero, text "acqchan"⟩
    else .error .valueError
  else .ok none

/-! ## The define-measurement section -/

/-- An element of `_measurement_list`. -/
inductive Item where
  | text (s : Str)
  | dict (d : OD Str Str)
  deriving DecidableEq, Repr

/-- define_measurement.py L317-L321 and L333-L337: the items `key=value` put into a dictionary.
`ll_list[1]` of an item without equal sign is an `IndexError`. -/
def putAll : OD Str Str → List Str → Except PyErr (OD Str Str)
  | d, [] => .ok d
  | d, t :: ts =>
    match splitC '=' t with
    | k :: v :: _ => putAll (d.set (lower k) v) ts
    | _ => .error .indexError

/-- The dictionary being filled, at the end of the section or before the next one. -/
def flush : Option (OD Str Str) → List Item
  | none => []
  | some d => [.dict d]

/-- define_measurement.py L302-L340 `get_measurement_lists`.  `found` is `meas_find`; the last
argument is the last element of `_measurement_list` if `count > 0` (it is a dictionary then), which
further lines may fill. -/
def lists : Bool → Option (OD Str Str) → List Str → Except PyErr (List Item)
  | _, last, [] => .ok (flush last)
  | found, last, l :: ls =>
    if hasSub ">=".toList l = true then
      if hasSub "definemeas".toList (lower l) = true then lists true last ls
      else if found then .ok (flush last)
      else lists false last ls
    else if found = true ∧ '>' ∉ l then
      if 2 < (strip l).length then
        match last with
        | some d => do
          let d' ← putAll d (IoTools.validateEquals (strip l))
          lists found (some d') ls
        | none => do
          let r ← lists found none ls
          return .text (strip l) :: r
      else lists found last ls
    else if found = true then
      if (find ['!'] l).any (0 < ·) then lists found last ls
      else if hasSub "meas".toList (lower l) = true then do
        let d ← putAll [] (IoTools.validateEquals l)
        let r ← lists found (some d) ls
        return flush last ++ r
      else .ok (flush last)
    else lists found last ls

/-- A value given to an attribute. -/
inductive SVal where
  | text (s : Str)
  | int (n : Int)
  deriving DecidableEq, Repr

/-- define_measurement.py L370-L401: a line `KEY=value` of the section.  The tests are `key in
"reflatitude"`: any part of that word.  `int(value)` is the parameter `pyint`; what it cannot read
becomes 0. -/
def setting (pyint : Str → Option Int) (line : Str) : Except PyErr (Str × SVal) :=
  match splitC '=' line with
  | k :: v :: _ =>
    let key := lower k
    let value := strip v
    let n := SVal.int ((pyint value).getD 0)
    .ok (if hasSub key "reflatitude".toList = true then ("reflat".toList, .text value)
      else if hasSub key "reflongitude".toList = true then ("reflon".toList, .text value)
      else if hasSub key "refelevation".toList = true then ("refelev".toList, .text value)
      else if hasSub key "maxchannels".toList = true then ("maxchan".toList, n)
      else if hasSub key "maxmeasurements".toList = true then ("maxmeas".toList, n)
      else if hasSub key "maxruns".toList = true then ("maxrun".toList, n)
      else (key, .text value))
  | _ => .error .indexError

/-- The variable `value` of the loop, which keeps what an earlier line gave it. -/
inductive Val (N : Type) where
  | unbound
  | set (v : SVal)
  | meas (m : Meas N)
  deriving DecidableEq

/-- The state of the loop of `read_measurement`: the attributes set, the dictionary
`self.measurements`, and `value`.  (The dictionary can be given a value that is no measurement, by a
channel without `h` and `e` after a setting.) -/
structure DefMeas (N : Type) where
  settings : List (Str × SVal)
  meas : OD Str (Val N)
  value : Val N
  deriving DecidableEq

/-- define_measurement.py L403-L421: one dictionary.  A `value` that is no measurement has no
`write_meas_line` (L414, L415); an unbound one is an error of its own.  The new name of L417 passes
the pattern of the type again; an azimuth of zero is computed again to the same value. -/
def addMeas [DecidableEq N] (D : Num N) (s : DefMeas N) (d : OD Str Str) :
    Except PyErr (DefMeas N) :=
  match d.get? "chtype".toList with
  | none => .error .keyError
  | some chtype => do
    let key := lower chtype
    let m ← makeMeas D d chtype
    let value := match m with
      | some m => Val.meas m
      | none => s.value
    match s.meas.get? key with
    | none =>
      match value with
      | .unbound => .error .nameError
      | v => return { s with meas := s.meas.set key v, value := v }
    | some old =>
      match old, value with
      | .meas o, .meas n =>
        if o.line D ≠ n.line D then
          let n' := { n with chtype := upper ("rr".toList ++ key) }
          return { s with meas := s.meas.set ("rr".toList ++ key) (.meas n'), value := .meas n' }
        else return { s with value := .meas n }
      | .meas _, .unbound => .error .nameError
      | _, _ => .error .attributeError

/-- define_measurement.py L369-L421 `read_measurement`, the loop. -/
def readItems [DecidableEq N] (pyint : Str → Option Int) (D : Num N) :
    DefMeas N → List Item → Except PyErr (DefMeas N)
  | s, [] => .ok s
  | s, .text l :: is => do
    let p ← setting pyint l
    readItems pyint D { s with settings := s.settings ++ [p], value := .set p.2 } is
  | s, .dict d :: is => do
    let s' ← addMeas D s d
    readItems pyint D s' is

/-- define_measurement.py L342-L421 `read_measurement`, on an object without measurements. -/
def readMeasurement [DecidableEq N] (pyint : Str → Option Int) (D : Num N) (lines : List Str) :
    Except PyErr (DefMeas N) := do
  let items ← lists false none lines
  readItems pyint D ⟨[], [], .unbound⟩ items

/-- define_measurement.py L429-L436 `_sort_measurements`, before sorting: identifiers that are zero
are numbered from the count on. -/
def numbered [DecidableEq N] (D : Num N) : Nat → OD Str (Meas N) → List (N × Meas N)
  | _, [] => []
  | c, (_, m) :: ms =>
    if m.id = D.zero then (D.ofNat c, m) :: numbered D (c + 1) ms
    else (m.id, m) :: numbered D c ms

/-- define_measurement.py L498-L504: the measurement as it is written, after the identifier and the
acquisition channel `"0"` have been replaced by the number. -/
def renumber [DecidableEq N] (D : Num N) (p : N × Meas N) : Meas N :=
  let m := if p.2.id = D.zero then { p.2 with id := p.1 } else p.2
  if m.acqchan = "0".toList then { m with acqchan := D.showId p.1 } else m

/-- define_measurement.py L438 and L496-L504: the measurements in the order of writing.  (They are
sorted twice with the same key, which changes nothing.) -/
def ordered [DecidableEq N] (D : Num N) (ms : OD Str (Meas N)) : List (Meas N) :=
  (pySorted (fun a b => D.le a.1 b.1) (numbered D 1 ms)).map (renumber D)

/-- define_measurement.py L472-L506 `write_measurement`.  `settings` are the attributes of
`_define_meas_keys` with the text that is printed for them, `none` for `None`; `lonG` is
`longitude_format == "LONG"`. -/
def writeMeasurement [DecidableEq N] (D : Num N) (lonG : Bool) (settings : List (Str × Option Str))
    (ms : OD Str (Meas N)) : List Str :=
  [[], ">=DEFINEMEAS".toList] ++
    settings.filterMap (fun p => p.2.map fun v =>
      "    ".toList ++ (upper (if p.1 = "reflon".toList ∧ lonG = true then "reflong".toList else p.1)
        ++ '=' :: v)) ++
    [[]] ++ (ordered D ms).map (Meas.line D)

/-! ## The data section -/

/-- The channels of the section, in the order of `_kw_list[4:]`. -/
inductive Comp where
  | ex | ey | hx | hy | hz | rrhx | rrhy
  deriving DecidableEq, Repr

def Comp.all : List Comp := [.ex, .ey, .hx, .hy, .hz, .rrhx, .rrhy]

def Comp.name : Comp → Str
  | .ex => "ex".toList
  | .ey => "ey".toList
  | .hx => "hx".toList
  | .hy => "hy".toList
  | .hz => "hz".toList
  | .rrhx => "rrhx".toList
  | .rrhy => "rrhy".toList

/-- `DataSection`: three counts, the name of the station, the identifiers of the channels, and
`_channel_ids`. -/
structure Sect where
  nfreq : Int
  sectid : Str
  nchan : Int
  maxblocks : Int
  id : Comp → Option Str
  channelIds : List Str

/-- data_section.py L251-L269 `get_data`; the boolean is `data_find`. -/
def getData : Bool → List Str → List Str
  | _, [] => []
  | found, l :: ls =>
    if hasSub ">=".toList l = true ∧ hasSub "sect".toList (lower l) = true then getData true ls
    else if '>' ∈ l ∧ found = true then []
    else if found = true ∧ 2 < (strip l).length then strip l :: getData found ls
    else getData found ls

/-- data_section.py L255-L261: the kind of data, `true` for spectra; `none` if no section line says
so (the attribute keeps its value). -/
def dataType : Bool → List Str → Option Bool
  | _, [] => none
  | found, l :: ls =>
    if hasSub ">=".toList l = true ∧ hasSub "sect".toList (lower l) = true then
      let here := if hasSub "spect".toList (lower l) = true then some true
        else if hasSub "mt".toList (lower l) = true then some false else none
      (dataType true ls).or here
    else if '>' ∈ l ∧ found = true then none
    else dataType found ls

/-- data_section.py L284-L288 and the coercion of the field: an identifier that is an integer
becomes the text of the integer. -/
def channelText (pyint : Str → Option Int) (value : Str) : Str :=
  match pyint value with
  | some n => showInt n
  | none => value

/-- data_section.py L282-L291: `setattr(self, key, value)` with the value made an integer if it can
be; a text given to a count is a validation error, an integer given to a channel becomes its text
(`coerce_numbers_to_str`).  Other names become extra attributes and are left out. -/
def setKey (pyint : Str → Option Int) (s : Sect) (key value : Str) : Except PyErr Sect :=
  if key = "sectid".toList then .ok { s with sectid := replaceC ' ' ['_'] value }
  else if key = "nfreq".toList then
    match pyint value with
    | some n => .ok { s with nfreq := n }
    | none => .error .valueError
  else if key = "nchan".toList then
    match pyint value with
    | some n => .ok { s with nchan := n }
    | none => .error .valueError
  else if key = "maxblocks".toList then
    match pyint value with
    | some n => .ok { s with maxblocks := n }
    | none => .error .valueError
  else match Comp.all.find? (fun c => decide (c.name = key)) with
    | some c =>
      .ok { s with id := fun c' => if c' = c then some (channelText pyint value) else s.id c' }
    | none => .ok s

/-- data_section.py L279-L300: the loop over the lines; the boolean is `channels`. -/
def readLines (pyint : Str → Option Int) : Bool → Sect → List Str → Except PyErr Sect
  | _, s, [] => .ok s
  | channels, s, l :: ls =>
    match splitC '=' l with
    | k :: v :: _ => do
      let s' ← setKey pyint s (lower k) (replaceC '"' [] (strip v))
      readLines pyint channels s' ls
    | _ =>
      if hasSub "//".toList l = true then readLines pyint true s ls
      else if channels then
        readLines pyint channels { s with channelIds := s.channelIds ++
          (if 10 < l.length then words (strip l) else [l]) } ls
      else readLines pyint channels s ls

/-- data_section.py L271-L305 `read_data` -/
def readData (pyint : Str → Option Int) (s : Sect) (lines : List Str) : Except PyErr Sect := do
  let s' ← readLines pyint false { s with channelIds := [] } (getData false lines)
  if s'.channelIds = [] then return { s' with channelIds := Comp.all.filterMap s'.id }
  else return s'

/-- `a <= b` of two strings: by the code points. -/
def strLe : Str → Str → Bool
  | [], _ => true
  | _ :: _, [] => false
  | a :: s, b :: t => if a.toNat < b.toNat then true else if b.toNat < a.toNat then false
    else strLe s t

/-- data_section.py L333-L345: the channels that are set, sorted by their identifiers (as text). -/
def channelList (s : Sect) : List (Comp × Str) :=
  let some' (c : Comp) : Option (Comp × Str) := (s.id c).map fun v => (c, v)
  pySorted (fun a b => strLe a.2 b.2) ([Comp.ex, .ey, .hx, .hy, .hz].filterMap some') ++
    pySorted (fun a b => strLe a.2 b.2) ([Comp.rrhx, .rrhy].filterMap some')

/-- data_section.py L307-L353 `write_data` without its arguments; `spectra` is
`_data_type_out == "spectra"`. -/
def writeData (spectra : Bool) (s : Sect) : List Str :=
  [[], if spectra then ">SPECTRASECT".toList else ">=MTSECT".toList,
    "    NFREQ=".toList ++ showInt s.nfreq, "    SECTID=".toList ++ s.sectid,
    "    NCHAN=".toList ++ showInt s.nchan, "    MAXBLOCKS=".toList ++ showInt s.maxblocks] ++
  ((channelList s).filter (fun p => decide (p.2 ≠ "0".toList))).map
    (fun p => "    ".toList ++ (upper p.1.name ++ '=' :: p.2)) ++ [[]]

/-- data_section.py L364: `ch_id.lower().split("ch")[-1]` -/
def chNumber (s : Str) : Str := (splitSub "ch".toList (lower s)).getLastD []

/-- data_section.py L362-L369, the inner loop: one identifier against the channels of the
measurements.  The identifier is cut again in each round. -/
def matchOne [DecidableEq N] (D : Num N) (s : Sect) : Str → List (Str × N) → Sect
  | _, [] => s
  | ch, (key, value) :: rest =>
    let ch' := chNumber ch
    let s' := if D.parse ch' = some value then
        match Comp.all.find? (fun c => decide (c.name = lower key)) with
        | some c => { s with id := fun c' => if c' = c then some (D.showId value) else s.id c' }
        | none => s
      else s
    matchOne D s' ch' rest

/-- data_section.py L355-L369 `match_channels`; a number given to a channel becomes its text. -/
def matchChannels [DecidableEq N] (D : Num N) (s : Sect) (chs : List (Str × N)) : Sect :=
  s.channelIds.foldl (fun s ch => matchOne D s ch chs) s

end Verif.EdiMeta
