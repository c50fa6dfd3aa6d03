import Verif.Base.Text
import Verif.Base.Py
import Verif.Model.Names
import Mathlib.Analysis.SpecialFunctions.Complex.Arg

/-!
# AVG files of Zonge

Model of `mt_metadata/transfer_functions/io/zonge/zonge.py`: `read` (L121-L172), `to_complex`, `to_amp_phase`
(L180-L234), `_fill_z`, `_fill_t` (L236-L326), the azimuths of the channels in `run_metadata`
(L328-L426), `station_metadata` as far as it raises (L471-L500), `_create_dataframe_from_arrays` and `write`
(L518-L673); of `io/zonge/metadata/header.py`: `read_header` (L236-L297), `_has_channel` (L299-L305) and `write_header` (L515-L545);
and of `to_avg`, `from_avg` in `transfer_functions/core.py` L2555-L2605.

Floats are real numbers, read and printed by functions given as parameters, whose properties the theorems assume;
`np.arctan2(y, x)` is the argument of `x + iy`.

Simplifications: pydantic checks only the attributes `cmp`, `length`, `h_p_r` and `smooth`, others are kept as the texts given to
`update_attribute`; lines with fewer than twelve numbers raise (pandas has nan there); roots of negative numbers are
zero instead of nan; texts have no newlines inside of lines.
-/

namespace Verif.Zonge
open Verif.Text

/-- Floats. -/
structure Nums where
  /-- `float(text)`, `none` for `ValueError` -/
  parse : Str → Option ℝ
  /-- `f"{x:11.4E}"` -/
  e4 : ℝ → Str
  /-- `f"{x:6.1f}"`, `f"{x:4.1f}"` -/
  f1 : ℝ → Str
  /-- `f"{x:.1f}"` -/
  d1 : ℝ → Str
  /-- `f"{x:.7f}"` -/
  f7 : ℝ → Str
  /-- `f"{x:5.3f}"` -/
  f3 : ℝ → Str
  /-- `f"{int(x)}"` -/
  int : ℝ → Str

/-! ## Header -/

/-- The value of an attribute. -/
inductive HVal
  | text (s : Str)
  | nums (l : List ℝ)

/-- header.py L256-L258: `GPS.Lat` is `g_p_s.lat`, `MTEdit:Version` is `m_t_edit.version`. -/
def keyOf (k : Str) : Except PyErr Str := do
  let ps ← (splitC '.' (replaceC ':' ['.'] k)).mapM Names.validateName
  .ok (join ['.'] ps)

def endsWith (suf s : Str) : Bool := suf.isSuffixOf s

/-- header.py L260-L278: the value of a line. -/
def valueOf (N : Nums) (key v : Str) : Except PyErr HVal :=
  let s := strip v
  let s := if endsWith ".proj".toList key || endsWith ".type".toList key || endsWith ".datum".toList key then s else lower s
  if ',' ∈ s ∧ endsWith ".h_p_r".toList key = true then
    match (splitC ',' s).mapM (fun p => N.parse (strip p)) with
    | some l => .ok (.nums l)
    | none => .error .valueError
  else if hasSub "length".toList key then
    match words s with
    | w :: _ => .ok (.text w)
    | [] => .error .indexError
  else .ok (.text s)

/-- rx.py L13-L20 `CmpEnum` -/
def cmpEnum : List Str :=
  ["zxx".toList, "zyy".toList, "zyx".toList, "zxy".toList, "txy".toList, "tyx".toList, [] ]

/-- phase_slope.py L14-L18 `SmoothEnum` -/
def smoothEnum : List Str := ["robust".toList, "normal".toList, "None".toList, "minimal".toList]

/-- Does pydantic accept the value of an attribute? -/
def accept (N : Nums) (key : Str) (v : HVal) : Bool :=
  if key = "rx.cmp".toList then (match v with | .text s => decide (s ∈ cmpEnum) | .nums _ => false)
  else if key = "rx.h_p_r".toList then (match v with | .text _ => false | .nums _ => true)
  else if key = "rx.length".toList then (match v with | .text s => (N.parse s).isSome | .nums _ => false)
  else if key = "m_t_edit.phase_slope.smooth".toList then (match v with | .text s => decide (s ∈ smoothEnum) | .nums _ => false)
  else true

/-- Objects with attributes in the header. -/
def objects : List Str :=
  ["survey".toList, "tx".toList, "rx".toList, "m_t_edit".toList, "m_t_f_t24".toList, "gps".toList, "gdp".toList, "ch".toList,
    "stn".toList, "line".toList, "unit".toList, "job".toList, "m_t_edit.auto".toList, "m_t_edit.d_plus".toList,
    "m_t_edit.phase_slope".toList]

/-- Header, the last component and its attributes, lines of data. -/
structure HState where
  head : OD Str HVal
  comp : Option Str
  comps : OD Str (OD Str HVal)
  data : List Str

/-- `str(value)` (never used of lists) -/
def strOf : HVal → Str
  | .text s => s
  | .nums _ => []

/-- header.py L284-L287: an attribute of the component `c`. -/
def setComp (N : Nums) (st : HState) (c key : Str) (v : HVal) : Except PyErr HState :=
  match splitC '.' key with
  | [o, _] =>
    if o = "rx".toList ∨ o = "ch".toList then
      if accept N key v then .ok { st with comps := OD.set st.comps c (OD.set ((OD.get? st.comps c).getD []) key v) }
      else .error .valueError
    else .error .keyError
  | _ => .error .valueError

/-- header.py L288-L292 with base/metadata.py L146-L186: an attribute of the header. -/
def setHead (N : Nums) (st : HState) (key : Str) (v : HVal) : Except PyErr HState :=
  let key := replaceSub "g_d_p".toList "gdp".toList (replaceSub "g_p_s".toList "gps".toList key)
  let path := (splitC '.' key).dropLast
  if path = [] ∨ join ['.'] path ∈ objects then
    if accept N key v then .ok { st with head := OD.set st.head key v } else .error .valueError
  else .error .attributeError

/-- header.py L254-L295: one line. -/
def headLine (N : Nums) (st : HState) (line : Str) : Except PyErr HState :=
  if line.head? = some '$' ∧ '=' ∈ line then
    match splitC '=' (line.drop 1) with
    | [k, v] => do
      let key ← keyOf k
      let val ← valueOf N key v
      if hasSub "rx.cmp".toList key then
        setComp N { st with comp := some (strOf val), data := st.data ++ [line], comps := OD.set st.comps (strOf val) [] }
          (strOf val) key val
      else
        match st.comp with
        | some c => setComp N st c key val
        | none => setHead N st key val
    | _ => .error .valueError
  else if 2 < line.length then .ok { st with data := st.data ++ [line] }
  else .ok st

/-- header.py L236-L297 `read_header` -/
def readHeader (N : Nums) (lines : List Str) : Except PyErr HState :=
  lines.foldlM (headLine N) { head := [], comp := none, comps := [], data := [] }

/-! ## Table -/

/-- A row of the table: component and `info_keys`. -/
structure Row where
  comp : Str
  skip : ℝ
  freq : ℝ
  emag : ℝ
  bmag : ℝ
  mag : ℝ
  phase : ℝ
  ares : ℝ
  aerr : ℝ
  perr : ℝ
  coh : ℝ
  use : ℝ
  tried : ℝ

/-- zonge.py L154-L159: `zip` of names and values. -/
def rowOf (c : Str) : List ℝ → Option Row
  | a :: b :: d :: e :: f :: g :: h :: i :: j :: k :: l :: m :: _ => some ⟨c, a, b, d, e, f, g, h, i, j, k, l, m⟩
  | _ => none

/-- zonge.py L147-L160: one line of the data, with the last component and the rows so far. -/
def dataLine (N : Nums) (st : Option Str × List Row) (line : Str) : Except PyErr (Option Str × List Row) :=
  if '$' ∈ line then
    match splitC '=' line with
    | [_, c] => .ok (some (strip c), st.2)
    | _ => .error .valueError
  else if hasSub "skp".toList (lower line) || decide (line.length < 2) then .ok st
  else
    match st.1 with
    | none => .error .nameError
    | some c =>
      match (splitC ',' (replaceC '*' "0.50".toList line)).mapM (fun s => N.parse (strip s)) with
      | none => .error .valueError
      | some vs =>
        match rowOf (lower c) vs with
        | some r => .ok (some c, st.2 ++ [r])
        | none => .error .indexError

/-- `unique()`: in order of the first occurrences. -/
noncomputable def uniq {α : Type} [DecidableEq α] : List α → List α
  | [] => []
  | a :: l => a :: (uniq l).filter (fun b => b ≠ a)

open Classical in
/-- zonge.py L164-L165: the sorted frequencies. -/
noncomputable def freqs (rows : List Row) : List ℝ :=
  pySorted (fun a b : ℝ => decide (a ≤ b)) (uniq (rows.map Row.freq))

/-- zonge.py L180-L207 `to_complex`, the phase in milliradians -/
noncomputable def toComplex (m p : ℝ) : ℝ × ℝ := (m * Real.cos (p / 1000), m * Real.sin (p / 1000))

/-- zonge.py L209-L234 `to_amp_phase` -/
noncomputable def toAmpPhase (re im : ℝ) : ℝ × ℝ := (Real.sqrt (re ^ 2 + im ^ 2), Complex.arg ⟨re, im⟩ * 1000)

/-- `z_positive` -/
inductive ZPos
  | down
  | up
  | other
deriving DecidableEq

/-- zonge.py L61-L72: `_comp_index_down` -/
def indexDown : OD Str (Fin 2 × Fin 2) :=
  [("zxx".toList, (0, 0)), ("zxy".toList, (0, 1)), ("zyx".toList, (1, 0)), ("zyy".toList, (1, 1)), ("tzx".toList, (0, 0)),
    ("tzy".toList, (0, 1)), ("zxxr".toList, (0, 0)), ("zxyr".toList, (0, 1)), ("zyxr".toList, (1, 0)), ("zyyr".toList, (1, 1))]

/-- zonge.py L74-L85: `_comp_index_up` -/
def indexUp : OD Str (Fin 2 × Fin 2) :=
  [("zxx".toList, (1, 1)), ("zxy".toList, (1, 0)), ("zyx".toList, (0, 1)), ("zyy".toList, (0, 0)), ("tzx".toList, (0, 1)),
    ("tzy".toList, (0, 0)), ("zxxr".toList, (1, 1)), ("zxyr".toList, (1, 0)), ("zyxr".toList, (0, 1)), ("zyyr".toList, (0, 0))]

/-- zonge.py L95-L108 `_get_comp_index` -/
def compIndex : ZPos → Except PyErr (OD Str (Fin 2 × Fin 2))
  | .down => .ok indexDown
  | .up => .ok indexUp
  | .other => .error .valueError

/-- An array of shape `(n, 2, 2)` (for the tipper `(n, 1, 2)`). -/
abbrev Arr (α : Type) := Nat → Fin 2 → Fin 2 → α

/-- `a[n, i, j] = x` -/
def Arr.set {α : Type} (a : Arr α) (n : Nat) (i j : Fin 2) (x : α) : Arr α :=
  fun n' i' j' => if n' = n ∧ i' = i ∧ j' = j then x else a n' i' j'

/-- zonge.py L259, L274: value of a row of the impedance. -/
noncomputable def rowZ (r : Row) : ℂ := ⟨(toComplex r.mag r.phase).1, (toComplex r.mag r.phase).2⟩

/-- zonge.py L260-L272, L276: its error. -/
noncomputable def rowErr (r : Row) : ℝ :=
  let e := toComplex (Real.sqrt (r.aerr / 100 * r.ares * 5 * r.freq)) r.perr
  Real.sqrt (e.1 ^ 2 + e.2 ^ 2)

open Classical in
/-- `freq_index_dict[f]` -/
noncomputable def freqIndex (fs : List ℝ) (f : ℝ) : Except PyErr Nat :=
  if f ∈ fs then .ok (fs.idxOf f) else .error .keyError

/-- zonge.py L257-L276: one row. -/
noncomputable def stepZ (idx : OD Str (Fin 2 × Fin 2)) (fs : List ℝ) (a : Arr ℂ × Arr ℝ) (r : Row) :
    Except PyErr (Arr ℂ × Arr ℝ) :=
  match OD.get? idx r.comp with
  | none => .error .keyError
  | some (i, j) => do
    let n ← freqIndex fs r.freq
    .ok (a.1.set n i j (rowZ r), a.2.set n i j (rowErr r))

/-- zonge.py L236-L278 `_fill_z` -/
noncomputable def fillZ (pos : ZPos) (rows : List Row) : Except PyErr (Arr ℂ × Arr ℝ) := do
  let idx ← compIndex pos
  (rows.filter (fun r => r.comp.head? = some 'z')).foldlM (stepZ idx (freqs rows)) (fun _ _ _ => 0, fun _ _ _ => 1)

/-- zonge.py L304-L324: one row of the tipper; the errors computed in L313-L323 are not used. -/
noncomputable def stepT (pos : ZPos) (idx : OD Str (Fin 2 × Fin 2)) (fs : List ℝ) (a : Arr ℂ × Arr ℝ) (r : Row) :
    Except PyErr (Arr ℂ × Arr ℝ) :=
  let c := toComplex r.mag r.phase
  match OD.get? idx r.comp with
  | none => .error .keyError
  | some (i, j) => do
    let n ← freqIndex fs r.freq
    .ok (a.1.set n i j (if pos = .up then -⟨c.1, c.2⟩ else ⟨c.1, c.2⟩), a.2.set n i j (Real.sqrt (c.1 ^ 2 + c.2 ^ 2)))

/-- zonge.py L280-L326 `_fill_t` -/
noncomputable def fillT (pos : ZPos) (rows : List Row) : Except PyErr (Option (Arr ℂ × Arr ℝ)) :=
  if "tzx".toList ∈ rows.map Row.comp then do
    let idx ← compIndex pos
    let a ← (rows.filter (fun r => r.comp.head? = some 't')).foldlM (stepT pos idx (freqs rows)) (fun _ _ _ => 0, fun _ _ _ => 1)
    .ok (some a)
  else .ok none

/-- What is read from a file. -/
structure Avg where
  head : OD Str HVal
  comps : OD Str (OD Str HVal)
  rows : List Row
  freq : List ℝ
  z : Arr ℂ
  zerr : Arr ℝ
  t : Option (Arr ℂ × Arr ℝ)

/-- zonge.py L145-L162: the table of the lines of the data. -/
def readRows (N : Nums) (data : List Str) : Except PyErr (List Row) :=
  (data.foldlM (dataLine N) (none, [])).map Prod.snd

/-- zonge.py L121-L172 `read` (an empty table has no column `frequency`) -/
noncomputable def read (N : Nums) (pos : ZPos) (lines : List Str) : Except PyErr Avg := do
  let h ← readHeader N lines
  let rows ← readRows N h.data
  if rows = [] then .error .attributeError
  else do
    let z ← fillZ pos rows
    let t ← fillT pos rows
    .ok { head := h.head, comps := h.comps, rows := rows, freq := freqs rows, z := z.1, zerr := z.2, t := t }

/-! ## Metadata -/

/-- ch.py L125-L153: a text with commas is a list. -/
inductive ChVal
  | none
  | text (s : Str)
  | list (l : List Str)
deriving DecidableEq

/-- ch.py L136-L153 `validate_comma_separated_fields` -/
def chVal : Option HVal → ChVal
  | some (.text s) =>
    if ',' ∈ s then
      match (splitC ',' s).filterMap (fun p => if strip p = [] then none else some (strip p)) with
      | [] => .none
      | [p] => .text p
      | l => .list l
    else .text s
  | _ => .none

/-- `value[i]` as a float -/
def chItem (N : Nums) (v : ChVal) (i : Nat) : Except PyErr ℝ :=
  let num : Option Str → Except PyErr ℝ := fun s =>
    match s with
    | Option.none => .error .indexError
    | some s =>
      match N.parse s with
      | some x => .ok x
      | Option.none => .error .valueError
  match v with
  | .none => .error .typeError
  | .text s => num (s[i]?.map fun c => [c])
  | .list l => num l[i]?

/-- header.py L299-L305 `_has_channel`: looks at `zxx` whatever the component. -/
def hasChannel (a : Avg) (_component : Str) : Bool :=
  match OD.get? a.comps "zxx".toList with
  | none => false
  | some d => decide (chVal (OD.get? d "ch.cmp".toList) ≠ .none)

/-- `h_p_r[0]` -/
def heading (a : Avg) : Except PyErr ℝ :=
  match OD.get? a.head "rx.h_p_r".toList with
  | some (.nums (x :: _)) => .ok x
  | _ => .error .indexError

/-- zonge.py L350-L426: azimuth of a channel, from place `i` of the component `c` or `h_p_r[0]` and `turn`. -/
noncomputable def azimuth (N : Nums) (a : Avg) (c : Str) (i : Nat) (turn : ℝ) : Except PyErr ℝ :=
  if hasChannel a c then
    match OD.get? a.comps c with
    | none => .error .keyError
    | some d => chItem N (chVal (OD.get? d "ch.azimuth".toList)) i
  else do
    let x ← heading a
    .ok (x + turn)

/-- zonge.py L339-L343: `ex`, `ey`, `hx`, `hy` of the run. -/
noncomputable def azimuths (N : Nums) (a : Avg) : Except PyErr (List ℝ) :=
  if "zxy".toList ∈ a.rows.map Row.comp ∨ "zxxr".toList ∈ a.rows.map Row.comp then do
    let ex ← azimuth N a "zxy".toList 0 0
    let ey ← azimuth N a "zyx".toList 0 90
    let hx ← azimuth N a "zyx".toList 1 0
    let hy ← azimuth N a "zxy".toList 1 90
    .ok [ex, ey, hx, hy]
  else .ok []

/-- zonge.py L484-L487: words of the version. -/
def version (a : Avg) : Except PyErr Str :=
  match OD.get? a.head "m_t_edit.version".toList with
  | some (.text s) =>
    match words s with
    | w :: _ => .ok w
    | [] => .error .indexError
  | _ => .error .indexError

/-- `TF.from_avg`, core.py L2591-L2605: what was read and the azimuths of the run in `survey_metadata`. -/
noncomputable def fromAvg (N : Nums) (pos : ZPos) (lines : List Str) : Except PyErr (Avg × List ℝ) := do
  let a ← read N pos lines
  let _ ← version a
  let az ← azimuths N a
  .ok (a, az)

/-! ## Writing -/

/-- The object to write: the table (empty if there is none), frequencies and arrays. -/
structure Obj where
  pos : ZPos
  rows : List Row
  freq : Option (List ℝ)
  z : Option (Arr ℂ)
  zerr : Option (Arr ℝ)
  t : Option (Arr ℂ)
  terr : Option (Arr ℝ)

/-- zonge.py L535-L563: a row of the impedance. -/
noncomputable def zRow (c : Str) (f : ℝ) (z : ℂ) (e : ℝ) : Row :=
  let mp := toAmpPhase z.re z.im
  { comp := c, skip := 2, freq := f, emag := 1, bmag := 1, mag := mp.1, phase := mp.2, ares := 0.2 * (1 / f) * mp.1 ^ 2,
    aerr := if mp.1 = 0 then 0 else 2 * e / mp.1 * 100, perr := e * 1000, coh := 0.9, use := 100, tried := 200 }

/-- zonge.py L565-L589: a row of the tipper. -/
noncomputable def tRow (c : Str) (f : ℝ) (t : ℂ) (e : ℝ) : Row :=
  let mp := toAmpPhase t.re t.im
  { comp := c, skip := 2, freq := f, emag := 1, bmag := 1, mag := mp.1, phase := mp.2, ares := 1, aerr := e * 100,
    perr := e * 1000, coh := 0.9, use := 100, tried := 200 }

/-- zonge.py L518-L592 `_create_dataframe_from_arrays` -/
noncomputable def createRows (o : Obj) : Except PyErr (List Row) :=
  match o.z, o.freq with
  | some z, some fs => do
    let idx ← compIndex o.pos
    .ok (idx.flatMap fun ci => fs.zipIdx.flatMap fun fk =>
      if ci.1.head? = some 'z' then [zRow ci.1 fk.1 (z fk.2 ci.2.1 ci.2.2) ((o.zerr.map fun e => e fk.2 ci.2.1 ci.2.2).getD 0)]
      else
        match o.t with
        | some t => [tRow ci.1 fk.1 (t fk.2 0 ci.2.2) ((o.terr.map fun e => e fk.2 0 ci.2.2).getD 0)]
        | none => [])
  | _, _ => .error .valueError

/-- header.py L219-L234, L536-L541: the names in the header as written. -/
def headNames : List Str :=
  ["Survey.Type".toList, "Survey.Array".toList, "Tx.Type".toList, "MTEdit:Version".toList, "MTEdit:Auto.PhaseFlip".toList,
    "MTEdit:PhaseSlope.Smooth".toList, "MTEdit:PhaseSlope.ToZMag".toList, "MTEdit:DPlus.Use".toList, "Rx.GdpStn".toList,
    "Rx.Length".toList, "Rx.HPR".toList, "GPS.Lat".toList, "GPS.Lon".toList, "Unit.Length".toList]

/-- `str.capitalize` -/
def capitalize : Str → Str
  | [] => []
  | c :: s => c.toUpper :: lower s

/-- The attributes of the header that are written. -/
structure HeadVals where
  type : Str
  array : Str
  source : Str
  version : Str
  flip : Str
  smooth : Str
  toZmag : Str
  dplus : Str
  station : Str
  length : ℝ
  hpr : List ℝ
  lat : ℝ
  lon : ℝ
  unit : Str

/-- header.py L525-L534: the texts of the values. -/
def HeadVals.texts (N : Nums) (h : HeadVals) : List Str :=
  [h.type, h.array, h.source, h.version, h.flip, h.smooth, h.toZmag, h.dplus, h.station, N.f7 h.length, join [','] (h.hpr.map N.d1),
    N.f7 h.lat, N.f7 h.lon, h.unit]

/-- header.py L515-L545 `write_header` -/
def writeHeader (N : Nums) (h : HeadVals) : List Str :=
  [] :: (headNames.zip (h.texts N)).map fun kv => '$' :: (kv.1 ++ ('=' :: capitalize kv.2))

/-- zonge.py L640-L643 -/
def columns : Str :=
  ("Skp,Freq,      E.mag,      B.mag,      Z.mag,      Z.phz,   ".toList ++
    "ARes.mag,   ARes.%err,Z.perr,  Coher,   FC.NUse,FC.NTry".toList)

def pad (n : Nat) (s : Str) : Str := List.replicate n ' ' ++ s

/-- zonge.py L651-L664: a line of data. -/
def dataText (N : Nums) (r : Row) : Str :=
  join [','] [N.int r.skip, pad 1 (N.e4 r.freq), pad 1 (N.e4 r.emag), pad 1 (N.e4 r.bmag), pad 1 (N.e4 r.mag), pad 1 (N.f1 r.phase),
    pad 3 (N.e4 r.ares), pad 1 (N.f1 r.aerr), pad 5 (N.f1 r.perr), pad 3 (N.f3 r.coh), pad 3 (N.int r.use), pad 5 (N.int r.tried)]

open Classical in
/-- zonge.py L616-L666: the lines of a component, its rows sorted by frequency, equal ones in their order (`sort_values` may exchange
these); the attributes of the component, L625-L637, are never written (the keys `rx`, `ch` do not start with
`rx_`, `ch_`). -/
noncomputable def compLines (N : Nums) (rows : List Row) (c : Str) : List Str :=
  ("$Rx.Cmp = ".toList ++ capitalize c) :: columns ::
    (pySorted (fun a b : Row => decide (a.freq ≤ b.freq)) (rows.filter (fun r => r.comp = c))).map (dataText N)

/-- zonge.py L594-L673 `write`: the lines of the file. -/
noncomputable def write (N : Nums) (h : HeadVals) (o : Obj) : Except PyErr (List Str) := do
  let rows ← if o.rows = [] then createRows o else .ok o.rows
  .ok (writeHeader N h ++ (uniq (rows.map Row.comp)).flatMap (compLines N rows))

/-- The attributes of a new header (defaults in rx.py, tx.py, survey.py, mt_edit.py, auto.py, phase_slope.py, d_plus.py, gps.py,
unit.py). -/
noncomputable def newHead : HeadVals :=
  { type := "NSAMT".toList, array := "tensor".toList, source := "natural".toList, version := [], flip := "yes".toList,
    smooth := "None".toList, toZmag := "no".toList, dplus := "no".toList, station := [], length := 0, hpr := [], lat := 0, lon := 0,
    unit := "m".toList }

/-- `TF.to_avg`, core.py L2555-L2577 -/
def toAvg (freq : Option (List ℝ)) (z : Option (Arr ℂ)) (zerr : Option (Arr ℝ)) (t : Option (Arr ℂ)) (terr : Option (Arr ℝ)) : Obj :=
  { pos := .down, rows := [], freq := freq, z := z, zerr := zerr, t := t, terr := terr }

/-- The lines of a file (`readlines`) written by `"\n".join`. -/
def asRead : List Str → List Str
  | [] => []
  | [l] => if l = [] then [] else [l]
  | l :: ls => (l ++ ['\n']) :: asRead ls

end Verif.Zonge
