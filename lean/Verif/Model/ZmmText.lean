import Verif.Base.Text
import Verif.Base.Num
import Verif.Base.Py

/-!
# The text of Z files

Model of `mt_metadata/transfer_functions/io/zfiles/zmm.py`: `read_header` (L115-L208), `write_header` (L210-L267),
the channels (L283-L304), `write` (L644-L738), `_get_period_blocks` (L740-L751), `_read_period_block` (L753-L802),
the functions that fill arrays from blocks (L804-L848) and the data set without rotation (L867, L893-L903).

Numbers are of any type `F`; how they are printed and read (`float`) are parameters, whose properties the
theorems assume.

Simplifications: the text is cut at line ends only; `int` reads natural numbers; comments, dipole lengths, runs and
`decimation_dict` keys are left out (what is known about a period is part of it); the channels are called ex, ey, hx, hy, hz
in the data set; a header that is not followed by a period ends with the file (in the code the loop of L132
does not end); zero stands for `num_channels = None`; assigning latitudes and longitudes outside their range does not raise.
-/

namespace Verif.ZmmText
open Verif.Text

/-- Printing (`>12.4E`, `>9.3f`, `>8.2f`, `^18.5f`, `str`) and reading of numbers. -/
structure Nums (F : Type) where
  f12 : F → Str
  f9 : F → Str
  f8 : F → Str
  f18 : F → Str
  fstr : F → Str
  parse : Str → Option F
  zero : F
  neg : F → F
  /-- L164-L165: `lon - 360` if `lon > 180` -/
  wrap : F → F

inductive Comp
  | ex
  | ey
  | hx
  | hy
  | hz
deriving DecidableEq, Repr

/-- Name of a channel. -/
def Comp.name : Comp → Str
  | .ex => ['e', 'x']
  | .ey => ['e', 'y']
  | .hx => ['h', 'x']
  | .hy => ['h', 'y']
  | .hz => ['h', 'z']

/-- The channel of a name. -/
def compOf (s : Str) : Option Comp := [Comp.ex, .ey, .hx, .hy, .hz].find? (fun c => c.name == s)

/-- `str.capitalize` of the names. -/
def Comp.title : Comp → Str
  | .ex => ['E', 'x']
  | .ey => ['E', 'y']
  | .hx => ['H', 'x']
  | .hy => ['H', 'y']
  | .hz => ['H', 'z']

variable {F : Type}

/-- zfiles/metadata/channel.py: number, azimuth and tilt. -/
structure Chan (F : Type) where
  number : Option Nat
  az : F
  tilt : F

/-- The header. -/
structure Hdr (F : Type) where
  ptype : Str
  station : Str
  lat : F
  lon : F
  decl : F
  nch : Nat
  nfreq : Nat
  ch : Comp → Option (Chan F)

/-- A complex number. -/
abbrev C (F : Type) := F × F

def conj (N : Nums F) (z : C F) : C F := (z.1, N.neg z.2)

/-- What is known about a period. -/
structure Rec (F : Type) where
  period : F
  level : Nat
  band : Nat × Nat
  npts : Nat
  rate : F
  /-- By output and input. -/
  tf : Comp → Comp → C F
  isp : Comp → Comp → C F
  res : Comp → Comp → C F

/-! ## Channels -/

/-- The channels in the order of L287. -/
def comps : List Comp := [.ex, .ey, .hx, .hy, .hz]

/-- The number of a channel. -/
def numOf (ch : Comp → Option (Chan F)) (c : Comp) : Option Nat := (ch c).bind Chan.number

/-- L283-L296 `channels_recorded`: in the order of the numbers (`index` is the number less one), those without
number left out. -/
def recorded (ch : Comp → Option (Chan F)) : List Comp :=
  let d : OD Nat Comp := OD.ofPairs (comps.filterMap fun c => (numOf ch c).map fun n => (n, c))
  (pySorted (fun a b : Nat => decide (a ≤ b)) (OD.keys d)).filterMap (fun k => OD.get? d k)

/-- L298-L300 -/
def inputs (ch : Comp → Option (Chan F)) : List Comp := (recorded ch).take 2

/-- L302-L304 -/
def outputs (ch : Comp → Option (Chan F)) : List Comp := (recorded ch).drop 2

/-! ## Writing -/

/-- `f"{s:>k}"` -/
def right (k : Nat) (s : Str) : Str := List.replicate (k - s.length) ' ' ++ s

/-- `f"{s:^k}"` -/
def center (k : Nat) (s : Str) : Str :=
  List.replicate ((k - s.length) / 2) ' ' ++ (s ++ List.replicate ((k - s.length) - (k - s.length) / 2) ' ')

/-- L53 `_channel_order` -/
def order : List Comp := [.hx, .hy, .hz, .ex, .ey]

/-- L249-L250: a channel without number gets its position. -/
def numbered (ch : Comp → Option (Chan F)) : Comp → Option (Chan F) := fun c =>
  (ch c).map fun x => match x.number with
    | some _ => x
    | none => { x with number := some (order.idxOf c) }

/-- L255-L263 -/
def chanLine (N : Nums F) (station : Str) (c : Comp) (x : Chan F) : Str :=
  right 5 (showNat (x.number.getD 0)) ++ (' ' :: (N.f8 x.az ++ (' ' :: (N.f8 x.tilt ++ (' ' :: (right 3 station ++
    (' ' :: right 3 c.title)))))))

/-- L54-L57 -/
def title1 : Str := "TRANSFER FUNCTIONS IN MEASUREMENT COORDINATES".toList
def title2 : Str := "********* WITH FULL ERROR COVARIANCE ********".toList

/-- L239-L241 -/
def coordLine (N : Nums F) (h : Hdr F) : Str :=
  "coordinate ".toList ++ (N.f9 h.lat ++ (' ' :: (N.f9 h.lon ++ (" declination ".toList ++ N.f8 h.decl))))

/-- L242-L244 -/
def numberLine (h : Hdr F) : Str :=
  "number of channels  ".toList ++ (right 3 (showNat h.nch) ++ ("  number of frequencies ".toList ++ right 3 (showNat h.nfreq)))

/-- L210-L267 `write_header` -/
def writeHeader (N : Nums F) (h : Hdr F) : List Str :=
  [title1, title2, h.ptype, "station: ".toList ++ h.station, coordLine N h, numberLine h,
    " orientations and tilts of each channel".toList] ++
  order.filterMap (fun c => (numbered h.ch c).map (chanLine N h.station c))

/-- L710, L722, L734 -/
def pair (N : Nums F) (z : C F) : Str := N.f12 z.1 ++ N.f12 z.2

/-- L702-L711 -/
def tfLines (N : Nums F) (outs ins : List Comp) (m : Comp → Comp → C F) : List Str :=
  outs.map fun o => ins.flatMap fun i => pair N (m o i)

/-- L714-L723, L726-L735: the lower triangle. -/
def lowLines (N : Nums F) (l : List Comp) (m : Comp → Comp → C F) : List Str :=
  (List.range l.length).map fun k => (l.take (k + 1)).flatMap fun i => pair N (m (l.getD k .ex) i)

/-- L690-L696 -/
def line1 (N : Nums F) (r : Rec F) : Str :=
  "period : ".toList ++ (N.f18 r.period ++ (" decimation level ".toList ++ (center 8 (showNat r.level) ++
    ("freq. band from ".toList ++ (right 5 (showNat r.band.1) ++ (" to ".toList ++ right 5 (showNat r.band.2)))))))

/-- L697-L699 -/
def line2 (N : Nums F) (r : Rec F) : Str :=
  "number of data point ".toList ++ (showNat r.npts ++ (" sampling freq. ".toList ++ (N.fstr r.rate ++ " Hz".toList)))

/-- L679-L735: the lines of a period. -/
def recLines (N : Nums F) (ch : Comp → Option (Chan F)) (r : Rec F) : List Str :=
  [line1 N r, line2 N r, " Transfer Functions".toList] ++ (tfLines N (outputs ch) (inputs ch) r.tf ++
  (" Inverse Coherent Signal Power Matrix".toList :: (lowLines N (inputs ch) r.isp ++
  (" Residual Covariance".toList :: lowLines N (outputs ch) r.res))))

/-- L644-L738 `write` -/
def write (N : Nums F) (h : Hdr F) (recs : List (Rec F)) : Str :=
  join ['\n'] (writeHeader N h ++ ([] :: recs.flatMap (recLines N (numbered h.ch))))

/-! ## Reading the header -/

/-- `float(s)` -/
def float (N : Nums F) (s : Str) : Except PyErr F :=
  match N.parse s with
  | some x => .ok x
  | none => .error .valueError

/-- `int(s)` -/
def int (s : Str) : Except PyErr Nat :=
  match parseDigits s with
  | some n => .ok n
  | none => .error .valueError

/-- `l[i]` -/
def item {α : Type} (l : List α) (i : Nat) : Except PyErr α :=
  match l[i]? with
  | some x => .ok x
  | none => .error .indexError

/-- `l[-1]` -/
def last {α : Type} (l : List α) : Except PyErr α :=
  match l.getLast? with
  | some x => .ok x
  | none => .error .indexError

/-- `s[-2:]` -/
def last2 (s : Str) : Str := s.drop (s.length - 2)

/-- L175-L189: a line of a channel. -/
def readChan (N : Nums F) (st : Hdr F) (line : Str) : Except PyErr (Hdr F) := do
  let w := words (strip line)
  let name ← last w
  let n ← (item w 0) >>= int
  let az ← (item w 1) >>= float N
  let tilt ← (item w 2) >>= float N
  let _ ← item w 3
  match compOf (lower name) with
  | some c =>
    .ok { st with ch := fun d => if d = c then some { number := some (if n = 0 then st.nch else n), az := az, tilt := tilt } else st.ch d }
  | none => .error .valueError

/-- L160-L168 -/
def readCoord (N : Nums F) (st : Hdr F) (line : Str) : Except PyErr (Hdr F) := do
  let w := words (strip line)
  let lat ← (item w 1) >>= float N
  let lon ← (item w 2) >>= float N
  let decl ← (last w) >>= float N
  .ok { st with lat := lat, lon := N.wrap lon, decl := decl }

/-- L169-L172 -/
def readNumber (st : Hdr F) (line : Str) : Except PyErr (Hdr F) := do
  let w := words (strip line)
  let a ← (item w 3) >>= int
  let b ← (last w) >>= int
  .ok { st with nch := a, nfreq := b }

/-- L148-L189: line number `i` of the header. -/
def headerStep (N : Nums F) (st : Hdr F) (i : Nat) (line : Str) : Except PyErr (Hdr F) :=
  if hasSub "**".toList line then .ok st
  else if i = 2 then .ok st
  else if hasSub "station".toList line then
    (item (splitC ':' line) 1).map fun s => { st with station := strip s }
  else if hasSub "coordinate".toList line then readCoord N st line
  else if hasSub "number".toList line then readNumber st line
  else if hasSub "orientations".toList line then .ok st
  else if (compOf (lower (last2 (strip line)))).isSome then readChan N st line
  else .ok st

def headerLoop (N : Nums F) : Nat → List Str → Hdr F → Except PyErr (Hdr F)
  | _, [], st => .ok st
  | i, l :: ls, st =>
    match headerStep N st i l with
    | .ok st => headerLoop N (i + 1) ls st
    | .error e => .error e

/-- L139-L143: the station before the lines are gone through. -/
def firstStation (line : Str) : Str :=
  let s := strip (lower line)
  match splitC ':' s with
  | _ :: x :: _ => strip x
  | _ => s

/-- L115-L208 `read_header`, of a new object. -/
def readHeader (N : Nums F) (lines : List Str) : Except PyErr (Hdr F) :=
  let hl := lines.takeWhile (fun l => !hasSub "period".toList l)
  match hl[2]?, hl[3]? with
  | some p, some s =>
    headerLoop N 0 hl
      { ptype := strip p, station := firstStation s, lat := N.zero, lon := N.zero, decl := N.zero,
        nch := 0, nfreq := 0, ch := fun _ => none }
  | _, _ => .error .indexError

/-! ## Reading the periods -/

/-- L740-L751 `_get_period_blocks` -/
def periodBlocks (text : Str) : List (List Str) :=
  ((splitSub "period".toList (lower text)).drop 1).map (splitC '\n')

/-- `s.strip().split(sep)[1].split()[0].strip()` -/
def after (sep s : Str) : Except PyErr Str := do
  let x ← item (splitSub sep (strip s)) 1
  let y ← item (words x) 0
  .ok (strip y)

/-- L796-L800: pairs of numbers. -/
def pairs : List F → Except PyErr (List (C F))
  | [] => .ok []
  | [_] => .error .indexError
  | a :: b :: l =>
    match pairs l with
    | .ok r => .ok ((a, b) :: r)
    | .error e => .error e

inductive Part
  | tf
  | sig
  | res
deriving DecidableEq

/-- A block as read. -/
structure Blk (F : Type) where
  part : Part
  tf : List (List (C F))
  sig : List (List (C F))
  res : List (List (C F))

/-- L785-L801: a line below the first two. -/
def dataStep (N : Nums F) (st : Blk F) (line : Str) : Except PyErr (Blk F) :=
  if hasSub "transfer".toList (lower line) then .ok { st with part := .tf }
  else if hasSub "signal".toList (lower line) then .ok { st with part := .sig }
  else if hasSub "residual".toList (lower line) then .ok { st with part := .res }
  else do
    let xs ← (words (strip line)).mapM (float N)
    let v ← pairs xs
    match st.part with
    | .tf => .ok { st with tf := st.tf ++ [v] }
    | .sig => .ok { st with sig := st.sig ++ [v] }
    | .res => .ok { st with res := st.res ++ [v] }

/-- L818-L825: rows of two, missing ones zero. -/
def fillTf (N : Nums F) (n : Nat) (l : List (C F)) : Except PyErr (List (C F × C F)) :=
  match n, l with
  | n, [] => .ok (List.replicate n ((N.zero, N.zero), (N.zero, N.zero)))
  | _, [_] => .error .indexError
  | 0, _ :: _ :: _ => .error .indexError
  | n + 1, a :: b :: l =>
    match fillTf N n l with
    | .ok r => .ok ((a, b) :: r)
    | .error e => .error e

/-- L827-L835 -/
def fillSig (N : Nums F) (l : List (C F)) : Except PyErr (List (List (C F))) := do
  let a ← item l 0
  let b ← item l 1
  let c ← item l 2
  .ok [[a, conj N b], [b, c]]

/-- L837-L848 -/
def fillRes (N : Nums F) (n : Nat) (l : List (List (C F))) : Except PyErr (List (List (C F))) :=
  (List.range n).mapM fun i => (List.range n).mapM fun j =>
    if j ≤ i then item l i >>= fun r => item r j
    else (item l j >>= fun r => item r i).map (conj N)

/-- An array in the data set: zero where no channel is (L867, L893-L903). -/
def placed (N : Nums F) (outs ins : List Comp) (m : List (List (C F))) : Comp → Comp → C F := fun o i =>
  if o ∈ outs ∧ i ∈ ins then ((m.getD (outs.idxOf o) []).getD (ins.idxOf i) (N.zero, N.zero)) else (N.zero, N.zero)

/-- L753-L802 `_read_period_block` and L804-L848. -/
def readBlock (N : Nums F) (h : Hdr F) (b : List Str) : Except PyErr (Rec F) := do
  let l0 ← item b 0
  let p ← (after ":".toList l0) >>= float N
  let level ← (after "level".toList l0) >>= int
  let b0 ← (after "from".toList l0) >>= int
  let b1 ← (after "to".toList l0) >>= int
  let l1 ← item b 1
  let npts ← (after "point".toList l1) >>= int
  let rate ← (after "freq.".toList l1) >>= float N
  let blk ← (b.drop 2).foldlM (dataStep N) { part := .tf, tf := [], sig := [], res := [] }
  let tf ← fillTf N (h.nch - 2) blk.tf.flatten
  let sig ← fillSig N blk.sig.flatten
  let res ← fillRes N (h.nch - 2) blk.res
  -- the shapes have to be those of the channels (xarray)
  if (outputs h.ch).length = h.nch - 2 ∧ (inputs h.ch).length = 2 then
    .ok { period := p, level := level, band := (b0, b1), npts := npts, rate := rate,
          tf := placed N (outputs h.ch) (inputs h.ch) (tf.map fun r => [r.1, r.2])
          isp := placed N (inputs h.ch) (inputs h.ch) sig
          res := placed N (outputs h.ch) (outputs h.ch) res }
  else .error .valueError

/-- L592-L610: header and periods; there have to be as many as the header says (periods beyond raise, missing ones
would be zero). -/
def read (N : Nums F) (text : Str) : Except PyErr (Hdr F × List (Rec F)) := do
  let h ← readHeader N (splitC '\n' text)
  let bs := periodBlocks text
  if bs.length ≤ h.nfreq then do
    let rs ← bs.mapM (readBlock N h)
    .ok (h, rs)
  else .error .indexError

end Verif.ZmmText
