import Verif.Base.Text
import Verif.Base.Py
import Mathlib.Data.List.Dedup

/-!
# J files

Model of `mt_metadata/transfer_functions/io/jfiles/jfile.py`: `_validate_j_file` (L129-L155), `read` (L157-L327) and the sample
rate of `station_metadata` (L336-L342), of `io/jfiles/metadata/header.py`: `_read_header_line` (L99-L159),
`read_header` (L161-L205), `read_metadata` (L207-L229), and of `TF.from_jfile` (`transfer_functions/core.py` L2289-L2308)
as far as it raises.

Floats are of any type `F`; reading (`float`), printing (`str`) and tests of them are parameters, whose properties
the theorems assume.

Simplifications: attributes of the header are kept as given to `update_attribute` (the conversions by pydantic and names
with dots are left out); `a + 1j * b` is the pair `(a, b)` (for infinite `b` numpy has nan as real part); the file name,
elevations from the web, channels and provenance are left out.
-/

namespace Verif.JFile
open Verif.Text

/-- Floats. -/
structure Nums (F : Type) where
  /-- `float(text)`, `none` for `ValueError` -/
  parse : Str → Option F
  /-- `str(x)` -/
  show' : F → Str
  zero : F
  /-- `10**6` -/
  big : F
  /-- `x == -999 or np.isnan(x)` -/
  isMask : F → Bool
  /-- `x == 0` -/
  isZero : F → Bool
  /-- `x == np.inf` -/
  isInf : F → Bool
  /-- `x < 0` -/
  isNeg : F → Bool
  neg : F → F
  /-- `1.0 / x` for `x` other than zero -/
  inv : F → F

/-- `l[i]` -/
def item {α : Type} (l : List α) (i : Nat) : Except PyErr α :=
  match l[i]? with
  | some x => .ok x
  | none => .error .indexError

/-! ## Header -/

/-- jfile.py L144-L153: the first line with `v` in it gets a number after its equals sign. -/
def fixFirst {F : Type} (N : Nums F) (v : Str) : List Str → Except PyErr (List Str)
  | [] => .ok []
  | l :: ls =>
    if hasSub v (lower l) then
      match item (splitC '=' l) 1 with
      | .error e => .error e
      | .ok x => .ok (((splitC '=' l).headD [] ++ (" = ".toList ++ (N.show' ((N.parse (strip x)).getD N.zero) ++ ['\n']))) :: ls)
    else
      match fixFirst N v ls with
      | .error e => .error e
      | .ok r => .ok (l :: r)

/-- jfile.py L129-L155 `_validate_j_file` (the lines of an existing file). -/
def validate {F : Type} (N : Nums F) (lines : List Str) : Except PyErr (List Str) :=
  ["lat".toList, "lon".toList, "elev".toList].foldlM (fun ls v => fixFirst N v ls) lines

/-- A value of the header: a number if it can be read as one. -/
inductive Atom (F : Type)
  | num (x : F)
  | text (s : Str)
deriving DecidableEq

inductive HVal (F : Type)
  | one (a : Atom F)
  | many (l : List (Atom F))
deriving DecidableEq

/-- header.py L154-L157 (and L148-L151) -/
def atom {F : Type} (N : Nums F) (s : Str) : Atom F :=
  match N.parse s with
  | some x => .num x
  | none => .text s

/-- header.py L116-L131: blanks become commas, but not the one after an equals sign (`e` its place, `i` the place of the
next character). -/
def commas (e i : Nat) : Str → Str
  | [] => []
  | c :: s =>
    if c = '=' then c :: commas i (i + 1) s
    else if c = ' ' then
      if i - e = 1 then commas e (i + 1) s else ',' :: commas e (i + 1) s
    else c :: commas e (i + 1) s

/-- header.py L139-L158: one part of a line, with the dictionary and the last key. -/
def entry {F : Type} (N : Nums F) (st : OD Str (HVal F) × Str) (ll : Str) : Except PyErr (OD Str (HVal F) × Str) :=
  match splitC '=' ll with
  | [] => .ok st
  | [_] => .ok st
  | [k, v] => .ok (OD.set st.1 k (.one (atom N v)), k)
  | _ =>
    match OD.get? st.1 st.2 with
    | none => .error .keyError
    | some (.one a) => .ok (OD.set st.1 st.2 (.many [a, atom N ll]), st.2)
    | some (.many l) => .ok (OD.set st.1 st.2 (.many (l ++ [atom N ll])), st.2)

/-- header.py L99-L159 `_read_header_line` -/
def readLine {F : Type} (N : Nums F) (line : Str) : Except PyErr (OD Str (HVal F)) :=
  ((splitC ',' (commas 0 0 (join [' '] (words (line.drop 1))))).foldlM (entry N) ([], "null".toList)).map Prod.fst

/-- Blocks of data, angles and parameters; `nb` and `na` stand for `fn_count + 1` and `theta_count + 1`. -/
structure Head (F : Type) where
  blocks : List (OD Str (HVal F))
  nb : Nat
  angles : List (OD Str (HVal F))
  na : Nat
  params : OD Str (HVal F)

def blockKeys : List Str :=
  ["filnam".toList, "nskip".toList, "nread".toList, "ncomp".toList, "indices".toList, "nfil".toList]

def angleKeys : List Str := ["theta1".toList, "theta2".toList, "phi".toList]

/-- header.py L194-L196, L201-L203: a new block if there are not `n`, then the value to the last (for `n = 0` the list is
empty). -/
def put {F : Type} (l : List (OD Str (HVal F))) (n : Nat) (k : Str) (v : HVal F) : Except PyErr (List (OD Str (HVal F))) :=
  let l' := if l.length ≠ n then l ++ [[]] else l
  match n with
  | 0 => .error .indexError
  | m + 1 =>
    match l'[m]? with
    | some d => .ok (l'.set m (OD.set d k v))
    | none => .error .indexError

/-- header.py L183-L205: one name and value. -/
def headStep {F : Type} (h : Head F) (kv : Str × HVal F) : Except PyErr (Head F) :=
  if kv.1 ∈ blockKeys then
    let n := if kv.1 = "nfil".toList then h.nb + 1 else h.nb
    match put h.blocks n kv.1 kv.2 with
    | .ok b => .ok { h with blocks := b, nb := n }
    | .error e => .error e
  else if kv.1 ∈ angleKeys then
    let n := if kv.1 = "theta1".toList then h.na + 1 else h.na
    match put h.angles n kv.1 kv.2 with
    | .ok b => .ok { h with angles := b, na := n }
    | .error e => .error e
  else .ok { h with params := OD.set h.params kv.1 kv.2 }

/-- header.py L181-L205: the lines after the title. -/
def headLine {F : Type} (N : Nums F) (h : Head F) (line : Str) : Except PyErr (Head F) := do
  let d ← readLine N line
  d.foldlM headStep h

/-- header.py L161-L205 `read_header`: title and the rest. -/
def readHeader {F : Type} (N : Nums F) (lines : List Str) : Except PyErr (Str × Head F) := do
  let hs := lines.filter (fun l => '#' ∈ l)
  let t ← item hs 0
  let h ← (hs.drop 1).foldlM (headLine N) { blocks := [], nb := 0, angles := [], na := 0, params := [] }
  .ok (strip (t.drop 1), h)

/-- header.py L222-L228: name and value of a line. -/
def metaLine {F : Type} (N : Nums F) (line : Str) : Str × F :=
  let p := (splitC '=' (strip line)).headD []
  (lower (strip (p.drop 1)), (N.parse (strip p)).getD N.zero)

/-- header.py L207-L229 `read_metadata`: attributes set. -/
def readMeta {F : Type} (N : Nums F) (lines : List Str) : OD Str F :=
  (lines.filter (fun l => '>' ∈ l)).foldl (fun d l => OD.set d (metaLine N l).1 (metaLine N l).2) []

/-! ## Data -/

inductive Comp
  | zxx
  | zxy
  | zyx
  | zyy
  | tzx
  | tzy
deriving DecidableEq, Repr

def Comp.name : Comp → Str
  | .zxx => "zxx".toList
  | .zxy => "zxy".toList
  | .zyx => "zyx".toList
  | .zyy => "zyy".toList
  | .tzx => "tzx".toList
  | .tzy => "tzy".toList

/-- jfile.py L184-L190: the components in the order of the dictionaries. -/
def zComps : List Comp := [.zxx, .zxy, .zyx, .zyy]

def tComps : List Comp := [.tzx, .tzy]

/-- The component of a key. -/
def compOf (s : Str) : Option Comp := (zComps ++ tComps).find? (fun c => c.name == s)

/-- jfile.py L243-L257: masked and unreadable numbers are zero. -/
def clean {F : Type} (N : Nums F) (s : Str) : Str :=
  match N.parse s with
  | some x => if N.isMask x then "0.0".toList else N.show' x
  | none => "0.0".toList

/-- `z_dict` and `t_dict` with `d_key`: the texts of the numbers by component and text of the period. -/
structure Data where
  key : Option Str
  d : Comp → OD Str (List Str)

/-- Does a word start a component? (jfile.py L223-L227) -/
def starts (w : Str) : Bool := w.head?.any (fun c => c.toLower = 'z' ∨ c.toLower = 't')

/-- jfile.py L259-L264 -/
def store (st : Data) (vals : List Str) : Except PyErr Data :=
  match st.key.bind compOf with
  | none => .ok st
  | some c => do
    let p ← item vals 0
    .ok { st with d := fun c' => if c' = c then OD.set (st.d c) p ((vals.drop 1).take 3) else st.d c' }

/-- jfile.py L220-L264: the loop over the lines after the station. -/
def loop {F : Type} (N : Nums F) : List Str → Data → Except PyErr Data
  | [], st => .ok st
  | l :: ls, st =>
    if (words l).head?.any starts then loop N ls { st with key := (words l).head?.map lower }
    else if (words l).length = 1 ∧ ¬ hasSub ['r'] (lower l) then loop N ls st
    else if hasSub ['r'] (lower l) then .ok st
    else
      match store st ((words l).map (clean N)) with
      | .ok st' => loop N ls st'
      | .error e => .error e

/-- `<=` of texts. -/
def leText : Str → Str → Bool
  | [], _ => true
  | _ :: _, [] => false
  | a :: s, b :: t => if a = b then leText s t else decide (a.toNat < b.toNat)

/-- jfile.py L274: is there any tipper? -/
def findTipper (d : Comp → OD Str (List Str)) : Bool := !(d .tzx).isEmpty

/-- jfile.py L269-L285: the periods. -/
def periods {F : Type} (N : Nums F) (d : Comp → OD Str (List Str)) : List F :=
  ((pySorted leText
    ((zComps ++ if findTipper d then tComps else []).flatMap fun c => OD.keys (d c)).dedup).filterMap N.parse).filter
      fun x => !N.isZero x

/-- jfile.py L301-L308, L313-L320 and L324-L327: value and error of a component at a period. -/
def value {F : Type} (N : Nums F) (d : OD Str (List Str)) (per : F) : Except PyErr ((F × F) × F) :=
  match OD.get? d (N.show' per) with
  | none => .ok ((N.zero, N.zero), N.zero)
  | some l => do
    let a ← item l 0
    let b ← item l 1
    let e ← item l 2
    match N.parse a, N.parse b, N.parse e with
    | some a, some b, some e =>
      .ok (if N.isInf a && N.isZero b then (N.zero, N.zero) else (a, b), if N.isInf e then N.big else e)
    | _, _, _ => .error .valueError

/-- One period of `z`, `z_err`, `t` and `t_err`. -/
structure Row (F : Type) where
  period : F
  z : Comp → F × F
  err : Comp → F

/-- jfile.py L289-L320 -/
def row {F : Type} (N : Nums F) (d : Comp → OD Str (List Str)) (per : F) : Except PyErr (Row F) := do
  let xx ← value N (d .zxx) per
  let xy ← value N (d .zxy) per
  let yx ← value N (d .zyx) per
  let yy ← value N (d .zyy) per
  let tx ← if findTipper d then value N (d .tzx) per else .ok ((N.zero, N.zero), N.zero)
  let ty ← if findTipper d then value N (d .tzy) per else .ok ((N.zero, N.zero), N.zero)
  let all : Comp → (F × F) × F := fun c =>
    match c with
    | .zxx => xx
    | .zxy => xy
    | .zyx => yx
    | .zyy => yy
    | .tzx => tx
    | .tzy => ty
  .ok { period := per, z := fun c => (all c).1, err := fun c => (all c).2 }

/-- What is read from a file. -/
structure J (F : Type) where
  title : Str
  head : Head F
  pos : OD Str F
  station : Str
  rows : List (Row F)

/-- jfile.py L157-L327 `read` -/
def read {F : Type} (N : Nums F) (lines : List Str) : Except PyErr (J F) := do
  let ls ← validate N lines
  let th ← readHeader N ls
  let data := ls.filter (fun l => ¬ '>' ∈ l ∧ ¬ '#' ∈ l)
  let s ← item data 0
  let st ← loop N (data.drop 1) { key := none, d := fun _ => [] }
  let rows ← (periods N st.d).mapM (row N st.d)
  .ok { title := th.1, head := th.2, pos := readMeta N ls, station := strip s, rows := rows }

/-! ## Metadata -/

/-- The attribute `deltat` of the parameters, zero if not given. -/
def deltat {F : Type} (N : Nums F) (j : J F) : Except PyErr F :=
  match OD.get? j.head.params "deltat".toList with
  | none => .ok N.zero
  | some (.one (.num x)) => .ok x
  | _ => .error .valueError

/-- jfile.py L339-L342: the sample rate of the run. -/
def sampleRate {F : Type} (N : Nums F) (j : J F) : Except PyErr F := do
  let x ← deltat N j
  if N.isNeg x then .ok (N.neg x)
  else if N.isZero x then .error .zeroDivisionError
  else .ok (N.inv x)

/-- `TF.from_jfile`, core.py L2289-L2308: what was read and the sample rate of the run in `survey_metadata`. -/
def toTf {F : Type} (N : Nums F) (lines : List Str) : Except PyErr (J F × F) := do
  let j ← read N lines
  let r ← sampleRate N j
  .ok (j, r)

end Verif.JFile
