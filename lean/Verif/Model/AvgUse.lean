import Verif.Base.Text

/-! # One `ZongeMTAvg` object for several files

`mt_metadata/transfer_functions/io/zonge/metadata/header.py` L217, L263-L289 `read_header` as to components, L299-L305 `_has_channel`,
L367-L379 `center_location`, L402-L412 `instrument_id`; `zonge/zonge.py` L143, L167 `read`, L328-L348 `run_metadata`, L350-L464 where the
channels have their values from.

Simplifications: of a file there are the blocks of its components (the header lines after `$Rx.Cmp`) in order, and which components have
data. Of a block there is whether `Ch.Cmp` is there, and the rest as it is; errors about values within a block are not there. Then
`zonge/metadata/ch.py` L126-L155 and `zonge.py` L394, L413, L436-L460 for the values of magnetic channels: a line is its text after `=`, and
turning texts into numbers is left out. -/

namespace Verif.AvgUse
open Verif.Text

/-- Components that are asked for. -/
inductive Comp where
  | zxx
  | zxy
  | zyx
  | zyy
  | tzx
  | tzy
  | zxxr
  | rxxr
  deriving DecidableEq

/-- The lines of a component. -/
structure Block (B : Type) where
  cmp : Bool
  rest : B

/-- A file. -/
structure File (B : Type) where
  blocks : List (Comp × Block B)
  data : List Comp

/-- An object: `_comp_dict` and `components`. -/
structure Obj (B : Type) where
  comps : OD Comp (Block B) := []
  data : List Comp := []

/-- header.py L280-L287, zonge.py L167: blocks are made anew, other blocks stay. -/
def read {B : Type} (o : Obj B) (f : File B) : Obj B :=
  { comps := f.blocks.foldl (fun d p => OD.set d p.1 p.2) o.comps
    data := f.data }

/-- Several files, one after another. -/
def readAll {B : Type} (o : Obj B) (l : List (File B)) : Obj B := l.foldl read o

/-- header.py L299-L305 `_has_channel`: the component asked for does not matter. -/
def hasChannel {B : Type} (o : Obj B) (_ : Comp) : Bool :=
  match OD.get? o.comps .zxx with
  | some b => b.cmp
  | none => false

/-- header.py L402-L412 `instrument_id`, L367-L379 `center_location`: the block they are taken from. -/
def mainBlock {B : Type} (o : Obj B) : Option B :=
  if hasChannel o .zxx then (OD.get? o.comps .zxx).map Block.rest else none

/-- zonge.py L350-L464: the block of a component, or none for the heading of the array. -/
def source {B : Type} (o : Obj B) (c : Comp) : Except PyErr (Option B) :=
  if hasChannel o c then
    match OD.get? o.comps c with
    | some b => .ok (some b.rest)
    | none => .error .keyError
  else .ok none

/-- Channels of a run. -/
inductive Chan where
  | ex
  | ey
  | hx
  | hy
  | hz
  deriving DecidableEq

/-- zonge.py L353, L373, L393, L412, L431 -/
def Chan.comp : Chan → Comp
  | .ex => .zxy
  | .ey => .zyx
  | .hx => .zyx
  | .hy => .zxy
  | .hz => .tzx

/-- zonge.py L339-L346: which channels a run has. -/
def chans {B : Type} (o : Obj B) : List Chan :=
  (if Comp.zxy ∈ o.data ∨ Comp.zxxr ∈ o.data then [.ex, .ey, .hx, .hy] else []) ++
    (if Comp.tzx ∈ o.data ∨ Comp.rxxr ∈ o.data then [.hz] else [])

/-- zonge.py L328-L348 `run_metadata`: its channels and where they are from. -/
def run {B : Type} (o : Obj B) : Except PyErr (List (Chan × Option B)) :=
  (chans o).mapM (fun c => (source o c.comp).map (fun s => (c, s)))

/-- What a field of `CH` holds. -/
inductive Held where
  | none
  | text (s : Str)
  | list (l : List Str)
  deriving DecidableEq

/-- ch.py L126-L155 `validate_comma_separated_fields` of a text, as it is done with each assignment. -/
def held (s : Str) : Held :=
  if ',' ∈ s then
    match ((splitC ',' s).map strip).filter (fun t => decide (t ≠ [])) with
    | [] => .none
    | [t] => .text t
    | l => .list l
  else .text s

/-- zonge.py L394, L413 `azimuth[1]` of hx and hy. -/
def second : Held → Except PyErr Str
  | .none => .error .typeError
  | .text s =>
    match s[1]? with
    | some c => .ok [c]
    | Option.none => .error .indexError
  | .list l =>
    match l[1]? with
    | some t => .ok t
    | Option.none => .error .indexError

/-- zonge.py L436-L460: what hz is given, if anything. A list with `","` has no `split`. -/
def secondHz : Held → Except PyErr (Option Str)
  | .none => .ok Option.none
  | .text s => if ',' ∈ s then .ok ((splitC ',' s)[1]?.map strip) else .ok Option.none
  | .list l => if [','] ∈ l then .error .attributeError else .ok Option.none

end Verif.AvgUse
