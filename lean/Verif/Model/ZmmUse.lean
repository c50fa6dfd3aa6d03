import Mathlib.Data.Rat.Defs
import Mathlib.Algebra.Order.Ring.Rat
import Verif.Base.Py

/-! # One `ZMM` object for several files

`mt_metadata/transfer_functions/io/zfiles/zmm.py`: L38-L57, L325-L347 `__init__`, L115-L213 `read_header` as to channels, L269-L321
`channels_recorded`, `input_channels`, `output_channels`, `has_tipper`, `has_impedance`, L559-L651 `read` as to decimation levels and the
sample rate, L680-L689 `write`, L753-L784 `_read_period_block`; `metadata/channel.py` L117-L122 `index`.

Simplifications: of a file there are the lines of channels (component and number), the number of channels, and for each period what is
said about its decimation level. `key` is the text of a period (`".10g"`). Sampling rates are rational numbers. That later steps of reading may fail is left out. -/

namespace Verif.ZmmUse

/-- The channels an object can have. -/
inductive Comp where
  | ex
  | ey
  | hx
  | hy
  | hz
  deriving DecidableEq

/-- L271, L286: the order in which channels are looked at. -/
def comps : List Comp := [.ex, .ey, .hx, .hy, .hz]

/-- L778-L783 -/
structure Dec where
  level : Nat
  lo : Nat
  hi : Nat
  npts : Nat
  rate : ℚ
  deriving DecidableEq

/-- A file. -/
structure File (P : Type) where
  num : Nat
  chans : List (Comp × Nat)
  periods : List (P × Dec)

/-- An object: the number of each channel, what is known of periods, the sample rate of its run. -/
structure Obj (K : Type) where
  chan : Comp → Option Nat := fun _ => none
  dec : OD K Dec := []
  rate : Option ℚ := none

/-- L178-L192: the attribute of a component; number 0 is the number of channels. -/
def setChan (num : Nat) (s : Comp → Option Nat) (l : Comp × Nat) : Comp → Option Nat :=
  fun c => if c = l.1 then some (if l.2 = 0 then num else l.2) else s c

/-- `np.median` -/
def median (l : List ℚ) : Option ℚ :=
  let s := pySorted (fun a b => decide (a ≤ b)) l
  if l.length % 2 = 1 then s[l.length / 2]?
  else
    match s[l.length / 2 - 1]?, s[l.length / 2]? with
    | some a, some b => some ((a + b) / 2)
    | _, _ => none

/-- L559-L634 `read`; `decimation_dict` and the channels are never emptied. -/
def read {P K : Type} [DecidableEq K] (key : P → K) (o : Obj K) (f : File P) : Obj K :=
  let dec := f.periods.foldl (fun d p => OD.set d (key p.1) p.2) o.dec
  { chan := f.chans.foldl (setChan f.num) o.chan
    dec := dec
    rate := median ((OD.values dec).map Dec.rate) }

/-- L284-L297 `channels_recorded`: by number; of channels with the same number the last one in the order of `comps` stays. The index is
one less than the number. -/
def byNumber (s : Comp → Option Nat) : OD Nat Comp :=
  comps.foldl (fun d c => match s c with
    | some n => OD.set d n c
    | none => d) []

/-- L284-L297 `channels_recorded` -/
def recorded (s : Comp → Option Nat) : List Comp :=
  (pySorted (fun a b => decide (a.1 ≤ b.1)) (byNumber s)).map Prod.snd

/-- L309-L312 `has_tipper` -/
def hasTipper (s : Comp → Option Nat) : Bool := (recorded s).contains .hz

/-- L315-L318 `has_impedance` -/
def hasImpedance (s : Comp → Option Nat) : Bool := (recorded s).contains .ex && (recorded s).contains .ey

/-- L681-L689: what is written about a period. -/
def levelOf {P K : Type} [DecidableEq K] (key : P → K) (o : Obj K) (p : P) : Dec :=
  match OD.get? o.dec (key p) with
  | some d => d
  | none => ⟨0, 0, 0, 0, o.rate.getD 0⟩

/-- Several files, one after another. -/
def readAll {P K : Type} [DecidableEq K] (key : P → K) (o : Obj K) (l : List (File P)) : Obj K := l.foldl (read key) o

end Verif.ZmmUse
