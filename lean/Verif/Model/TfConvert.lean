import Verif.Model.Tf
import Mathlib.Data.Real.Basic

/-!
# Transfer functions from and to the objects of file formats

Model of `mt_metadata/transfer_functions/core.py`: `to_edi`, `from_edi` (L2015-L2135), `to_emtfxml`, `from_emtfxml`
(L2137-L2257), `to_zmm` (L2341-L2407), `from_zmm` (L2409-L2483), as far as the arrays and the channels are concerned, on top of
`Model/Tf`.

Simplifications: metadata other than the names of channels are left out; a frequency is the inverse of a
period, without rounding; the arrays of an EMTF XML object always exist (they are empty in a new one,
emtfxml/metadata/data.py L60-L160).
-/

namespace Verif.TfConvert
open Classical Verif.Tf

variable {P : Type}

/-- The part of an array at the labels: `ds[key].loc[dict(output=outs, input=ins)].data`. -/
def sub (d : DS P) (v : Var) (outs ins : List Str) : Except PyErr Nd :=
  if known d outs && known d ins then
    .ok { n := d.periods.length, r := outs.length, c := ins.length,
          val := fun k i j => d.arr v k (outs.getD i []) (ins.getD j []) }
  else .error .keyError

/-- An assignment that may raise. -/
def ok! (x : TF P × Option PyErr) : Except PyErr (TF P) :=
  match x.2 with
  | none => .ok x.1
  | some e => .error e

/-! ## EMTF XML -/

/-- `emtf.data` -/
structure Em (P : Type) where
  period : List P
  z : Nd
  zVar : Nd
  zInv : Nd
  zRes : Nd
  t : Nd
  tVar : Nd
  tInv : Nd
  tRes : Nd

/-- `np.empty((0, r, c))` -/
def empty (r c : ℕ) : Nd := { n := 0, r := r, c := c, val := fun _ _ _ => none }

/-- `a ** 2` -/
noncomputable def sq (a : Nd) : Nd := { a with val := fun k i j => (a.val k i j).map fun x => x * x }

/-- `np.sqrt` of real numbers: `nan` if negative. -/
noncomputable def sqrt (a : Nd) : Nd :=
  { a with val := fun k i j => match a.val k i j with
    | some x => if 0 ≤ x.re then some ((Real.sqrt x.re : ℝ) : ℂ) else none
    | none => none }

/-- L2186-L2217, L2219: the arrays of `to_emtfxml`. The smallest of no periods does not exist (`ValueError`). -/
noncomputable def toEm (s : TF P) : Except PyErr (Em P) := do
  let m := s.names
  let e : Em P := { period := s.ds.periods, z := empty 2 2, zVar := empty 2 2, zInv := empty 2 2, zRes := empty 2 2,
                    t := empty 1 2, tVar := empty 1 2, tInv := empty 2 2, tRes := empty 1 1 }
  let e ← if (← hasZ s) then do
      let z ← sub s.ds .tf m.exey m.hxhy
      let v ← sub s.ds .err m.exey m.hxhy
      .ok { e with z := z, zVar := sq v }
    else .ok e
  let cov ← if (← hasRes s) then hasIsp s else .ok false
  let e ← if cov then do
      let p ← sub s.ds .isp m.hxhy m.hxhy
      let r ← sub s.ds .res m.exey m.exey
      .ok { e with zInv := p, zRes := r }
    else .ok e
  let e ← if (← hasT s) then do
      let t ← sub s.ds .tf [m.hz] m.hxhy
      let v ← sub s.ds .err [m.hz] m.hxhy
      .ok { e with t := t, tVar := sq v }
    else .ok e
  let e ← if cov then do
      let p ← sub s.ds .isp m.hxhy m.hxhy
      let r ← sub s.ds .res [m.hz] [m.hz]
      .ok { e with tInv := p, tRes := r }
    else .ok e
  if s.ds.periods.isEmpty then .error .valueError else .ok e

/-- An axis of length `n` is stretched to `m`. -/
def fits (n m : ℕ) : Bool := n == m || n == 1

/-- `ds[key].loc[dict(input=ins, output=outs)] = a`, with the rules of NumPy for shapes that differ. -/
def assign (s : TF P) (v : Var) (outs ins : List Str) (a : Nd) : Except PyErr (TF P) :=
  if known s.ds outs && known s.ds ins then
    if fits a.n s.ds.periods.length && fits a.r outs.length && fits a.c ins.length then
      match setLoc s.ds v outs ins
          (fun k i j => a.val (if a.n = 1 then 0 else k) (if a.r = 1 then 0 else i) (if a.c = 1 then 0 else j)) with
      | .ok d => .ok { s with ds := d }
      | .error e => .error e
    else .error .valueError
  else .error .keyError

def hx : Str := "hx".toList
def hy : Str := "hy".toList
def hz : Str := "hz".toList
def ex : Str := "ex".toList
def ey : Str := "ey".toList

/-- L2240-L2257: the arrays of `from_emtfxml`. -/
noncomputable def fromEm (one : P) (s : TF P) (e : Em P) : Except PyErr (TF P) := do
  let s ← ok! (setPeriod one s e.period)
  let s ← ok! (set s .impedance (.nd e.z))
  let s ← ok! (set s .impedanceError (.nd (sqrt e.zVar)))
  let s ← assign s .isp [hx, hy] [hx, hy] e.zInv
  let s ← assign s .res [ex, ey] [ex, ey] e.zRes
  let s ← ok! (set s .tipper (.nd e.t))
  let s ← ok! (set s .tipperError (.nd (sqrt e.tVar)))
  let s ← assign s .isp [hx, hy] [hx, hy] e.tInv
  assign s .res [hz] [hz] e.tRes

/-! ## EDI -/

/-- Angles: one number or one for every period. -/
inductive Rot
  | num (x : ℝ)
  | arr (l : List ℝ)

/-- An object of class `TF` with its angles. -/
structure TFR where
  tf : TF ℝ
  rot : Option Rot

/-- The arrays of spectra: `tf`, `tf_err`, `signal_inverse_power`, `residual_covariance`. -/
structure Spectra where
  tf : Nd
  err : Nd
  isp : Nd
  res : Nd

/-- The arrays of an EDI object (edi.py L78-L88). -/
structure Edi where
  freq : Option (List ℝ)
  z : Option Nd
  zErr : Option Nd
  t : Option Nd
  tErr : Option Nd
  spectra : Option Spectra
  rot : Option Rot

/-- L2037-L2049 `to_edi` -/
noncomputable def toEdi (s : TFR) : Except PyErr Edi := do
  let m := s.tf.names
  let e : Edi := { freq := none, z := none, zErr := none, t := none, tErr := none, spectra := none, rot := none }
  let e ← if (← hasZ s.tf) then do
      let z ← sub s.tf.ds .tf m.exey m.hxhy
      let v ← sub s.tf.ds .err m.exey m.hxhy
      .ok { e with z := some z, zErr := some v }
    else .ok e
  let e ← if (← hasT s.tf) then do
      let t ← sub s.tf.ds .tf [m.hz] m.hxhy
      let v ← sub s.tf.ds .err [m.hz] m.hxhy
      .ok { e with t := some t, tErr := some v }
    else .ok e
  .ok { e with freq := some (s.tf.ds.periods.map fun p => p⁻¹)
               rot := s.rot.map fun r => match r with
                 | .num x => .arr (List.replicate s.tf.ds.periods.length x)
                 | .arr l => .arr l }

/-- An array or `None`. -/
def input : Option Nd → Input P
  | some a => .nd a
  | none => .none

/-- L2105-L2135 `from_edi`; without frequencies the length of `None` is asked for (`TypeError`). `rotation_angle`
is taken as it is. -/
noncomputable def fromEdi (s : TFR) (e : Edi) : Except PyErr TFR := do
  match e.freq with
  | none => .error .typeError
  | some f =>
    let t ← ok! (setPeriod 1 s.tf (f.map fun x => x⁻¹))
    let whole : Option Spectra := match e.spectra with
      | some p => if p.tf.r = 3 ∧ p.tf.c = 2 then some p else none
      | none => none
    let t ← match whole with
      | some p => do
        let t ← ok! (set t .tf (.nd p.tf))
        let t ← ok! (set t .isp (.nd p.isp))
        let t ← ok! (set t .res (.nd p.res))
        ok! (set t .tfError (.nd p.err))
      | none => do
        let t ← ok! (set t .impedance (input e.z))
        let t ← ok! (set t .impedanceError (input e.zErr))
        let t ← ok! (set t .tipper (input e.t))
        ok! (set t .tipperError (input e.tErr))
    .ok { tf := t, rot := e.rot }

/-! ## Z files -/

/-- A ZMM object: the attributes `ex`, …, with their numbers are given by the list of channels in the order of
their numbers (zmm.py L282-L303). -/
structure Zmm (P : Type) where
  periods : Option (List P)
  channels : List Str
  ds : DS P

/-- zmm.py L305-L311 -/
def Zmm.inputs (z : Zmm P) : List Str := z.channels.take 2
def Zmm.outputs (z : Zmm P) : List Str := z.channels.drop 2

/-- L2370-L2382: the order of the channels; without any data there are no numbers (`UnboundLocalError`). -/
def numbered (z t : Bool) : Except PyErr (List Str) :=
  match t, z with
  | true, true => .ok [hx, hy, hz, ex, ey]
  | true, false => .ok [hx, hy, hz]
  | false, true => .ok [hx, hy, ex, ey]
  | false, false => .error .nameError

/-- `"rr" in comp` -/
def remote : Str → Bool
  | 'r' :: 'r' :: _ => true
  | _ :: cs => remote cs
  | [] => false

/-- L113-L119: the usual name of a channel; of two channels with the same name the later one counts
(mt_metadata/__init__.py L85-L91). That the dictionary is kept when the names are changed is left out. -/
def usualOf (m : Names) (c : Str) : Option Str :=
  if c = m.ey then some ey
  else if c = m.ex then some ex
  else if c = m.hz then some hz
  else if c = m.hy then some hy
  else if c = m.hx then some hx
  else none

/-- L2391-L2403: the channels of the first run. Every channel that is not of a remote station must have a usual
name, else `KeyError`; `number_dict` is needed for it. -/
def recorded (m : Names) (num : Except PyErr (List Str)) : List Str → Except PyErr (List Str)
  | [] => .ok []
  | c :: cs =>
    if remote c then recorded m num cs
    else match usualOf m c with
      | none => .error .keyError
      | some u => do
        let l ← num
        let rest ← recorded m num cs
        .ok (if l.contains u then u :: rest else rest)

/-- L2341-L2407 `to_zmm`; `run` has the channels of the first run, nothing if there is none. The channels are in the
order of their numbers. The periods are not set. -/
noncomputable def toZmm (s : TF P) (run : List Str) : Except PyErr (Zmm P) := do
  let t ← hasT s
  let z ← hasZ s
  let num := numbered z t
  let chs ← if run.isEmpty then num
    else do
      let r ← recorded s.names num run
      .ok ([hx, hy, hz, ex, ey].filter fun c => r.contains c)
  .ok { periods := none, channels := chs, ds := s.ds }

/-- `self[key].loc[outs, ins] = other[key].loc[outs, ins]`; periods that differ are an `IndexError`. -/
noncomputable def copyBlock (s : TF P) (d : DS P) (v : Var) (outs ins : List Str) : Except PyErr (TF P) := do
  let a ← sub d v outs ins
  if (known s.ds outs && known s.ds ins) && decide (d.periods ≠ s.ds.periods) then .error .indexError
  else assign s v outs ins a

/-- L2447-L2481 `from_zmm`; without periods the length of `None` is asked for (`TypeError`). -/
noncomputable def fromZmm (one : P) (s : TF P) (z : Zmm P) : Except PyErr (TF P) := do
  match z.periods with
  | none => .error .typeError
  | some p =>
    let s ← ok! (setPeriod one s p)
    let s ← copyBlock s z.ds .tf z.outputs z.inputs
    let s ← copyBlock s z.ds .err z.outputs z.inputs
    let s ← copyBlock s z.ds .isp z.inputs z.inputs
    let s ← copyBlock s z.ds .res z.outputs z.outputs
    computeErr s

end Verif.TfConvert
