import Mathlib.Analysis.SpecialFunctions.Trigonometric.Basic
import Mathlib.Analysis.SpecialFunctions.Exp
import Verif.Base.Py

/-!
Model of `mt_metadata/features/weights/*.py`: weight kernels, feature weights, channel weights.

Simplifications: floats are real numbers, `none` is NaN (it propagates through arithmetic and makes every
comparison false); the transition bounds are finite numbers. An array is one-dimensional; a 0-dimensional
array and a Python number are both `scalar`. `np.prod/mean/min/max(list, axis=0)` first makes one array
of the list, which fails for items of different shapes.
-/

namespace Verif.Weights

/-- A float: a real number or NaN. -/
abbrev V := Option ℝ

/-- monotonic_weight_kernel.py L15-L17 -/
inductive Dir where
  | low | high
  deriving DecidableEq

/-- taper_monotonic_weight_kernel.py L15-L19 -/
inductive HalfWin where
  | hamming | hann | rectangle | blackman
  deriving DecidableEq

/-- activation_monotonic_weight_kernel.py L21-L25 -/
inductive ActStyle where
  | sigmoid | hardSigmoid | tanh | hardTanh
  deriving DecidableEq

/-- taper_monotonic_weight_kernel.py L31-L43 -/
structure Taper where
  dir : Dir
  lb : ℝ
  ub : ℝ
  win : HalfWin

/-- activation_monotonic_weight_kernel.py L28-L69 -/
structure Activation where
  dir : Dir
  lb : ℝ
  ub : ℝ
  style : ActStyle
  steep : ℝ

/-- `np.clip(x, 0, 1)` -/
noncomputable def clip01 (x : ℝ) : ℝ := min (max x 0) 1

/-- taper_monotonic_weight_kernel.py L46-L93 `_normalize` of a number. -/
noncomputable def Taper.normalize (k : Taper) (v : ℝ) : ℝ :=
  if k.ub - k.lb = 0 then
    match k.dir with
    | .low => if v ≥ k.lb then 1 else 0
    | .high => if v ≤ k.ub then 1 else 0
  else
    match k.dir with
    | .low => clip01 ((v - k.lb) / (k.ub - k.lb))
    | .high => 1 - clip01 ((v - k.lb) / (k.ub - k.lb))

/-- `_normalize` of a float: a comparison with NaN is false, arithmetic with NaN is NaN. -/
noncomputable def Taper.normalizeV (k : Taper) : V → V
  | some v => some (k.normalize v)
  | none => if k.ub - k.lb = 0 then some 0 else none

/-- taper_monotonic_weight_kernel.py L103-L108: the windows as functions of the normalized value. -/
noncomputable def window : HalfWin → ℝ → ℝ
  | .hann, x => 1 / 2 * (1 - Real.cos (Real.pi * x))
  | .hamming, x => 54 / 100 - 46 / 100 * Real.cos (Real.pi * x)
  | .blackman, x => 42 / 100 - 1 / 2 * Real.cos (Real.pi * x) + 8 / 100 * Real.cos (2 * Real.pi * x)
  | .rectangle, _ => 1

/-- taper_monotonic_weight_kernel.py L98-L102: the rectangle compares the value itself; NaN passes. -/
noncomputable def rectangle (k : Taper) : V → V
  | none => some 1
  | some v =>
    match k.dir with
    | .low => if v < k.lb then some 0 else some 1
    | .high => if v > k.ub then some 0 else some 1

/-- taper_monotonic_weight_kernel.py L95-L110 `evaluate` -/
noncomputable def Taper.eval (k : Taper) (v : V) : V :=
  match k.win with
  | .rectangle => rectangle k v
  | w => (k.normalizeV v).map (window w)

/-- activation_monotonic_weight_kernel.py L71-L91 `_normalize`, finite bounds. With equal bounds the quotient
is NaN at the bound and infinite elsewhere, which the clip turns into 0 or 1. -/
noncomputable def Activation.normalize (k : Activation) (v : ℝ) : V :=
  if k.ub - k.lb = 0 then
    if v = k.lb then none
    else match k.dir with
      | .low => some (if v > k.lb then 1 else 0)
      | .high => some (if v > k.lb then 0 else 1)
  else
    match k.dir with
    | .low => some (clip01 ((v - k.lb) / (k.ub - k.lb)))
    | .high => some (clip01 (1 - (v - k.lb) / (k.ub - k.lb)))

/-- activation_monotonic_weight_kernel.py L116-L125: the activation functions. -/
noncomputable def activation : ActStyle → ℝ → ℝ → ℝ
  | .sigmoid, s, x => 1 / (1 + Real.exp (-s * (x - 1 / 2)))
  | .hardSigmoid, _, x => clip01 (1 / 5 * (x - 1 / 2) + 1 / 2)
  | .tanh, s, x => 1 / 2 * (Real.tanh (s * (x - 1 / 2)) + 1)
  | .hardTanh, _, x => clip01 x

/-- activation_monotonic_weight_kernel.py L93-L129 `evaluate` -/
noncomputable def Activation.eval (k : Activation) (v : V) : V :=
  v.bind fun x => (k.normalize x).map (activation k.style k.steep)

/-- A weight kernel and its `active` flag (base.py L47-L63). `base` is a MonotonicWeightKernel, which has no
`evaluate` of its own; `threshold` a ThresholdWeightKernel. -/
inductive KernelBody where
  | base
  | taper (k : Taper)
  | activation (k : Activation)
  | threshold (k : Taper)

structure Kernel where
  body : KernelBody
  active : Option Bool := none

/-- A number or a one-dimensional array. -/
inductive Arr where
  | scalar (v : V)
  | arr (l : List V)

/-- elementwise application -/
def Arr.map (f : V → V) : Arr → Arr
  | .scalar v => .scalar (f v)
  | .arr l => .arr (l.map f)

/-- `kernel.evaluate(values)`: base.py L65-L79 raises; threshold_weight_kernel.py L48-L60: `_normalize` raises,
and `evaluate` calls it first (taper_monotonic_weight_kernel.py L96). -/
noncomputable def Kernel.eval (k : Kernel) (x : Arr) : Except PyErr Arr :=
  match k.body with
  | .base => .error .notImplementedError
  | .threshold _ => .error .notImplementedError
  | .taper t => .ok (x.map t.eval)
  | .activation a => .ok (x.map a.eval)

/-- taper_weight_kernel.py L18-L105: the composite kernel; its style is a window type, of which only these can
be half windows (`none` for the others: the kernels cannot be made). -/
structure Composite where
  lowCut : ℝ × ℝ
  highCut : ℝ × ℝ
  style : Option HalfWin

/-- taper_weight_kernel.py L70-L105 `low_kernel`, `high_kernel`, `evaluate` -/
noncomputable def Composite.eval (c : Composite) (v : V) : Except PyErr V :=
  match c.style with
  | none => .error .valueError
  | some w =>
    let lo : Taper := ⟨.low, c.lowCut.1, c.lowCut.2, w⟩
    let hi : Taper := ⟨.high, c.highCut.1, c.highCut.2, w⟩
    .ok ((lo.eval v).bind fun a => (hi.eval v).map fun b => a * b)

/-- Product of floats. -/
noncomputable def prodV : List V → V
  | [] => some 1
  | v :: vs => v.bind fun a => (prodV vs).map fun b => a * b

/-- Sum of floats. -/
noncomputable def sumV : List V → V
  | [] => some 0
  | v :: vs => v.bind fun a => (sumV vs).map fun b => a + b

/-- Mean of floats. -/
noncomputable def meanV (l : List V) : V := (sumV l).map fun s => s / l.length

/-- Minimum of a non-empty list of floats. -/
noncomputable def minV : List V → V
  | [] => none
  | [v] => v
  | v :: vs => v.bind fun a => (minV vs).map fun b => min a b

/-- Maximum of a non-empty list of floats. -/
noncomputable def maxV : List V → V
  | [] => none
  | [v] => v
  | v :: vs => v.bind fun a => (maxV vs).map fun b => max a b

/-- The scalars of a list, if all items are scalars. -/
def scalars : List Arr → Option (List V)
  | [] => some []
  | .scalar v :: xs => (scalars xs).map (v :: ·)
  | .arr _ :: _ => none

/-- The rows of a list, if all items are arrays of length `n`. -/
def rows (n : Nat) : List Arr → Option (List (List V))
  | [] => some []
  | .scalar _ :: _ => none
  | .arr l :: xs => if l.length = n then (rows n xs).map (l :: ·) else none

/-- The `i`-th entries of the rows. -/
def column (rs : List (List V)) (i : Nat) : List V := rs.filterMap fun r => r[i]?

/-- `np.<f>(weights, axis=0)` of a non-empty list. -/
def reduce (f : List V → V) (xs : List Arr) : Except PyErr Arr :=
  match scalars xs with
  | some vs => .ok (.scalar (f vs))
  | none =>
    match xs with
    | .arr l :: _ =>
      match rows l.length xs with
      | some rs => .ok (.arr ((List.range l.length).map fun i => f (column rs i)))
      | none => .error .valueError
    | _ => .error .valueError

/-- Evaluate the kernels one after the other. -/
noncomputable def evalKernels (x : Arr) : List Kernel → Except PyErr (List Arr)
  | [] => .ok []
  | k :: ks =>
    match k.eval x with
    | .error e => .error e
    | .ok w =>
      match evalKernels x ks with
      | .error e => .error e
      | .ok ws => .ok (w :: ws)

/-- feature_weight_spec.py L45-L90: the name of the feature and the kernels. -/
structure FeatureSpec where
  name : String
  kernels : List Kernel

/-- feature_weight_spec.py L215-L231 `evaluate` -/
noncomputable def FeatureSpec.eval (s : FeatureSpec) (x : Arr) : Except PyErr Arr :=
  match evalKernels x s.kernels with
  | .error e => .error e
  | .ok [] => .ok (.scalar (some 1))
  | .ok ws => reduce prodV ws

/-- channel_weight_spec.py L75-L79 -/
inductive Combo where
  | multiplication | minimum | maximum | mean
  deriving DecidableEq

/-- channel_weight_spec.py L198-L205: the reduction of each style. -/
noncomputable def Combo.f : Combo → List V → V
  | .multiplication => prodV
  | .mean => meanV
  | .minimum => minV
  | .maximum => maxV

/-- channel_weight_spec.py L185-L192: the loop over the features. -/
noncomputable def evalFeatures (d : OD String Arr) : List FeatureSpec → Except PyErr (List Arr)
  | [] => .ok []
  | s :: ss =>
    match OD.get? d s.name with
    | none => .error .keyError
    | some x =>
      match s.eval x with
      | .error e => .error e
      | .ok w =>
        match evalFeatures d ss with
        | .error e => .error e
        | .ok ws => .ok (w :: ws)

/-- channel_weight_spec.py L167-L207 `evaluate` -/
noncomputable def channelEval (c : Combo) (specs : List FeatureSpec) (d : OD String Arr) : Except PyErr Arr :=
  match evalFeatures d specs with
  | .error e => .error e
  | .ok [] => .ok (.scalar (some 1))
  | .ok ws => reduce c.f ws

/-- What `weight_kernels` may be given: an object, or a dictionary with its `style` and `weight_type`; `build`
is the object that the class of the given name makes of it, if any. -/
inductive KernelIn where
  | obj (k : Kernel)
  | dict (style weightType : String) (build : String → Option Kernel)

/-- feature_weight_spec.py L32-L36 `weight_classes` -/
def weightClasses : List String := ["monotonic", "taper", "activation"]

/-- feature_weight_spec.py L175-L212: one turn of the loop of `validate_weight_kernels`; a dictionary whose
class is unknown or cannot be made is only logged. -/
def takeKernel : KernelIn → List Kernel
  | .obj k => [k]
  | .dict style weightType build =>
    if style ∈ weightClasses then (build style).toList
    else if weightType ∈ weightClasses then (build weightType).toList
    else []

/-- feature_weight_spec.py L162-L213 `validate_weight_kernels` of a list -/
def takeKernels (l : List KernelIn) : List Kernel := l.flatMap takeKernel

/-- `np.argmin` of a list: the first position of the smallest value. -/
noncomputable def argmin : List ℝ → Nat
  | [] => 0
  | [_] => 0
  | a :: b :: l => if a ≤ (b :: l)[argmin (b :: l)]?.getD a then 0 else argmin (b :: l) + 1

/-- channel_weight_spec.py L209-L259 `get_weights_for_band` of weights with a frequency axis: the row of the
closest frequency; an empty axis raises. -/
noncomputable def weightsForBand (freqs : List ℝ) (w : List V) (center : ℝ) : Except PyErr V :=
  if freqs = [] then .error .valueError
  else match w[argmin (freqs.map fun f => |f - center|)]? with
    | some v => .ok v
    | none => .error .indexError

end Verif.Weights
