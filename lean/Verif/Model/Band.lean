import Verif.Base.Py
import Mathlib.Analysis.Real.Sqrt

/-!
Model of `mt_metadata/common/band.py`. Frequencies are elements of a linear order (rationals or
reals); NaN and infinities are outside the model.
-/

namespace Verif.FreqBand

/-- `ClosedEnum` L34-L37. -/
inductive Closed where
  | left | right | both
  deriving DecidableEq, Repr

/-- The fields of `Band` used by the index and interval code (L40-L124). -/
structure Band (α : Type) where
  fmin : α
  fmax : α
  closed : Closed
  imin : Option Int := none
  imax : Option Int := none
  deriving DecidableEq

variable {α : Type} [LinearOrder α]

/-- `pd.Interval.closed_left`. -/
def closedLeft : Closed → Bool
  | .left => true | .right => false | .both => true

/-- `pd.Interval.closed_right`. -/
def closedRight : Closed → Bool
  | .left => false | .right => true | .both => true

/-- L255-L260 `to_interval`: pandas raises ValueError when left > right. Returns left, right,
closed. -/
def toInterval (b : Band α) : Except PyErr (α × α × Closed) :=
  if b.fmax < b.fmin then .error .valueError else .ok (b.fmin, b.fmax, b.closed)

/-- L222-L247: the combined mask for one frequency. -/
def inMask (b : Band α) (f : α) : Bool :=
  (if closedLeft b.closed then decide (b.fmin ≤ f) else decide (b.fmin < f)) &&
  (if closedRight b.closed then decide (f ≤ b.fmax) else decide (f < b.fmax))

/-- `np.where(mask)[0]` from position `i` on. -/
def whereFrom (p : α → Bool) (i : Nat) : List α → List Nat
  | [] => []
  | f :: fs => if p f then i :: whereFrom p (i + 1) fs else whereFrom p (i + 1) fs

/-- L222-L247 `_indices_from_frequencies`: `lower_closed` builds the interval, so an
inverted band raises. -/
def indicesFromFrequencies (b : Band α) (fs : List α) : Except PyErr (List Nat) := do
  let _ ← toInterval b
  .ok (whereFrom (inMask b) 0 fs)

/-- L249-L253 `set_indices_from_frequencies`: `indices[0]` raises IndexError when empty. -/
def setIndices (b : Band α) (fs : List α) : Except PyErr (Band α) := do
  let idx ← indicesFromFrequencies b fs
  match idx.head?, idx.getLast? with
  | some lo, some hi => .ok { b with imin := some lo, imax := some hi }
  | _, _ => .error .indexError

/-- L263-L271 `harmonic_indices`: `np.arange(index_min, index_max + 1)`; TypeError on None. -/
def harmonicIndices (b : Band α) : Except PyErr (List Int) :=
  match b.imin, b.imax with
  | some lo, some hi => .ok ((List.range (hi + 1 - lo).toNat).map (fun (k : Nat) => lo + (k : Int)))
  | _, _ => .error .typeError

/-- L273-L286 `in_band_harmonics`. -/
def inBandHarmonics (b : Band α) (fs : List α) : Except PyErr (List α) := do
  let idx ← indicesFromFrequencies b fs
  .ok (idx.filterMap (fun i => fs[i]?))

/-- `pd.Interval.__contains__` of a scalar. -/
def ivlContains (l r : α) (c : Closed) (f : α) : Bool :=
  (if closedLeft c then decide (l ≤ f) else decide (l < f)) &&
  (if closedRight c then decide (f ≤ r) else decide (f < r))

/-- `pd.Interval.overlaps`. -/
def ivlOverlaps (l r : α) (c : Closed) (l' r' : α) (c' : Closed) : Bool :=
  (if closedLeft c && closedRight c' then decide (l ≤ r') else decide (l < r')) &&
  (if closedLeft c' && closedRight c then decide (l' ≤ r) else decide (l' < r))

/-- L309-L313 `overlaps`. -/
def overlaps (b o : Band α) : Except PyErr Bool := do
  let (l, r, c) ← toInterval b
  let (l', r', c') ← toInterval o
  .ok (ivlOverlaps l r c l' r' c')

/-- L315-L320 `contains`: both end points of the other in this interval. -/
def contains (b o : Band α) : Except PyErr Bool := do
  let (l, r, c) ← toInterval b
  .ok (ivlContains l r c o.fmin && ivlContains l r c o.fmax)

/-- `CenterAveragingTypeEnum`. -/
inductive Averaging where
  | arithmetic | geometric
  deriving DecidableEq

/-- L289-L302 `center_frequency` over the reals (the nan fallback is unreachable for the
two enumeration members). -/
noncomputable def centerFrequency (fmin fmax : ℝ) : Averaging → ℝ
  | .geometric => Real.sqrt (fmin * fmax)
  | .arithmetic => (fmin + fmax) / 2

/-- L305-L307 `center_period`. -/
noncomputable def centerPeriod (fmin fmax : ℝ) (a : Averaging) : ℝ := 1 / centerFrequency fmin fmax a

/-! ### The automatic name -/

/-- The fields the name logic reads. -/
structure Named where
  fmin : ℚ
  fmax : ℚ
  name : String
  deriving DecidableEq

/-- L181-L194 `check_name`, run after construction and after every assignment; `fmt` stands for
`f"{x:.6f}"`. -/
def checkName (fmt : ℚ → String) (b : Named) : Named :=
  if b.name = "" ∨ (b.name = "empty_band" ∧ b.fmin ≠ 0 ∧ b.fmax ≠ 0) then
    if b.fmin ≠ 0 ∧ b.fmax ≠ 0 then { b with name := fmt ((b.fmin + b.fmax) / 2) }
    else { b with name := "empty_band" }
  else b

/-- `Band(frequency_min=.., frequency_max=..)` without a name (the default "" is not validated). -/
def newBand (fmt : ℚ → String) (lo hi : ℚ) : Named := checkName fmt ⟨lo, hi, ""⟩

/-- `band.frequency_min = x`. -/
def setMin (fmt : ℚ → String) (b : Named) (x : ℚ) : Named := checkName fmt { b with fmin := x }

/-- `band.frequency_max = x`. -/
def setMax (fmt : ℚ → String) (b : Named) (x : ℚ) : Named := checkName fmt { b with fmax := x }

end Verif.FreqBand
