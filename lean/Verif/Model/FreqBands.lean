import Verif.Model.Band

/-!
Model of `mt_metadata/processing/aurora/frequency_bands.py`, class `FrequencyBands`.

Simplifications: frequencies are real numbers; a table holds rows (lower, upper) in positional order;
data frames have distinct column names. `np.argsort` and `DataFrame.sort_values` (both quicksort, not
stable) are parameters that give the row numbers in sorted order; theorems assume
only that they are row numbers in sorted order.
-/

namespace Verif.FreqBands
open Verif.FreqBand

/-- A row of the table. -/
abbrev Row := ℝ × ℝ

/-- What can be assigned to `band_edges`: an array (number of dimensions, number of columns, rows), a
data frame (column names, rows of named entries), anything else. -/
inductive Value where
  | array (ndim cols : Nat) (rows : List (Nat → ℝ))
  | frame (columns : List String) (rows : List (String → ℝ))
  | other

/-- L51-L81 the setter of `band_edges`. -/
def setEdges : Value → Except PyErr (List Row)
  | .array ndim cols rows =>
    if ndim ≠ 2 ∨ cols ≠ 2 then .error .valueError
    else .ok (rows.map (fun r => (r 0, r 1)))
  | .frame columns rows =>
    if ["lower_bound", "upper_bound"].all (fun c => columns.contains c) then
      .ok (rows.map (fun r => (r "lower_bound", r "upper_bound")))
    else .error .valueError
  | .other => .error .typeError

/-- The library sorting functions: the row numbers that sort a list of keys upwards (`np.argsort`,
`sort_values`) and downwards (`sort_values(ascending=False)`). -/
structure Sorter where
  argsort : List ℝ → List Nat
  up : List ℝ → List Nat
  down : List ℝ → List Nat

/-- `iloc[positions]` -/
def pick (rows : List Row) (idx : List Nat) : List Row := idx.filterMap (fun i => rows[i]?)

/-- L186-L200 and band.py: the centre of a row, the geometric mean by default. -/
noncomputable def center (r : Row) : ℝ := centerFrequency r.1 r.2 .geometric

/-- L202-L224 `band_centers`. -/
noncomputable def bandCenters (rows : List Row) (period : Bool) : List ℝ :=
  if period then rows.map (fun r => 1 / center r) else rows.map center

/-- L93-L122 `sort`. -/
noncomputable def sort (s : Sorter) (rows : List Row) (by_ : String) (ascending : Bool) :
    Except PyErr (List Row) :=
  if by_ = "lower_bound" then
    .ok (pick rows (if ascending then s.up (rows.map Prod.fst) else s.down (rows.map Prod.fst)))
  else if by_ = "upper_bound" then
    .ok (pick rows (if ascending then s.up (rows.map Prod.snd) else s.down (rows.map Prod.snd)))
  else if by_ = "center_frequency" then
    .ok (pick rows (if ascending then s.argsort (bandCenters rows false)
      else (s.argsort (bandCenters rows false)).reverse))
  else .error .valueError

/-- L186-L200 `band(i)` for all rows: a `Band` closed on the left. -/
def toBands (rows : List Row) : List (Band ℝ) :=
  rows.map (fun r => { fmin := r.1, fmax := r.2, closed := .left })

/-- L163: `sortby or "center_frequency"`. -/
def criterion : Option String → String
  | none => "center_frequency"
  | some k => if k = "" then "center_frequency" else k

/-- L124-L184 `bands`; a list and a generator give the same bands. -/
noncomputable def bands (s : Sorter) (rows : List Row) (direction : String) (sortby : Option String)
    (rtype : String) : Except PyErr (List (Band ℝ)) :=
  match (if sortby ≠ none ∨ direction = "increasing_period" then
      sort s rows (criterion sortby) (decide (direction = "increasing_frequency"))
    else .ok rows) with
  | .error e => .error e
  | .ok rs =>
    if rtype = "generator" ∨ rtype = "list" then .ok (toBands rs) else .error .valueError

/-- L226-L238: are the centres strictly increasing. -/
noncomputable def strictlyIncreasing : List ℝ → Bool
  | [] => true
  | [_] => true
  | a :: b :: l => decide (a < b) && strictlyIncreasing (b :: l)

/-- L226-L238 `validate`. -/
noncomputable def validate (s : Sorter) (rows : List Row) : Except PyErr (List Row) :=
  if strictlyIncreasing (bandCenters rows false) then .ok rows
  else sort s rows "center_frequency" true

end Verif.FreqBands
