import Verif.Model.Processing

/-!
Model of the bands of `mt_metadata/processing/aurora/decimation_level.py`, class `DecimationLevel`,
and of `mt_metadata/helper_functions.py` where the setter uses it.

Simplifications: frequencies are rational numbers; a data frame is its list of rows; the sorting of a
data frame (quicksort, not stable) is a parameter that gives row numbers in sorted order, missing
numbers last; a band is held by value.
-/

namespace Verif.LevelBands
open Verif.FreqBand Verif.Processing

/-- common/band.py L40-L124: a band with its decimation level (None when not set). -/
structure LBand where
  level : Option Int := none
  band : Band ℚ
  deriving DecidableEq

/-! ### Giving bands to a level -/

/-- An entry of the list of bands: a band, a dictionary, something else. -/
inductive Item (D : Type) where
  | band (b : LBand)
  | dict (d : D)
  | other

/-- What may be assigned to `bands`: one entry or a list. -/
inductive Given (D : Type) where
  | one (i : Item D)
  | list (l : List (Item D))

variable {D : Type}

/-- helper_functions.py L20-L46 `validate_setter_input`: a band or a dictionary becomes a list, only
lists pass. -/
def setterInput : Given D → Except PyErr (List (Item D))
  | .one (.band b) => .ok [.band b]
  | .one (.dict d) => .ok [.dict d]
  | .one .other => .error .typeError
  | .list l => .ok l

/-- helper_functions.py L49-L77 `cast_to_class_if_dict`, and aurora/decimation_level.py L238-L247 in
`add_band`; `fromDict` stands for `Band().from_dict(d)`. -/
def cast (fromDict : D → Except PyErr LBand) : Item D → Except PyErr LBand
  | .band b => .ok b
  | .dict d => fromDict d
  | .other => .error .typeError

/-- The list comprehension of L233: the first error ends it. -/
def castAll (fromDict : D → Except PyErr LBand) : List (Item D) → Except PyErr (List LBand)
  | [] => .ok []
  | i :: is =>
    match cast fromDict i with
    | .error e => .error e
    | .ok b =>
      match castAll fromDict is with
      | .error e => .error e
      | .ok bs => .ok (b :: bs)

/-- aurora/decimation_level.py L219-L233 `validate_bands`, run at every assignment of `bands`. -/
def setBands (fromDict : D → Except PyErr LBand) (g : Given D) : Except PyErr (List LBand) :=
  match setterInput g with
  | .error e => .error e
  | .ok l => castAll fromDict l

/-- aurora/decimation_level.py L235-L249 `add_band`. -/
def addBand (fromDict : D → Except PyErr LBand) (bs : List LBand) (i : Item D) :
    Except PyErr (List LBand) :=
  match cast fromDict i with
  | .error e => .error e
  | .ok b => .ok (bs ++ [b])

/-! ### What a level says about its bands -/

/-- All numbers are there. -/
def allSome : List (Option Int) → Option (List Int)
  | [] => some []
  | none :: _ => none
  | some x :: l =>
    match allSome l with
    | none => none
    | some xs => some (x :: xs)

/-- `sorted` of numbers of which some are None: two or more entries are compared, and None compares
with nothing. -/
def sortedBounds (l : List (Option Int)) : Except PyErr (List (Option Int)) :=
  if l.length ≤ 1 then .ok l
  else
    match allSome l with
    | none => .error .typeError
    | some xs => .ok ((pySorted (fun a b => decide (a ≤ b)) xs).map some)

/-- aurora/decimation_level.py L251-L258 `lower_bounds`. -/
def lowerBounds (bs : List LBand) : Except PyErr (List (Option Int)) :=
  sortedBounds (bs.map (fun b => b.band.imin))

/-- aurora/decimation_level.py L260-L267 `upper_bounds`. -/
def upperBounds (bs : List LBand) : Except PyErr (List (Option Int)) :=
  sortedBounds (bs.map (fun b => b.band.imax))

/-- A row of the data frame, L626-L632. -/
structure FrameRow where
  level : Int
  lower : Option Int
  upper : Option Int
  fmin : ℚ
  fmax : ℚ
  deriving DecidableEq

/-- aurora/decimation_level.py L637-L642: the row of a band; `None + 1` raises. -/
def rowOf (b : LBand) : Except PyErr FrameRow :=
  match b.level with
  | none => .error .typeError
  | some k => .ok { level := k + 1, lower := b.band.imin, upper := b.band.imax,
                    fmin := b.band.fmin, fmax := b.band.fmax }

/-- The loop of L637-L642. -/
def rowsOf : List LBand → Except PyErr (List FrameRow)
  | [] => .ok []
  | b :: bs =>
    match rowOf b with
    | .error e => .error e
    | .ok r =>
      match rowsOf bs with
      | .error e => .error e
      | .ok rs => .ok (r :: rs)

/-- `sort_values` of a data frame by a column of numbers: the row numbers in sorted order. -/
abbrev FrameSorter := List (Option Int) → List Nat

/-- aurora/decimation_level.py L603-L646 `_df_from_bands` and L269-L283 `bands_dataframe`. -/
def bandsFrame (s : FrameSorter) (bs : List LBand) : Except PyErr (List FrameRow) :=
  match rowsOf bs with
  | .error e => .error e
  | .ok rows => .ok ((s (rows.map (fun r => r.lower))).filterMap (fun i => rows[i]?))

/-- aurora/decimation_level.py L299-L312 `band_edges`; L314-L329 `frequency_bands_obj` keeps the same
rows (`FreqBands.setEdges` of a table with two columns). -/
def bandEdges (s : FrameSorter) (bs : List LBand) : Except PyErr (List (ℚ × ℚ)) :=
  match bandsFrame s bs with
  | .error e => .error e
  | .ok rows => .ok (rows.map (fun r => (r.fmin, r.fmax)))

/-- aurora/decimation_level.py L285-L297 `frequency_sample_interval`. -/
def sampleInterval (rate : ℚ) (numSamples : Int) : Except PyErr ℚ :=
  if numSamples = 0 then .error .zeroDivisionError else .ok (rate / numSamples)

/-- aurora/decimation_level.py L331-L342 `fft_frequencies`. -/
def fftFrequencies (rate : ℚ) (numSamples : Int) : Except PyErr (List ℚ) :=
  fftHarmonics numSamples rate

/-- aurora/decimation_level.py L344-L360 `harmonic_indices`. -/
def harmonicIndicesOf (bs : List LBand) : Except PyErr (List Int) :=
  levelHarmonics (bs.map (fun b => b.band))

/-- Setting the indices of every band from the frequencies of the level (common/band.py L249-L253
for each band, as aurora does). -/
def setAll (fs : List ℚ) : List LBand → Except PyErr (List LBand)
  | [] => .ok []
  | b :: bs =>
    match setIndices b.band fs with
    | .error e => .error e
    | .ok x =>
      match setAll fs bs with
      | .error e => .error e
      | .ok xs => .ok ({ b with band := x } :: xs)

end Verif.LevelBands
