import Verif.Model.Band
import Verif.Model.Metadata
import Mathlib.Data.Rat.Defs
import Mathlib.Algebra.Order.Ring.Rat

/-!
Model of the decimation side of `mt_metadata/processing`: Fourier harmonics and tapers (window.py),
window counts and the list of decimation levels (fourier_coefficients/decimation.py),
`Processing` (aurora/processing.py) and the comparison with archived Fourier coefficients
(aurora/decimation_level.py).

Simplifications: rates, factors and frequencies are rational numbers; level numbers are natural
numbers; what a list holds after a call that raises is not modelled.
-/

namespace Verif.Processing
open Verif.FreqBand

/-! ### Fourier harmonics -/

/-- `np.fft.fftfreq(n, d)` for `n ≥ 1`: 0, 1, …, (n-1)//2, -(n//2), …, -1, all over `n d`. -/
def fftfreq (n : Nat) (d : ℚ) : List ℚ :=
  ((List.range ((n - 1) / 2 + 1)).map (fun k : Nat => (k : ℚ)) ++
    (List.range (n / 2)).map (fun k : Nat => (k : ℚ) - (n / 2 : Nat))).map (fun x => x * (1 / (n * d)))

/-- window.py L196-L226 `get_fft_harmonics` (the same text in aurora/decimation_level.py L645-L675). -/
def fftHarmonics (n : Int) (rate : ℚ) : Except PyErr (List ℚ) :=
  if rate = 0 then .error .zeroDivisionError
  else if n = 0 then .error .zeroDivisionError
  else if n < 0 then .error .valueError
  else .ok ((fftfreq n.toNat (1 / rate)).take (n.toNat / 2))

/-! ### Tapers -/

/-- The settings of a `Window` that `taper` reads (window.py L49-L139). -/
structure WinSettings where
  numSamples : Nat
  type : String
  normalized : Bool
  args : List ℚ
  deriving DecidableEq

/-- A window: its settings and the private `_taper`. -/
structure Win where
  settings : WinSettings
  cache : Option (List ℚ) := none
  deriving DecidableEq

/-- window.py L180-L189: the taper for given settings; `getWindow` stands for
`scipy.signal.get_window` (type, extra arguments, length). -/
def computeTaper (getWindow : String → List ℚ → Nat → List ℚ) (s : WinSettings) : List ℚ :=
  let t := getWindow s.type s.args s.numSamples
  if s.normalized then t.map (· / t.sum) else t

/-- window.py L170-L193 `taper`: computed only if there is no stored one. -/
def taper (getWindow : String → List ℚ → Nat → List ℚ) (w : Win) : List ℚ × Win :=
  match w.cache with
  | some t => (t, w)
  | none => (computeTaper getWindow w.settings,
      { w with cache := some (computeTaper getWindow w.settings) })

/-- A call on a window. -/
inductive WinOp where
  | set (s : WinSettings)
  | taper

/-- One call; assigning a setting does not touch the stored taper. -/
def winStep (getWindow : String → List ℚ → Nat → List ℚ) (w : Win) : WinOp → Win
  | .set s => { w with settings := s }
  | .taper => (taper getWindow w).2

/-- A history of calls. -/
def winRun (getWindow : String → List ℚ → Nat → List ℚ) (w : Win) (ops : List WinOp) : Win :=
  ops.foldl (winStep getWindow) w

/-! ### Window counts -/

/-- fourier_coefficients/decimation.py L396-L415 `is_valid_for_time_series_length`, with
`num_samples_advance` from window.py L153-L156. -/
def validLength (numSamples overlap minWindows nSamples : Int) : Bool :=
  !decide (nSamples < numSamples + (minWindows - 1) * (numSamples - overlap))

/-! ### The cascade of decimation levels -/

/-- One created level: number, id, factor, sample rate. -/
structure FcLevel where
  level : Nat
  id : String
  factor : ℚ
  rate : ℚ
  deriving DecidableEq

/-- fourier_coefficients/decimation.py L470-L490: the loop, from level `i` on, `current` being the
rate of the level before. -/
def creatorLoop (initial : ℚ) : Nat → ℚ → List ℚ → Except PyErr (List FcLevel)
  | _, _, [] => .ok []
  | i, current, f :: fs =>
    if i = 0 then
      match creatorLoop initial (i + 1) initial fs with
      | .error e => .error e
      | .ok l => .ok (⟨i, Nat.repr i, f, initial⟩ :: l)
    else if f = 0 then .error .zeroDivisionError
    else
      match creatorLoop initial (i + 1) (current / f) fs with
      | .error e => .error e
      | .ok l => .ok (⟨i, Nat.repr i, f, current / f⟩ :: l)

/-- fourier_coefficients/decimation.py L423-L492 `fc_decimations_creator` without time period. No or
an empty list of factors means 1, 4, 4, …; the list for `max_levels ≤ 0` has no
entry 0 to replace. -/
def creator (initial : ℚ) (factors : Option (List ℚ)) (maxLevels : Int) :
    Except PyErr (List FcLevel) :=
  match factors.getD [] with
  | f :: fs => creatorLoop initial 0 0 (f :: fs)
  | [] =>
    if maxLevels ≤ 0 then .error .indexError
    else creatorLoop initial 0 0 (1 :: List.replicate (maxLevels.toNat - 1) 4)

/-! ### `Processing` -/

/-- A decimation level of a `Processing` object, as far as `assign_bands` fills it. -/
structure Level where
  level : Nat
  factor : ℚ
  rate : ℚ
  samples : Int
  bands : List (Band ℚ)
  deriving DecidableEq

/-- The window length argument: one number for all levels, or a dict. -/
inductive WinLen where
  | all (n : Int)
  | per (d : OD Nat Int)

/-- aurora/processing.py L285-L287, L302: the entry for a level. A single number is
repeated once per level and looked up by level number. -/
def WinLen.get (w : WinLen) (count i : Nat) : Except PyErr Int :=
  match w with
  | .all n => if i < count then .ok n else .error .indexError
  | .per d =>
    match OD.get? d i with
    | some n => .ok n
    | none => .error .keyError

/-- aurora/processing.py L305-L312: the bands of a level. A new `Band` is closed on the left
(common/band.py L121-L131). -/
def makeBands (freqs : List ℚ) : List (ℚ × ℚ) → Except PyErr (List (Band ℚ))
  | [] => .ok []
  | e :: es =>
    match setIndices { fmin := e.1, fmax := e.2, closed := .left } freqs with
    | .error x => .error x
    | .ok b =>
      match makeBands freqs es with
      | .error x => .error x
      | .ok bs => .ok (b :: bs)

/-- aurora/processing.py L291-L297: the sample rate of a level with factor `d`. -/
def levelRate (rate d : ℚ) (i : Nat) : Except PyErr ℚ :=
  if i = 0 then .ok rate
  else if d ^ i = 0 then .error .zeroDivisionError
  else .ok (rate / d ^ i)

/-- aurora/processing.py L289-L313: one level. -/
def makeLevel (rate : ℚ) (factors : OD Nat ℚ) (w : WinLen) (count : Nat) (i : Nat)
    (edges : List (ℚ × ℚ)) : Except PyErr Level :=
  match OD.get? factors i with
  | none => .error .keyError
  | some d =>
    match levelRate rate d i with
    | .error e => .error e
    | .ok sr =>
      match w.get count i with
      | .error e => .error e
      | .ok n =>
        match fftHarmonics n sr with
        | .error e => .error e
        | .ok freqs =>
          match makeBands freqs edges with
          | .error e => .error e
          | .ok bs => .ok ⟨i, d, sr, n, bs⟩

/-- The levels of a list of items. -/
def makeLevels (rate : ℚ) (factors : OD Nat ℚ) (w : WinLen) (count : Nat) :
    List (Nat × List (ℚ × ℚ)) → Except PyErr (List Level)
  | [] => .ok []
  | p :: ps =>
    match makeLevel rate factors w count p.1 p.2 with
    | .error e => .error e
    | .ok l =>
      match makeLevels rate factors w count ps with
      | .error e => .error e
      | .ok ls => .ok (l :: ls)

/-- aurora/processing.py L253-L314 `assign_bands`: the levels are appended in the order of their numbers. -/
def assignBands (old : List Level) (edges : OD Nat (List (ℚ × ℚ))) (rate : ℚ)
    (factors : OD Nat ℚ) (w : WinLen) : Except PyErr (List Level) :=
  match makeLevels rate factors w edges.length
      (pySorted (fun a b => decide (a.1 ≤ b.1)) edges) with
  | .error e => .error e
  | .ok ls => .ok (old ++ ls)

/-- An entry of a list given for `decimations`: an object, a dict (with the level that
`from_dict` makes of it), anything else. -/
inductive Item (L : Type) where
  | obj (l : L)
  | dict (l : L)
  | other

/-- What can be assigned to `decimations`. -/
inductive DecValue (L : Type) where
  | single (l : L)
  | mapping (items : List (Item L))
  | list (items : List (Item L))
  | str (length : Nat)
  | other

variable {L : Type}

/-- aurora/processing.py L116-L124, the dict branch. -/
def readMapping : List (Item L) → Except PyErr (List L)
  | [] => .ok []
  | .obj l :: rest =>
    match readMapping rest with
    | .error e => .error e
    | .ok ls => .ok (l :: ls)
  | _ :: _ => .error .typeError

/-- aurora/processing.py L127-L129, the first loop over a list. -/
def objects (items : List (Item L)) : List L :=
  items.filterMap (fun x => match x with
    | .obj l => some l
    | _ => none)

/-- aurora/processing.py L130-L140, the second loop. -/
def readList : List (Item L) → Except PyErr (List L)
  | [] => .ok []
  | .obj l :: rest =>
    match readList rest with
    | .error e => .error e
    | .ok ls => .ok (l :: ls)
  | .dict l :: rest =>
    match readList rest with
    | .error e => .error e
    | .ok ls => .ok (l :: ls)
  | .other :: _ => .error .typeError

/-- aurora/processing.py L106-L152 `validate_decimations`. -/
def validateDecimations : DecValue L → Except PyErr (List L)
  | .single l => .ok [l]
  | .mapping items => readMapping items
  | .list items =>
    match readList items with
    | .error e => .error e
    | .ok ls => .ok (objects items ++ ls)
  | .str n => if 4 < n then .error .typeError else .ok []
  | .other => .error .typeError

/-- aurora/processing.py L154-L167 `decimations_dict`. -/
def levelDict (ls : List Level) : OD Nat Level := OD.ofPairs (ls.map (fun l => (l.level, l)))

/-- aurora/processing.py L169-L196 `get_decimation_level`. -/
def getLevel (ls : List Level) (i : Nat) : Except PyErr Level :=
  match OD.get? (levelDict ls) i with
  | some l => .ok l
  | none => .error .keyError

/-- aurora/processing.py L230-L251 `assign_decimation_level_data_emtf`: the objects in `decimations_dict`
are changed, that is the last one of every level number. -/
def assignEmtf (rate : ℚ) : List Level → List Level
  | [] => []
  | l :: ls =>
    (if ls.any (fun x => x.level = l.level) then l
      else if l.level = 0 then { l with factor := 1, rate := rate }
      else { l with factor := 4, rate := rate / 4 ^ l.level }) :: assignEmtf rate ls

/-! ### Archived Fourier coefficients -/

/-- `harmonic_indices` of the archive: None, one number, or a list (short_time_fourier_transform.py L44). -/
inductive Harmonics where
  | none
  | one (i : Int)
  | many (l : List Int)
  deriving DecidableEq

/-- The parameters shared by a processing level and an archived one (short_time_fourier_transform.py,
time_series_decimation.py). The window is a metadata object, compared by `MetadataBase.__eq__`. -/
structure Params where
  factor : ℚ := 1
  level : Option Nat := none
  rate : ℚ := 1
  antiAlias : Option String := some "default"
  method : String := "fft"
  prewhitening : String := "first difference"
  recoloring : Bool := true
  preDetrend : String := "linear"
  minWindows : Int := 0
  window : Metadata.Obj := []
  deriving DecidableEq

/-- aurora/decimation_level.py: a processing level. -/
structure ProcLevel where
  par : Params
  inputs : List String
  outputs : List String
  refs : List String
  bands : List (Band ℚ)

/-- fourier_coefficients/decimation.py: an archived level. -/
structure FcDec where
  par : Params
  channels : List String
  harmonics : Harmonics
  deriving DecidableEq

/-- aurora/decimation_level.py L344-L360: all indices of all bands, before sorting. -/
def bandIndices : List (Band ℚ) → Except PyErr (List Int)
  | [] => .ok []
  | b :: bs =>
    match harmonicIndices b with
    | .error e => .error e
    | .ok l =>
      match bandIndices bs with
      | .error e => .error e
      | .ok ls => .ok (l ++ ls)

/-- aurora/decimation_level.py L344-L360 `harmonic_indices`. -/
def levelHarmonics (bs : List (Band ℚ)) : Except PyErr (List Int) :=
  match bandIndices bs with
  | .error e => .error e
  | .ok l => .ok (pySorted (fun a b => decide (a ≤ b)) l)

/-- aurora/decimation_level.py L399-L402 and L573-L576: the channels wanted. -/
def wanted (p : ProcLevel) (remote : Bool) : List String :=
  if remote then p.refs else p.inputs ++ p.outputs

/-- aurora/decimation_level.py L515-L541: the test of the harmonic indices. `-1 in 5` raises
TypeError. -/
def checkHarmonics (p : ProcLevel) (fc : FcDec) : Except PyErr Bool :=
  match fc.harmonics with
  | .none => .ok true
  | .one _ => .error .typeError
  | .many l =>
    if -1 ∈ l then .ok true
    else
      match levelHarmonics p.bands with
      | .error e => .error e
      | .ok hs => .ok (hs.all (fun h => l.contains h))

/-- aurora/decimation_level.py L416-L435: the anti alias filters agree or are "default" and None. -/
def aliasOk (p : ProcLevel) (fc : FcDec) : Bool :=
  decide (fc.par.antiAlias = p.par.antiAlias) ||
    (decide (p.par.antiAlias = some "default") && decide (fc.par.antiAlias = none))

/-- aurora/decimation_level.py L366-L545 `is_consistent_with_archived_fc_parameters`. -/
def isConsistent (p : ProcLevel) (fc : FcDec) (remote : Bool) : Except PyErr Bool :=
  if !((wanted p remote).all (fun c => fc.channels.contains c)) then .ok false
  else if !aliasOk p fc then .error .notImplementedError
  else if fc.par.rate ≠ p.par.rate then .ok false
  else if fc.par.method ≠ p.par.method then .ok false
  else if fc.par.prewhitening ≠ p.par.prewhitening then .ok false
  else if fc.par.recoloring ≠ p.par.recoloring then .ok false
  else if fc.par.preDetrend ≠ p.par.preDetrend then .ok false
  else if fc.par.minWindows ≠ p.par.minWindows then .ok false
  else
    match Metadata.objEq fc.par.window p.par.window with
    | .error e => .error e
    | .ok false => .ok false
    | .ok true => checkHarmonics p fc

/-- aurora/decimation_level.py L547-L601 `to_fc_decimation`: `min_num_stft_windows` keeps the default 0
(short_time_fourier_transform.py L72-L83). -/
def toFc (p : ProcLevel) (remote ignoreHarmonics : Bool) : Except PyErr FcDec :=
  let par : Params := { p.par with minWindows := 0 }
  if ignoreHarmonics then .ok ⟨par, wanted p remote, .none⟩
  else
    match levelHarmonics p.bands with
    | .error e => .error e
    | .ok hs => .ok ⟨par, wanted p remote, .many hs⟩

end Verif.Processing
