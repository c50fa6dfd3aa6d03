import Verif.Base.Py
import Mathlib.Analysis.Complex.Norm
import Mathlib.Analysis.SpecialFunctions.Sqrt

/-!
# The arrays of a transfer function object

Model of `mt_metadata/transfer_functions/core.py`, class `TF`: the data set (L482-L573), channel names
(L575-L642), assignment of arrays (L747-L902), the properties that return them (L904-L1458), errors from
covariances (L1460-L1536) and periods (L1538-L1586).

Simplifications: a number is complex or `nan` (`none`); numbers given for errors are real, as NumPy
drops their imaginary parts; attributes of the arrays are left out. xarray: an array is indexed by period
number and by labels; `.loc` with an unknown label raises `KeyError`; assigning an array whose periods
differ from those of the data set raises `IndexError`; `reindex` of the template gives zeros. `TFError` is
`valueError`. The coordinates of an array that is given are called period, output and input.
-/

namespace Verif.Tf

open Classical

/-- A number or `nan`. -/
abbrev Val := Option ℂ

/-- L601-L608: the names of the channels. -/
structure Names where
  ex : Str
  ey : Str
  hx : Str
  hy : Str
  hz : Str

/-- By period number, output and input label. -/
abbrev Arr := ℕ → Str → Str → Val

inductive Var
  | tf
  | err
  | modErr
  | isp
  | res
deriving DecidableEq

/-- The data set `_transfer_function`. -/
structure DS (P : Type) where
  periods : List P
  labels : List Str
  arr : Var → Arr

structure TF (P : Type) where
  names : Names
  ds : DS P

variable {P : Type}

/-- The kinds of arrays. -/
inductive AType
  | tf
  | impedance
  | tipper
  | isp
  | res
  | impedanceError
  | impedanceModelError
  | tipperError
  | tipperModelError
  | tfError
  | tfModelError
deriving DecidableEq

def Names.hxhy (m : Names) : List Str := [m.hx, m.hy]
def Names.exey (m : Names) : List Str := [m.ex, m.ey]
def Names.exeyhz (m : Names) : List Str := [m.ex, m.ey, m.hz]
/-- The labels of both dimensions (L625, L641). -/
def Names.all (m : Names) : List Str := [m.ex, m.ey, m.hz, m.hx, m.hy]

/-- L612-L626 `_ch_input_dict`; there is no entry `tf_model_error`. -/
def chIn (m : Names) : AType → Option (List Str)
  | .impedance => some m.hxhy
  | .tipper => some m.hxhy
  | .impedanceError => some m.hxhy
  | .impedanceModelError => some m.hxhy
  | .tipperError => some m.hxhy
  | .tipperModelError => some m.hxhy
  | .isp => some m.hxhy
  | .res => some m.exeyhz
  | .tf => some m.hxhy
  | .tfError => some m.hxhy
  | .tfModelError => none

/-- L628-L642 `_ch_output_dict` -/
def chOut (m : Names) : AType → Option (List Str)
  | .impedance => some m.exey
  | .tipper => some [m.hz]
  | .impedanceError => some m.exey
  | .impedanceModelError => some m.exey
  | .tipperError => some [m.hz]
  | .tipperModelError => some [m.hz]
  | .isp => some m.hxhy
  | .res => some m.exeyhz
  | .tf => some m.exeyhz
  | .tfError => some m.exeyhz
  | .tfModelError => none

/-- L761-L774 `shape_dict` -/
def shape : AType → Option (ℕ × ℕ)
  | .impedance => some (2, 2)
  | .tipper => some (1, 2)
  | .impedanceError => some (2, 2)
  | .impedanceModelError => some (2, 2)
  | .tipperError => some (1, 2)
  | .tipperModelError => some (1, 2)
  | .isp => some (2, 2)
  | .res => some (3, 3)
  | .tf => some (3, 2)
  | .tfError => some (3, 2)
  | .tfModelError => none

/-- L866-L881 `key_dict` -/
def varOf : AType → Var
  | .tf => .tf
  | .impedance => .tf
  | .tipper => .tf
  | .isp => .isp
  | .res => .res
  | .impedanceError => .err
  | .impedanceModelError => .modErr
  | .tipperError => .err
  | .tipperModelError => .modErr
  | .tfError => .err
  | .tfModelError => .modErr

/-- L482-L570: all zeros. -/
def initDs (m : Names) (periods : List P) : DS P :=
  { periods := periods, labels := m.all, arr := fun _ _ _ _ => some 0 }

/-- L53-L111: a new object. -/
def new (m : Names) (periods : List P) : TF P := { names := m, ds := initDs m periods }

/-- A NumPy array of three dimensions. -/
structure Nd where
  n : ℕ
  r : ℕ
  c : ℕ
  val : ℕ → ℕ → ℕ → Val

/-- The numbers of an array. -/
def Nd.rows (a : Nd) : List (List (List Val)) :=
  (List.range a.n).map fun k => (List.range a.r).map fun i => (List.range a.c).map fun j => a.val k i j

/-- An `xarray.DataArray`. -/
structure Da (P : Type) where
  periods : List P
  outs : List Str
  ins : List Str
  val : ℕ → ℕ → ℕ → Val

/-- Position of a label. -/
def pos (l : List Str) (x : Str) : Option ℕ := l.findIdx? (· == x)

/-- All labels are known. -/
def known (d : DS P) (l : List Str) : Bool := l.all (fun x => d.labels.contains x)

/-- `ds[key].loc[dict(input=ins, output=outs)] = v` -/
def setLoc (d : DS P) (v : Var) (outs ins : List Str) (a : ℕ → ℕ → ℕ → Val) : Except PyErr (DS P) :=
  if known d outs && known d ins then
    .ok { d with arr := fun w k o i =>
      if w ≠ v then d.arr w k o i
      else match pos outs o, pos ins i with
        | some x, some y => a k x y
        | _, _ => d.arr w k o i }
  else .error .keyError

/-- `ds[key].loc[dict(input=ins, output=outs)].data` -/
def getLoc (d : DS P) (v : Var) (outs ins : List Str) : Except PyErr (List (List (List Val))) :=
  if known d outs && known d ins then
    .ok ((List.range d.periods.length).map fun k => outs.map fun o => ins.map fun i => d.arr v k o i)
  else .error .keyError

/-- `np.all(x == 0)` -/
noncomputable def allZero (x : List (List (List Val))) : Bool :=
  x.all fun p => p.all fun r => r.all fun v => decide (v = some 0)

/-- `np.nan_to_num` -/
def nanToNum (x : List (List (List Val))) : List (List (List Val)) :=
  x.map fun p => p.map fun r => r.map fun v => some (v.getD 0)

/-- L904-L930 `has_transfer_function` -/
noncomputable def hasTf (s : TF P) : Except PyErr Bool :=
  if s.ds.labels.contains s.names.ex || (s.ds.labels.contains s.names.ey || s.ds.labels.contains s.names.hz) then
    match getLoc s.ds .tf s.names.exeyhz s.names.hxhy with
    | .ok x => .ok (!allZero x)
    | .error e => .error e
  else .ok false

/-- L1042-L1068 `has_impedance` -/
noncomputable def hasZ (s : TF P) : Except PyErr Bool :=
  if s.ds.labels.contains s.names.ex || s.ds.labels.contains s.names.ey then
    match getLoc s.ds .tf s.names.exey s.names.hxhy with
    | .ok x => .ok (!allZero x)
    | .error e => .error e
  else .ok false

/-- L1184-L1211 `has_tipper` -/
noncomputable def hasT (s : TF P) : Except PyErr Bool :=
  if s.ds.labels.contains s.names.hz then
    match getLoc s.ds .tf [s.names.hz] s.names.hxhy with
    | .ok x => .ok (!allZero (nanToNum x))
    | .error e => .error e
  else .ok false

/-- L1328-L1350 `has_inverse_signal_power` -/
noncomputable def hasIsp (s : TF P) : Except PyErr Bool :=
  match getLoc s.ds .isp s.names.hxhy s.names.hxhy with
  | .ok x => .ok (!allZero x)
  | .error e => .error e

/-- L1394-L1416 `has_residual_covariance` -/
noncomputable def hasRes (s : TF P) : Except PyErr Bool :=
  match getLoc s.ds .res s.names.exeyhz s.names.exeyhz with
  | .ok x => .ok (!allZero x)
  | .error e => .error e

/-- A property: the array if the test holds, else `None`. -/
def guarded (b : Except PyErr Bool) (x : Except PyErr (List (List (List Val)))) :
    Except PyErr (Option (List (List (List Val)))) :=
  match b with
  | .error e => .error e
  | .ok false => .ok none
  | .ok true => match x with
    | .error e => .error e
    | .ok y => .ok (some y)

/-- The properties: L932-L951, L968-L987, L1005-L1024 (`transfer_function…`), L1070-L1092, L1106-L1130,
L1144-L1168 (`impedance…`), L1213-L1237, L1251-L1275, L1289-L1312 (`tipper…`), L1352-L1375
(`inverse_signal_power`), L1418-L1441 (`residual_covariance`). -/
noncomputable def get (s : TF P) : AType → Except PyErr (Option (List (List (List Val))))
  | .tf => guarded (hasTf s) (getLoc s.ds .tf s.names.exeyhz s.names.hxhy)
  | .tfError => guarded (hasTf s) (getLoc s.ds .err s.names.exeyhz s.names.hxhy)
  | .tfModelError => guarded (hasTf s) (getLoc s.ds .modErr s.names.exeyhz s.names.hxhy)
  | .impedance => guarded (hasZ s) (getLoc s.ds .tf s.names.exey s.names.hxhy)
  | .impedanceError => guarded (hasZ s) (getLoc s.ds .err s.names.exey s.names.hxhy)
  | .impedanceModelError => guarded (hasZ s) (getLoc s.ds .modErr s.names.exey s.names.hxhy)
  | .tipper => guarded (hasT s) (getLoc s.ds .tf [s.names.hz] s.names.hxhy)
  | .tipperError => guarded (hasT s) (getLoc s.ds .err [s.names.hz] s.names.hxhy)
  | .tipperModelError => guarded (hasT s) (getLoc s.ds .modErr [s.names.hz] s.names.hxhy)
  | .isp => guarded (hasIsp s) (getLoc s.ds .isp s.names.hxhy s.names.hxhy)
  | .res => guarded (hasRes s) (getLoc s.ds .res s.names.exeyhz s.names.exeyhz)

/-- What is assigned. -/
inductive Input (P : Type)
  | none
  | nd (a : Nd)
  | da (a : Da P)

/-- L747-L790 `_validate_input_ndarray` -/
def validNd (s : TF P) (t : AType) (a : Nd) : Except PyErr Unit :=
  match shape t with
  | .none => .error .keyError
  | some (r, c) =>
    if ¬ (a.r = r ∧ a.c = c) then .error .valueError
    else if a.n ≠ s.ds.periods.length then .error .valueError
    else .ok ()

/-- L838: `da.reindex(output=ch_out, input=ch_in)` -/
def reindex (a : Da P) (outs ins : List Str) : ℕ → ℕ → ℕ → Val := fun k i j =>
  match pos a.outs (outs.getD i []), pos a.ins (ins.getD j []) with
  | some x, some y => a.val k x y
  | _, _ => none

/-- L792-L849 `_validate_input_dataarray`, with the data set that results. -/
noncomputable def validDa (s : TF P) (outs ins : List Str) (a : Da P) : Except PyErr (DS P) :=
  if outs.isPerm a.outs = false then .error .valueError
  else if ins.isPerm a.ins = false then .error .valueError
  else
    let grow : Except PyErr Bool :=
      if s.ds.periods.length = 1 then
        match hasT s with
        | .error e => .error e
        | .ok true => .ok false
        | .ok false =>
          match hasZ s with
          | .error e => .error e
          | .ok b => .ok (!b)
      else .ok false
    match grow with
    | .error e => .error e
    | .ok true => .ok (initDs s.names a.periods)
    | .ok false => if s.ds.periods.length = a.periods.length then .ok s.ds else .error .valueError

/-- L851-L902 `_set_data_array` -/
noncomputable def setArray (s : TF P) (t : AType) (x : Input P) : Except PyErr (TF P) :=
  match x with
  | .none => .ok s
  | .nd a =>
    match chIn s.names t, chOut s.names t with
    | some ins, some outs =>
      match validNd s t a with
      | .error e => .error e
      | .ok _ =>
        match setLoc s.ds (varOf t) outs ins a.val with
        | .error e => .error e
        | .ok d => .ok { s with ds := d }
    | _, _ => .error .keyError
  | .da a =>
    match chIn s.names t, chOut s.names t with
    | some ins, some outs =>
      match validDa s outs ins a with
      | .error e => .error e
      | .ok d =>
        if known d outs && known d ins then
          if d.periods = a.periods then
            match setLoc d (varOf t) outs ins (reindex a outs ins) with
            | .error e => .error e
            | .ok d => .ok { s with ds := d }
          else .error .indexError
        else .error .keyError
    | _, _ => .error .keyError

/-- `np.sqrt(np.abs(np.abs(e * s)))` -/
noncomputable def errOf (e s : Val) : Val :=
  match e, s with
  | some x, some y => some ((Real.sqrt ‖x * y‖ : ℝ) : ℂ)
  | _, _ => none

/-- L1460-L1536 `_compute_error_from_covariance`; the properties are `None` if all zero. -/
noncomputable def computeErr (s : TF P) : Except PyErr (TF P) :=
  match hasRes s, hasIsp s with
  | .error e, _ => .error e
  | _, .error e => .error e
  | .ok true, .ok true =>
    let m := s.names
    let err := s.ds.arr .err
    let e := s.ds.arr .res
    let p := s.ds.arr .isp
    let zErr : Arr := fun k o i =>
      if o = m.ex ∧ i = m.hx then errOf (e k m.ex m.ex) (p k m.hx m.hx)
      else if o = m.ex ∧ i = m.hy then errOf (e k m.ex m.ex) (p k m.hy m.hy)
      else if o = m.ey ∧ i = m.hx then errOf (e k m.ey m.ey) (p k m.hx m.hx)
      else if o = m.ey ∧ i = m.hy then errOf (e k m.ey m.ey) (p k m.hy m.hy)
      else err k o i
    let tErr : Arr := fun k o i =>
      if o = m.hz ∧ i = m.hx then errOf (e k m.hz m.hz) (p k m.hx m.hx)
      else if o = m.hz ∧ i = m.hy then errOf (e k m.hz m.hz) (p k m.hy m.hy)
      else zErr k o i
    .ok { s with ds := { s.ds with arr := fun w => if w = .err then tErr else s.ds.arr w } }
  | _, _ => .error .attributeError

/-- The setters: `inverse_signal_power` (L1377-L1392) and `residual_covariance` (L1443-L1458) compute the errors,
the others only store the array. An exception leaves what was stored before it. -/
noncomputable def set (s : TF P) (t : AType) (x : Input P) : TF P × Option PyErr :=
  match setArray s t x with
  | .error e => (s, some e)
  | .ok s' =>
    match t with
    | .isp =>
      match hasRes s' with
      | .error e => (s', some e)
      | .ok false => (s', none)
      | .ok true => match computeErr s' with
        | .ok s'' => (s'', none)
        | .error e => (s', some e)
    | .res =>
      match hasIsp s' with
      | .error e => (s', some e)
      | .ok false => (s', none)
      | .ok true => match computeErr s' with
        | .ok s'' => (s'', none)
        | .error e => (s', some e)
    | _ => (s', none)

/-- L1543-L1575: assigning periods. -/
noncomputable def setPeriod (one : P) (s : TF P) (v : List P) : TF P × Option PyErr :=
  if s.ds.periods = [one] then ({ s with ds := initDs s.names v }, none)
  else if v.length ≠ s.ds.periods.length then (s, some .valueError)
  else ({ s with ds := { s.ds with periods := v } }, none)

/-- L584-L610: assigning names leaves the data set alone. -/
def setNames (s : TF P) (m : Names) : TF P := { s with names := m }

end Verif.Tf
