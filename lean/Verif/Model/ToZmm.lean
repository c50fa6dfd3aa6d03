import Verif.Base.Text

/-! # Converting a transfer function to a Z file object again and again

`mt_metadata/transfer_functions/core.py` L113-L119 `inverse_channel_nomenclature`, L584-L609 `channel_nomenclature`, L2310-L2339
`make_zmm_run`, L2341-L2407 `to_zmm` as to runs, names and numbers of channels; `timeseries/run.py` L79-L85, `common/list_dict.py` L164-L177.

Simplifications: a channel of a run is its name and the values taken from it (azimuth, tilt, dipole length); names of the channels of a run are
distinct. A run is the rest of its metadata and its channels. `z`, `t` say whether there are impedances and tippers. -/

namespace Verif.ToZmm
open Verif.Text

/-- Components. -/
inductive Comp where
  | ex
  | ey
  | hx
  | hy
  | hz
  deriving DecidableEq

/-- Their standard names. -/
def std : Comp → Str
  | .ex => ['e', 'x']
  | .ey => ['e', 'y']
  | .hx => ['h', 'x']
  | .hy => ['h', 'y']
  | .hz => ['h', 'z']

/-- A run. -/
structure Run (M V : Type) where
  info : M
  chans : List (Str × V)

/-- A transfer function: runs, data, names; `cache` are the names at the time `inverse_channel_nomenclature` was made. -/
structure TF (M V : Type) where
  runs : List (Run M V)
  z : Bool
  t : Bool
  names : Comp → Str
  cache : Option (Comp → Str) := none

/-- core.py L113-L119 `{v: k for k, v in …}`: the last of equal names counts. -/
def inverse (nm : Comp → Str) (s : Str) : Option Comp := [Comp.ey, .ex, .hz, .hy, .hx].find? (fun c => decide (nm c = s))

/-- core.py L2368-L2379 `number_dict`, its keys in the order of their numbers; it has no value without data. -/
def numbered (z t : Bool) : Option (List Comp) :=
  if t then (if z then some [.hx, .hy, .hz, .ex, .ey] else some [.hx, .hy, .hz])
  else (if z then some [.hx, .hy, .ex, .ey] else none)

/-- The channels of a Z file object: number and values. -/
abbrev Chans (V : Type) := Comp → Option (Nat × V)

/-- core.py L2326-L2338 `make_zmm_run`: the run has the standard names, whatever the nomenclature. `m`, `v` are defaults. -/
def madeRun {M V : Type} (m : M) (v : V) (n : List Comp) : Run M V := ⟨m, n.map (fun c => (std c, v))⟩

/-- core.py L2327-L2330: the channels of the Z file object then. -/
def madeChans {V : Type} (v : V) (n : List Comp) : Chans V := fun c => (n.idxOf? c).map (fun i => (i + 1, v))

/-- core.py L2390-L2404: the channels of the first run. -/
def recorded {V : Type} (inv : Str → Option Comp) (num : Option (List Comp)) : List (Str × V) → Chans V → Except PyErr (Chans V)
  | [], a => .ok a
  | (s, v) :: l, a =>
    if hasSub ['r', 'r'] s then recorded inv num l a
    else
      match inv s with
      | none => .error .keyError
      | some c =>
        match num with
        | none => .error .nameError
        | some n =>
          recorded inv num l (match n.idxOf? c with
            | some i => fun x => if x = c then some (i + 1, v) else a x
            | none => a)

/-- core.py L2358-L2407 `to_zmm`: what the transfer function is afterwards, and the channels of the Z file object. -/
def toZmm {M V : Type} (m : M) (v : V) (f : TF M V) : TF M V × Except PyErr (Chans V) :=
  let nm := f.cache.getD f.names
  let g := { f with cache := some nm }
  match f.runs with
  | [] =>
    match numbered f.z f.t with
    | none => (g, .error .nameError)
    | some n => ({ g with runs := [madeRun m v n] }, .ok (madeChans v n))
  | r :: rs =>
    if r.chans = [] then
      match numbered f.z f.t with
      | none => (g, .error .nameError)
      | some n => ({ g with runs := madeRun m v n :: rs }, .ok (madeChans v n))
    else (g, recorded (inverse nm) (numbered f.z f.t) r.chans (fun _ => none))

/-- What is done with a transfer function. -/
inductive Op where
  | data (z t : Bool)
  | names (nm : Comp → Str)
  | convert

/-- core.py L584-L609: the inverse names are not made anew. -/
def step {M V : Type} (m : M) (v : V) (f : TF M V) : Op → TF M V
  | .data z t => { f with
      z := z
      t := t }
  | .names nm => { f with names := nm }
  | .convert => (toZmm m v f).1

/-- Several, one after another. -/
def steps {M V : Type} (m : M) (v : V) (f : TF M V) (l : List Op) : TF M V := l.foldl (step m v) f

end Verif.ToZmm
