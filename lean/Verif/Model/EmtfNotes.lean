import Verif.Base.Py
import Verif.Base.Text

/-!
Model of the comments about electrodes and magnetometers in EMTF XML objects:
`mt_metadata/transfer_functions/io/emtfxml/emtfxml.py` L580-L725 (`_parse_comments_electric`,
`_parse_comments_magnetic`), which `Verif.Model.EmtfStation` leaves to the world.

Simplifications: instruments and channels are the texts of the attributes that have been set (a missing name is
`None`); numbers are kept as texts, whether a text is a number is a function of the world; the run of the field notes
is there (L782-L784).
-/

namespace Verif.EmtfNotes
open Verif.Text

/-- The attributes of an instrument or a channel. -/
abbrev Fields := List (Str × Str)

/-- What the comments change: the dipoles and magnetometers of the first run, the channels of the site. -/
structure St where
  dipoles : List Fields
  mags : List Fields
  inputs : List Fields
  outputs : List Fields
  deriving DecidableEq

/-- The text is a number. -/
abbrev World := Str → Bool

/-- `obj.name` -/
def nameOf (t : Fields) : Option Str := OD.get? t "name".toList

/-- L596-L604, L662-L670: the component and the attribute a key is about. -/
def keyOf (pre dflt key : Str) : Except PyErr (Str × Str) :=
  match (split1 '.' key).2 with
  | none => .error .indexError
  | some r =>
    match splitC '.' (replaceSub pre [] r) with
    | c :: f :: _ => .ok (c, f)
    | [f] => .ok (dflt, f)
    | [] => .ok (dflt, [])

/-- L613-L618, L681-L686: the names in lower case. -/
def names (l : List Fields) : List (Option Str) := l.map fun t => (nameOf t).map lower

/-- `list.index(a)` -/
def indexOf (a : Option Str) : List (Option Str) → Option Nat
  | [] => none
  | x :: l => if x = a then some 0 else (indexOf a l).map (· + 1)

/-- L619-L627, L687-L696: which instrument is meant; nothing if there is none. The name is looked for in lower case
and its index as it is given. -/
def locate (l : List (Option Str)) (comp : Str) : Except PyErr (Option Nat) :=
  if some (lower comp) ∈ l then
    match indexOf (some comp) l with
    | some i => .ok (some i)
    | none => .error .valueError
  else .ok (indexOf none l)

/-- `setattr(l[i], k, v)` -/
def setAt (l : List Fields) (i : Nat) (k v : Str) : List Fields := l.modify i fun t => OD.set t k v

/-- L606-L611 -/
def eAttr (f : Str) : Option Str :=
  if f = "chtype".toList then some "name".toList
  else if f = "manufacturer".toList then some "manufacturer".toList
  else if f = "azm".toList then some "azimuth".toList
  else none

/-- L672-L679 -/
def mAttr (f : Str) : Option Str :=
  if f = "chtype".toList then some "name".toList
  else if f = "manufacturer".toList then some "manufacturer".toList
  else if f = "azm".toList then some "azimuth".toList
  else if f = "type".toList then some "type".toList
  else if f = "acqchan".toList then some "id".toList
  else none

/-- dipole.py: the azimuth has to be a number. -/
def checkDipole (w : World) (k v : Str) : Except PyErr Unit :=
  if k = "azimuth".toList ∧ w v = false then .error .valueError else .ok ()

/-- L613-L633: an attribute of a dipole. If there is no such dipole the new one ends among the magnetometers (L624),
and the last dipole is taken (L627). -/
def setDipole (w : World) (st : St) (comp k v : Str) : Except PyErr St :=
  (locate (names st.dipoles) comp).bind fun o =>
    match o with
    | some i => (checkDipole w k v).bind fun _ => .ok { st with dipoles := setAt st.dipoles i k v }
    | none =>
      if st.dipoles = [] then .error .indexError
      else (checkDipole w k v).bind fun _ =>
        .ok { st with mags := st.mags ++ [[("name".toList, comp)]]
                      dipoles := setAt st.dipoles (st.dipoles.length - 1) k v }

/-- L681-L702: an attribute of a magnetometer; none of them has to be a number. -/
def setMag (st : St) (comp k v : Str) : Except PyErr St :=
  (locate (names st.mags) comp).bind fun o =>
    match o with
    | some i => .ok { st with mags := setAt st.mags i k v }
    | none => .ok { st with mags := setAt (st.mags ++ [[("name".toList, comp)]]) st.mags.length k v }

/-- L637-L642, L707-L712, L718-L724: a coordinate of the channel of that name, or of the first one. -/
def setPlace (w : World) (l : List Fields) (comp k v : Str) : Except PyErr (List Fields) :=
  if l = [] then .error .indexError
  else if w v = false then .error .valueError
  else .ok (setAt l ((indexOf (some comp) (l.map nameOf)).getD 0) k v)

/-- A new channel. -/
def channel (comp : Str) : Fields := [("name".toList, comp)]

/-- L634-L642: coordinates of electrodes. -/
def setElectrode (w : World) (st : St) (comp k v : Str) : Except PyErr St :=
  (setPlace w (if st.outputs = [] then [channel comp] else st.outputs) comp k v).bind fun o => .ok { st with outputs := o }

/-- L703-L724: coordinates of magnetometers; for the horizontal ones the output channels are searched and changed. -/
def setMagPlace (w : World) (st : St) (comp k v : Str) : Except PyErr St :=
  if comp = "hx".toList ∨ comp = "hy".toList then
    (setPlace w st.outputs comp k v).bind fun o =>
      .ok { st with outputs := o, inputs := if st.outputs = [] then st.inputs ++ [channel comp] else st.inputs }
  else if comp = "hz".toList then
    (setPlace w (if st.outputs = [] then [channel comp] else st.outputs) comp k v).bind fun o => .ok { st with outputs := o }
  else .ok st

/-- L580-L643 `_parse_comments_electric` -/
def electric (w : World) (st : St) (key v : Str) : Except PyErr St :=
  (keyOf "electrode_".toList "ex".toList key).bind fun cf =>
    match eAttr cf.2 with
    | some k => setDipole w st cf.1 k v
    | none =>
      if cf.2 ∈ ["x", "x2", "y", "y2", "z", "z2"].map String.toList then setElectrode w st cf.1 cf.2 v else .ok st

/-- L645-L725 `_parse_comments_magnetic` -/
def magnetic (w : World) (st : St) (key v : Str) : Except PyErr St :=
  (keyOf "magnetometer_".toList "hx".toList key).bind fun cf =>
    match mAttr cf.2 with
    | some k => setMag st cf.1 k v
    | none =>
      if cf.2 ∈ ["x", "y", "z"].map String.toList then setMagPlace w st cf.1 cf.2 v else .ok st

end Verif.EmtfNotes
