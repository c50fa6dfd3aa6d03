import Verif.Base.Py

/-! # Names of channels of transfer functions

`mt_metadata/transfer_functions/core.py` L53-L119 (`__init__`, `inverse_channel_nomenclature`), L205-L225 (`copy`), L478-L570
(`_get_template_key`, `_initialize_transfer_function`), L574-L637 (`channel_nomenclature` and the names made of it);
`mt_metadata/transfer_functions/io/zfiles/zmm.py` L325-L343 (`__init__`), L404-L451 (`channel_nomenclature`).

A dictionary of names is kept and not copied, so dictionaries are entries of a list and objects hold the number of theirs; number 0 is
`DEFAULT_CHANNEL_NOMENCLATURE`, which every new object holds. Values are texts. Of a data set only the names of the outputs are
kept, those of the inputs are the same (L515-L520). Dictionaries do not lose keys. -/

namespace Verif.Nomen

abbrev Dict := OD String String

/-- mt_metadata/__init__.py L85-L91 -/
def defaults : Dict := [("hx", "hx"), ("hy", "hy"), ("hz", "hz"), ("ex", "ex"), ("ey", "ey")]

/-- The names in use: `ex`, `ey`, `hx`, `hy`, `hz` of a `TF`, `_ex`, … of a `ZMM`. -/
structure Names where
  ex : String
  ey : String
  hx : String
  hy : String
  hz : String
deriving DecidableEq, Repr

/-- core.py L625: `_ch_input_dict["all"]`, and L641 for the outputs. -/
def Names.all (n : Names) : List String := [n.ex, n.ey, n.hz, n.hx, n.hy]

/-- A transfer function object: the number of its dictionary, the names, the inverse that is kept, the names in its data set. -/
structure Tf where
  dict : Nat
  names : Names
  inverse : Dict
  coords : List String
deriving DecidableEq, Repr

/-- A ZMM object. -/
structure Zmm where
  dict : Nat
  names : Names
deriving DecidableEq, Repr

/-- All dictionaries, the templates of the class `TF` (core.py L51) and all objects. -/
structure State where
  dicts : List Dict
  cache : List (Dict × List String)
  tfs : List Tf
  zmms : List Zmm
deriving DecidableEq, Repr

/-- After importing. -/
def start : State := ⟨[defaults], [], [], []⟩

/-- core.py L603-L607: one name after the other; the first that is missing ends it. -/
def unpack (d : Dict) (n : Names) : Names × Option PyErr :=
  match d.get? "ex" with
  | none => (n, some .keyError)
  | some ex =>
    match d.get? "ey" with
    | none => ({ n with ex }, some .keyError)
    | some ey =>
      match d.get? "hx" with
      | none => ({ n with ex, ey }, some .keyError)
      | some hx =>
        match d.get? "hy" with
        | none => ({ n with ex, ey, hx }, some .keyError)
        | some hy =>
          match d.get? "hz" with
          | none => ({ n with ex, ey, hx, hy }, some .keyError)
          | some hz => (⟨ex, ey, hx, hy, hz⟩, none)

/-- core.py L478-L480: `tuple(sorted(d.items()))` is that of another dictionary if they have the same items. -/
def sameKey (d e : Dict) : Bool := d.isPerm e

/-- core.py L482-L561: the template of the dictionary, made with the names in use if there is none; the templates and the names of the data
set. -/
def template (cache : List (Dict × List String)) (d : Dict) (n : Names) : List (Dict × List String) × List String :=
  match cache.find? fun p => sameKey p.1 d with
  | some p => (cache, p.2)
  | none => (cache ++ [(d, n.all)], n.all)

/-- core.py L116-L118 -/
def inverted (d : Dict) : Dict := OD.ofPairs (d.map fun p => (p.2, p.1))

/-- zmm.py L422-L427, for one name. -/
def complete (d : Dict) (c : String) : Dict :=
  match d.get? c with
  | some _ => d
  | none => d.set c c

/-- zmm.py L422-L427: the names are those of the default dictionary, as it is now. -/
def completed (names : List String) (d : Dict) : Dict := names.foldl complete d

/-- The names of a completed dictionary (always there: the default dictionary has these names). -/
def unpacked (d : Dict) : Names :=
  ⟨(d.get? "ex").getD "ex", (d.get? "ey").getD "ey", (d.get? "hx").getD "hx", (d.get? "hy").getD "hy", (d.get? "hz").getD "hz"⟩

/-- What a program can do. Dictionaries and objects are given by their numbers. -/
inductive Op
  /-- make a dictionary -/
  | dict (items : List (String × String))
  /-- `d[k] = v`, also if `d` is got as `tf.channel_nomenclature` -/
  | write (a : Nat) (k v : String)
  /-- `TF()` or `TF(channel_nomenclature=d)`, with or without `period` or `frequency` -/
  | newTf (a : Option Nat) (periods : Bool)
  /-- `tf.channel_nomenclature = d` -/
  | assign (i a : Nat)
  /-- a new data set: `_initialize_transfer_function`, as for new periods -/
  | renew (i : Nat)
  /-- `tf.inverse_channel_nomenclature` -/
  | inverse (i : Nat)
  /-- `tf.copy()` -/
  | copy (i : Nat)
  /-- `ZMM()` -/
  | newZmm
  /-- `zmm.channel_nomenclature = d` -/
  | assignZmm (i a : Nat)

/-- The dictionary of a number. -/
def State.at (s : State) (a : Nat) : Dict := s.dicts.getD a []

/-- core.py L54-L107: the default dictionary first, then the one given; the data set is made in between if there are periods, otherwise in
the end. -/
def newTf (s : State) (a : Option Nat) (periods : Bool) : State × Option PyErr :=
  match unpack (s.at 0) ⟨"", "", "", "", ""⟩ with
  | (_, some e) => (s, some e)
  | (n, none) =>
    let t := template s.cache (s.at 0) n
    match unpack (s.at (a.getD 0)) n with
    | (_, some e) => (if periods then { s with cache := t.1 } else s, some e)
    | (n', none) =>
      let t := if periods then t else template s.cache (s.at (a.getD 0)) n'
      ({ s with cache := t.1, tfs := s.tfs ++ [⟨a.getD 0, n', [], t.2⟩] }, none)

/-- zmm.py L420-L431: the dictionary is completed. -/
def fill (s : State) (a : Nat) : State × Names :=
  let d := completed (OD.keys (s.at 0)) (s.at a)
  ({ s with dicts := s.dicts.set a d }, unpacked d)

/-- One step of a program; an exception can leave a changed state. What is not there cannot be used: `NameError`. -/
def step (s : State) : Op → State × Option PyErr
  | .dict l => ({ s with dicts := s.dicts ++ [OD.ofPairs l] }, none)
  | .write a k v => if a < s.dicts.length then ({ s with dicts := s.dicts.set a ((s.at a).set k v) }, none) else (s, some .nameError)
  | .newTf a p => if a.getD 0 < s.dicts.length then newTf s a p else (s, some .nameError)
  | .assign i a =>
    match s.tfs[i]? with
    | none => (s, some .nameError)
    | some t =>
      if a < s.dicts.length then
        let u := unpack (s.at a) t.names
        ({ s with tfs := s.tfs.set i { t with dict := a, names := u.1 } }, u.2)
      else (s, some .nameError)
  | .renew i =>
    match s.tfs[i]? with
    | none => (s, some .nameError)
    | some t =>
      let u := template s.cache (s.at t.dict) t.names
      ({ s with cache := u.1, tfs := s.tfs.set i { t with coords := u.2 } }, none)
  | .inverse i =>
    match s.tfs[i]? with
    | none => (s, some .nameError)
    | some t =>
      if t.inverse.isEmpty then ({ s with tfs := s.tfs.set i { t with inverse := inverted (s.at t.dict) } }, none) else (s, none)
  | .copy i =>
    match s.tfs[i]? with
    | none => (s, some .nameError)
    | some t => ({ s with dicts := s.dicts ++ [s.at t.dict], tfs := s.tfs ++ [{ t with dict := s.dicts.length }] }, none)
  | .newZmm =>
    let f := fill s 0
    ({ f.1 with zmms := f.1.zmms ++ [⟨0, f.2⟩] }, none)
  | .assignZmm i a =>
    match s.zmms[i]? with
    | none => (s, some .nameError)
    | some _ =>
      if a < s.dicts.length then
        let f := fill s a
        ({ f.1 with zmms := f.1.zmms.set i ⟨a, f.2⟩ }, none)
      else (s, some .nameError)

/-- The state after a program. -/
def after (h : List Op) : State := h.foldl (fun s o => (step s o).1) start

end Verif.Nomen
