import Verif.Model.EmtfData

/-! # Field notes and site layout in EMTF XML files

`mt_metadata/transfer_functions/io/emtfxml/metadata/`: `field_notes.py`, `run.py`, `instrument.py`, `magnetometer.py`, `dipole.py`,
`electrode.py`, `site_layout.py`, `magnetic.py`, `electric.py` (writing to elements and reading from dictionaries), and
`emtfxml.py` L309-L430, the reading and writing of the file, as far as it concerns them.

Elements, their names in the file, pretty printing and the dictionaries made of elements are those of `Model/EmtfData`.
Simplifications: control characters in texts are not looked at (a parser changes some of them). The children of the root
with other names do not matter here: the dictionary has one key for each name (base/helpers.py L824-L829).
`Comment` objects are their author and text; a text with a bar, which the class would take apart, is excluded by
the class itself (common/comment.py L91-L108). Time stamps of comments are not written. -/

namespace Verif.EmtfFile
open Verif.Text Verif.EmtfData

/-- What is not modelled: printing of numbers and times. -/
structure World (F T : Type) where
  /-- `str(x)` -/
  shown : F → Str
  /-- `f"{x:.3f}"` -/
  fixed : F → Str
  /-- `float(s)`, `none` if it fails -/
  parse : Str → Option F
  /-- `str(t)` -/
  shownTime : T → Str
  /-- `MTime(time_stamp=s)`, `none` if it fails -/
  parseTime : Str → Option T
  /-- `MTime(time_stamp=None)` -/
  noTime : T
  /-- whether `minidom` writes quotation marks in texts as `&quot;` (it does before Python 3.13) -/
  quotes : Bool

/-! ## Texts -/

/-- `xml.dom.minidom._write_data`: the characters that are written as entities. -/
def entity (q : Bool) (c : Char) : Str :=
  if c = '&' then "&amp;".toList
  else if c = '<' then "&lt;".toList
  else if c = '>' then "&gt;".toList
  else if c = '"' ∧ q = true then "&quot;".toList
  else [c]

/-- A text in the file, read again: emtfxml.py L424-L426 (base/helpers.py L876-L884) and L332-L338; there is no
ampersand left when the text is parsed. -/
def storedText (q : Bool) (s : Str) : Str := replaceC '&' "and".toList (s.flatMap (entity q))

mutual
/-- An element in the file, read again; the quotation marks of attributes are always entities. -/
def stored (q : Bool) : El → El
  | .mk tag attrib text kids =>
    .mk tag (attrib.map fun p => (p.1, storedText true p.2)) (text.map (storedText q)) (storedAll q kids)
def storedAll (q : Bool) : List El → List El
  | [] => []
  | e :: es => stored q e :: storedAll q es
end

/-! ## Field notes -/

/-- metadata/instrument.py L27-L40 and common/instrument.py L12-L82. -/
structure Tool where
  id : Option Str := some []
  manufacturer : Option Str := some []
  type : Option Str := some []
  model : Option Str := none
  name : Option Str := none
  settings : Option Str := none
  deriving DecidableEq, Repr

/-- metadata/electrode.py L17-L79; `comments` is `comments.as_string()`. -/
structure Pot where
  location : Str := []
  number : Str := ['0']
  value : Str := []
  comments : Str := []
  deriving DecidableEq, Repr

/-- metadata/dipole.py L17-L95. -/
structure Dipole (F : Type) where
  manufacturer : Option Str := none
  length : Option F := none
  azimuth : Option F := none
  name : Option Str := none
  type : Option Str := none
  pots : List Pot := []
  deriving DecidableEq, Repr

/-- metadata/run.py L21-L158. -/
structure Notes (F T : Type) where
  run : Str
  inst : Tool := {}
  rate : Option F
  start : T
  stop : T
  author : Option Str := none
  value : Option Str := none
  errors : Option Str := none
  mags : List Tool := []
  dipoles : List (Dipole F) := []
  deriving DecidableEq, Repr

variable {F T : Type}

/-- instrument.py L58-L61 -/
def toolKid (k : String) (v : Option Str) : List El :=
  match v with
  | none => []
  | some s => if nullValues.contains s then [] else [.mk k.toList [] (some s) []]

/-- instrument.py L55-L56: a type that is not empty. -/
def typeAttr (t : Option Str) : List (Str × Str) :=
  match t with
  | some (c :: cs) => [("type".toList, c :: cs)]
  | _ => []

/-- instrument.py L42-L65 `to_xml`; the model is not written. -/
def toolEl (tag : String) (t : Tool) : El :=
  .mk tag.toList (typeAttr t.type) none
    (toolKid "manufacturer" t.manufacturer ++ toolKid "name" t.name ++ toolKid "id" t.id ++ toolKid "settings" t.settings)

/-- electrode.py L81-L95 `to_xml` -/
def potEl (p : Pot) : El :=
  .mk "Electrode".toList [("location".toList, upper p.location), ("number".toList, p.number)] (some p.comments) []

/-- dipole.py L136-L143: a number with its units. -/
def numberEl (tag units : String) (fmt : F → Str) (x : Option F) : List El :=
  match x with
  | none => []
  | some x => [.mk tag.toList [("units".toList, units.toList)] (some (fmt x)) []]

/-- dipole.py L118-L150 `to_xml`; an attribute that is `None` cannot be written to the file. -/
def dipoleEl (W : World F T) (d : Dipole F) : Except PyErr El :=
  match d.name, d.type with
  | some n, some t =>
    .ok (.mk "Dipole".toList [("name".toList, n), ("type".toList, t)] none
      (.mk "manufacturer".toList [] d.manufacturer [] ::
        (numberEl "length" "meters" W.fixed d.length ++ numberEl "azimuth" "degrees" W.fixed d.azimuth ++ d.pots.map potEl)))
  | _, _ => .error .typeError

/-- common/comment.py L230-L252 `to_xml` -/
def commentEl (author value : Option Str) : El :=
  .mk "Comments".toList [("author".toList, author.getD [])] (some (value.getD [])) []

/-- helpers.py L92-L119 `_write_single` of a text; `None` is left out before (L239-L240). -/
def textEl (k : String) (v : Option Str) : List El :=
  match v with
  | none => []
  | some s => [.mk (capwords k.toList) [] (if nullValues.contains s then none else some s) []]

/-- helpers.py L92-L119 `_write_single` of a time. -/
def timeEl (W : World F T) [DecidableEq T] (k : String) (t : T) : El :=
  .mk (capwords k.toList) [] (if t = W.noTime then none else some (W.shownTime t)) []

/-- run.py L215-L248 `to_xml`: without a sampling rate there is no element for its units. -/
def noteEl (W : World F T) [DecidableEq T] (n : Notes F T) : Except PyErr El :=
  match n.rate with
  | none => .error .attributeError
  | some _ =>
    (n.dipoles.mapM (dipoleEl W)).bind fun ds =>
    .ok (.mk "field_notes".toList [("run".toList, n.run)] none
      ([toolEl "Instrument" n.inst] ++ n.mags.map (toolEl "Magnetometer") ++ ds ++ [commentEl n.author n.value] ++
        textEl "errors" n.errors ++ numberEl "SamplingRate" "Hz" W.shown n.rate ++
        [timeEl W "start" n.start, timeEl W "end" n.stop]))

/-- field_notes.py L49-L69 `to_xml`, and emtfxml.py L384-L426: the elements as they are found in the file. -/
def writeNotes (W : World F T) [DecidableEq T] (l : List (Notes F T)) : Except PyErr (List El) :=
  (l.mapM (noteEl W)).map fun es => es.map fun e => stored W.quotes (pretty 1 e)

/-- A text or `None` for an attribute that may be `None`. -/
def optText : J → Except PyErr (Option Str)
  | .null => .ok none
  | .str s => .ok (some s)
  | _ => .error .valueError

/-- A text for an attribute that is a text; `None` becomes the empty text (base/metadata.py L254-L304). -/
def plainText : J → Except PyErr Str
  | .null => .ok []
  | .str s => .ok s
  | _ => .error .valueError

/-- A number for an attribute that may be `None`. -/
def optNum (W : World F T) : J → Except PyErr (Option F)
  | .null => .ok none
  | .str s =>
    match W.parse s with
    | some x => .ok (some x)
    | none => .error .valueError
  | _ => .error .valueError

/-- A time. -/
def timeOf (W : World F T) : J → Except PyErr T
  | .null => .ok W.noTime
  | .str s =>
    match W.parseTime s with
    | some t => .ok t
    | none => .error .valueError
  | _ => .error .valueError

/-- An attribute that `from_dict` sets if the dictionary has its key (base/metadata.py L1211-L1216). -/
def field {α : Type} (d : List (Str × J)) (k : String) (old : α) (f : J → Except PyErr α) : Except PyErr α :=
  match OD.get? d k.toList with
  | none => .ok old
  | some v => f v

/-- `from_dict` of an instrument (base/metadata.py L1162-L1216); `None` sets an attribute that is not used. -/
def readTool (v : J) : Except PyErr Tool :=
  match v with
  | .dict d =>
    (field d "id" (some []) optText).bind fun id =>
    (field d "manufacturer" (some []) optText).bind fun manufacturer =>
    (field d "type" (some []) optText).bind fun type =>
    (field d "name" none optText).bind fun name =>
    (field d "settings" none optText).bind fun settings =>
    (field d "model" none optText).bind fun model => .ok ⟨id, manufacturer, type, model, name, settings⟩
  | _ => .ok {}

/-- common/enumerations.py L104-L109 `ElectrodeLocationEnum`, whatever the case of its letters (L27-L43). -/
def locationOf (v : J) : Except PyErr Str :=
  match v with
  | .str s =>
    match [['N'], ['S'], ['E'], ['W'], []].find? (fun m => lower m == lower s) with
    | some m => .ok m
    | none => .error .valueError
  | _ => .error .valueError

/-- dipole.py L97-L116: `from_dict` of an electrode. -/
def readPot (v : J) : Except PyErr Pot :=
  match v with
  | .dict d =>
    (field d "location" [] locationOf).bind fun location =>
    (field d "number" ['0'] plainText).bind fun number =>
    (field d "value" [] plainText).bind fun value => .ok ⟨location, number, value, []⟩
  | _ => .error .typeError

/-- dipole.py L97-L116: the electrodes. A single one is a dictionary, whose keys become dotted names of attributes of the list
(base/helpers.py L545-L568, base/metadata.py L173-L187). -/
def readPots (v : J) : Except PyErr (List Pot) :=
  match v with
  | .list l => l.mapM readPot
  | .dict (_ :: _) => .error .attributeError
  | .dict [] => .ok []
  | _ => .error .typeError

/-- `from_dict` of a dipole. -/
def readDipole (W : World F T) (v : J) : Except PyErr (Dipole F) :=
  match v with
  | .dict d =>
    (field d "manufacturer" none optText).bind fun manufacturer =>
    (field d "length" none (optNum W)).bind fun length =>
    (field d "azimuth" none (optNum W)).bind fun azimuth =>
    (field d "name" none optText).bind fun name =>
    (field d "type" none optText).bind fun type =>
    (field d "electrode" [] readPots).bind fun pots => .ok ⟨manufacturer, length, azimuth, name, type, pots⟩
  | _ => .ok {}

/-- common/comment.py L162-L190 `from_dict({"comments": v})`: author and text. -/
def readComment (v : J) : Except PyErr (Option Str × Option Str) :=
  match v with
  | .dict d =>
    (field d "author" none optText).bind fun author =>
    (field d "value" none optText).bind fun value => .ok (author, value)
  | .str s => .ok (none, some s)
  | _ => .ok (none, none)

/-- A list, or a single value. -/
def manyOf : J → List J
  | .list l => l
  | v => [v]

/-- run.py L177-L183: the comments, the first if there are several. -/
def commentOf (v : J) : Except PyErr (Option Str × Option Str) :=
  match v.get "comments".toList with
  | .ok (.list (c :: _)) => readComment c
  | .ok c => readComment c
  | .error _ => .ok (none, none)

/-- run.py L186-L199: the magnetometers. -/
def magsOf (v : J) : Except PyErr (List Tool) :=
  match v.get "magnetometer".toList with
  | .ok m => (manyOf m).mapM readTool
  | .error _ => .ok []

/-- run.py L201-L213: the dipoles. -/
def dipolesOf (W : World F T) (v : J) : Except PyErr (List (Dipole F)) :=
  match v.get "dipole".toList with
  | .ok m => (manyOf m).mapM (readDipole W)
  | .error _ => .ok []

/-- run.py L160-L213 `read_dict`; without `errors` it raises `KeyError`. -/
def readNote (W : World F T) (v : J) : Except PyErr (Notes F T) :=
  (v.get "run".toList).bind fun r => (plainText r).bind fun run =>
  (v.get "instrument".toList).bind fun i => (readTool i).bind fun inst =>
  (v.get "sampling_rate".toList).bind fun s => (optNum W s).bind fun rate =>
  (v.get "start".toList).bind fun a => (timeOf W a).bind fun start =>
  (v.get "end".toList).bind fun b => (timeOf W b).bind fun stop =>
  (commentOf v).bind fun c =>
  (v.get "errors".toList).bind fun e => (optText e).bind fun errors =>
  (magsOf v).bind fun mags =>
  (dipolesOf W v).bind fun dipoles =>
  .ok ⟨run, inst, rate, start, stop, c.1, c.2, errors, mags, dipoles⟩

/-- field_notes.py L33-L47: the runs, until one raises `KeyError`. -/
def readAll (W : World F T) : List J → Except PyErr (List (Notes F T))
  | [] => .ok []
  | v :: vs =>
    match readNote W v with
    | .ok n => (readAll W vs).map fun l => n :: l
    | .error .keyError => .ok []
    | .error e => .error e

/-- The value that a key of the root has, from the elements with that name (base/helpers.py L824-L829,
helpers.py L142-L173). -/
def rootValue (es : List El) : Except PyErr (Option J) :=
  (toDicts es).bind fun l =>
    match l with
    | [] => .ok none
    | [p] => (lowerKids [(p.1, p.2)] []).map fun d => d.head?.map Prod.snd
    | p :: q :: r => (lowerKids [(p.1, .list ((p :: q :: r).map Prod.snd))] []).map fun d => d.head?.map Prod.snd

/-- field_notes.py L33-L47 `read_dict`, and emtfxml.py L332-L351: the field notes in a file. -/
def readNotes (W : World F T) (es : List El) : Except PyErr (List (Notes F T)) :=
  (rootValue es).bind fun v =>
    match v with
    | none => .ok []
    | some v => readAll W (manyOf v)

/-! ## Site layout -/

/-- metadata/magnetic.py L14-L83, metadata/electric.py L14-L125: a channel of the site layout; a magnetic one has no second end. -/
structure Chan (F : Type) where
  electric : Bool
  name : Str
  orientation : F
  x : F
  y : F
  z : F
  x2 : F
  y2 : F
  z2 : F
  deriving DecidableEq, Repr

/-- magnetic.py L85-L113, electric.py L127-L161 `to_xml` -/
def chanEl (W : World F T) (c : Chan F) : El :=
  .mk (if c.electric then "Electric".toList else "Magnetic".toList)
    ([("name".toList, c.name), ("orientation".toList, W.fixed c.orientation), ("x".toList, W.fixed c.x),
      ("y".toList, W.fixed c.y), ("z".toList, W.fixed c.z)] ++
     (if c.electric then [("x2".toList, W.fixed c.x2), ("y2".toList, W.fixed c.y2), ("z2".toList, W.fixed c.z2)] else []))
    none []

/-- site_layout.py L165-L174: the channels of one side. -/
def sideEl (W : World F T) (tag : String) (l : List (Chan F)) : El :=
  .mk tag.toList [("ref".toList, "site".toList), ("units".toList, "m".toList)] none (l.map (chanEl W))

/-- site_layout.py L146-L178 `to_xml`, as it is found in the file. -/
def writeLayout (W : World F T) (l : List (Chan F) × List (Chan F)) : El :=
  stored W.quotes (pretty 1 (.mk "SiteLayout".toList [] none [sideEl W "InputChannels" l.1, sideEl W "OutputChannels" l.2]))

/-- A number that is never `None`. -/
def num (W : World F T) (zero : F) : J → Except PyErr F
  | .null => .ok zero
  | .str s =>
    match W.parse s with
    | some x => .ok x
    | none => .error .valueError
  | _ => .error .valueError

/-- site_layout.py L63-L106: `from_dict` of a channel. -/
def readChan (W : World F T) (zero : F) (electric : Bool) (v : J) : Except PyErr (Chan F) :=
  match v with
  | .dict d =>
    (field d "name" [] plainText).bind fun name =>
    (field d "orientation" zero (num W zero)).bind fun o =>
    (field d "x" zero (num W zero)).bind fun x =>
    (field d "y" zero (num W zero)).bind fun y =>
    (field d "z" zero (num W zero)).bind fun z =>
    if electric then
      (field d "x2" zero (num W zero)).bind fun x2 =>
      (field d "y2" zero (num W zero)).bind fun y2 =>
      (field d "z2" zero (num W zero)).bind fun z2 => .ok ⟨true, name, o, x, y, z, x2, y2, z2⟩
    else .ok ⟨false, name, o, x, y, z, zero, zero, zero⟩
  | _ => .ok ⟨electric, [], zero, zero, zero, zero, zero, zero, zero⟩

/-- site_layout.py L119-L141: the channels of a kind on one side; `none` if there is a key without value, which ends the
side. -/
def readKind (v : J) (side kind : String) : Option (List J) :=
  match (v.get side.toList).bind fun s => s.get kind.toList with
  | .ok .null => none
  | .ok c => some (manyOf c)
  | .error _ => some []

/-- site_layout.py L117-L143: the magnetic channels of one side, then the electric ones. -/
def readSide (W : World F T) (zero : F) (v : J) (side : String) : Except PyErr (List (Chan F)) :=
  match readKind v side "magnetic", readKind v side "electric" with
  | some m, some e =>
    (m.mapM (readChan W zero false)).bind fun m => (e.mapM (readChan W zero true)).bind fun e => .ok (m ++ e)
  | _, _ => .ok []

/-- site_layout.py L110-L144 `read_dict`. -/
def readLayout (W : World F T) (zero : F) (e : El) : Except PyErr (List (Chan F) × List (Chan F)) :=
  (rootValue [e]).bind fun v =>
    match v with
    | none => .ok ([], [])
    | some v =>
      (readSide W zero v "input_channels").bind fun i =>
      (readSide W zero v "output_channels").bind fun o => .ok (i, o)

end Verif.EmtfFile
