import Verif.Base.Text

/-!
# The texts inside a StationXML file

StationXML has no place for most MT metadata, so the translators pack it into comments and
descriptions and take it apart again when reading.  Model of those texts:
`mt_metadata/timeseries/stationxml/{utils,xml_channel_mt_channel,xml_equipment_mt_run,
xml_station_mt_station}.py`.

Simplifications: `str.lower` is modelled for ASCII letters; assigning a text to a comment
field can cut it at `|` (see `Model/Comment`), which is left out here; formatting a dictionary
(`f"{v}"`) is an abstract function.
-/

namespace Verif.XmlText
open Verif.Text

/-- `obspy.core.inventory.Comment`: the two fields the translators use. -/
structure XComment where
  value : Str
  subject : Option Str
  deriving DecidableEq, Repr

/-- What `read_xml_comment` returns beside the key: the text, or a dictionary. -/
inductive CVal where
  | text (s : Str)
  | dict (d : OD Str (Option Str))
  deriving DecidableEq, Repr

/-- utils.py L111-120: `author: …, comments: …` -/
def parseAuthor (s : Str) : Except PyErr (OD Str (Option Str)) :=
  match splitOnce "comments:".toList ((splitOnce "author:".toList s).2.getD []) with
  | (a, some c) =>
    let a := strip a
    let a := if a.getLast? = some ',' then a.dropLast else a
    .ok [("author".toList, some a), ("comments".toList, some (strip c))]
  | (_, none) => .error .valueError

/-- utils.py L85-149 `parse(comment_string, filled, depth)`; the first argument is the number
of levels left, `21 - depth` (L106-107). -/
def parse : Nat → Str → OD Str (Option Str) → Except PyErr (OD Str (Option Str))
  | 0, _, filled => .ok filled
  | n + 1, s, filled =>
    if hasSub "author:".toList s && hasSub "comments:".toList s then parseAuthor s
    else
      match split1 ':' s with
      | (k, none) => .ok (OD.set filled k none)
      | (k, some other) =>
        match find [':'] other, find [','] other with
        | some i, some j =>
          if i < j then
            if other.count ':' > 1 then
              let filled := OD.set filled k
                (some (replaceC ':' ['-', '-'] (strip (split1 ',' other).1)))
              match (split1 ',' other).2 with
              | some m => parse n (strip m) filled
              | none => .ok filled
            else .ok (OD.set filled k (some (strip (replaceC ':' ['-', '-'] other))))
          else
            let filled := OD.set filled k (some (strip (split1 ',' other).1))
            match (split1 ',' other).2 with
            | some m => parse n (strip m) filled
            | none => .ok filled
        | some i, none =>
          if i > 0 then .ok (OD.set filled k (some (strip (split1 ':' other).1)))
          else .ok (OD.set filled k (some (strip other)))
        | none, _ => .ok (OD.set filled k (some (strip other)))

/-- utils.py L79-83: the key of a comment. -/
def commentKey : Option Str → Str
  | some s => lower (replaceC ' ' ['_'] (strip s))
  | none => "mt".toList

/-- utils.py L72-157 `read_xml_comment` -/
def readComment (c : XComment) : Except PyErr (Str × CVal) :=
  if ':' ∈ c.value then
    match parse 21 c.value [] with
    | .ok d => .ok (commentKey c.subject, .dict d)
    | .error e => .error e
  else .ok (commentKey c.subject, .text c.value)

/-! ## channel comments (xml_channel_mt_channel.py) -/

/-- L460-469: one piece of the comment text. -/
def itemComments (item : Str) : Except PyErr (List XComment) :=
  if ':' ∈ item then
    match splitC ':' item with
    | [k, v] => .ok [⟨v, some k⟩]
    | _ => .error .valueError
  else if '[' ∈ item ∧ ']' ∈ item then
    .ok (((splitC ',' (replaceC ']' [] (replaceC '[' [] item))).map strip).filterMap
      (fun r => if r = [] then none else some ⟨r, some "mt.run.id".toList⟩))
  else .ok []

/-- the loop over the pieces -/
def allComments : List Str → Except PyErr (List XComment)
  | [] => .ok []
  | i :: is =>
    match itemComments i with
    | .error e => .error e
    | .ok a => match allComments is with | .ok b => .ok (a ++ b) | .error e => .error e

/-- xml_channel_mt_channel.py L443-469 `_make_xml_comments` -/
def makeComments : Option Str → Except PyErr (List XComment)
  | none => .ok []
  | some s => allComments (splitSub "run_ids:".toList s)

/-- L425-434: the loop of `_parse_xml_comments`: run ids so far, text so far. -/
def readLoop (show' : CVal → Str) : List XComment → List CVal × Option Str →
    Except PyErr (List CVal × Option Str)
  | [], st => .ok st
  | c :: cs, (runs, txt) =>
    match readComment c with
    | .error e => .error e
    | .ok (k, v) =>
      if k = "mt.run.id".toList then readLoop show' cs (runs ++ [v], txt)
      else
        readLoop show' cs
          (runs, some (txt.getD [] ++ ([',', ' '] ++ k ++ [':', ' '] ++ show' v)))

/-- `','.join(runs)`: a dictionary among the run ids is a `TypeError`. -/
def asTexts : List CVal → Except PyErr (List Str)
  | [] => .ok []
  | .text s :: l => match asTexts l with | .ok m => .ok (s :: m) | .error e => .error e
  | .dict _ :: _ => .error .typeError

/-- xml_channel_mt_channel.py L411-441 `_parse_xml_comments` on a new channel (whose comment
is empty): the channel's comment text and the run list. -/
def parseComments (show' : CVal → Str) (cs : List XComment) :
    Except PyErr (Str × List Str) :=
  match readLoop show' cs ([], none) with
  | .error e => .error e
  | .ok (runs, txt) =>
    match asTexts runs with
    | .error e => .error e
    | .ok ids =>
      let tail := "run_ids: [".toList ++ join [','] ids ++ [']']
      match txt with
      | some t => if t = [] then .ok (tail, ids) else .ok (t ++ ([',', ' '] ++ tail), ids)
      | none => .ok (tail, ids)

/-! ## `make_mt_comments` (utils.py L195-230) and run comments -/

/-- L213-221: the text of a comment made of several fields; only fields with a value. -/
def fieldsText (fs : List (Str × Option Str)) : Str :=
  join [',', ' '] (fs.filterMap (fun f =>
    match f.2 with
    | some v => if v = [] then none else some (f.1 ++ [':', ' '] ++ v)
    | none => none))

/-- xml_station_mt_station.py L281-283 with utils.py L223-229: the comment of a run, written
under the subject `mt.run:<id>.comments` if there is one. -/
def writeRunComment (id : Str) (text : Option Str) : List XComment :=
  match text with
  | some v => if v = [] then [] else [⟨v, some ("mt.run:".toList ++ id ++ ".comments".toList)⟩]
  | none => []

/-- xml_station_mt_station.py L366-373: `comments.value += f", {value}"`, or the first one. -/
def addText (old : Option Str) (v : Str) : Option Str :=
  match old with
  | some o => some (o ++ ([',', ' '] ++ v))
  | none => some v

/-- `f"{cvalue}"` -/
def showOpt : Option Str → Str
  | some s => s
  | none => "None".toList

/-- xml_station_mt_station.py L352-383 `_add_run_comments`, for the attribute `comments`: the
runs' comment texts by run id.  A comment that is not a dictionary is skipped (L362). -/
def addRunComment (runs : OD Str (Option Str)) (key : Str) (v : CVal) : OD Str (Option Str) :=
  match split1 ':' key with
  | (_, none) => runs
  | (_, some rest) =>
    match split1 '.' rest with
    | (_, none) => runs
    | (id, some a) =>
      match OD.get? runs id with
      | none => runs
      | some old =>
        match v with
        | .text _ => runs
        | .dict d =>
          if a = "comments".toList then
            OD.set runs id (d.foldl (fun t p => addText t (p.1 ++ [':', ' '] ++ showOpt p.2)) old)
          else runs

/-- xml_station_mt_station.py L121-126 and L164: every comment whose key contains `mt.run`. -/
def readRunComments : List XComment → OD Str (Option Str) → Except PyErr (OD Str (Option Str))
  | [], runs => .ok runs
  | c :: cs, runs =>
    match readComment c with
    | .error e => .error e
    | .ok (k, v) =>
      if hasSub "mt.run".toList k then readRunComments cs (addRunComment runs k v)
      else readRunComments cs runs

/-! ## the data logger (xml_equipment_mt_run.py) -/

/-- L162-185 `_make_description`: the fields with a value, `key: value` joined by `, `. -/
def makeDescription (fs : List (Str × Str)) : Str :=
  join [',', ' '] (fs.map (fun f => f.1 ++ [':', ' '] ++ f.2))

/-- L152-158: one item; `none` when the value is one of the words for nothing. -/
def descItem (s : Str) : Except PyErr (Option (Str × Str)) :=
  match splitC ':' s with
  | [k, v] =>
    if strip v ∈ ["".toList, "None".toList, "null".toList] then .ok none
    else .ok (some (strip k, strip v))
  | _ => .error .valueError

/-- the loop over the items: the assignments made -/
def descItems : List Str → Except PyErr (List (Str × Str))
  | [] => .ok []
  | s :: l =>
    match descItem s with
    | .error e => .error e
    | .ok o =>
      match descItems l with
      | .error e => .error e
      | .ok m => .ok (o.toList ++ m)

/-- L141-160 `_parse_description`: the attribute assignments in order. -/
def parseDescription (s : Str) : Except PyErr (List (Str × Str)) := descItems (splitC ',' s)

/-- L124-125 and L95-96: the run id in the resource id. -/
def writeResource (id : Str) : Str := "mt.run.id:".toList ++ id

/-- `value.split(":")[1]` -/
def readResource (s : Str) : Except PyErr Str :=
  match splitC ':' s with
  | _ :: b :: _ => .ok b
  | _ => .error .indexError

/-! ## electrodes and sensors (xml_channel_mt_channel.py) -/

/-- L333-336: `f"positive: {p}, negative: {n}"` -/
def electrodeText (p n : Option Str) : Str :=
  "positive: ".toList ++ showOpt p ++ ", negative: ".toList ++ showOpt n

/-- L358-394 `_parse_electrode_ids` -/
def parseElectrodes (s : Str) : Except PyErr (Str × Str) :=
  if ':' ∈ s ∧ ',' ∈ s then
    match splitC ',' s with
    | [a, b] =>
      match splitC ':' a, splitC ':' b with
      | _ :: p :: _, _ :: n :: _ => .ok (strip p, strip n)
      | _, _ => .error .indexError
    | _ => .error .valueError
  else if ',' ∈ s then
    match splitC ',' s with
    | [a, b] => .ok (strip a, strip b)
    | _ => .error .valueError
  else .ok (s, s)

/-- The fields of a magnetic sensor that are written. -/
structure Sensor where
  model : Option Str
  name : Option Str
  deriving DecidableEq, Repr

/-- L338-348: the first word of the model; the description is the sensor's name (L348 runs
last).  A model of blanks only is an `IndexError`. -/
def writeSensor (s : Sensor) : Except PyErr (Option Str × Option Str) :=
  match s.model with
  | none => .ok (none, s.name)
  | some m =>
    if m = [] then .ok (none, s.name)
    else match words m with
      | w :: _ => .ok (some w, s.name)
      | [] => .error .indexError

/-- L263-269: `model = f"{sensor.model} {sensor.description}"`, `name = description`. -/
def readSensor (x : Option Str × Option Str) : Sensor :=
  ⟨some (showOpt x.1 ++ [' '] ++ showOpt x.2), x.2⟩

/-! ## identifiers (xml_network_mt_survey.py L193-195, utils.py L160-173) -/

/-- `f"DOI:{doi}"` -/
def writeDoi (doi : Option Str) : Str := "DOI:".toList ++ showOpt doi

/-- `", ".join([ii.strip().replace("DOI:", "https://doi.org/") for ii in identifiers])` -/
def readDois (ids : List Str) : Str :=
  join [',', ' '] (ids.map (fun i => replaceSub "DOI:".toList "https://doi.org/".toList (strip i)))

/-! ## `flip_dict` (utils.py L43-69) -/

/-- The right-hand sides of a translator dictionary. -/
inductive FVal where
  | none
  | one (s : Str)
  | many (l : List Str)
  deriving DecidableEq, Repr

/-- L57-67 for one entry: `None` and `"special"` are skipped. -/
def flipEntry (d : OD Str Str) (k : Str) : FVal → OD Str Str
  | .none => d
  | .one s => if s = "special".toList then d else OD.set d s k
  | .many l => l.foldl (fun d v => OD.set d v k) d

/-- L43-69 `flip_dict` -/
def flip (t : OD Str FVal) : OD Str Str := t.foldl (fun d p => flipEntry d p.1 p.2) []

end Verif.XmlText
