import Verif.Model.EmtfSite

/-! # Attachments and processing information of EMTF XML files

`emtfxml/metadata/attachment.py`, `processing_info.py`, `remote_info.py`, `remote_ref.py`, `software.py`, and the parts of
`emtfxml.py` that write and read them. Texts, times, sites and field notes are as in `Verif.Model.EmtfFile` and
`Verif.Model.EmtfSite`. Simplifications: what of a remote site has been set when one of its keys raises `AttributeError` is not kept;
an attachment that has a child of the name `Attachment` is not modelled; an attachment or processing information with a key that is no
attribute is not modelled. Which exception it is is said where the code catches some of them. -/

namespace Verif.EmtfBlocks
open Verif.Text Verif.EmtfData Verif.EmtfFile Verif.EmtfSite

variable {F T : Type}

/-! ## Attachments -/

/-- attachment.py L14-L41 -/
structure Att where
  filename : Str
  description : Str
deriving DecidableEq, Repr

/-- attachment.py L14-L43: the object, with its private list of attachments. -/
structure Attached where
  own : Att
  more : List Att
deriving DecidableEq, Repr

/-- attachment.py L14-L43: a new object. -/
def Attached.new : Attached := ⟨⟨[], []⟩, []⟩

/-- attachment.py L77-L82: an attachment as an element. -/
def attEl (a : Att) : El :=
  .mk "Attachment".toList [] none (textEl "filename" (some a.filename) ++ textEl "description" (some a.description))

/-- attachment.py L61-L93 `to_xml`, and emtfxml.py L417-L422: the elements as they are found in the file. -/
def writeAtts (q : Bool) (a : Attached) : List El :=
  (match a.more with
    | [] => [attEl a.own]
    | x :: xs => (x :: xs).map attEl).map fun e => stored q (pretty 1 e)

/-- `from_dict` of an attachment; a value that is no dictionary sets an attribute that is not used. -/
def readAtt (old : Att) (v : J) : Except PyErr Att :=
  match v with
  | .dict d =>
    (field d "filename" old.filename plainText).bind fun f =>
    (field d "description" old.description plainText).bind fun t => .ok ⟨f, t⟩
  | _ => .ok old

/-- attachment.py L50-L55: one of several, which has to be a dictionary. -/
def readItem (v : J) : Except PyErr Att :=
  match v with
  | .dict d => readAtt ⟨[], []⟩ (.dict d)
  | _ => .error .attributeError

/-- attachment.py L45-L60 `read_dict`: one is read into the object, several are appended to its list. -/
def readAtts (old : Attached) (es : List El) : Except PyErr Attached :=
  (rootValue es).bind fun v =>
    match v with
    | none => .error .keyError
    | some .null => .ok old
    | some (.list l) => (l.mapM readItem).map fun r => { old with more := old.more ++ r }
    | some v => (readAtt old.own v).map fun a => { old with own := a }

/-- One file read after the other. -/
def readFiles : Attached → List (List El) → Except PyErr Attached
  | a, [] => .ok a
  | a, f :: fs => (readAtts a f).bind fun b => readFiles b fs

/-! ## Processing information -/

/-- software.py L17-L39, common/software.py -/
structure Software (T : Type) where
  name : Str
  lastMod : T
  author : Option Str
  version : Str
deriving DecidableEq, Repr

/-- processing_info.py L21-L130, without the orders. -/
structure Info (F T : Type) where
  sign : Str
  remote : Str
  site : Site F T
  notes : List (Notes F T)
  processedBy : Option Str
  date : T
  software : Software T
  tag : Option Str
deriving DecidableEq, Repr

/-- remote_info.py L51: the private list of what is written, as to whether it has `site` and `field_notes`. -/
structure Order where
  site : Bool
  notes : Bool
deriving DecidableEq, Repr

/-- common/enumerations.py L173-L179 -/
def signs : List Str :=
  ["+".toList, "-".toList, "exp(+iwt)".toList, "exp(-iwt)".toList, "exp(+ i\\omega t)".toList, "exp(- i\\omega t)".toList]

/-- processing_info.py L21-L130: a new object. -/
def newInfo (W : Outside F T) : Info F T :=
  ⟨"exp(+ i\\omega t)".toList, [], newSite W, [], none, W.noTime, ⟨[], W.noTime, some [], []⟩, none⟩

/-- emtfxml.py L398-L415: what `write` does to the list of what is written of the remote site. -/
def prepare (o : Order) (skip : Bool) (id : Str) : Order :=
  let o := if skip then { o with notes := false } else o
  if ["".toList, "None".toList, "none".toList].contains id then { o with site := false } else o

/-- remote_info.py L80-L101 `to_xml` -/
def remoteEl (W : Outside F T) [DecidableEq T] (o : Order) (i : Info F T) : Except PyErr El :=
  (if o.notes then i.notes.mapM (noteEl W.toWorld) else .ok []).map fun ns =>
    .mk "RemoteInfo".toList [] none ((if o.site then [siteEl W i.site] else []) ++ ns)

/-- software.py L52-L72 `to_xml`; the version is not written. -/
def softwareEl (W : Outside F T) [DecidableEq T] (s : Software T) : El :=
  .mk "ProcessingSoftware".toList [] none (textEl "name" (some s.name) ++ [timeEl W.toWorld "last_mod" s.lastMod] ++ textEl "author" s.author)

/-- processing_info.py L165-L187 `to_xml`, remote_ref.py L41-L62 -/
def infoEl (W : Outside F T) [DecidableEq T] (o : Order) (i : Info F T) : Except PyErr El :=
  (remoteEl W o i).map fun r =>
    .mk "ProcessingInfo".toList [] none
      (textEl "sign_convention" (some i.sign) ++ [.mk "RemoteRef".toList [("type".toList, i.remote)] none []] ++ [r] ++
        textEl "processed_by" i.processedBy ++ [timeEl W.toWorld "process_date" i.date] ++ [softwareEl W i.software] ++
        textEl "processing_tag" i.tag)

/-- emtfxml.py L384-L426: the element as it is found in the file. -/
def writeInfo (W : Outside F T) [DecidableEq T] (o : Order) (i : Info F T) : Except PyErr El :=
  (infoEl W o i).map fun e => stored W.quotes (pretty 1 e)

/-- emtfxml.py L377-L430: the object written several times, with what it has at these times; whether field notes are skipped. -/
def writes (W : Outside F T) [DecidableEq T] : Order → List (Bool × Info F T) → List (Except PyErr El)
  | _, [] => []
  | o, (skip, i) :: l => writeInfo W (prepare o skip i.site.id) i :: writes W (prepare o skip i.site.id) l

/-- field_notes.py L33-L47: the runs up to the first that raises, and what it raises if that is not `KeyError`. -/
def readUntil (W : World F T) : List J → List (Notes F T) × Option PyErr
  | [] => ([], none)
  | v :: vs =>
    match readNote W v with
    | .ok n => (n :: (readUntil W vs).1, (readUntil W vs).2)
    | .error .keyError => ([], none)
    | .error e => ([], some e)

/-- remote_info.py L62-L78: the field notes; `AttributeError` is caught. -/
def readRuns (W : World F T) (v : J) : Except PyErr (List (Notes F T)) :=
  match readUntil W (manyOf v) with
  | (l, none) => .ok l
  | (l, some .attributeError) => .ok l
  | (_, some e) => .error e

/-- remote_info.py L62-L78: the remote site and whether `AttributeError` ended the reading. -/
def readRemoteSite (W : Outside F T) (old : Site F T) (d : List (Str × J)) : Except PyErr (Site F T × Bool) :=
  match OD.get? d "site".toList with
  | none => .ok (old, false)
  | some v =>
    match readDict W old v with
    | .ok s => .ok (s, false)
    | .error .attributeError => .ok (old, true)
    | .error e => .error e

/-- remote_info.py L53-L78 `read_dict`; what is no dictionary has no `pop`. -/
def readRemote (W : Outside F T) (old : Site F T × List (Notes F T)) (v : J) : Except PyErr (Site F T × List (Notes F T)) :=
  match v with
  | .dict d =>
    (readRemoteSite W old.1 d).bind fun s =>
      if s.2 then .ok (s.1, old.2) else (field d "field_notes" old.2 (readRuns W.toWorld)).bind fun l => .ok (s.1, l)
  | .list _ => .error .typeError
  | _ => .ok old

/-- remote_ref.py L30-L39 `read_dict`; a value that is no dictionary sets an attribute that is not used. -/
def readRef (old : Str) (v : J) : Except PyErr Str :=
  match v with
  | .dict d => field d "type" old plainText
  | _ => .ok old

/-- software.py L41-L50 `read_dict`; a value that is no dictionary sets an attribute that is not used. -/
def readSoftware (W : World F T) (old : Software T) (v : J) : Except PyErr (Software T) :=
  match v with
  | .dict d =>
    (field d "name" old.name plainText).bind fun name =>
    (field d "last_mod" old.lastMod (timeOf W)).bind fun lastMod =>
    (field d "author" old.author optText).bind fun author =>
    (field d "version" old.version plainText).bind fun version => .ok ⟨name, lastMod, author, version⟩
  | _ => .ok old

/-- processing_info.py L22-L33: one of the texts. -/
def signOf : J → Except PyErr Str
  | .str s => if signs.contains s then .ok s else .error .valueError
  | _ => .error .valueError

/-- processing_info.py L139-L163 `read_dict` -/
def readInfoDict (W : Outside F T) (old : Info F T) (v : J) : Except PyErr (Info F T) :=
  match v with
  | .dict d =>
    (field d "remote_ref" old.remote (readRef old.remote)).bind fun remote =>
    (field d "remote_info" (old.site, old.notes) (readRemote W (old.site, old.notes))).bind fun r =>
    (field d "processing_software" old.software (readSoftware W.toWorld old.software)).bind fun software =>
    (field d "sign_convention" old.sign signOf).bind fun sign =>
    (field d "processed_by" old.processedBy optText).bind fun processedBy =>
    (field d "process_date" old.date (timeOf W.toWorld)).bind fun date =>
    (field d "processing_tag" old.tag optText).bind fun tag =>
    .ok ⟨sign, remote, r.1, r.2, processedBy, date, software, tag⟩
  | _ => .error .attributeError

/-- processing_info.py L148-L151: a file without the element changes nothing. -/
def readInfo (W : Outside F T) (old : Info F T) (es : List El) : Except PyErr (Info F T) :=
  (rootValue es).bind fun v =>
    match v with
    | none => .ok old
    | some v => readInfoDict W old v

end Verif.EmtfBlocks
