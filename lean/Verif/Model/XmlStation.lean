import Verif.Model.XmlText
import Verif.Model.Run

/-! # Stations in StationXML

`timeseries/stationxml/xml_station_mt_station.py` (`mt_to_xml`, `xml_to_mt`, `_equipments_to_runs`) with what they use of
`xml_equipment_mt_run.py`, `utils.py` and `timeseries/station.py`: which fields of a station and of its runs are written where, and
what is made of them.

Simplifications: texts of comments and numbers in them are as in a file (`showF`, `readF`); times are integers, zero is the default time
of 1980, and obspy keeps them; what is in an equipment besides the identifier and the dates (`rest`) is handed on (C118 has the
description); comments of runs and who acquired them (C116, C117) and the channels are left out; texts of enumerations are kept, as are
texts of comments with `|` (Model/Comment); values of other comments than those that are written are left out. -/

namespace Verif.XmlStation
open Verif.Text Verif.XmlText

/-- Numbers and their texts. -/
structure World (F : Type) where
  showF : F → Str
  readF : Str → Except PyErr F
  zero : F

/-- timeseries/run.py: the fields of a run in an equipment. -/
structure Run (ρ : Type) where
  id : Str
  start : Int
  stop : Int
  rest : ρ
deriving DecidableEq, Repr

/-- timeseries/station.py: the fields of a station that are written. `runList` is set by the validators and `update_all`. -/
structure Station (F ρ : Type) where
  id : Str
  fdsn : Option Str
  lat : F
  lon : F
  elev : F
  comments : Option Str
  geographic : Str
  start : Int
  stop : Int
  author : Option Str
  organization : Option Str
  dataType : Str
  method : Str
  frame : Str
  declModel : Str
  declValue : F
  declComments : Option Str
  swAuthor : Option Str
  swName : Str
  swVersion : Str
  runList : List Str
  runs : List (Run ρ)
deriving DecidableEq

/-- `obspy.core.inventory.Equipment` -/
structure Equip (ρ : Type) where
  resource : Str
  start : Int
  stop : Int
  rest : ρ
deriving DecidableEq, Repr

/-- `obspy.core.inventory.Station`: what is written. -/
structure XStation (F ρ : Type) where
  code : Str
  alternate : Str
  lat : F
  lon : F
  elev : F
  description : Option Str
  site : Str
  start : Int
  stop : Int
  operator : Option (Str × Str)
  comments : List XComment
  equipments : List (Equip ρ)
deriving DecidableEq

variable {F ρ : Type}

/-- `str.upper`, for ASCII letters. -/
def upper (s : Str) : Str := s.map Char.toUpper

/-! ## Writing -/

/-- utils.py L222-L230: a comment if there is a value. -/
def textComment (key : Str) (v : Str) : List XComment := if v = [] then [] else [⟨v, some ("mt.station.".toList ++ key)⟩]

/-- utils.py L222-L230 for a number: zero is no value. -/
def numComment [DecidableEq F] (W : World F) (key : Str) (v : F) : List XComment :=
  if v = W.zero then [] else [⟨W.showF v, some ("mt.station.".toList ++ key)⟩]

/-- utils.py L195-L230 `make_mt_comments` with xml_station_mt_station.py L80-L91, the keys sorted. The list of runs is that of the runs
(station.py L261-L285, L422-L427). -/
def stationComments [DecidableEq F] (W : World F) (s : Station F ρ) : List XComment :=
  textComment "data_type".toList s.dataType ++
  textComment "location.declination.comments".toList (s.declComments.getD []) ++
  textComment "location.declination.model".toList s.declModel ++
  numComment W "location.declination.value".toList s.declValue ++
  textComment "orientation.method".toList s.method ++
  textComment "orientation.reference_frame".toList s.frame ++
  textComment "provenance.software.author".toList (s.swAuthor.getD []) ++
  textComment "provenance.software.name".toList s.swName ++
  textComment "provenance.software.version".toList s.swVersion ++
  textComment "run_list".toList (join [',', ' '] s.runList)

/-- xml_equipment_mt_run.py L106-L139 `mt_to_xml` -/
def writeRun (r : Run ρ) : Equip ρ := ⟨writeResource r.id, r.start, r.stop, r.rest⟩

/-- xml_station_mt_station.py L213-L214 and L237-L247: what writing changes in the station. -/
def prepared (s : Station F ρ) : Station F ρ :=
  { s with
    fdsn := some (s.fdsn.getD s.id)
    organization := if s.author.getD [] = [] then s.organization else some (s.organization.getD [' ']) }

/-- xml_station_mt_station.py L173-L285 `mt_to_xml`: the comment of the station that L259-L262 append is replaced (L275). -/
def write [DecidableEq F] (W : World F) (s : Station F ρ) : XStation F ρ where
  code := upper s.id
  alternate := upper s.id
  lat := s.lat
  lon := s.lon
  elev := s.elev
  description := s.comments
  site := s.geographic
  start := s.start
  stop := s.stop
  operator := if s.author.getD [] = [] then none else some (s.organization.getD [' '], s.author.getD [])
  comments := stationComments W s
  equipments := s.runs.map writeRun

/-! ## Reading -/

/-- A new station (station.py L50-L240 and the classes of its fields). -/
def blank (W : World F) : Station F ρ where
  id := []
  fdsn := none
  lat := W.zero
  lon := W.zero
  elev := W.zero
  comments := none
  geographic := []
  start := 0
  stop := 0
  author := some []
  organization := none
  dataType := "BBMT".toList
  method := "compass".toList
  frame := "geographic".toList
  declModel := "IGRF".toList
  declValue := W.zero
  declComments := none
  swAuthor := some []
  swName := []
  swVersion := []
  runList := []
  runs := []

/-- A text where a text is wanted; a dictionary is refused by pydantic. -/
def asText : CVal → Except PyErr Str
  | .text s => .ok s
  | .dict _ => .error .valueError

/-- common/declination.py L68-L76: a text is the value of a comment, a dictionary its fields. -/
def asComment : CVal → Option Str
  | .text s => some s
  | .dict d => (OD.get? d "value".toList).join

/-- station.py L422-L461 `update_all` -/
def updateAll (s : Station F ρ) : Station F ρ :=
  { s with
    start := Runs.newStart s.start ((s.runs.map Run.start).filter (· ≠ 0))
    stop := Runs.newStop s.stop ((s.runs.map Run.stop).filter (· ≠ 0))
    runList := s.runs.map Run.id }

/-- mt_metadata/__init__.py L93-L104: texts that stand for nothing. -/
def nulls : List Str := ["", "null", "None", "NONE", "NULL", "Null", "none", "1980-01-01T00:00:00",
  "1980-01-01T00:00:00+00:00"].map String.toList

/-- station.py L271-L273: runs that are in the list and not in the station are made. `emptyRest` is what a new run has. -/
def makeRuns (emptyRest : ρ) (rs : List (Run ρ)) (l : List Str) : List (Run ρ) :=
  l.foldl (fun rs i => if i ∈ rs.map Run.id then rs else rs ++ [⟨i, 0, 0, emptyRest⟩]) rs

/-- station.py L236-L259 and L261-L275: the list of runs from a text. `None` is refused as a list by pydantic. -/
def setRunList (emptyRest : ρ) (s : Station F ρ) (t : Str) : Except PyErr (Station F ρ) :=
  if t ∈ nulls then .error .valueError
  else
    let l := (splitC ',' t).map strip
    if l = s.runs.map Run.id then .ok { s with runList := l }
    else if s.runs.length < l.length then .ok { s with runList := l, runs := makeRuns emptyRest s.runs l }
    else .ok (updateAll s)

/-- xml_station_mt_station.py L128-L131: `key.split("mt.station.")[1]` -/
def stationKey (key : Str) : Str :=
  match splitSub "mt.station.".toList key with
  | _ :: k :: _ => k
  | _ => key

/-- xml_station_mt_station.py L133-L141: the value of a comment is put into the station. -/
def setField (W : World F) (emptyRest : ρ) (s : Station F ρ) (key : Str) (v : CVal) : Except PyErr (Station F ρ) :=
  if key = "data_type".toList then (asText v).map fun t => { s with dataType := t }
  else if key = "location.declination.comments".toList then .ok { s with declComments := asComment v }
  else if key = "location.declination.model".toList then (asText v).map fun t => { s with declModel := t }
  else if key = "location.declination.value".toList then ((asText v).bind W.readF).map fun x => { s with declValue := x }
  else if key = "orientation.method".toList then (asText v).map fun t => { s with method := t }
  else if key = "orientation.reference_frame".toList then (asText v).map fun t => { s with frame := t }
  else if key = "provenance.software.author".toList then (asText v).map fun t => { s with swAuthor := some t }
  else if key = "provenance.software.name".toList then (asText v).map fun t => { s with swName := t }
  else if key = "provenance.software.version".toList then (asText v).map fun t => { s with swVersion := t }
  else if key = "run_list".toList then (asText v).bind fun t => setRunList emptyRest s t
  else .ok s

/-- xml_station_mt_station.py L123-L141: one comment. -/
def readOne (W : World F) (emptyRest : ρ) (s : Station F ρ) (c : XComment) : Except PyErr (Station F ρ) :=
  (readComment c).bind fun p => if hasSub "mt.run".toList p.1 then .ok s else setField W emptyRest s (stationKey p.1) p.2

/-- xml_station_mt_station.py L118-L141: all of them. -/
def readComments (W : World F) (emptyRest : ρ) (s : Station F ρ) (cs : List XComment) : Except PyErr (Station F ρ) :=
  cs.foldlM (readOne W emptyRest) s

/-- xml_station_mt_station.py L74-L78, L143-L160: the other fields. -/
def readFields (x : XStation F ρ) (s : Station F ρ) : Station F ρ :=
  { s with
    id := x.alternate
    fdsn := some x.code
    start := x.start
    stop := x.stop
    comments := x.description <|> s.comments
    lat := x.lat
    lon := x.lon
    elev := x.elev
    geographic := x.site }

/-- xml_equipment_mt_run.py L76-L104 `xml_to_mt` -/
def readRun (e : Equip ρ) : Except PyErr (Run ρ) := (readResource e.resource).map fun i => ⟨i, e.start, e.stop, e.rest⟩

/-- base/metadata.py L574-L610 `update`: default times are skipped. -/
def updateRun (old new : Run ρ) : Run ρ :=
  { new with start := if new.start = 0 then old.start else new.start, stop := if new.stop = 0 then old.stop else new.stop }

/-- station.py L463-L486 `add_run` -/
def addRun (s : Station F ρ) (r : Run ρ) : Except PyErr (Station F ρ) :=
  if r.id ∈ s.runList then
    if r.id ∈ s.runs.map Run.id then .ok (updateAll { s with runs := s.runs.map fun o => if o.id = r.id then updateRun o r else o })
    else .error .keyError
  else .ok (updateAll { s with runs := s.runs ++ [r] })

/-- xml_station_mt_station.py L315-L322: one equipment; the first run of the list has the index zero and is added. -/
def equipStep (s : Station F ρ) (e : Equip ρ) : Except PyErr (Station F ρ) :=
  (readRun e).bind fun r =>
    match s.runList.idxOf? r.id with
    | some (i + 1) => if i + 1 < s.runs.length then .ok { s with runs := s.runs.set (i + 1) r } else .error .keyError
    | _ => addRun s r

/-- xml_station_mt_station.py L287-L324 `_equipments_to_runs` -/
def equipments (s : Station F ρ) (es : List (Equip ρ)) : Except PyErr (Station F ρ) := es.foldlM equipStep s

/-- xml_station_mt_station.py L93-L171 `xml_to_mt`: the equipments are read twice. -/
def read (W : World F) (emptyRest : ρ) (x : XStation F ρ) : Except PyErr (Station F ρ) :=
  (readComments W emptyRest (blank W) x.comments).bind fun s =>
  (equipments (readFields x s) x.equipments).bind fun s => equipments s x.equipments

end Verif.XmlStation
