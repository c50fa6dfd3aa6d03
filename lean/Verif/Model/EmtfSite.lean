import Verif.Model.EmtfFile

/-! # The site in EMTF XML files

`mt_metadata/transfer_functions/io/emtfxml/metadata/site.py`, `location.py`, `orientation.py`, `data_quality_notes.py`,
`data_quality_warnings.py`: writing to elements and reading from dictionaries, with `emtfxml.py` L309-L430, the
reading and writing of the file, as far as it concerns the site.

Elements, their texts in the file and the dictionaries made of them are those of `Model/EmtfData` and `Model/EmtfFile`, with
the same simplifications. The attributes that hold a `Comment` hold one (not a text or `None`); a comment is its
author and text. Which exception is raised if several values are rejected is not looked at. -/

namespace Verif.EmtfSite
open Verif.Text Verif.EmtfData Verif.EmtfFile

/-- What is not modelled. -/
structure Outside (F T : Type) extends World F T where
  /-- `f"{x:.6f}"` -/
  fixed6 : F → Str
  /-- utils/location_helpers.py L182-L188: a text as a position, `none` if it fails -/
  position : Str → Option F
  /-- `abs(x) <= 90` -/
  latOk : F → Bool
  /-- `abs(x) <= 180` -/
  lonOk : F → Bool
  /-- common/location.py L130-L140: `CRS.from_user_input(s).name`, `none` if it fails -/
  crs : Str → Option Str
  /-- `str(n)` -/
  shownInt : Int → Str
  /-- `int(s)`, `none` if it fails -/
  parseInt : Str → Option Int
  /-- `MTime(time_stamp=s).year`, `none` if it fails -/
  year : Str → Option Int
  /-- `t < u` -/
  earlier : T → T → Bool
  /-- 0.0 -/
  zero : F
  /-- whether an object has something else of this name, such as a method -/
  other : Str → Bool

variable {F T : Type}

/-- common/enumerations.py L125-L128 `ChannelOrientationEnum` -/
inductive Layout
  | orthogonal
  | station
  | siteLayout
deriving DecidableEq, Repr

def Layout.text : Layout → Str
  | .orthogonal => "orthogonal".toList
  | .station => "station".toList
  | .siteLayout => "sitelayout".toList

/-- common/location.py L15-L126, metadata/location.py L10-L23, common/declination.py; the comments of the declination are left out. -/
structure Place (F : Type) where
  datum : Str
  lat : F
  lon : F
  elev : F
  x : F
  y : F
  z : F
  declination : F
  epoch : Option Str
  model : Str
deriving DecidableEq, Repr

/-- data_quality_notes.py L15-L68 -/
structure Quality (F : Type) where
  rating : Option Int
  goodFrom : Option F
  goodTo : Option F
  author : Option Str
  value : Option Str
deriving DecidableEq, Repr

/-- data_quality_warnings.py L15-L40 -/
structure Warnings where
  flag : Option Int
  author : Option Str
  value : Option Str
deriving DecidableEq, Repr

/-- site.py L20-L238 -/
structure Site (F T : Type) where
  project : Str
  survey : Str
  year : Option Int
  country : Str
  id : Str
  name : Str
  location : Place F
  angle : F
  layout : Layout
  acquired : Str
  start : T
  stop : T
  runs : Option (List Str)
  notes : Quality F
  warnings : Warnings
  author : Option Str
  value : Option Str
deriving DecidableEq, Repr

/-! ## Writing -/

/-- location.py L48-L57: the elements of a place; the epoch up to the first dot. The offsets and the geomagnetic model are not
written. -/
def placeEl (W : Outside F T) (p : Place F) : El :=
  .mk "Location".toList [("datum".toList, p.datum)] none
    [.mk "Latitude".toList [] (some (W.fixed6 p.lat)) [], .mk "Longitude".toList [] (some (W.fixed6 p.lon)) [],
      .mk "Elevation".toList [("units".toList, "meters".toList)] (some (W.fixed p.elev)) [],
      .mk "Declination".toList [("epoch".toList, (split1 '.' (p.epoch.getD "1995".toList)).1)] (some (W.fixed p.declination)) []]

/-- orientation.py L71-L83: the angle is an attribute if the channels are orthogonal. -/
def orientationEl (W : Outside F T) (angle : F) (l : Layout) : El :=
  match l with
  | .orthogonal => .mk "Orientation".toList [("angle_to_geographic_north".toList, W.fixed angle)] (some l.text) []
  | _ => .mk "Orientation".toList [] (some l.text) []

/-- helpers.py L232-L260: a value that may be `None`. -/
def valueEl {α : Type} (k : String) (shown : α → Str) (v : Option α) : List El := textEl k (v.map shown)

/-- data_quality_notes.py L93-L117 `to_xml` -/
def qualityEl (W : Outside F T) (q : Quality F) : El :=
  .mk "DataQualityNotes".toList [] none
    (valueEl "rating" W.shownInt q.rating ++ valueEl "good_from_period" W.shown q.goodFrom ++
      valueEl "good_to_period" W.shown q.goodTo ++ [commentEl q.author q.value])

/-- data_quality_warnings.py L66-L82 `to_xml` -/
def warningsEl (W : Outside F T) (q : Warnings) : El :=
  .mk "DataQualityWarnings".toList [] none (valueEl "flag" W.shownInt q.flag ++ [commentEl q.author q.value])

/-- helpers.py L243-L257: a list of texts; an empty one is left out. -/
def listEl (k : String) (l : Option (List Str)) : List El :=
  match l with
  | none => []
  | some [] => []
  | some (x :: xs) => textEl k (some (join [' '] (x :: xs)))

/-- site.py L335-L336: an end before the start becomes the start. -/
def endOf (W : Outside F T) (s : Site F T) : T := if W.earlier s.stop s.start then s.start else s.stop

/-- site.py L318-L360 `to_xml`; the comments are not written. -/
def siteEl (W : Outside F T) [DecidableEq T] (s : Site F T) : El :=
  .mk "Site".toList [] none
    (textEl "project" (some s.project) ++ textEl "survey" (some s.survey) ++ valueEl "year_collected" W.shownInt s.year ++
      textEl "country" (some s.country) ++ textEl "id" (some s.id) ++ textEl "name" (some s.name) ++
      [placeEl W s.location] ++ [orientationEl W s.angle s.layout] ++ textEl "acquired_by" (some s.acquired) ++
      [timeEl W.toWorld "start" s.start] ++ [timeEl W.toWorld "end" (endOf W s)] ++ listEl "run_list" s.runs ++
      [qualityEl W s.notes] ++ [warningsEl W s.warnings])

/-- emtfxml.py L384-L426: the element as it is found in the file. -/
def writeSite (W : Outside F T) [DecidableEq T] (s : Site F T) : El := stored W.quotes (pretty 1 (siteEl W s))

/-! ## Reading -/

/-- `[a-zA-Z0-9]` -/
def alnum (c : Char) : Bool := ('a' ≤ c && c ≤ 'z') || ('A' ≤ c && c ≤ 'Z') || ('0' ≤ c && c ≤ '9')

/-- site.py L27: the pattern of `project`. -/
def projectChar (c : Char) : Bool := alnum c || c == '-' || c == '_'

/-- A text whose letters are of a kind. -/
def patterned (p : Char → Bool) (v : J) : Except PyErr Str :=
  (plainText v).bind fun s => if s.all p then .ok s else .error .valueError

/-- A value that pydantic makes of a text. -/
def parsed {α : Type} (f : Str → Option α) : J → Except PyErr α
  | .str s =>
    match f s with
    | some x => .ok x
    | none => .error .valueError
  | _ => .error .valueError

/-- A value that pydantic makes of a text, or `None`. -/
def optParsed {α : Type} (f : Str → Option α) : J → Except PyErr (Option α)
  | .null => .ok none
  | .str s =>
    match f s with
    | some x => .ok (some x)
    | none => .error .valueError
  | _ => .error .valueError

/-- site.py L248-L262 `validate_year_collected` of a text; no text is the year 1980. -/
def yearOf (W : Outside F T) : J → Except PyErr (Option Int)
  | .null => .ok (some 1980)
  | .str s =>
    match W.year (if s.count '-' = 1 then (split1 '-' s).1 else s) with
    | some y => .ok (some y)
    | none => .error .valueError
  | _ => .error .valueError

/-- utils/location_helpers.py L155-L194 `validate_position` -/
def positionOf (W : Outside F T) (ok : F → Bool) : J → Except PyErr F
  | .null => .ok W.zero
  | .str s =>
    match W.position s with
    | some x => if ok x then .ok x else .error .valueError
    | none => .error .valueError
  | _ => .error .valueError

/-- A number that is a text, 0.0 if it is `None` (base/metadata.py L282-L302). -/
def numberOf (W : Outside F T) : J → Except PyErr F
  | .null => .ok W.zero
  | v => parsed W.parse v

/-- common/location.py L77: the default. -/
def wgs : Str := "WGS 84".toList

/-- A dictionary becomes a declination: value, epoch and model. -/
def readDeclination (W : Outside F T) (v : J) : Except PyErr (F × Option Str × Str) :=
  match v with
  | .dict d =>
    (field d "value" W.zero (numberOf W)).bind fun x =>
    (field d "epoch" none optText).bind fun e =>
    (field d "model" "IGRF".toList plainText).bind fun m => .ok (x, e, m)
  | _ => .error .valueError

/-- site.py L311-L314: a dictionary becomes a new place. -/
def readPlace (W : Outside F T) (v : J) : Except PyErr (Place F) :=
  match v with
  | .dict d =>
    (field d "datum" wgs (parsed W.crs)).bind fun datum =>
    (field d "latitude" W.zero (positionOf W W.latOk)).bind fun lat =>
    (field d "longitude" W.zero (positionOf W W.lonOk)).bind fun lon =>
    (field d "elevation" W.zero (numberOf W)).bind fun elev =>
    (field d "x" W.zero (numberOf W)).bind fun x =>
    (field d "y" W.zero (numberOf W)).bind fun y =>
    (field d "z" W.zero (numberOf W)).bind fun z =>
    (field d "declination" (W.zero, none, "IGRF".toList) (readDeclination W)).bind fun c =>
    .ok ⟨datum, lat, lon, elev, x, y, z, c.1, c.2.1, c.2.2⟩
  | _ => .error .valueError

/-- common/enumerations.py L27-L43: a member, whatever the case of its letters. -/
def layoutOf : J → Except PyErr Layout
  | .str s =>
    match [Layout.orthogonal, .station, .siteLayout].find? (fun l => lower l.text == lower s) with
    | some l => .ok l
    | none => .error .valueError
  | _ => .error .valueError

/-- orientation.py L43-L56 `read_dict`: a text is the layout; the text of an element with attributes is not used. `None` is
set as an attribute of the name `orientation`. -/
def readOrientation (W : Outside F T) (old : F × Layout) (v : J) : Except PyErr (F × Layout) :=
  match v with
  | .dict d =>
    (field d "angle_to_geographic_north" old.1 (numberOf W)).bind fun a =>
    (field d "layout" old.2 layoutOf).bind fun l => .ok (a, l)
  | .str s => (layoutOf (.str s)).bind fun l => .ok (old.1, l)
  | _ => .ok old

/-- common/comment.py L192-L228 `read_dict({"comments": v})`: author and text. -/
def commentInto (old : Option Str × Option Str) (v : J) : Except PyErr (Option Str × Option Str) :=
  match v with
  | .dict d =>
    (field d "author" old.1 optText).bind fun author =>
    (field d "value" old.2 optText).bind fun value => .ok (author, value)
  | .str s => .ok (old.1, some s)
  | _ => .error .typeError

/-- data_quality_notes.py L74-L91 `read_dict`: the comments are those of a new object. -/
def readQuality (W : Outside F T) (old : Quality F) (v : J) : Except PyErr (Quality F) :=
  match v with
  | .dict d =>
    (field d "comments" (none, some []) (commentInto (none, none))).bind fun c =>
    (field d "rating" old.rating (optParsed W.parseInt)).bind fun rating =>
    (field d "good_from_period" old.goodFrom (optNum W.toWorld)).bind fun a =>
    (field d "good_to_period" old.goodTo (optNum W.toWorld)).bind fun b => .ok ⟨rating, a, b, c.1, c.2⟩
  | _ => .error .attributeError

/-- data_quality_warnings.py L54-L64 `read_dict`: comments are a text, `None` or the attributes of one; the former two are a new
object (L36-L47). -/
def warningsComment (old : Option Str × Option Str) (v : J) : Except PyErr (Option Str × Option Str) :=
  match v with
  | .dict d => commentInto old (.dict d)
  | .str s => .ok (none, some s)
  | .null => .ok (none, none)
  | .list _ => .error .typeError

/-- data_quality_warnings.py L54-L64 `read_dict` -/
def readWarnings (W : Outside F T) (old : Warnings) (v : J) : Except PyErr Warnings :=
  match v with
  | .dict d =>
    (field d "comments" (old.author, old.value) (warningsComment (old.author, old.value))).bind fun c =>
    (field d "flag" old.flag (optParsed W.parseInt)).bind fun flag => .ok ⟨flag, c.1, c.2⟩
  | _ => .ok old

/-- `s.strip("[]")` -/
def stripBrackets (s : Str) : Str :=
  ((s.dropWhile fun c => c == '[' || c == ']').reverse.dropWhile fun c => c == '[' || c == ']').reverse

/-- site.py L293-L300: the parts of a text. -/
def runsOfText (s : Str) : List Str :=
  if s.contains ',' then splitC ',' s
  else if s.contains ' ' then splitC ' ' s
  else if s.isEmpty then []
  else [s]

/-- site.py L281-L305 `validate_run_list`; a list, which a file with several such elements gives, has dictionaries as items
(metadata/helpers.py L142-L173) and is rejected. -/
def runsOf : J → Except PyErr (Option (List Str))
  | .null => .ok none
  | .str s => .ok (some (runsOfText (if s.contains '[' && s.contains ']' then stripBrackets s else s)))
  | _ => .error .valueError

/-- The attributes of a site. -/
def names : List Str :=
  ["project".toList, "survey".toList, "year_collected".toList, "country".toList, "id".toList, "name".toList, "location".toList,
    "orientation".toList, "acquired_by".toList, "start".toList, "end".toList, "run_list".toList, "data_quality_notes".toList,
    "data_quality_warnings".toList, "comments".toList]

/-- site.py L312: whether there is an attribute of the name of every key. -/
def allKnown (W : Outside F T) (d : List (Str × J)) : Bool := d.all fun p => names.contains p.1 || W.other p.1

/-- site.py L20-L238: a new object. -/
def newSite (W : Outside F T) : Site F T where
  project := []
  survey := []
  year := none
  country := []
  id := []
  name := []
  location := ⟨wgs, W.zero, W.zero, W.zero, W.zero, W.zero, W.zero, W.zero, none, "IGRF".toList⟩
  angle := W.zero
  layout := .orthogonal
  acquired := []
  start := W.noTime
  stop := W.noTime
  runs := some []
  notes := ⟨none, none, none, none, none⟩
  warnings := ⟨none, none, none⟩
  author := none
  value := none

/-- site.py L307-L316 `read_dict`, of a dictionary whose keys are all attributes; what has no key stays. -/
def readFields (W : Outside F T) (old : Site F T) (d : List (Str × J)) : Except PyErr (Site F T) :=
  (field d "project" old.project (patterned projectChar)).bind fun project =>
  (field d "survey" old.survey plainText).bind fun survey =>
  (field d "year_collected" old.year (yearOf W)).bind fun year =>
  (field d "country" old.country plainText).bind fun country =>
  (field d "id" old.id (patterned alnum)).bind fun id =>
  (field d "name" old.name plainText).bind fun name =>
  (field d "location" old.location (readPlace W)).bind fun location =>
  (field d "orientation" (old.angle, old.layout) (readOrientation W (old.angle, old.layout))).bind fun o =>
  (field d "acquired_by" old.acquired plainText).bind fun acquired =>
  (field d "start" old.start (timeOf W.toWorld)).bind fun start =>
  (field d "end" old.stop (timeOf W.toWorld)).bind fun stop =>
  (field d "run_list" old.runs runsOf).bind fun runs =>
  (field d "data_quality_notes" old.notes (readQuality W old.notes)).bind fun notes =>
  (field d "data_quality_warnings" old.warnings (readWarnings W old.warnings)).bind fun warnings =>
  (field d "comments" (old.author, old.value) (commentInto (old.author, old.value))).bind fun c =>
  .ok ⟨project, survey, year, country, id, name, location, o.1, o.2, acquired, start, stop, runs, notes, warnings, c.1, c.2⟩

/-- site.py L307-L316 `read_dict` -/
def readDict (W : Outside F T) (old : Site F T) (v : J) : Except PyErr (Site F T) :=
  match v with
  | .dict d => if allKnown W d then readFields W old d else .error .attributeError
  | _ => .error .attributeError

/-- emtfxml.py L332-L351, L356-L359: the site of a file, read into a site. -/
def readInto (W : Outside F T) (old : Site F T) (es : List El) : Except PyErr (Site F T) :=
  (rootValue es).bind fun v =>
    match v with
    | none => .error .keyError
    | some v => (readDict W old v).map fun s => { s with runs := some (s.runs.getD []) }

/-- A file read into a new object. -/
def readSite (W : Outside F T) (es : List El) : Except PyErr (Site F T) := readInto W (newSite W) es

end Verif.EmtfSite
