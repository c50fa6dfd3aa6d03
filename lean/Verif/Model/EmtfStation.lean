import Verif.Model.EdiInfo

/-! # Survey and station metadata of an EMTF XML object

`mt_metadata/transfer_functions/io/emtfxml/emtfxml.py` L560-L606, L730-L1048 and L1172-L1408: the properties
`survey_metadata` and `station_metadata` with their setters, without runs and channels (`Model/EmtfRuns`), and
`transfer_functions/core.py` L2157-L2168, the first steps of `to_emtfxml`.

Simplifications: the attributes of an object are a dictionary of dotted names; numbers, dates and enumerations are their
texts. The title lines `description`, `product_id` and `sub_type` are attributes of the element `emtf`
(emtfxml.py L266-L296). What pydantic makes of a text that a comment or a parameter gives for an attribute is a function
of the world, but for the attributes whose patterns matter here; an assigned text changes no attribute but the named one.
A bar in the text of a comment, which separates time and author (common/comment.py L91-L108), is not looked at.
What comments about `fieldnotes` do to the runs is a function of the world; of the remote field notes only the texts
of their parameters are given. -/

namespace Verif.EmtfStation
open Verif.Text Verif.EdiInfo

/-- Attributes of an object. -/
abbrev Attrs := OD Str IV

/-- What is not modelled. -/
structure World where
  /-- what pydantic makes of a text for an attribute, `none` if it is rejected -/
  coerce : Str → Str → Option Str
  /-- `float(value)`, `none` if it fails -/
  number : Str → Option Str
  /-- L563-L576, L605-L730: what a comment about the data logger, an electrode or a magnetometer ends with -/
  notes : Str → Str → Except PyErr Unit
  /-- the names of the attributes of a site, sorted (base/metadata.py L715-L725) -/
  siteNames : List Str
  /-- L990-L1023: the parameters that the remote field notes give -/
  remoteNotes : List Str
  /-- `time.year` -/
  year : IV → Str
  /-- `str` of a list -/
  showList : List Str → Str

/-- `getattr`; a missing attribute is `None`. -/
def attr (a : Attrs) (k : String) : IV := (a.get? k.toList).getD .null

/-- mt_metadata/__init__.py L93-L104 `NULL_VALUES`, the texts. -/
def nullTexts : List Str :=
  ["".toList, "null".toList, "None".toList, "NONE".toList, "NULL".toList, "Null".toList, "none".toList,
    "1980-01-01T00:00:00".toList, "1980-01-01T00:00:00+00:00".toList]

/-- `value in NULL_VALUES` -/
def isNull : IV → Bool
  | .null => true
  | .text s => nullTexts.contains s
  | .list _ => false

/-- `[a-zA-Z0-9]` -/
def alnum (c : Char) : Bool := ('a' ≤ c && c ≤ 'z') || ('A' ≤ c && c ≤ 'Z') || ('0' ≤ c && c ≤ '9')

/-- emtfxml/metadata/site.py L84: the pattern of `id`. -/
def siteId (s : Str) : Bool := s.all alnum

/-- emtfxml/metadata/site.py L27: the pattern of `project`. -/
def siteProject (s : Str) : Bool := s.all fun c => alnum c || c == '-' || c == '_'

/-- emtfxml/metadata/emtf.py L35: the pattern of `product_id`. -/
def productId (s : Str) : Bool := s.all fun c => alnum c || c == '.' || c == '_' || c == '-'

/-- timeseries/survey.py L42: the pattern of `id`. -/
def surveyId (s : Str) : Bool := s.all fun c => alnum c || c == '_' || c == '-' || c == ' '

/-- common/enumerations.py L56-L71 `DataTypeEnum`. -/
def dataTypes : List String :=
  ["RMT", "AMT", "BBMT", "LPMT", "ULPMT", "MT", "LP", "BB", "WB", "MT_TF", "BBMT_TF", "WBMT_TF", "LPMT_TF", "CSAMT",
    "NSAMT"]

/-- common/enumerations.py L27-L43: a member, whatever the case of its letters. -/
def dataType (s : Str) : Option Str := (dataTypes.map String.toList).find? fun m => lower m == lower s

/-- `s.upper()`, for the ASCII letters. -/
def upper (s : Str) : Str := s.map Char.toUpper

/-- What an attribute of the object becomes if it is given a text; `none` if the text is rejected. -/
def accept (w : World) (k v : Str) : Option IV :=
  if k = "site.id".toList ∨ k = "processing_info.remote_info.site.id".toList then
    if siteId v then some (.text v) else none
  else if k = "site.project".toList ∨ k = "processing_info.remote_info.site.project".toList then
    if siteProject v then some (.text v) else none
  else if k = "emtf.product_id".toList then if productId v then some (.text v) else none
  else if k = "emtf.sub_type".toList then (dataType v).map .text
  else (w.coerce k v).map .text

/-- L163-L200: the elements that comments can name. -/
def elements : List String :=
  ["emtf", "external_url", "primary_data", "attachment", "provenance", "copyright", "site", "field_notes",
    "processing_info", "statistical_estimates", "data_types", "site_layout", "data", "period_range"]

/-- emtfxml/metadata/copyright.py L64: the default of `conditions_of_use`. -/
def conditions : String :=
  "All data and metadata for this survey are available free of charge and may be copied freely, " ++
  "duplicated and further distributed provided this data set is cited as the reference. While the " ++
  "author(s) strive to provide data and metadata of best possible quality, neither the author(s) of " ++
  "this data set, not IRIS make any claims, promises, or guarantees about the accuracy, completeness, " ++
  "or adequacy of this information, and expressly disclaim liability for errors and omissions in the " ++
  "contents of this file. Guidelines about the quality or limitations of the data and metadata, as " ++
  "obtained from the author(s), are included for informational purposes only."

/-- The attributes of a new object that have a value. -/
def fresh : Attrs :=
  [("emtf.description", ""), ("emtf.product_id", ""), ("emtf.sub_type", "MT_TF"),
    ("external_url.description", ""), ("external_url.url", ""), ("primary_data.filename", ""),
    ("attachment.filename", ""), ("attachment.description", ""),
    ("provenance.creating_application", "mt_metadata"), ("provenance.creator.name", ""),
    ("provenance.submitter.name", ""), ("copyright.release_status", "Unrestricted Release"),
    ("copyright.conditions_of_use", conditions),
    ("site.project", ""), ("site.survey", ""), ("site.country", ""), ("site.id", ""), ("site.name", ""),
    ("site.acquired_by", ""), ("site.orientation.angle_to_geographic_north", "0.0"),
    ("site.orientation.layout", "orthogonal"), ("processing_info.sign_convention", "exp(+ i\\omega t)"),
    ("processing_info.processing_software.author", ""), ("processing_info.processing_software.name", ""),
    ("processing_info.remote_ref.type", ""), ("processing_info.remote_info.site.id", ""),
    ("processing_info.remote_info.site.orientation.angle_to_geographic_north", "0.0"),
    ("processing_info.remote_info.site.orientation.layout", "orthogonal")].map
      (fun p : String × String => (p.1.toList, IV.text p.2.toList)) ++
  [("site.run_list".toList, .list []), ("processing_info.remote_info.site.run_list".toList, .list [])]

/-! ## Writing -/

/-- The attributes of the object that hold a text and never `None` (base/metadata.py L254-L304). -/
def plainTexts : List String :=
  ["site.project", "site.survey", "site.country", "site.id", "site.name", "site.acquired_by",
    "provenance.creating_application", "processing_info.processing_software.name", "processing_info.remote_ref.type"]

/-- Assign a value that a survey or a station has. -/
def put (o : Attrs) (k : String) (v : IV) : Except PyErr Attrs :=
  match v with
  | .null => .ok (o.set k.toList (if plainTexts.contains k then .text [] else .null))
  | .text s =>
    if (k = "site.id" ∧ siteId s = false) ∨ (k = "site.project" ∧ siteProject s = false) then .error .valueError
    else .ok (o.set k.toList (.text s))
  | .list l => .ok (o.set k.toList (.list l))

/-- Assign several values of an object, each pair the name in this object and the one there. -/
def putAll (a : Attrs) : Attrs → List (String × String) → Except PyErr Attrs
  | o, [] => .ok o
  | o, p :: t => (put o p.1 (attr a p.2)).bind fun o => putAll a o t

/-- L783-L809: give an attribute of an element a text; what fails is only logged. -/
def update (w : World) (o : Attrs) (k v : Str) : Attrs :=
  match split1 '.' k with
  | (e, some _) =>
    if (elements.map String.toList).contains e then
      match accept w k v with
      | some x => o.set k x
      | none => o
    else o
  | (_, none) => if k = "description".toList then o.set "emtf.description".toList (.text v) else o

/-- L583-L603 `_parse_comments_data_quality`; a name without a dot or a rating that is no number fails. -/
def dataQuality (w : World) (o : Attrs) (k v : Str) : Except PyErr Attrs :=
  match split1 '.' k with
  | (_, none) => .error .indexError
  | (_, some r) =>
    let k := replaceSub "dataquality".toList "data_quality_notes".toList ("site.".toList ++ r)
    let k := if hasSub "comments".toList k then replaceSub "comments".toList "comments.value".toList k else k
    let k := if hasSub "author".toList k then replaceSub "author".toList "comments.author".toList k else k
    if hasSub "rating".toList k then
      match w.number v with
      | some x => .ok (update w o k x)
      | none => .error .valueError
    else .ok (update w o k v)

/-- L730-L762 `_parse_comments_processing`. -/
def processing (w : World) (o : Attrs) (k v : Str) : Attrs :=
  let k := replaceSub "software".toList "processing_software".toList
    (replaceSub "processing".toList "processing_info".toList k)
  let k := if hasSub "author.name".toList k then replaceSub "author.name".toList "author".toList k else k
  if ["author.email", "author.organization", "author.organization_url", "processing_software.version"].any
      (fun i => hasSub i.toList k) then o
  else update w o k v

/-- L779-L812: what a comment with a name does. -/
def comment (w : World) (o : Attrs) (k v : Str) : Except PyErr Attrs :=
  if hasSub "datalogger".toList k then (w.notes k v).bind fun _ => .ok o
  else if hasSub "fieldnotes".toList k && hasSub "dataquality".toList k then dataQuality w o k v
  else if hasSub "fieldnotes".toList k && (hasSub "electrode_".toList k || hasSub "magnetometer_".toList k) then
    (w.notes k v).bind fun _ => .ok o
  else if hasSub "processing".toList k then .ok (processing w o k v)
  else .ok (update w o k v)

/-- L777-L816: the parts of the comments, one after the other. -/
def parts (w : World) : Attrs → List Str → Except PyErr Attrs
  | o, [] => .ok o
  | o, c :: t =>
    match split1 ':' c with
    | (k, some v) => (comment w o (strip k) (strip v)).bind fun o => parts w o t
    | (_, none) => parts w o t

/-- L773-L776: lines of the form `name = value` are taken as well. -/
def unlines (s : Str) : Str :=
  if s.contains '\n' && s.contains '=' then replaceC '=' [':'] (replaceC '\n' [';'] s) else s

/-- L764-L822 `_parse_comments`; what has no known name ends in the comments of the site, which are not read. -/
def comments (w : World) (o : Attrs) : IV → Except PyErr Attrs
  | .text s => parts w o (splitC ';' (unlines s))
  | _ => .ok o

/-- L868-L872 -/
def surveyPairs : List (String × String) :=
  [("emtf.description", "summary"), ("site.project", "project"), ("site.survey", "geographic_name")]

/-- L875-L881 -/
def citationPairs : List (String × String) :=
  [("copyright.citation.survey_d_o_i", "citation_dataset.doi"), ("copyright.citation.authors", "citation_dataset.authors"),
    ("copyright.citation.title", "citation_dataset.title"), ("copyright.citation.year", "citation_dataset.year")]

/-- L873-L874 -/
def putCountry (o : Attrs) : IV → Attrs
  | .list l => o.set "site.country".toList (.text (join [','] l))
  | .text s => o.set "site.country".toList (.text (join [','] (s.map fun c => [c])))
  | .null => o

/-- L858-L883 `survey_metadata.setter`; the geographic name is never `None`, so the id is never taken (L870). -/
def writeSurvey (w : World) (o s : Attrs) : Except PyErr Attrs :=
  (putAll s o surveyPairs).bind fun o =>
  (putAll s (putCountry o (attr s "country")) citationPairs).bind fun o =>
  comments w o (attr s "comments.value")

/-- L1185-L1188 -/
def putType (o : Attrs) : IV → Except PyErr Attrs
  | .text t =>
    match dataType (upper t ++ "_TF".toList) with
    | some m => .ok (o.set "emtf.sub_type".toList (.text m))
    | none => .error .valueError
  | _ => .ok (o.set "emtf.sub_type".toList (.text "MT_TF".toList))

/-- L1189-L1198 -/
def stationPairs : List (String × String) :=
  [("site.name", "geographic_name"), ("site.id", "id"), ("emtf.product_id", "fdsn.id"),
    ("site.location.latitude", "location.latitude"), ("site.location.longitude", "location.longitude"),
    ("site.location.elevation", "location.elevation"),
    ("site.location.declination.value", "location.declination.value"),
    ("site.location.declination.epoch", "location.declination.epoch"),
    ("site.location.declination.model", "location.declination.model")]

/-- L1205-L1214 -/
def provenancePairs : List (String × String) :=
  [("provenance.creating_application", "provenance.software.name"), ("provenance.create_time", "provenance.creation_time"),
    ("provenance.creator.name", "provenance.creator.author"), ("provenance.creator.email", "provenance.creator.email"),
    ("provenance.creator.organization", "provenance.creator.organization"),
    ("provenance.creator.url", "provenance.creator.url"), ("provenance.submitter.name", "provenance.submitter.author"),
    ("provenance.submitter.email", "provenance.submitter.email"),
    ("provenance.submitter.organization", "provenance.submitter.organization"),
    ("provenance.submitter.url", "provenance.submitter.url")]

/-- `x if x is not None else d` -/
def orElse (x : IV) (d : String) : IV := if x = .null then .text d.toList else x

/-- L1199-L1203, L1216-L1226 -/
def putDefaults (o st : Attrs) : Attrs :=
  ((o.set "site.orientation.angle_to_geographic_north".toList
      (orElse (attr st "orientation.angle_to_geographic_north") "0.0")).set
    "external_url.url".toList (orElse (attr st "provenance.archive.url") "")).set
    "external_url.description".toList (orElse (attr st "provenance.archive.comments.value") "")

/-- L1228-L1229, L1243-L1254 -/
def processingPairs : List (String × String) :=
  [("site.start", "time_period.start"), ("site.end", "time_period.end"),
    ("processing_info.sign_convention", "transfer_function.sign_convention"),
    ("processing_info.processed_by", "transfer_function.processed_by.author"),
    ("processing_info.process_date", "transfer_function.processed_date"),
    ("processing_info.processing_software.author", "transfer_function.software.author"),
    ("processing_info.processing_software.name", "transfer_function.software.name"),
    ("processing_info.processing_software.last_mod", "transfer_function.software.last_updated")]

/-- The list a value is. -/
def items : IV → List Str
  | .list l => l
  | _ => []

/-- L1255-L1260 -/
def putTag (o st : Attrs) : Attrs :=
  o.set "processing_info.processing_tag".toList (.text (join ['_']
    (items (attr st "transfer_function.runs_processed") ++ items (attr st "transfer_function.remote_references"))))

/-- L1262-L1272: a parameter cut at the first equal sign, without one at the first colon. -/
def cutParam (p : Str) : Option (Str × Str) :=
  match split1 '=' p with
  | (k, some v) => some (strip k, strip v)
  | (_, none) =>
    match split1 ':' p with
    | (k, some v) => some (strip k, strip v)
    | (_, none) => none

/-- L1262-L1389: parameters about the remote field notes change these only; others are attributes of the element
`processing_info`, as `update_attribute` sets them; what fails is only logged. -/
def param (w : World) (o : Attrs) (p : Str) : Attrs :=
  match cutParam p with
  | none => o
  | some (k, v) =>
    if hasSub "remote_info.field_notes".toList k then o
    else
      match accept w ("processing_info.".toList ++ k) v with
      | some x => o.set ("processing_info.".toList ++ k) x
      | none => o

/-- L1391-L1404 -/
def qualityPairs : List (String × String) :=
  [("site.run_list", "transfer_function.runs_processed"),
    ("site.data_quality_notes.good_from_period", "transfer_function.data_quality.good_from_period"),
    ("site.data_quality_notes.good_to_period", "transfer_function.data_quality.good_to_period"),
    ("site.data_quality_notes.rating", "transfer_function.data_quality.rating.value"),
    ("site.data_quality_notes.comments.value", "transfer_function.data_quality.comments.value")]

/-- L1172-L1408, L1561 `station_metadata.setter`, without the runs. -/
def writeStation (w : World) (o st : Attrs) : Except PyErr Attrs :=
  (putAll st o [("site.acquired_by", "acquired_by.author")]).bind fun o =>
  (putType o (attr st "data_type")).bind fun o =>
  (putAll st o (stationPairs ++ provenancePairs)).bind fun o =>
  (putAll st (putDefaults o st) processingPairs).bind fun o =>
  (putAll st (putTag o st) [("processing_info.remote_ref.type", "transfer_function.processing_type")]).bind fun o =>
  (putAll st ((items (attr st "transfer_function.processing_parameters")).foldl (param w) o) qualityPairs).bind fun o =>
  comments w o (attr st "comments.value")

/-! ## Reading -/

/-- `f"{v}"` -/
def shown (w : World) : IV → Str
  | .null => "None".toList
  | .text s => s
  | .list l => w.showList l

/-- L914-L932: attributes that have a value, as `name:value`, one after the other. -/
def said (w : World) (l : List (String × IV)) : Str :=
  join "; ".toList ((l.filter fun p => decide (p.2 ≠ .null) && decide (p.2 ≠ .text [])).map
    fun p => p.1.toList ++ ':' :: shown w p.2)

/-- L827-L841, but for the country, the id and the summary. -/
def readSurveyPairs : List (String × String) :=
  [("acquired_by.author", "site.acquired_by"), ("citation_dataset.authors", "copyright.citation.authors"),
    ("citation_dataset.title", "copyright.citation.title"), ("citation_dataset.year", "copyright.citation.year"),
    ("citation_dataset.doi", "copyright.citation.survey_d_o_i"), ("geographic_name", "site.survey"),
    ("project", "site.project"), ("time_period.start_date", "site.start"), ("time_period.end_date", "site.end")]

/-- Assign several values; each pair the name in the new object and the one in this. -/
def getAll (o a : Attrs) (l : List (String × String)) : Attrs :=
  l.foldl (fun a p => a.set p.1.toList (attr o p.2)) a

/-- timeseries/survey.py L366-L377 `validate_areas`. -/
def areas : IV → IV
  | .text s => .list ((splitC ',' s).map strip)
  | v => v

/-- L834-L835 -/
def readId (a : Attrs) (v : IV) : Except PyErr Attrs :=
  if isNull v then .ok a
  else
    match v with
    | .text s => if surveyId s then .ok (a.set "id".toList v) else .error .valueError
    | _ => .error .valueError

/-- L844-L850: what the comments of a survey tell. -/
def copyrightNames : List String :=
  ["copyright.acknowledgement", "copyright.conditions_of_use", "copyright.release_status",
    "copyright.selected_publications", "copyright.additional_info"]

/-- L824-L856 `survey_metadata`, without its station. -/
def readSurvey (w : World) (o : Attrs) : Except PyErr Attrs :=
  let a := getAll o [("id".toList, .text [])] readSurveyPairs
  let a := a.set "country".toList (areas (attr o "site.country"))
  let a := a.set "summary".toList (orElse (attr o "emtf.description") "")
  let a := a.set "comments.value".toList (.text (said w (copyrightNames.map fun k => (k, attr o k))))
  readId a (attr o "site.survey")

/-- L893 -/
def readType (a : Attrs) : IV → Except PyErr Attrs
  | .text t =>
    match dataType (split1 '_' (lower t)).1 with
    | some m => .ok (a.set "data_type".toList (.text m))
    | none => .error .valueError
  | _ => .error .attributeError

/-- L888-L912, L934-L946, L967-L968, L1025-L1033 -/
def readStationPairs : List (String × String) :=
  [("acquired_by.author", "site.acquired_by"), ("geographic_name", "site.name"), ("id", "site.id"),
    ("fdsn.id", "emtf.product_id"), ("location.latitude", "site.location.latitude"),
    ("location.longitude", "site.location.longitude"), ("location.elevation", "site.location.elevation"),
    ("location.declination.value", "site.location.declination.value"),
    ("location.declination.epoch", "site.location.declination.epoch"),
    ("location.declination.model", "site.location.declination.model"),
    ("orientation.angle_to_geographic_north", "site.orientation.angle_to_geographic_north"),
    ("provenance.software.name", "provenance.creating_application"), ("provenance.creation_time", "provenance.create_time"),
    ("provenance.creator.author", "provenance.creator.name"), ("provenance.creator.email", "provenance.creator.email"),
    ("provenance.creator.organization", "provenance.creator.organization"),
    ("provenance.creator.url", "provenance.creator.url"), ("provenance.submitter.author", "provenance.submitter.name"),
    ("provenance.submitter.email", "provenance.submitter.email"),
    ("provenance.submitter.organization", "provenance.submitter.organization"),
    ("provenance.submitter.url", "provenance.submitter.url"), ("provenance.archive.url", "external_url.url"),
    ("provenance.archive.comments.value", "external_url.description"), ("time_period.start", "site.start"),
    ("time_period.end", "site.end"), ("transfer_function.id", "site.id"),
    ("transfer_function.sign_convention", "processing_info.sign_convention"),
    ("transfer_function.processed_by.author", "processing_info.processed_by"),
    ("transfer_function.software.author", "processing_info.processing_software.author"),
    ("transfer_function.software.name", "processing_info.processing_software.name"),
    ("transfer_function.software.last_updated", "processing_info.processing_software.last_mod"),
    ("transfer_function.runs_processed", "site.run_list"),
    ("transfer_function.processing_type", "processing_info.remote_ref.type"),
    ("transfer_function.data_quality.good_from_period", "site.data_quality_notes.good_from_period"),
    ("transfer_function.data_quality.good_to_period", "site.data_quality_notes.good_to_period"),
    ("transfer_function.data_quality.rating.value", "site.data_quality_notes.rating")]

/-- L914-L926: what the comments of a station tell. -/
def commentNames : List String :=
  ["primary_data.filename", "attachment.description", "attachment.filename",
    "site.data_quality_notes.comments.author", "site.data_quality_notes.comments.value",
    "site.data_quality_warnings.flag", "site.data_quality_warnings.comments.author",
    "site.data_quality_warnings.comments.value"]

/-- L970-L988: the attributes of the remote site that have a value, without its location. -/
def remoteParams (w : World) (o : Attrs) : List Str :=
  (w.siteNames.filter fun k => !hasSub "location".toList k &&
      !isNull ((o.get? ("processing_info.remote_info.site.".toList ++ k)).getD .null)).map
    fun k => "remote_info.site.".toList ++ k ++ " = ".toList ++
      shown w ((o.get? ("processing_info.remote_info.site.".toList ++ k)).getD .null)

/-- L885-L1033 `station_metadata`, without the runs; the id of the remote site is never `None` (L948). -/
def readStation (w : World) (o : Attrs) : Except PyErr Attrs :=
  let a := getAll o [] readStationPairs
  let a := a.set "comments.value".toList (.text (said w
    (("description", attr o "emtf.description") :: commentNames.map fun k => (k, attr o k))))
  let a := a.set "transfer_function.remote_references".toList
    (.list [shown w (attr o "processing_info.remote_info.site.id")])
  let a := a.set "transfer_function.processing_parameters".toList
    (.list (remoteParams w o ++ w.remoteNotes.map fun n => "remote_info.field_notes.".toList ++ n))
  readType a (attr o "emtf.sub_type")

/-- A survey and its station. -/
def readBoth (w : World) (o : Attrs) : Except PyErr (Attrs × Attrs) :=
  (readSurvey w o).bind fun s => (readStation w o).bind fun st => .ok (s, st)

/-! ## Conversion -/

/-- core.py L2161-L2168: a description and a product id if there is none. -/
def finish (w : World) (o : Attrs) : Except PyErr Attrs :=
  let o := o.set "emtf.description".toList (orElse (attr o "emtf.description") "Magnetotelluric Transfer Functions")
  if attr o "emtf.product_id" = .null then
    (readBoth w o).bind fun p => .ok (o.set "emtf.product_id".toList (.text
      (shown w (attr p.1 "project") ++ '.' :: shown w (attr p.2 "id") ++ '.' :: w.year (attr p.2 "time_period.start"))))
  else .ok o

/-- core.py L2157-L2168: the metadata of `to_emtfxml`. -/
def toEmtf (w : World) (s st : Attrs) : Except PyErr Attrs :=
  (writeSurvey w fresh s).bind fun o => (writeStation w o st).bind fun o => finish w o

/-- core.py L2157-L2168, L2228: the metadata of `to_emtfxml` followed by `from_emtfxml`. -/
def roundTrip (w : World) (s st : Attrs) : Except PyErr (Attrs × Attrs) := (toEmtf w s st).bind (readBoth w)

end Verif.EmtfStation
