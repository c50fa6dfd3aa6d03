import Verif.Model.EmtfSite

/-! # Lists of estimates and data types, copyright and citation of EMTF XML files

`emtfxml/metadata/statistical_estimates.py`, `estimate.py`, `data_types.py`, `data_type.py`, `copyright.py`, `citation.py`,
`utils/validators.py` L41-L77 (`validate_doi`), and the parts of `emtfxml.py` that set, write and read them. Elements, dictionaries and texts
are as in `Verif.Model.EmtfData` and `Verif.Model.EmtfFile`. A link (`HttpUrl`) is its text; what text `HttpUrl` gives, if it accepts one, is
a parameter, and so are the symbols of units. Simplifications: keys that are no attribute are ignored (they set attributes that are not used);
which exception it is is said where the code catches some of them. -/

namespace Verif.EmtfRest
open Verif.Text Verif.EmtfData Verif.EmtfFile

/-- What is outside of the model: the text of a link if it is one (`pydantic.HttpUrl`), and the symbol of a unit (common/units.py L339-L392). -/
structure Links where
  url : Str → Option Str
  unit : Str → Option Str

/-! ## DOIs -/

/-- utils/validators.py L65-L68: a text as a link. -/
def doiText (s : Str) : Str :=
  if "10.".toList.isPrefixOf s then "https://doi.org/".toList ++ s
  else if "doi:".toList.isPrefixOf s then "https://doi.org/".toList ++ replaceSub "doi:".toList [] s
  else s

/-- utils/validators.py L73-L75 -/
def isDoi (u : Str) : Bool := "https://doi.org/".toList.isPrefixOf u || "https://dx.doi.org/".toList.isPrefixOf u

/-- utils/validators.py L41-L77 `validate_doi`. A link is given by its text: it is not changed by L65-L69. -/
def doiOf (L : Links) (v : Option Str) : Except PyErr (Option Str) :=
  match v with
  | none => .ok none
  | some [] => .ok none
  | some (c :: cs) =>
    match L.url (doiText (c :: cs)) with
    | none => .error .valueError
    | some u => if isDoi u then .ok (some u) else .error .valueError

/-! ## Estimates -/

/-- estimate.py L16-L99 -/
structure Estimate where
  name : Str := []
  type : Str := []
  description : Str := []
  url : Str := []
  intention : Str := []
  tag : Str := []
deriving DecidableEq, Repr

/-- common/enumerations.py L74-L87 `ArrayDTypeEnum` -/
def types : List Str :=
  ["real".toList, "complex".toList, "float".toList, "int".toList, "complex128".toList, "complex64".toList, "float64".toList,
    "float32".toList, "float16".toList, "int64".toList, "int32".toList, "int16".toList, "int8".toList]

/-- common/enumerations.py L90-L95 `EstimateIntentionEnum` -/
def intentions : List Str :=
  ["error estimate".toList, "signal coherence".toList, "signal power estimate".toList, "primary data type".toList,
    "derived data type".toList]

/-- estimate.py L124-L134 `to_xml` -/
def estimateEl (e : Estimate) : El :=
  .mk "Estimate".toList [("name".toList, upper e.name), ("type".toList, e.type)] none
    [.mk "Description".toList [] (some e.description) [], .mk "ExternalUrl".toList [] (some e.url) [],
      .mk "Intention".toList [] (some e.intention) [], .mk "tag".toList [] (some e.tag) []]

/-- statistical_estimates.py L82-L85, emtfxml.py L402-L414: the element as it is found in the file. -/
def writeEstimates (q : Bool) (l : List Estimate) : El :=
  stored q (pretty 1 (.mk "StatisticalEstimates".toList [] none (l.map estimateEl)))

/-- One of the words of an enumeration. -/
def oneOf (l : List Str) (v : J) : Except PyErr Str :=
  match v with
  | .str s => if l.contains s then .ok s else .error .valueError
  | _ => .error .valueError

/-- A link. -/
def urlOf (L : Links) (v : J) : Except PyErr Str :=
  match v with
  | .str s =>
    match L.url s with
    | some u => .ok u
    | none => .error .valueError
  | _ => .error .valueError

/-- statistical_estimates.py L38-L46: `from_dict` of an estimate; what is no dictionary is its name. -/
def readEstimate (L : Links) (v : J) : Except PyErr Estimate :=
  match v with
  | .dict d =>
    (field d "name" [] plainText).bind fun name =>
    (field d "type" [] (oneOf types)).bind fun type =>
    (field d "description" [] plainText).bind fun description =>
    (field d "external_url" [] (urlOf L)).bind fun url =>
    (field d "intention" [] (oneOf intentions)).bind fun intention =>
    (field d "tag" [] plainText).bind fun tag => .ok ⟨name, type, description, url, intention, tag⟩
  | v => (plainText v).map fun n => { name := n }

/-- statistical_estimates.py L49-L63 `read_dict`: the list that is set, if one is. Only `KeyError` is caught: the value of the element has to be a
dictionary. -/
def readEstimates (L : Links) (es : List El) : Except PyErr (Option (List Estimate)) :=
  (rootValue es).bind fun v =>
    match v with
    | none => .ok none
    | some (.dict d) =>
      match OD.get? d "estimate".toList with
      | none => .ok none
      | some v => ((manyOf v).mapM (readEstimate L)).map some
    | some _ => .error .typeError

/-- emtfxml.py L47-L112: the estimates of data. -/
def estimateOf : Est → Estimate
  | .variance => ⟨"VAR".toList, "real".toList, "Variance".toList, "http://www.iris.edu/dms/products/emtf/variance.html".toList,
      "error estimate".toList, "variance".toList⟩
  | .residualCovariance => ⟨"RESIDCOV".toList, "complex".toList, "Residual Covariance (N)".toList,
      "http://www.iris.edu/dms/products/emtf/residual_covariance.html".toList, "error estimate".toList, "residual_covariance".toList⟩
  | .inverseSignalPower => ⟨"INVSIGCOV".toList, "complex".toList, "Inverse Coherent Signal Power Matrix (S)".toList,
      "http://www.iris.edu/dms/products/emtf/inverse_signal_covariance.html".toList, "signal power estimate".toList,
      "inverse_signal_power".toList⟩

/-! ## Data types -/

/-- data_type.py L28-L150 -/
structure DType where
  name : Str := []
  type : Str := "real".toList
  output : Str := []
  input : Str := []
  units : Str := []
  description : Str := []
  url : Str := []
  intention : Str := []
  tag : Str := []
deriving DecidableEq, Repr

/-- data_type.py L195, common/units.py L371-L377: the symbol that is written; no unit is `unknown`. -/
def symbol (L : Links) (u : Str) : Except PyErr Str :=
  match u with
  | [] => .ok "unknown".toList
  | c :: cs =>
    match L.unit (c :: cs) with
    | some s => .ok s
    | none => .error .keyError

/-- data_type.py L189-L205 `to_xml` -/
def dtypeEl (L : Links) (t : DType) : Except PyErr El :=
  (symbol L t.units).map fun u =>
    .mk "DataType".toList [("name".toList, t.name), ("type".toList, t.type), ("output".toList, t.output), ("input".toList, t.input),
        ("units".toList, u)] none
      (textEl "description" (some t.description) ++ textEl "external_url" (some t.url) ++ textEl "intention" (some t.intention) ++
        textEl "tag" (some t.tag))

/-- data_types.py L82-L85, emtfxml.py L402-L414: the element as it is found in the file. -/
def writeTypes (L : Links) (q : Bool) (l : List DType) : Except PyErr El :=
  (l.mapM (dtypeEl L)).map fun es => stored q (pretty 1 (.mk "DataTypes".toList [] none es))

/-- data_type.py L154-L164: a unit; one that is not known raises `KeyError`. -/
def unitOf (L : Links) (v : J) : Except PyErr Str :=
  match v with
  | .null => .ok []
  | .str [] => .ok []
  | .str (c :: cs) =>
    match L.unit (c :: cs) with
    | some s => .ok s
    | none => .error .keyError
  | _ => .error .typeError

/-- data_types.py L40-L50: `from_dict` of a data type. -/
def readType (L : Links) (v : J) : Except PyErr DType :=
  match v with
  | .dict d =>
    (field d "name" [] plainText).bind fun name =>
    (field d "type" "real".toList (oneOf types)).bind fun type =>
    (field d "output" [] (oneOf ["E".toList, "H".toList])).bind fun output =>
    (field d "input" [] (oneOf ["E".toList, "H".toList])).bind fun input =>
    (field d "units" "milliVolt per kilometer per nanoTesla".toList (unitOf L)).bind fun units =>
    (field d "description" [] plainText).bind fun description =>
    (field d "external_url" [] (urlOf L)).bind fun url =>
    (field d "intention" [] (oneOf intentions)).bind fun intention =>
    (field d "tag" [] plainText).bind fun tag => .ok ⟨name, type, output, input, units, description, url, intention, tag⟩
  | _ => .error .typeError

/-- data_types.py L53-L66 `read_dict`: the list that is set, if one is; `KeyError` is caught, also that of a unit. -/
def readTypes (L : Links) (es : List El) : Except PyErr (Option (List DType)) :=
  (rootValue es).bind fun v =>
    match v with
    | none => .ok none
    | some (.dict d) =>
      match OD.get? d "data_type".toList with
      | none => .ok none
      | some v =>
        match (manyOf v).mapM (readType L) with
        | .ok l => .ok (some l)
        | .error .keyError => .ok none
        | .error e => .error e
    | some _ => .error .typeError

/-- emtfxml.py L114-L137: the data types of data; `u` is the symbol of the unit of the impedance. -/
def dtypeOf (u : Str) : DataType → DType
  | .impedance => ⟨"Z".toList, "complex".toList, "E".toList, "H".toList, u, "MT impedance".toList,
      "http://www.iris.edu/dms/products/emtf/impedance.html".toList, "primary data type".toList, "impedance".toList⟩
  | .tipper => ⟨"T".toList, "complex".toList, "H".toList, "H".toList, [], "Vertical Field Transfer Functions (Tipper)".toList,
      "http://www.iris.edu/dms/products/emtf/tipper.html".toList, "primary data type".toList, "tipper".toList⟩

/-! ## Copyright and citation -/

/-- citation.py L14-L27, common/citation.py L13-L111 -/
structure Cite where
  title : Option Str := none
  authors : Option Str := none
  year : Option Str := none
  surveyDoi : Option Str := none
  doi : Option Str := none
  journal : Option Str := none
  volume : Option Str := none
  pages : Option Str := none
deriving DecidableEq, Repr

/-- copyright.py L18-L101 -/
structure Rights where
  cite : Cite
  publications : Option Str
  acknowledgement : Option Str
  status : Str
  conditions : Str
  info : Option Str
deriving DecidableEq, Repr

/-- common/enumerations.py L190-L196 `ReleaseStatusEnum` -/
def statuses : List Str :=
  ["Unrestricted Release".toList, "Restricted Release".toList, "Paper Citation Required".toList, "Academic Use Only".toList,
    "Conditions Apply".toList, "Data Citation Required".toList]

/-- citation.py L64-L74 `to_xml` -/
def citeEl (c : Cite) : El :=
  .mk "Citation".toList [] none
    (textEl "title" c.title ++ textEl "authors" c.authors ++ textEl "year" c.year ++ textEl "survey_d_o_i" c.surveyDoi)

/-- copyright.py L114-L136 `to_xml` -/
def rightsEl (r : Rights) : El :=
  .mk "Copyright".toList [] none
    ([citeEl r.cite] ++ textEl "selected_publications" r.publications ++ textEl "acknowledgement" r.acknowledgement ++
      textEl "release_status" (some (title false r.status)) ++ textEl "conditions_of_use" (some r.conditions) ++
      textEl "additional_info" r.info)

/-- emtfxml.py L402-L414: the element as it is found in the file. -/
def writeRights (q : Bool) (r : Rights) : El := stored q (pretty 1 (rightsEl r))

/-- common/citation.py L62: `^\d{4}(-\d{4})?$` (digits of ASCII). -/
def yearOk (s : Str) : Bool :=
  (s.length == 4 && s.all Char.isDigit) ||
    (s.length == 9 && (s.take 4).all Char.isDigit && s[4]? == some '-' && (s.drop 5).all Char.isDigit)

/-- A year or `None`. -/
def yearOf (v : J) : Except PyErr (Option Str) :=
  match v with
  | .null => .ok none
  | .str s => if yearOk s then .ok (some s) else .error .valueError
  | _ => .error .valueError

/-- A DOI or `None`. -/
def doiField (L : Links) (v : J) : Except PyErr (Option Str) :=
  match v with
  | .null => doiOf L none
  | .str s => doiOf L (some s)
  | _ => .error .valueError

/-- common/enumerations.py L25-L48: a word of an enumeration whatever the case of its letters. -/
def statusOf (v : J) : Except PyErr Str :=
  match v with
  | .str s =>
    match statuses.find? (fun m => lower m == lower s) with
    | some m => .ok m
    | none => .error .valueError
  | _ => .error .valueError

/-- base/helpers.py L545-L568, base/metadata.py L173-L187: keys of the citation are set one by one; `None` is no citation. -/
def readCite (L : Links) (old : Cite) (v : J) : Except PyErr Cite :=
  match v with
  | .dict d =>
    (field d "title" old.title optText).bind fun title =>
    (field d "authors" old.authors optText).bind fun authors =>
    (field d "year" old.year yearOf).bind fun year =>
    (field d "survey_d_o_i" old.surveyDoi (doiField L)).bind fun surveyDoi =>
    (field d "doi" old.doi (doiField L)).bind fun doi =>
    (field d "journal" old.journal optText).bind fun journal =>
    (field d "volume" old.volume optText).bind fun volume =>
    (field d "pages" old.pages optText).bind fun pages => .ok ⟨title, authors, year, surveyDoi, doi, journal, volume, pages⟩
  | _ => .error .valueError

/-- copyright.py L103-L112 `read_dict`, helpers.py L124-L143: into the object; without the element nothing changes. -/
def readRights (L : Links) (old : Rights) (es : List El) : Except PyErr Rights :=
  (rootValue es).bind fun v =>
    match v with
    | none => .ok old
    | some (.dict d) =>
      (field d "citation" old.cite (readCite L old.cite)).bind fun cite =>
      (field d "selected_publications" old.publications optText).bind fun publications =>
      (field d "acknowledgement" old.acknowledgement optText).bind fun acknowledgement =>
      (field d "release_status" old.status statusOf).bind fun status =>
      (field d "conditions_of_use" old.conditions plainText).bind fun conditions =>
      (field d "additional_info" old.info optText).bind fun info => .ok ⟨cite, publications, acknowledgement, status, conditions, info⟩
    | some _ => .ok old

/-- emtfxml.py L877-L881: the citation of a survey's data set becomes that of the file. -/
def ofSurvey (old s : Cite) : Cite := { old with surveyDoi := s.doi, authors := s.authors, title := s.title, year := s.year }

end Verif.EmtfRest
