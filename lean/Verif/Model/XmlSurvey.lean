import Verif.Model.XmlText

/-! # Surveys in StationXML

`timeseries/stationxml/xml_network_mt_survey.py` (`mt_to_xml`, `xml_to_mt`) with `read_xml_identifier` and `make_mt_comments` of
`utils.py` and `utils/validators.py` (`validate_doi`): which fields of a survey are written to a network, and what is made of them.

Simplifications: texts of comments are as in a file; obspy's objects are records that keep what they are given (obspy may refuse a code
or an e-mail address that is `None`); dates are integers, zero is the default; the release status of a licence (Model/License) and what
pydantic makes of a URL are functions of the world; comments that `mt_to_xml` does not write, texts with `|` (Model/Comment), stations,
filters and the validation of e-mail addresses are left out. -/

namespace Verif.XmlSurvey
open Verif.Text Verif.XmlText

/-- What is taken from other places. -/
structure World where
  /-- `HttpUrl(text)` as a text -/
  url : Str → Except PyErr Str
  /-- xml_network_mt_survey.py L186-L195 (Model/License `writeStatus`) -/
  status : Str → Except PyErr Str
  /-- xml_network_mt_survey.py L141-L143 (Model/License `readStatus`) -/
  license : Str → Except PyErr Str

/-- timeseries/survey.py L36-L333: the fields that are written or read. -/
structure Survey where
  id : Str
  name : Str
  network : Option Str
  comments : Option Str
  summary : Str
  geographic : Str
  project : Str
  country : Option (List Str)
  start : Int
  stop : Int
  doi : Option Str
  journal : Option Str
  license : Str
  leadAuthor : Option Str
  leadOrg : Option Str
  leadEmail : Option Str
  acqAuthor : Option Str
  acqComments : Option Str
deriving DecidableEq, Repr

/-- `obspy.core.inventory.Operator` with its contacts: names and e-mail addresses. -/
structure Operator where
  agency : Str
  contacts : List (List Str × List (Option Str))
deriving DecidableEq, Repr

/-- `obspy.core.inventory.Network`: what is written. -/
structure Network where
  code : Option Str
  alternate : Str
  description : Str
  start : Int
  stop : Int
  status : Str
  operators : List Operator
  identifiers : List Str
  comments : List XComment
deriving DecidableEq, Repr

/-! ## DOIs -/

def doiOrg : Str := "https://doi.org/".toList
def dxDoiOrg : Str := "https://dx.doi.org/".toList

/-- utils/validators.py L72-L77 -/
def checkDoi (u : Str) : Except PyErr (Option Str) :=
  if doiOrg.isPrefixOf u then .ok (some u)
  else if dxDoiOrg.isPrefixOf u then .ok (some u)
  else .error .valueError

/-- utils/validators.py L65-L68 -/
def completeDoi (t : Str) : Str :=
  if "10.".toList.isPrefixOf t then doiOrg ++ t
  else if "doi:".toList.isPrefixOf t then doiOrg ++ replaceSub "doi:".toList [] t
  else t

/-- utils/validators.py L41-L77 `validate_doi`, of a text -/
def validateDoi (W : World) (t : Str) : Except PyErr (Option Str) :=
  if t = [] then .ok none else (W.url (completeDoi t)).bind checkDoi

/-- utils.py L159-L173 `read_xml_identifier` -/
def readIdentifiers (l : List Str) : Str := join [',', ' '] (l.map fun i => replaceSub "DOI:".toList doiOrg (strip i))

/-- `f"DOI:{doi}"` (xml_network_mt_survey.py L196-L198) -/
def writeIdentifier (doi : Option Str) : Str := "DOI:".toList ++ doi.getD "None".toList

/-! ## Writing -/

/-- utils.py L222-L230: a comment if there is a value. -/
def textComment (key : Str) (v : Str) : List XComment := if v = [] then [] else [⟨v, some ("mt.survey.".toList ++ key)⟩]

/-- utils.py L195-L230 `make_mt_comments` with xml_network_mt_survey.py L57-L65, the keys sorted. -/
def surveyComments (s : Survey) : List XComment :=
  textComment "acquired_by.author".toList (s.acqAuthor.getD []) ++
  textComment "acquired_by.comments.value".toList (s.acqComments.getD []) ++
  textComment "citation_journal.doi".toList (s.journal.getD []) ++
  textComment "country".toList (join [',', ' '] (s.country.getD [])) ++
  textComment "geographic_name".toList s.geographic ++
  textComment "id".toList s.id ++
  textComment "project".toList s.project

/-- xml_network_mt_survey.py L170-L181 -/
def writeLead (s : Survey) : List Operator :=
  if s.leadOrg.getD [] = [] then []
  else [⟨s.leadOrg.getD [], if s.leadAuthor.getD [] = [] then [] else [([s.leadAuthor.getD []], [s.leadEmail])]⟩]

/-- xml_network_mt_survey.py L150-L204 `mt_to_xml`: the code that is given (L164) is replaced by that of the survey (L200), the comment of
the survey (L182-L185) by the others (L201-L202). -/
def write (W : World) (s : Survey) (code : Str := "ZU".toList) : Except PyErr Network :=
  let _ := code
  (W.status s.license).map fun st => {
    code := s.network
    alternate := s.id
    description := s.summary
    start := s.start
    stop := s.stop
    status := st
    operators := writeLead s
    identifiers := [writeIdentifier s.doi]
    comments := surveyComments s }

/-! ## Reading -/

/-- A new survey. -/
def blank : Survey where
  id := []
  name := []
  network := none
  comments := none
  summary := []
  geographic := []
  project := []
  country := none
  start := 0
  stop := 0
  doi := none
  journal := none
  license := "CC-BY-4.0".toList
  leadAuthor := some []
  leadOrg := none
  leadEmail := none
  acqAuthor := some []
  acqComments := none

/-- A text where a text is wanted; a dictionary is refused by pydantic. -/
def asText : CVal → Except PyErr Str
  | .text s => .ok s
  | .dict _ => .error .valueError

/-- xml_network_mt_survey.py L109-L115: a DOI in a comment gets the address; a dictionary has no `startswith`. -/
def webDoi : CVal → Except PyErr CVal
  | .dict _ => .error .attributeError
  | .text t =>
    if "http".toList.isPrefixOf t then .ok (.text t)
    else if hasSub "doi.org".toList t then .ok (.text ("https://".toList ++ t))
    else .ok (.text (doiOrg ++ t))

/-- xml_network_mt_survey.py L117: `key.split("mt.survey.")[1]` -/
def surveyKey (key : Str) : Except PyErr Str :=
  match splitSub "mt.survey.".toList key with
  | _ :: k :: _ => .ok k
  | _ => .error .indexError

/-- xml_network_mt_survey.py L118-L126 with the validators of survey.py (L366-L377 for the countries), citation.py and comment.py -/
def setField (W : World) (s : Survey) (key : Str) (v : CVal) : Except PyErr Survey :=
  if key = "acquired_by.author".toList then (asText v).map fun t => { s with acqAuthor := some t }
  else if key = "acquired_by.comments.value".toList then (asText v).map fun t => { s with acqComments := some t }
  else if key = "citation_journal.doi".toList then ((asText v).bind (validateDoi W)).map fun d => { s with journal := d }
  else if key = "country".toList then (asText v).map fun t => { s with country := some ((splitC ',' t).map strip) }
  else if key = "geographic_name".toList then (asText v).map fun t => { s with geographic := t }
  else if key = "id".toList then (asText v).map fun t => { s with id := t }
  else if key = "project".toList then (asText v).map fun t => { s with project := t }
  else .ok s

/-- xml_network_mt_survey.py L107-L126: one comment. -/
def readOne (W : World) (s : Survey) (c : XComment) : Except PyErr Survey :=
  (readComment c).bind fun p =>
  (if hasSub "doi".toList p.1 then webDoi p.2 else .ok p.2).bind fun v =>
  if hasSub "mt.survey".toList p.1 then (surveyKey p.1).bind fun k => setField W s k v else .ok s

/-- xml_network_mt_survey.py L106-L132 -/
def readComments (W : World) (s : Survey) (cs : List XComment) : Except PyErr Survey := cs.foldlM (readOne W) s

/-- `", ".join(person.emails)`: texts only -/
def joinTexts (l : List (Option Str)) : Except PyErr Str :=
  if l.all Option.isSome then .ok (join [',', ' '] (l.map fun o => o.getD [])) else .error .typeError

/-- xml_network_mt_survey.py L86-L101: the leader of the project. -/
def readLead (s : Survey) (ops : List Operator) : Except PyErr Survey :=
  let people := ops.flatMap Operator.contacts
  let names := people.map fun p => join [',', ' '] p.1
  (people.mapM fun p => joinTexts p.2).map fun emails =>
    { s with
      leadAuthor := if names = [] then s.leadAuthor else some (join [',', ' '] names)
      leadEmail := if emails = [] then s.leadEmail else some (join [',', ' '] emails)
      leadOrg := if ops = [] then s.leadOrg else some (join [',', ' '] (ops.map Operator.agency)) }

/-- xml_network_mt_survey.py L144-L145: an empty name becomes the code of the network; `None` is refused. -/
def fillId (s : Survey) : Except PyErr Survey :=
  if s.id = [] then
    match s.network with
    | some n => .ok { s with id := n }
    | none => .error .valueError
  else .ok s

/-- xml_network_mt_survey.py L67-L148 `xml_to_mt`, in the order of L52-L55. -/
def read (W : World) (n : Network) : Except PyErr Survey :=
  (readComments W { blank with id := n.alternate, network := n.code } n.comments).bind fun s =>
  (validateDoi W (readIdentifiers n.identifiers)).bind fun d =>
  (W.license n.status).bind fun l =>
  (readLead { s with summary := n.description, doi := d, license := l, start := n.start, stop := n.stop } n.operators).bind fun s =>
  fillId { s with name := n.alternate }

/-- A survey written and read again. -/
def trip (W : World) (s : Survey) (code : Str := "ZU".toList) : Except PyErr Survey := (write W s code).bind (read W)

end Verif.XmlSurvey
