import Verif.Base.Text
import Verif.Model.LicenseData

/-!
# Licences

Model of the licence enumeration (`common/enumerations.py` L209-L266), of its validation
(`common/copyright.py`, `timeseries/survey.py` L356-L364) and of the way a survey's licence is
written to and read from a StationXML network (`stationxml/fdsn_tools.py` L41-L52,
`stationxml/xml_network_mt_survey.py`).
-/

namespace Verif.License
open Verif.Text

/-- `.replace("-", "_").replace(" ", "_")…` (enumerations.py L236-L244, copyright.py L38-L46,
xml_network_mt_survey.py L183-L189). -/
def norm (s : Str) : Str :=
  s.map (fun c => if c ∈ ['-', ' ', '.', '(', ')', '/', ':'] then '_' else c)

/-- enumerations.py L222-L231 -/
def base : List (Str × Str) :=
  [("CC_0", "CC0"), ("CC0", "CC0"), ("CC_BY", "CC BY"), ("CC_BY_SA", "CC BY-SA"),
    ("CC_BY_NC", "CC BY-NC"), ("CC_BY_NA_SA", "CC BY-NC-SA"), ("CC_BY_ND", "CC BY-ND"),
    ("CC_BY_NC_ND", "CC BY-NC-ND")].map (fun p => (p.1.toList, p.2.toList))

/-- enumerations.py L233-L250: `LicenseEnum.__members__`, name to value (two names with one value
are aliases in Python; both are kept in `__members__`). -/
def members : OD Str Str :=
  OD.ofPairs (base ++ spdx.map (fun i => (norm i, i)))

/-- The enum schema of pydantic: only values of members pass; `use_enum_values` keeps the value. -/
def enumCheck (v : Str) : Except PyErr Str :=
  if v ∈ OD.values members then .ok v else .error .valueError

/-- copyright.py L30-L50 `Copyright(release_license=value)`. -/
def copyright : Option Str → Except PyErr Str
  | none => enumCheck "CC BY 4.0".toList
  | some s =>
    if s = [] then enumCheck "CC BY 4.0".toList
    else
      match OD.get? members (norm s) with
      | some v => enumCheck v
      | none => .error .nameError

/-- survey.py L356-L364 `survey.release_license = value`: anything but a string becomes `None`,
which the field of type `str` refuses. -/
def surveyLicense : Option Str → Except PyErr Str
  | none => .error .valueError
  | some s => copyright (some s)

/-- The words for the release status. -/
def sOpen : Str := ['o', 'p', 'e', 'n']
def sClosed : Str := ['c', 'l', 'o', 's', 'e', 'd']
def sPartial : Str := ['p', 'a', 'r', 't', 'i', 'a', 'l']

/-- `key.count(sub)`: occurrences that do not overlap. -/
def count (sub s : Str) : Nat := (splitSub sub s).length - 1

/-- fdsn_tools.py L42-L52: the release status of a licence name. -/
def classify (k : Str) : Str :=
  if ['C', 'C'].isPrefixOf k then
    if hasSub ['S', 'A'] k || hasSub ['N', 'A'] k || hasSub ['N', 'D'] k || hasSub ['N', 'C'] k
    then
      if count ['N', 'C'] k > 1 || hasSub ['N', 'D'] k then sClosed
      else sPartial
    else sOpen
  else sPartial

/-- fdsn_tools.py L41 -/
def release0 : OD (Option Str) Str :=
  [(none, sOpen), (some sOpen, sOpen),
    (some sClosed, sClosed), (some sPartial, sPartial)]

/-- fdsn_tools.py L41-L52 `release_dict`. -/
def releaseDict : OD (Option Str) Str :=
  (OD.keys members).foldl (fun (d : OD (Option Str) Str) k => OD.set d (some k) (classify k)) release0

/-- utils.py L43-L69 `flip_dict(release_dict)`. -/
def flipped : OD Str (Option Str) :=
  releaseDict.foldl (fun (d : OD Str (Option Str)) p => OD.set d p.2 p.1) []

/-- `d[k]` -/
def item {κ ν : Type} [DecidableEq κ] (d : OD κ ν) (k : κ) : Except PyErr ν :=
  match OD.get? d k with
  | some v => .ok v
  | none => .error .keyError

/-- xml_network_mt_survey.py L181-L190: the status written for a licence. -/
def writeStatus (v : Str) : Except PyErr Str := item releaseDict (some (norm v))

/-- xml_network_mt_survey.py L134-L136: the licence read for a status. -/
def readStatus (st : Str) : Except PyErr Str := (item flipped st).bind surveyLicense

/-- Writing a survey's licence to a network and reading it again. -/
def trip (v : Str) : Except PyErr Str := (writeStatus v).bind readStatus

end Verif.License
