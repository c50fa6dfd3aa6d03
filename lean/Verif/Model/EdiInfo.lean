import Verif.Base.Text
import Verif.Base.Py

/-! The information section of an EDI file:
`mt_metadata/transfer_functions/io/edi/metadata/information.py`.

Simplifications: the lines of the file are without their line ends; lower case is that of the ASCII
letters; lists in the dictionary are lists of texts (lists of dictionaries, which are not written,
are left out); `str` of a list is the parameter `repr`. -/

namespace Verif.EdiInfo
open Verif.Text

/-- A value of `info_dict` (L31). -/
inductive IV where
  | null
  | text (s : Str)
  | list (l : List Str)
  deriving DecidableEq, Repr

/-- `info_dict` -/
abbrev Info := OD Str IV

/-! ## The section -/

/-- L150-L176 `read_info`: the lines of the section, stripped, without empty ones. -/
def sectionLines : Bool → List Str → List Str
  | _, [] => []
  | found, l :: ls =>
    if hasSub ">info".toList (lower (strip l)) = true then sectionLines true ls
    else if found = true ∧ (strip l).head? = some '>' then []
    else if found = true ∧ strip l ≠ [] then strip l :: sectionLines found ls
    else sectionLines found ls

/-- The three formats. -/
inductive Fmt where
  | standard | phoenix | empower
  deriving DecidableEq, Repr

/-- L167 -/
def phoenixMark (l : Str) : Bool := hasSub "run information".toList (lower l)

/-- L169-L173 -/
def empowerMark (l : Str) : Bool :=
  (hasSub "empower".toList (lower l) && hasSub "v".toList (lower l)) || hasSub "electrics".toList (lower l) ||
    hasSub "magnetics".toList (lower l)

/-- L166-L187: the format that is used. -/
def format (ls : List Str) : Fmt :=
  if ls.any (fun l => !phoenixMark l && empowerMark l) = true then .empower
  else if ls.any phoenixMark = true then .phoenix
  else .standard

/-- L189-L193 `_comments_to_string` -/
def joinComments (d : Info) : Info :=
  d.map fun p => (p.1, match p.2 with
    | .list l => if hasSub "comment".toList p.1 = true then .text (join [','] l) else .list l
    | v => v)

/-- L195-L210 `_get_separator` -/
def separator (line : Str) : Option Char :=
  match find [':'] line, find ['='] line with
  | some i, some j => if i < j then some ':' else some '='
  | some _, none => some ':'
  | none, some _ => some '='
  | none, none => none

/-- `line.split(sep, 1)` of a line that has the separator, both parts stripped and the first one in
lower case (L225-L230, L275-L280, L359-L364). -/
def keyValue (sep : Char) (line : Str) : Str × Str :=
  (lower (strip (split1 sep line).1), strip ((split1 sep line).2.getD []))

/-! ## The standard format -/

/-- L62-L97 `_translation_dict` -/
def translation : OD Str Str :=
  [("operator", "run.acquired_by.author"), ("adu_serial", "run.data_logger.id"),
    ("e_azimuth", "run.ex.measurement_azimuth"), ("ex_len", "run.ex.dipole_length"),
    ("ey_len", "run.ey.dipole_length"), ("ex_resistance", "run.ex.contact_resistance.start"),
    ("ey_resistance", "run.ey.contact_resistance.start"), ("h_azimuth", "run.hx.measurement_azimuth"),
    ("hx", "run.hx.sensor.id"), ("hy", "run.hy.sensor.id"), ("hz", "run.hz.sensor.id"),
    ("hx_resistance", "run.hx.h_field_max.start"), ("hy_resistance", "run.hy.h_field_max.start"),
    ("hz_resistance", "run.hz.h_field_max.start"), ("algorithmname", "transfer_function.software.name"),
    ("ndec", "processing_parameter"), ("nfft", "processing_parameter"), ("ntype", "processing_parameter"),
    ("rrtype", "processing_parameter"), ("removelargelines", "processing_parameter"),
    ("rotmaxe", "processing_parameter"), ("project", "survey.project"),
    ("processedby", "transfer_function.processed_by.name"),
    ("processingsoftware", "transfer_function.software.name"), ("processingtag", "transfer_function.id"),
    ("signconvention", "transfer_function.sign_convention"), ("sitename", "station.geographic_name"),
    ("survey", "survey.id"), ("year", "survey.time_period.start_date"),
    ("runlist", "transfer_function.runs_processed"), ("remotesite", "transfer_function.remote_references"),
    ("remoteref", "transfer_function.processing_parameters")].map fun p => (p.1.toList, p.2.toList)

/-- L232-L241: a value in brackets is a list. -/
def parseValue (v : Str) : IV :=
  if v.head? = some '[' ∧ v.getLast? = some ']' then
    .list (words (replaceC ':' [' '] (replaceC ';' [' '] (replaceC ',' [' '] (v.drop 1).dropLast))))
  else .text v

/-- f"{value}" -/
def showIV (repr : List Str → Str) : IV → Str
  | .null => "None".toList
  | .text s => s
  | .list l => repr l

/-- "transfer_function.processing_parameters" -/
def paramKey : Str := "transfer_function.processing_parameters".toList

/-- L249-L253: the parameters there are, as a list. -/
def params (d : Info) : List Str :=
  match d.get? paramKey with
  | none => []
  | some (.list l) => l
  | some (.text s) => [s]
  | some .null => ["None".toList]

/-- L214-L262, one line of `_parse_standard_info`.  (`None` is never a value here; L252 would make it
a list with `None`.) -/
def standardLine (repr : List Str → Str) (d : Info) (line : Str) : Info :=
  if line = [] ∨ '<' ∈ line ∨ '>' ∈ line then d
  else match separator line with
    | none => d.set (strip line) (.text [])
    | some sep =>
      let key := (keyValue sep line).1
      let value := parseValue (keyValue sep line).2
      match translation.get? key with
      | some std =>
        if std = "processing_parameter".toList then
          d.set paramKey (.list (params d ++ [key ++ '=' :: showIV repr value]))
        else d.set std value
      | none => d.set key value

/-- L212-L262 `_parse_standard_info` -/
def standardInfo (repr : List Str → Str) (ls : List Str) : Info := ls.foldl (standardLine repr) []

/-! ## The Phoenix format -/

/-- L38-L60 `_phoenix_translation_dict`, without the two entries for voltages, which are lists and are
not reached (L591-L601). -/
def phoenixTranslation : OD Str Str :=
  [("survey", "survey.id"), ("company", "station.acquired_by.organization"), ("job", "survey.project"),
    ("hardware", "run.data_logger.model"), ("mtuprog version", "run.data_logger.firmware.version"),
    ("xpr weighting", "processing_parameter"), ("hx sen", "run.hx.sensor.id"), ("hy sen", "run.hy.sensor.id"),
    ("hz sen", "run.hz.sensor.id"), ("rx sen", "run.rrhx.sensor.id"), ("ry sen", "run.rrhy.sensor.id"),
    ("stn number", "station.id"), ("mtu-box serial number", "run.data_logger.id"),
    ("ex pot resist", "run.ex.contact_resistance.start"), ("ey pot resist", "run.ey.contact_resistance.start"),
    ("start-up", "station.time_period.start"), ("end-time", "station.time_period.end")].map
      fun p => (p.1.toList, p.2.toList)

/-- L549: the words of a line with the places where they start; `i` is the place of the next
character, `cur` the word being read and `start` its place. -/
def parts : Nat → Str → Nat → Str → List (Str × Nat)
  | _, cur, start, [] => if cur = [] then [] else [(cur, start)]
  | i, cur, start, c :: s =>
    if ws c = true then
      if cur = [] then parts (i + 1) [] (i + 1) s
      else (cur, start) :: parts (i + 1) [] (i + 1) s
    else parts (i + 1) (cur ++ [c]) start s

/-- L555-L558: the gaps between words. -/
def gaps : List (Str × Nat) → List Nat
  | a :: b :: ps => (b.2 - (a.2 + a.1.length)) :: gaps (b :: ps)
  | _ => []

/-- L564: the largest gap. -/
def maxGap (l : List Nat) : Nat := l.foldl max 0

/-- L568-L569: the place of the word after the first gap of that size. -/
def wordAfter (g : Nat) : List (Str × Nat) → Nat
  | a :: b :: ps => if b.2 - (a.2 + a.1.length) = g then b.2 else wordAfter g (b :: ps)
  | _ => 0

/-- `":" in s or "=" in s` -/
def hasSep (s : Str) : Bool := s.contains ':' || s.contains '='

/-- L537-L582 `_split_phoenix_columns`: the columns. -/
def columns (line : Str) : List Str :=
  let ps := parts 0 [] 0 line
  if line.length < 10 then [line]
  else if ps.length < 4 then [line]
  else if maxGap (gaps ps) ≤ 3 then [line]
  else
    let pos := wordAfter (maxGap (gaps ps)) ps
    let left := strip (line.take pos)
    let right := strip (line.drop pos)
    if hasSep left && hasSep right then [left, right] else [line]

/-- L281-L282: a value with two blanks in it is cut at the first blank. -/
def phoenixValue (v : Str) : Str :=
  if hasSub "  ".toList v = true then strip ((splitC ' ' v).headD []) else v

/-- L594-L600: one of `AC=1mV,DC=2mV`. -/
def voltage (key : Str) (d : Info) (comp : Str) : Except PyErr Info :=
  if '=' ∈ comp then
    match splitC '=' comp with
    | [typ, val] =>
      .ok (d.set ("run.".toList ++ key.take 2 ++ '.' :: (lower typ ++ ".start".toList))
        (.text (replaceSub "mV".toList [] val)))
    | _ => .error .valueError
  else .ok d

/-- L587-L588: of the resistance of an electrode the first word is kept. -/
def potValue (key value : Str) : Except PyErr Str :=
  if hasSub "pot resist".toList key = true then
    match words value with
    | w :: _ => .ok w
    | [] => .error .indexError
  else .ok value

/-- L590-L616 -/
def storePhoenix (d : Info) (key value : Str) : Except PyErr Info :=
  if hasSub "voltage".toList key = true then
    (splitC ',' (replaceC ' ' [] value)).foldlM (voltage key) d
  else
    let std := (phoenixTranslation.get? key).getD "phoenix_attribute".toList
    let d := d.set std (.text value)
    if hasSub " sen".toList key = true then
      match words key with
      | comp :: _ =>
        .ok ((d.set (comp ++ ".sensor.manufacturer".toList) (.text "Phoenix Geophysics".toList)).set
          (comp ++ ".sensor.type".toList) (.text "Induction Coil".toList))
      | [] => .error .indexError
    else .ok d

/-- L584-L616 `_apply_phoenix_translation`; keys are in lower case. -/
def applyPhoenix (d : Info) (key value : Str) : Except PyErr Info := (potValue key value).bind (storePhoenix d key)

/-- L271-L283: one column. -/
def phoenixColumn (d : Info) (col : Str) : Except PyErr Info :=
  match separator col with
  | none => .ok d
  | some sep => applyPhoenix d (keyValue sep col).1 (phoenixValue (keyValue sep col).2)

/-- L264-L283 `_parse_phoenix_info` -/
def phoenixInfo (ls : List Str) : Except PyErr Info :=
  (ls.flatMap columns).foldlM phoenixColumn []

/-! ## The Empower format -/

/-- L98-L129 `_empower_translation_dict` -/
def empowerTranslation : OD Str Str :=
  [("processingsoftware", "transfer_function.software.name"), ("sitename", "station.geographic_name"),
    ("year", "survey.time_period.start_date"), ("process_date", "transfer_function.processed_date"),
    ("declination", "station.location.declination.value"), ("tag", "component"), ("length", "dipole_length"),
    ("ac", "ac.end"), ("dc", "dc.end"), ("negative res", "contact_resistance.start"),
    ("negative_res", "contact_resistance.start"), ("positive res", "contact_resistance.end"),
    ("positive_res", "contact_resistance.end"), ("sensor type", "sensor.model"), ("sensor_type", "sensor.model"),
    ("detected sensor type", "sensor.model"), ("azimuth", "measured_azimuth"), ("sensor serial", "sensor.id"),
    ("sensor_serial", "sensor.id"), ("cal name", "comments"), ("cal_name", "comments"), ("saturation", "comments"),
    ("instrument type", "data_logger.model"), ("station name", "geographic_name"), ("operator", "acquired_by.author"),
    ("recording id", "id"), ("min value", "comments"), ("max value", "comments")].map
      fun p => (p.1.toList, p.2.toList)

/-- L498-L511 `component_map`; its keys are the components of L334-L347. -/
def componentMap : OD Str Str :=
  [("ex", "ex"), ("ey", "ey"), ("hx", "hx"), ("hy", "hy"), ("hz", "hz"), ("rx", "rrhx"), ("ry", "rrhy"), ("e1", "ex"),
    ("e2", "ey"), ("h1", "hx"), ("h2", "hy"), ("h3", "hz")].map fun p => (p.1.toList, p.2.toList)

/-- `section`, `component`, `sub_section` (L292-L294); the empty text is `None`, which counts as false
in the same way. -/
structure Ctx where
  sect : Str
  comp : Str
  sub : Str
  deriving DecidableEq, Repr

/-- L451-L535 `_get_empower_std_key` -/
def stdKey (c : Ctx) (key : Str) : Option Str :=
  if c.sect = "general".toList then empowerTranslation.get? key
  else if c.comp = [] then
    (empowerTranslation.get? key).map fun m =>
      if c.sect = "reference".toList then "transfer_function.remote_references.".toList ++ m
      else if c.sub ≠ [] then "run.".toList ++ m
      else m
  else
    let comp := (componentMap.get? c.comp).getD c.comp
    let pre := if c.sect = "reference".toList then "transfer_function.remote_references.".toList ++ comp ++ ['.']
      else "run.".toList ++ comp ++ ['.']
    some (pre ++ (empowerTranslation.get? key).getD
      (if key ∈ ["cal name".toList, "cal_name".toList, "saturation".toList, "min value".toList, "max value".toList]
        then "comments".toList else key))

/-- L366-L373: a unit in brackets is removed. -/
def dropUnit (v : Str) : Str :=
  if (find ['['] v).any (2 < ·) = true then
    match splitC ',' (replaceC ']' [] (replaceC '[' [] v)) with
    | [x] => (splitC ' ' (strip x)).headD []
    | xs => join [','] (xs.map strip)
  else v

/-- L375-L384: signs of units are removed. -/
def dropSigns (v : Str) : Str :=
  strip (replaceSub " Ω".toList [] (replaceSub "¦".toList [] (replaceSub " â„".toList [] (replaceSub " V".toList []
    (replaceSub " m".toList [] (replaceSub "Â".toList [] (replaceSub "°".toList [] v)))))))

/-- L405-L417: the key of a channel of the magnetic field. -/
def magneticKey (std : Str) : Str :=
  if hasSub "hx".toList std || hasSub "hy".toList std || hasSub "hz".toList std then
    if hasSub "acquired_by".toList std || hasSub "data_logger".toList std then
      replaceSub ".hz.".toList ".".toList (replaceSub ".hy.".toList ".".toList (replaceSub ".hx.".toList ".".toList std))
    else if hasSub "ac".toList std || hasSub "dc".toList std then
      replaceSub "dc".toList "comments".toList (replaceSub "ac".toList "comments".toList std)
    else std
  else std

/-- L425-L436: the key under which a value that is no comment is kept. -/
def finalKey (std : Str) : Str :=
  if hasSub "data_logger.model".toList std then "run.data_logger.model".toList
  else if ".id".toList.isSuffixOf std && !hasSub "sensor.id".toList std then "run.id".toList
  else if hasSub "geographic_name".toList std then
    if hasSub "remote_references".toList std then "transfer_function.remote_references.geographic_name".toList
    else "station.geographic_name".toList
  else if hasSub "author".toList std then "run.acquired_by.author".toList
  else std

/-- L391-L402: keys that are left out. -/
def skipped (std : Str) : Bool :=
  (hasSub "remote_references.".toList std && (hasSub "acquired_by".toList std || hasSub "data_logger".toList std ||
    hasSub "author".toList std)) ||
  (hasSub "azimuth".toList std && !hasSub "measured_azimuth".toList std)

/-- L419-L423: the comments there are, as a list. -/
def comments (d : Info) (std : Str) : List Str :=
  match d.get? std with
  | some (.list l) => l
  | some (.text s) => if s = [] then [] else [s]
  | _ => []

/-- L390-L437: a value with a standard name. -/
def storeStd (d : Info) (c : Ctx) (key value std : Str) : Info :=
  if skipped std then d
  else
    let v : IV := if hasSub "component".toList std then (if c.comp = [] then .null else .text c.comp) else .text value
    let std := magneticKey std
    if hasSub "comments".toList std then
      d.set std (.list (comments d std ++ [key ++ '=' :: showIV (fun _ => []) v]))
    else d.set (finalKey std) v

/-- L440-L449: the name of a value without a standard name. -/
def contextKey (c : Ctx) (key : Str) : Str :=
  if c.comp ≠ [] then c.sect ++ '.' :: (c.comp ++ '.' :: key)
  else if c.sub ≠ [] ∧ c.sub ≠ c.sect then c.sub ++ '.' :: key
  else if c.sect ≠ "general".toList then c.sect ++ '.' :: key
  else key

/-- "electrics", "magnetics", "reference" -/
def mainSections : List Str := ["electrics".toList, "magnetics".toList, "reference".toList]

/-- L297-L449, one line of `_parse_empower_info`; lines are stripped already (L155), so that the
indentation is always 0. -/
def empowerLine (st : Ctx × Info) (line : Str) : Ctx × Info :=
  let c := st.1
  let low := lower line
  if line = [] then st
  else if low = "stations".toList then ({ c with sect := low }, st.2)
  else if low ∈ mainSections then ({ c with sect := low, sub := low }, st.2)
  else if (c.sect ∈ mainSections ∨ c.sub ∈ mainSections) ∧ separator line = none ∧ (componentMap.get? low).isSome = true then
    ({ c with comp := low }, st.2)
  else match separator line with
    | none => if low = "editing workbench".toList then ({ c with sect := "editing_workbench".toList }, st.2) else st
    | some sep =>
      let key := (keyValue sep line).1
      let value := dropSigns (dropUnit (keyValue sep line).2)
      match stdKey c key with
      | some std => (c, storeStd st.2 c key value std)
      | none => (c, st.2.set (contextKey c key) (.text value))

/-- L285-L449 `_parse_empower_info` -/
def empowerInfo (ls : List Str) : Info :=
  (ls.foldl empowerLine (⟨"general".toList, [], []⟩, [])).2

/-! ## Reading and writing -/

/-- L137-L187 `read_info` -/
def readInfo (repr : List Str → Str) (lines : List Str) : Except PyErr Info :=
  let ls := sectionLines false lines
  match format ls with
  | .empower => .ok (joinComments (empowerInfo ls))
  | .phoenix => (phoenixInfo ls).map joinComments
  | .standard => .ok (joinComments (standardInfo repr ls))

/-- L624-L643 `write_info`, one item. -/
def infoLine (p : Str × IV) : Str :=
  "    ".toList ++ (match p.2 with
    | .null => p.1
    | .text s => if s = [] then p.1 else p.1 ++ '=' :: strip s
    | .list l => p.1 ++ '=' :: ('[' :: (join ", ".toList l ++ [']'])))

/-- L618-L643 `write_info` -/
def writeInfo (d : Info) : List Str := ">INFO".toList :: d.map infoLine

end Verif.EdiInfo
