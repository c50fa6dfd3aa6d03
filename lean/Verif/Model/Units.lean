import Verif.Base.Py

/-!
Model of `mt_metadata/common/units.py`. Strings are lists of characters. `str.lower` and
`str.isupper` are those of the ASCII letters and of the ohm sign's Greek letter.
-/

namespace Verif.Units

/-- `str.lower`, see the header. -/
def lowerC (c : Char) : Char := if c = 'Ω' then 'ω' else c.toLower

/-- `str.lower`. -/
def lower (s : Str) : Str := s.map lowerC

/-- An upper-case character. -/
def isUpC (c : Char) : Bool := c.isUpper || c == 'Ω'

/-- `str.isupper` for strings of letters. -/
def isUpper (s : Str) : Bool := !s.isEmpty && s.all isUpC

/-- `str.capitalize`. -/
def capitalize : Str → Str
  | [] => []
  | c :: cs => c.toUpper :: lower cs

/-- `str.strip()`. -/
def strip (s : Str) : Str :=
  ((s.dropWhile Char.isWhitespace).reverse.dropWhile Char.isWhitespace).reverse

/-- L173-L251 `Unit`. -/
structure Unit where
  name : Str
  description : Str
  symbol : Str
  label : Str
  deriving DecidableEq, Repr

/-- L24-L46 `prefixes`. -/
def prefixes : List (Str × Str) :=
  [("", ""), ("yotta", "Y"), ("zetta", "Z"), ("exa", "E"), ("peta", "P"), ("tera", "T"),
   ("giga", "G"), ("mega", "M"), ("kilo", "k"), ("hecto", "h"), ("deca", "da"), ("deci", "d"),
   ("centi", "c"), ("milli", "m"), ("micro", "μ"), ("nano", "n"), ("pico", "p"), ("femto", "f"),
   ("atto", "a"), ("zepto", "z"), ("yocto", "y")].map (fun p => (p.1.toList, p.2.toList))

/-- L49-L129 `base_units` and `derived_units`: name, symbol, description. The `unicode_symbol` is the
symbol for every unit. -/
def plainUnits : List (Str × Str × Str) :=
  [("meter", "m", "Unit of length"), ("kilogram", "kg", "Unit of mass"),
   ("second", "s", "Unit of time"), ("ampere", "A", "Unit of electric current"),
   ("kelvin", "K", "Unit of thermodynamic temperature"),
   ("mole", "mol", "Unit of amount of substance"), ("candela", "cd", "Unit of luminous intensity"),
   ("radian", "rad", "Unit of angle"), ("hertz", "Hz", "Unit of frequency"),
   ("newton", "N", "Unit of force"), ("joule", "J", "Unit of energy"),
   ("watt", "W", "Unit of power"), ("pascal", "Pa", "Unit of pressure"),
   ("coulomb", "C", "Unit of electric charge"), ("volt", "V", "Unit of electric potential"),
   ("ohm", "Ω", "Unit of electrical resistance"), ("siemens", "S", "Unit of electrical conductance"),
   ("weber", "Wb", "Unit of magnetic flux"), ("tesla", "T", "Unit of magnetic flux density"),
   ("henry", "H", "Unit of inductance")].map (fun p => (p.1.toList, p.2.1.toList, p.2.2.toList))

/-- A unit from string literals. -/
def unitOf (name description symbol label : String) : Unit :=
  { name := name.toList, description := description.toList, symbol := symbol.toList, label := label.toList }

/-- The unit returned when none is found. -/
def unknown : Unit := unitOf "unknown" "unknown" "unknown" "Unknown"

/-- L132-L156, with a prefix. L157-L168: the name is capitalised when the symbol is upper case. -/
def prefixed (p : Str × Str) (u : Str × Str × Str) : Unit where
  name := p.1 ++ (if isUpper u.2.1 then capitalize u.1 else u.1)
  description := capitalize p.1 ++ ' ' :: u.2.2
  symbol := p.2 ++ u.2.1
  label := p.2 ++ u.2.1

/-- L132-L171 `UNITS_DF`. -/
def table : List Unit :=
  [unknown,
   unitOf "digital counts" "digital counts from data logger" "count" "Digital Counts",
   unitOf "digital counts" "digital counts from data logger" "counts" "Digital Counts",
   unitOf "samples" "number of samples" "samples" "Samples",
   unitOf "celsius" "Unit of temperature" "C" "Celsius"] ++
  prefixes.flatMap (fun p => plainUnits.map (prefixed p))

/-- The separators L281. -/
inductive Sep where
  | slash
  | per
  | blank
  deriving DecidableEq, Repr

/-- The separator as it occurs in a unit string. -/
def Sep.str : Sep → Str
  | .slash => ['/']
  | .per => [' ', 'p', 'e', 'r', ' ']
  | .blank => [' ']

/-- `s.find(pat)`, `none` standing for -1. -/
def find (pat : Str) : Str → Option Nat
  | [] => if pat.isPrefixOf [] then some 0 else none
  | c :: cs => if pat.isPrefixOf (c :: cs) then some 0 else (find pat cs).map (· + 1)

/-- Of two separators found, the one at the smaller index, the first of the two in a tie. -/
def better : Option (Nat × Sep) → Option (Nat × Sep) → Option (Nat × Sep)
  | none, b => b
  | a, none => a
  | some a, some b => if b.1 < a.1 then some b else some a

/-- L266-L290 `find_separator`: the separators are sorted by index (stably, in the order "/", " per ",
" ") and the first that occurs is returned; here together with its index. -/
def findSep (s : Str) : Option (Nat × Sep) :=
  better (better ((find Sep.slash.str s).map (·, Sep.slash)) ((find Sep.per.str s).map (·, Sep.per)))
    ((find Sep.blank.str s).map (·, Sep.blank))

/-- One entry of the result of `parse_unit_string`. `None` and `""` are both `none`. -/
structure Part where
  name : Str
  sep : Option Sep
  deriving DecidableEq, Repr

/-- `s.split(None, 1)[0]`, `none` if there is no word. -/
def firstWord (s : Str) : Option Str :=
  match (s.dropWhile Char.isWhitespace).takeWhile (fun c => !c.isWhitespace) with
  | [] => none
  | w => some w

/-- L313-L325, the loop of `parse_unit_string`. Each round with a separator shortens the string, so
`length + 1` rounds suffice (`loop_fuel`). Without a separator the loop ends after the round. -/
def loop : Nat → Str → List Part
  | 0, _ => []
  | n + 1, s =>
    match findSep s with
    | none =>
      match firstWord s with
      | none => []
      | some w => [{ name := w, sep := none }]
    | some (i, sep) =>
      let a := strip (s.take i)
      let rest := loop n (strip (s.drop (i + sep.str.length)))
      if a = [] then rest else { name := a, sep := some sep } :: rest

/-- L332-L335: every entry gets the separator of the entry before it. -/
def shift : Option Sep → List Part → List Part
  | _, [] => []
  | prev, p :: ps => { name := p.name, sep := prev } :: shift p.sep ps

/-- L293-L336 `parse_unit_string`. -/
def parse (s : Str) : Except PyErr (List Part) :=
  let s := s.filter (fun c => c ≠ '[' ∧ c ≠ ']')
  match loop (s.length + 1) s with
  | [] => .error .valueError
  | [p] => .ok [p]
  | ps => .ok (shift none ps)

/-- How names are joined (L239-L244). -/
def nameSep : Option Sep → Str
  | some .slash => Sep.per.str
  | some .per => Sep.per.str
  | _ => Sep.blank.str

/-- How symbols are joined (L239-L244). -/
def symSep : Option Sep → Str
  | some .slash => Sep.slash.str
  | some .per => Sep.slash.str
  | _ => Sep.blank.str

/-- L219-L251 `Unit.combine`. -/
def combine (a b : Unit) (sep : Option Sep) : Unit where
  name := a.name ++ nameSep sep ++ b.name
  description := a.description ++ nameSep sep ++ b.description
  symbol := a.symbol ++ symSep sep ++ b.symbol
  label := a.label ++ symSep sep ++ b.label

/-- L395-L447 `get_unit_from_df`. -/
def fromDf (v : Str) (allowNone : Bool) : Except PyErr Unit :=
  match table.find? (fun r => lower r.name == lower v || r.symbol == v) with
  | some r => .ok r
  | none =>
    match (if v.length = 1 then table.find? (fun r => lower r.symbol == lower v) else none) with
    | some r => .ok r
    | none => if allowNone then .ok unknown else .error .keyError

/-- L384-L390: combine the remaining parts. -/
def combineAll (allowNone : Bool) : Unit → List Part → Except PyErr Unit
  | u, [] => .ok u
  | u, p :: ps =>
    match fromDf p.name allowNone with
    | .error e => .error e
    | .ok v => combineAll allowNone (combine u v p.sep) ps

/-- L369: the spellings of digital counts. -/
def isCounts (s : Str) : Bool :=
  lower s == "digital counts".toList || lower s == "counts".toList || lower s == "digital count".toList

/-- L339-L392 `get_unit_object`. -/
def getUnit (s : Option Str) (allowNone : Bool) : Except PyErr Unit :=
  match s with
  | none => .ok unknown
  | some s =>
    if isCounts s then fromDf "digital counts".toList allowNone
    else if s = [] then .ok unknown
    else
      match parse s with
      | .error e => .error e
      | .ok [] => .error .valueError
      | .ok (p :: ps) =>
        match fromDf p.name allowNone with
        | .error e => .error e
        | .ok u => combineAll allowNone u ps

end Verif.Units
