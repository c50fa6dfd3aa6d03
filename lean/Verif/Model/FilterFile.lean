import Verif.Base.Py
import Mathlib.Algebra.Order.Ring.Rat

/-!
Model of filters as JSON and XML texts (`mt_metadata/base/metadata.py` `to_dict`, `to_json`, `from_json`, `to_xml`
for the classes of `timeseries/filters`) and of the reading of arrays from texts
(`mt_metadata/base/helpers.py` `extract_numbers`, `object_to_array`).

A filter is its flat field map. Numbers are exact and finite: `json.dumps` writes the `repr` of a float and `json.loads`
reads it back, so no digits are lost there. Comments and dates are texts.
-/

namespace Verif.FilterFile

/-- Field values: `arr` a float array (`coefficients`, `frequencies`, `amplitudes`, `phases`), `carr` a complex array
(`poles`, `zeros`). -/
inductive Val where
  | none
  | text (s : Str)
  | num (q : ℚ)
  | arr (l : List ℚ)
  | carr (l : List (ℚ × ℚ))
  deriving DecidableEq

/-- The fields of a filter, sorted by name. -/
abbrev Filter := OD Str Val

/-- metadata.py L1135 `value not in [None, "1980-01-01T00:00:00+00:00", "1980", [], ""]` for a scalar. -/
def empty : Val → Bool
  | .none => true
  | .text s => s = [] || s = "1980".toList || s = "1980-01-01T00:00:00+00:00".toList
  | _ => false

/-- metadata.py L1123-L1139: is the field in `to_dict(required=True)`? `value.all() != 0` is true when no entry is zero.
No field of a filter is a coordinate field or one of the fields of `_should_convert_none_to_empty_string`. -/
def kept (required : List Str) (name : Str) : Val → Bool
  | .arr l => name = "zeros".toList || name = "poles".toList || l.all (fun q => decide (q ≠ 0))
  | .carr l => name = "zeros".toList || name = "poles".toList || l.all (fun z => decide (z ≠ (0, 0)))
  | v => !empty v || required.contains name

/-- metadata.py L1005-L1160 `to_dict(single=True, required=True)`. -/
def toDict (required : List Str) (f : Filter) : Filter := f.filter (fun p => kept required p.1 p.2)

/-! ### JSON -/

/-- What `json.loads` gives for one field. -/
inductive JVal where
  | null
  | text (s : Str)
  | num (q : ℚ)
  | list (l : List ℚ)
  | cplx (re im : List ℚ)
  deriving DecidableEq

/-- helpers.py L890-L933 `NumpyEncoder`: a complex array is a dictionary of two lists. -/
def encode : Val → JVal
  | .none => .null
  | .text s => .text s
  | .num q => .num q
  | .arr l => .list l
  | .carr l => .cplx (l.map Prod.fst) (l.map Prod.snd)

/-- metadata.py L1218-L1246 `to_json()`. -/
def toJson (required : List Str) (f : Filter) : OD Str JVal :=
  (toDict required f).map (fun p => (p.1, encode p.2))

/-- numpy: a list assigned to the real or imaginary part of an array of `n` numbers is broadcast. -/
def broadcast (n : Nat) (xs : List ℚ) : Except PyErr (List ℚ) :=
  if xs.length = n then .ok xs
  else match xs with
    | [x] => .ok (List.replicate n x)
    | _ => .error .valueError

/-- `array.real = xs` -/
def setReal (c : List (ℚ × ℚ)) (xs : List ℚ) : Except PyErr (List (ℚ × ℚ)) :=
  match broadcast c.length xs with
  | .error e => .error e
  | .ok ys => .ok (ys.zip (c.map Prod.snd))

/-- `array.imag = xs` -/
def setImag (c : List (ℚ × ℚ)) (xs : List ℚ) : Except PyErr (List (ℚ × ℚ)) :=
  match broadcast c.length xs with
  | .error e => .error e
  | .ok ys => .ok ((c.map Prod.fst).zip ys)

/-- The validators of one field given a JSON value that is not a dictionary: pole_zero_filter.py L77-L83,
frequency_response_table_filter.py L107-L140 (`vp` stands for the rescaling of phases, `Filters.validatePhases`),
fir_filter.py L115-L131. -/
def validate (vp : List ℚ → List ℚ) (name : Str) : JVal → Val
  | .null => .none
  | .text s => .text s
  | .num q => .num q
  | .list l =>
    if name = "zeros".toList ∨ name = "poles".toList then .carr (l.map (fun q => (q, 0)))
    else if name = "phases".toList then .arr (vp l)
    else .arr l
  | .cplx _ _ => .none

/-- helpers.py L545-L568 `flatten_dict` and metadata.py L155-L193 `update_attribute`: a dictionary
`{"real": …, "imag": …}` becomes the two assignments `poles.real = …` and `poles.imag = …` to the array the filter
already has; only complex arrays can be assigned an imaginary part. -/
def readOne (vp : List ℚ → List ℚ) (f : Filter) (name : Str) : JVal → Except PyErr Filter
  | .cplx re im =>
    match OD.get? f name with
    | some (.carr c) =>
      match setReal c re with
      | .error e => .error e
      | .ok c' =>
        match setImag c' im with
        | .error e => .error e
        | .ok c'' => .ok (OD.set f name (.carr c''))
    | some _ => .error .typeError
    | none => .error .attributeError
  | v => .ok (OD.set f name (validate vp name v))

/-- metadata.py L1162-L1216 `from_dict` and L1248-L1275 `from_json`: the fields one after the other. -/
def readJson (vp : List ℚ → List ℚ) : Filter → OD Str JVal → Except PyErr Filter
  | f, [] => .ok f
  | f, p :: rest =>
    match readOne vp f p.1 p.2 with
    | .error e => .error e
    | .ok g => readJson vp g rest

/-! ### XML -/

/-- helpers.py L755-L788 `recursive_split_xml` of one field: the text of its element (`none` for an empty element).
An array is neither a dictionary, a list, a text nor a number. `str` is Python's `str` of a float. -/
def xmlText (str : ℚ → Str) : Val → Except PyErr (Option Str)
  | .none => .ok none
  | .text s => .ok (some s)
  | .num q => .ok (some (str q))
  | .arr _ => .error .valueError
  | .carr _ => .error .valueError

/-- helpers.py L791-L808 `dict_to_xml` of a dictionary of fields. -/
def dictToXml (str : ℚ → Str) : Filter → Except PyErr (List (Str × Option Str))
  | [] => .ok []
  | p :: rest =>
    match xmlText str p.2 with
    | .error e => .error e
    | .ok t =>
      match dictToXml str rest with
      | .error e => .error e
      | .ok l => .ok ((p.1, t) :: l)

/-- metadata.py L1331-L1363 `to_xml()`. -/
def toXml (str : ℚ → Str) (required : List Str) (f : Filter) : Except PyErr (List (Str × Option Str)) :=
  dictToXml str (toDict required f)

/-! ### Numbers in texts -/

/-- `[-+]?` -/
def takeSign : Str → Str × Str
  | [] => ([], [])
  | c :: cs => if c = '+' ∨ c = '-' then ([c], cs) else ([], c :: cs)

/-- `(?:[eE][-+]?\d+)?` -/
def takeExp : Str → Str × Str
  | [] => ([], [])
  | c :: cs =>
    if c = 'e' ∨ c = 'E' then
      match takeSign cs with
      | (sg, r) =>
        if r.takeWhile Char.isDigit = [] then ([], c :: cs)
        else (c :: sg ++ r.takeWhile Char.isDigit, r.dropWhile Char.isDigit)
    else ([], c :: cs)

/-- `\.\d+` -/
def takeFrac : Str → Option (Str × Str)
  | [] => none
  | c :: r =>
    if c = '.' ∧ r.takeWhile Char.isDigit ≠ [] then some (c :: r.takeWhile Char.isDigit, r.dropWhile Char.isDigit)
    else none

/-- The longest match of `\d*\.?\d+` the backtracking finds at the head of a text: digits with a point and digits, or
digits alone. -/
def takeMantissa (cs : Str) : Option (Str × Str) :=
  match takeFrac (cs.dropWhile Char.isDigit) with
  | some (fr, r) => some (cs.takeWhile Char.isDigit ++ fr, r)
  | none =>
    if cs.takeWhile Char.isDigit = [] then none else some (cs.takeWhile Char.isDigit, cs.dropWhile Char.isDigit)

/-- helpers.py L1055: the match of `[-+]?(?:\d*\.?\d+(?:[eE][-+]?\d+)?)` at the head of a text and what follows. Only the
digits 0-9 are digits here. -/
def matchNumber (cs : Str) : Option (Str × Str) :=
  match takeSign cs with
  | (sg, r) =>
    match takeMantissa r with
    | none => none
    | some (m, r') => match takeExp r' with
      | (ex, r'') => some (sg ++ m ++ ex, r'')

/-- helpers.py L1057 `re.findall`: from left to right, one character further where nothing matches. `fuel` is at
least the length of the text. -/
def findNumbers : Nat → Str → List Str
  | 0, _ => []
  | _ + 1, [] => []
  | n + 1, c :: cs =>
    match matchNumber (c :: cs) with
    | some (m, r) => m :: findNumbers n r
    | none => findNumbers n cs

/-- helpers.py L1026-L1066 `extract_numbers`; `float` is Python's `float` of a text, `none` for `ValueError`. -/
def extractNumbers (float : Str → Option ℚ) (s : Str) : List ℚ := (findNumbers s.length s).filterMap float

/-- The values given to an array field. The numbers of lists and arrays are complex. -/
inductive Given where
  | none
  | list (l : List (ℚ × ℚ))
  | array (l : List (ℚ × ℚ))
  | text (s : Str)
  | num (q : ℚ)
  | other

/-- numpy: `np.array(l, dtype=float)` of a list raises `TypeError` for a complex entry. -/
def asDtype (cplx : Bool) (l : List (ℚ × ℚ)) : Except PyErr (List (ℚ × ℚ)) :=
  if cplx || l.all (fun z => decide (z.2 = 0)) then .ok l else .error .typeError

/-- helpers.py L1140-L1166, a text: L1141 the empty texts, L1144 no numbers at all, L1148 several numbers,
L1152-L1160 a single number (a text `float` accepts contains no "j" and no comma). -/
def textToArray (float : Str → Option ℚ) (s : Str) : Except PyErr (List (ℚ × ℚ)) :=
  if s = [] ∨ s = "none".toList ∨ s = "None".toList then .ok []
  else match float s with
    | some q => .ok [(q, 0)]
    | none =>
      if s.any Char.isDigit then .ok ((extractNumbers float s).map (fun q => (q, 0)))
      else .error .typeError

/-- helpers.py L1119-L1182 `object_to_array(value, dtype)`, `cplx` for `dtype=complex`. An array is `astype(dtype)`, which
drops imaginary parts. Bytes are not modelled. -/
def objectToArray (float : Str → Option ℚ) (cplx : Bool) : Given → Except PyErr (List (ℚ × ℚ))
  | .none => .ok []
  | .list l => asDtype cplx l
  | .array l => .ok (if cplx then l else l.map (fun z => (z.1, 0)))
  | .text s => textToArray float s
  | .num q => .ok [(q, 0)]
  | .other => .error .typeError

end Verif.FilterFile
