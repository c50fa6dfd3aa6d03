import Verif.Base.Py

/-!
Model of the name validators in `mt_metadata/utils/validators.py`. Strings are lists of
characters; upper and lower case are those of the ASCII letters; newlines are taken to be absent.
-/

namespace Verif.Names

/-- `[A-Z]`. -/
def isUp (c : Char) : Bool := decide ('A' ≤ c) && decide (c ≤ 'Z')

/-- `[0-9]`. -/
def isDig (c : Char) : Bool := decide ('0' ≤ c) && decide (c ≤ '9')

/-- `"_".join(re.findall(".[^A-Z]*", name))`: an underscore before every capital but a leading one. -/
def underscores : Str → Str
  | [] => []
  | c :: cs => c :: cs.flatMap (fun d => if isUp d then ['_', d] else [d])

/-- `name.replace("._", ".")`. -/
def dropDotUnderscore : Str → Str
  | [] => []
  | '.' :: '_' :: cs => '.' :: dropDotUnderscore cs
  | c :: cs => c :: dropDotUnderscore cs

/-- `str.lower`. -/
def lower (s : Str) : Str := s.map Char.toLower

/-- utils/validators.py L144-L190 `validate_name`, and L232-L278 `validate_attribute`, whose body is the
same. `MTValidatorError` is represented by `valueError`. -/
def validateName (name : Str) : Except PyErr Str :=
  if name.head?.any isDig then .error .valueError
  else
    let n := name.map (fun c => if c = '/' then '.' else c)
    if n.any isUp then .ok (lower (dropDotUnderscore (underscores n))) else .ok n

/-- `[a-zA-Z0-9_]`. -/
def isWord (c : Char) : Bool :=
  (decide ('a' ≤ c) && decide (c ≤ 'z')) || isUp c || isDig c || c == '_'

/-- `str.strip()`. -/
def strip (s : Str) : Str := ((s.dropWhile Char.isWhitespace).reverse.dropWhile Char.isWhitespace).reverse

/-- utils/validators.py L193-L229 `validate_station_name`. -/
def validateStation (name : Str) : Except PyErr Str :=
  let n := (strip name).map (fun c => if c = ' ' ∨ c = '-' ∨ c = '.' then '_' else c)
  if n ≠ [] ∧ n.all isWord then .ok n else .error .valueError

/-- utils/validators.py L352-L379 `validate_units`, for a string or `None`. -/
def validateUnits : Option Str → Option Str
  | none => none
  | some v =>
    if lower v = "none".toList ∨ lower v = "empty".toList ∨ v = [] then none else some (lower v)

/-- utils/validators.py L281-L306 `validate_required`, for a string. -/
def validateRequired (v : Str) : Except PyErr Bool :=
  if lower v = "false".toList then .ok false
  else if lower v = "true".toList then .ok true
  else .error .valueError

end Verif.Names
