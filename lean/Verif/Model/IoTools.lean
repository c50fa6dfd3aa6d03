import Verif.Base.Text

/-!
# Helpers of the transfer function readers

Model of `mt_metadata/transfer_functions/io/tools.py`.
-/

namespace Verif.IoTools
open Verif.Text

/-! ## `_validate_str_with_equals` (L20-63) -/

/-- L34-35: `if ">" in s: s = s[s.find(" "):]`.  `find` returning -1 gives `s[-1:]`, the last
character. -/
def dropHead (s : Str) : Str :=
  if '>' ∈ s then
    match find [' '] s with
    | some i => s.drop i
    | none => s.drop (s.length - 1)
  else s

/-- L38-39: cut a trailing `//` remark; a line *starting* with `//` (index 0) is kept. -/
def dropRemark (s : Str) : Str :=
  match find ['/', '/'] s with
  | some 0 => s
  | some i => s.take i
  | none => s

/-- L42-50: the words between the equal signs.  (`l_str.strip()` of a word is the word; it is
kept, as in the code.) -/
def tokens (s : Str) : List Str :=
  (splitC '=' (strip s)).flatMap (fun line => (words (strip line)).map strip)

/-- L58-61: `"{0}={1}".format(l[ii], l[ii+1]) for ii in range(0, len(l), 2)` -/
def pairUp : List Str → List Str
  | a :: b :: l => (a ++ '=' :: b) :: pairUp l
  | _ => []

/-- L20-63 `_validate_str_with_equals` -/
def validateEquals (s : Str) : List Str :=
  let l := tokens (dropRemark (dropHead (strip s)))
  if l.length % 2 ≠ 0 then l else pairUp l

/-! ## `index_locator` (L69-137) -/

/-- `self.__dict__`: attribute name to position or `None`. -/
abbrev Idx := OD String (Option Nat)

/-- L71-78 -/
def idx0 : Idx :=
  [("ex", none), ("ey", none), ("hx", none), ("hy", none), ("hz", none),
    ("rhx", none), ("rhy", none), ("rhz", none)]

/-- The properties of the class (L94-137); they have no setter. -/
def properties : List String :=
  ["n_channels", "has_tipper", "has_electric", "input_channels", "output_channels",
    "n_inputs", "n_outputs"]

/-- L79-80: `for ii, comp in enumerate(component_list): setattr(self, comp, ii)`.  Names of
Python's own machinery (`__class__`, …) are not modelled. -/
def setAll : Idx → Nat → List String → Except PyErr Idx
  | d, _, [] => .ok d
  | d, i, c :: cs =>
    if c ∈ properties then .error .attributeError else setAll (OD.set d c (some i)) (i + 1) cs

/-- Attribute access; every attribute the code reads exists from L71-78 on. -/
def attr (d : Idx) (k : String) : Option Nat := (OD.get? d k).join

/-- L81-84: `if self.rhx is None: self.rhx = self.hx` and the same for `rhy`. -/
def fillRemote (d : Idx) : Idx :=
  let d1 := if attr d "rhx" = none then OD.set d "rhx" (attr d "hx") else d
  if attr d1 "rhy" = none then OD.set d1 "rhy" (attr d1 "hy") else d1

/-- L70-84 `index_locator(component_list)` -/
def locate (comps : List String) : Except PyErr Idx :=
  match setAll idx0 0 comps with
  | .ok d => .ok (fillRemote d)
  | .error e => .error e

/-- L97-106 `n_channels`: attributes with a position whose name has no letter `r`. -/
def nChannels (d : Idx) : Nat :=
  (d.filter (fun p => !(p.1.toList.contains 'r') && p.2.isSome)).length

/-- L108-112 -/
def hasTipper (d : Idx) : Bool := (attr d "hz").isSome

/-- L114-118 -/
def hasElectric (d : Idx) : Bool := (attr d "ex").isSome || (attr d "ey").isSome

/-- L120-122 -/
def inputChannels (d : Idx) : List (Option Nat) := [attr d "hx", attr d "hy"]

/-- L124-130 -/
def outputChannels (d : Idx) : List (Option Nat) :=
  if hasTipper d then
    if hasElectric d then [attr d "hz", attr d "ex", attr d "ey"] else [attr d "hz"]
  else [attr d "ex", attr d "ey"]

/-! ## `_validate_edi_lines` (L140-169) -/

/-- `.replace('"', "").replace("'", "").replace("[", "").replace("]", "")` -/
def unquote (s : Str) : Str :=
  replaceC ']' [] (replaceC '[' [] (replaceC '\'' [] (replaceC '"' [] s)))

/-- L150-161: a file read as a single line; L164-168: several lines. -/
def validateLines : List Str → Except PyErr (List Str)
  | [l] =>
    let ls := splitC '\n' (replaceC ']' [] (replaceC '[' [] (replaceC '\'' []
      (replaceC '\r' ['\n'] (replaceC '"' [] l)))))
    if ls.length > 1 then .ok ls else .error .valueError
  | ls => .ok (ls.map unquote)

end Verif.IoTools
