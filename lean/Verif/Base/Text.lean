import Verif.Base.Py

/-!
# Python string methods used by the text formats

`str.strip`, `str.split`, `str.join`, `str.find`, `str.replace` on strings as lists of
characters.  These are models of Python built-ins, not of /repo code.
-/

namespace Verif.Text

/-- `str.isspace` for one character: the blanks `strip()` and `split()` use. -/
def ws (c : Char) : Bool :=
  let n := c.toNat
  (9 ≤ n && n ≤ 13) || (28 ≤ n && n ≤ 32) || n = 133 || n = 160 || n = 0x1680 ||
    (0x2000 ≤ n && n ≤ 0x200a) || n = 0x2028 || n = 0x2029 || n = 0x202f || n = 0x205f ||
    n = 0x3000

/-- `str.lstrip()` -/
def lstrip (s : Str) : Str := s.dropWhile ws

/-- `str.rstrip()` -/
def rstrip (s : Str) : Str := (s.reverse.dropWhile ws).reverse

/-- `str.strip()` -/
def strip (s : Str) : Str := rstrip (lstrip s)

/-- Cut at every character satisfying `p`; always at least one piece. -/
def splitP (p : Char → Bool) : Str → List Str
  | [] => [[]]
  | x :: s =>
    if p x then [] :: splitP p s
    else (x :: (splitP p s).headD []) :: (splitP p s).tail

/-- `s.split(c)` for a one-character separator. -/
def splitC (c : Char) (s : Str) : List Str := splitP (· == c) s

/-- `s.split()`: the maximal runs without blanks. -/
def words (s : Str) : List Str := (splitP ws s).filter (fun w => !w.isEmpty)

/-- `sep.join(parts)` -/
def join (sep : Str) : List Str → Str
  | [] => []
  | [p] => p
  | p :: q :: ps => p ++ sep ++ join sep (q :: ps)

/-- `s.find(sub)`, `none` standing for `-1`. -/
def find (sub : Str) : Str → Option Nat
  | [] => if sub.isEmpty then some 0 else none
  | x :: s => if sub.isPrefixOf (x :: s) then some 0 else (find sub s).map (· + 1)

/-- `sub in s` -/
def hasSub (sub s : Str) : Bool := (find sub s).isSome

/-- `s.split(c, 1)`: the piece before the first `c`, and the rest if `c` occurs. -/
def split1 (c : Char) : Str → Str × Option Str
  | [] => ([], none)
  | x :: s => if x = c then ([], some s) else (x :: (split1 c s).1, (split1 c s).2)

/-- `s.replace(a, b)` for single characters. -/
def replaceC (a : Char) (b : Str) (s : Str) : Str := s.flatMap (fun c => if c = a then b else [c])

/-- `s.split(sub)` for a non-empty separator string; `k` characters are still to be skipped
(the rest of a separator just found). -/
def splitSubAux (sub : Str) : Nat → Str → List Str
  | _, [] => [[]]
  | k + 1, _ :: s => splitSubAux sub k s
  | 0, x :: s =>
    if sub.isPrefixOf (x :: s) then [] :: splitSubAux sub (sub.length - 1) s
    else (x :: (splitSubAux sub 0 s).headD []) :: (splitSubAux sub 0 s).tail

/-- `s.split(sub)` -/
def splitSub (sub s : Str) : List Str := splitSubAux sub 0 s

/-- `s.split(sub, 1)` -/
def splitOnce (sub s : Str) : Str × Option Str :=
  match find sub s with
  | some i => (s.take i, some (s.drop (i + sub.length)))
  | none => (s, none)

/-- `s.replace(a, b)` -/
def replaceSub (a b s : Str) : Str := join b (splitSub a s)

/-- `s.lower()`, for the ASCII letters. -/
def lower (s : Str) : Str := s.map Char.toLower

end Verif.Text
