import Verif.Base.Text
import Verif.Base.Num
import Verif.Base.Py

/-!
# Data blocks of EDI files

Model of `mt_metadata/transfer_functions/io/edi/edi.py`: `_write_data_block` (L852-L910), the part of
`write` that puts the blocks together (L757-L850), `_read_mt` (L355-L458, without apparent resistivities, which
are in `Model/EdiRho`) and `_assert_descending_frequency` (L247-L268).

Numbers are of any type `F`; how they are printed (`"{: 15.6e}".format`) and read (`float`) are
parameters, whose properties the theorems assume.

Simplifications: the text is read back in lines cut at line ends only; the two headings are lines of
their own; arrays of other length than the frequencies raise (NumPy would repeat an array of length
one); `nan_to_num` is not modelled (no `nan` in the arrays).
-/

namespace Verif.EdiData
open Verif.Text

/-- Printing and reading of numbers. `parse` is `float`, `none` its `ValueError`. -/
structure Numbers (F : Type) where
  fmt : F → Str
  parse : Str → Option F
  zero : F
  lt : F → F → Bool

variable {F : Type} [DecidableEq F]

/-- L893-L908: the numbers of a block, six to a line; `i` is the number of those before. -/
def body (N : Numbers F) (empty : F) (rot : Bool) : Nat → List F → Str
  | _, [] => []
  | i, x :: xs =>
    let d := if x = N.zero ∧ rot = false then empty else x
    N.fmt d ++ ((if (i + 1) % 6 = 0 then ['\n'] else []) ++ ((if xs.isEmpty then ['\n'] else []) ++ body N empty rot (i + 1) xs))

/-- The keys of the blocks. -/
inductive Key
  | freq
  | zrot
  | trot
  | z (i j : Fin 2) (part : Fin 3)
  | t (j : Fin 2) (part : Fin 3)
deriving DecidableEq, Repr

/-- Letters of the tensor indices. -/
def ax (i : Fin 2) : Char := if i = 0 then 'x' else 'y'

/-- L90-L100 `_z_labels`, `_t_labels` and the keys used in `write` (L759, L773, L808). -/
def label : Key → Str
  | .freq => ['f', 'r', 'e', 'q']
  | .zrot => ['z', 'r', 'o', 't']
  | .trot => ['t', 'r', 'o', 't']
  | .z i j 0 => ['z', ax i, ax j, 'r']
  | .z i j 1 => ['z', ax i, ax j, 'i']
  | .z i j 2 => ['z', ax i, ax j, '.', 'v', 'a', 'r']
  | .t j 0 => ['t', ax j, 'r', '.', 'e', 'x', 'p']
  | .t j 1 => ['t', ax j, 'i', '.', 'e', 'x', 'p']
  | .t j 2 => ['t', ax j, 'v', 'a', 'r', '.', 'e', 'x', 'p']

/-- L867-L892: what stands behind the key in the first line of a block. -/
def tail (key : Key) (size : Nat) : Str :=
  match key with
  | .z _ _ _ => [' ', 'R', 'O', 'T', '=', 'Z', 'R', 'O', 'T', ' ', '/', '/', ' '] ++ showNat size
  | .t _ _ => [' ', 'R', 'O', 'T', '=', 'T', 'R', 'O', 'T', ' ', '/', '/', ' '] ++ showNat size
  | _ => [' ', '/', '/', ' '] ++ showNat size

/-- `str.upper` -/
def upper (s : Str) : Str := s.map Char.toUpper

def isRot : Key → Bool
  | .zrot => true
  | .trot => true
  | _ => false

/-- L852-L910 `_write_data_block` -/
def writeBlock (N : Numbers F) (empty : F) (b : Key × List F) : Str :=
  '>' :: (upper (label b.1) ++ (tail b.1 b.2.length ++ '\n' :: body N empty (isRot b.1) 0 b.2))

/-- A heading `>!****…****!` -/
def heading (s : Str) : Str := ['>', '!', '*', '*', '*', '*'] ++ (s ++ ['*', '*', '*', '*', '!', '\n'])

/-- A part of the file: a heading or a block. -/
inductive Part (F : Type)
  | head (s : Str)
  | block (b : Key × List F)

def writePart (N : Numbers F) (empty : F) : Part F → Str
  | .head s => heading s
  | .block b => writeBlock N empty b

/-- L834-L847: the data part of the file. -/
def writeParts (N : Numbers F) (empty : F) (ps : List (Part F)) : Str :=
  ps.flatMap (writePart N empty) ++ ['>', 'E', 'N', 'D']

/-- The arrays of an `EDI` object: per element real parts, imaginary parts and variances (squared
errors), which are what is written (L780-L796). -/
structure Arrays (F : Type) where
  freq : List F
  rot : List F
  z : Fin 2 → Fin 2 → Fin 3 → List F
  t : Fin 2 → Fin 3 → List F

/-- L800-L803: nothing is written about a tipper of zeros. -/
def noTipper (N : Numbers F) (a : Arrays F) : Bool :=
  ((a.t 0 0 ++ a.t 0 1) ++ (a.t 1 0 ++ a.t 1 1)).all (fun x => decide (x = N.zero))

/-- L776-L796 -/
def zParts (a : Arrays F) : List (Part F) :=
  [(0, 0), (0, 1), (1, 0), (1, 1)].flatMap fun (i, j) => [0, 1, 2].map fun p => Part.block (.z i j p, a.z i j p)

/-- L816-L831 -/
def tParts (a : Arrays F) : List (Part F) :=
  [0, 1].flatMap fun j => [0, 1, 2].map fun p => Part.block (.t j p, a.t j p)

/-- L757-L847 -/
def parts (N : Numbers F) (a : Arrays F) : List (Part F) :=
  [.head "FREQUENCIES".toList, .block (.freq, a.freq), .head "IMPEDANCE ROTATION ANGLES".toList, .block (.zrot, a.rot),
    .head "IMPEDANCES".toList] ++ (zParts a ++
  if noTipper N a then [] else
    [.head "TIPPER ROTATION ANGLES".toList, .block (.trot, a.rot), .head "TIPPER".toList] ++ tParts a)

/-- The data part of the file written. -/
def write (N : Numbers F) (empty : F) (a : Arrays F) : Str := writeParts N empty (parts N a)

/-! ## Reading -/

/-- The accepted keys that `write` uses (L102-L141; others are not read here). -/
def keys : List Key :=
  [.freq, .zrot, .trot] ++
  ([(0, 0), (0, 1), (1, 0), (1, 1)].flatMap fun (i, j) => [0, 1, 2].map fun p => Key.z i j p) ++
  ([0, 1].flatMap fun j => [0, 1, 2].map fun p => Key.t j p)

def keyOf (s : Str) : Option Key := keys.find? (fun k => label k == s)

/-- L384-L389: a word of a data line. -/
def value (N : Numbers F) (empty : F) (w : Str) : F :=
  match N.parse w with
  | some x => if x = empty then N.zero else x
  | none => N.zero

/-- L365-L390: one line; the state is the dictionary and the key data belong to. -/
def step (N : Numbers F) (empty : F) (st : OD Key (List F) × Option Key) (line0 : Str) : OD Key (List F) × Option Key :=
  let line := strip line0
  if '>' ∈ line ∧ '!' ∉ line then
    match words (strip (line.drop 1)) with
    | [] => st
    | w :: _ =>
      match keyOf (lower w) with
      | some k => (OD.set st.1 k [], some k)
      | none => (st.1, none)
  else
    match st.2 with
    | some k =>
      if '>' ∉ line ∧ '!' ∉ line then
        (OD.set st.1 k ((OD.get? st.1 k).getD [] ++ (words (strip line)).map (value N empty)), st.2)
      else st
    | none => st

/-- L363-L390 -/
def readDict (N : Numbers F) (empty : F) (text : Str) : OD Key (List F) :=
  ((splitC '\n' text).foldl (step N empty) ([], none)).1

/-- `data_dict[key]` of the length of the frequencies. -/
def column (d : OD Key (List F)) (n : Nat) (k : Key) : Except PyErr (Option (List F)) :=
  match OD.get? d k with
  | none => .ok none
  | some l => if l.length = n then .ok (some l) else .error .valueError

/-- Both parts of an element, or zeros if one is missing (L408-L426: `KeyError`). -/
def pair (N : Numbers F) (d : OD Key (List F)) (n : Nat) (k0 k1 : Key) : Except PyErr (List F × List F) :=
  match column d n k0, column d n k1 with
  | .ok (some a), .ok (some b) => .ok (a, b)
  | .ok (some _), .ok none => .ok (List.replicate n N.zero, List.replicate n N.zero)
  | .ok none, _ => .ok (List.replicate n N.zero, List.replicate n N.zero)
  | .error e, _ => .error e
  | _, .error e => .error e

/-- L411-L417, L422-L428: the variances, if the element and they are there. -/
def varOf (N : Numbers F) (d : OD Key (List F)) (n : Nat) (k0 k1 k2 : Key) : Except PyErr (List F) :=
  if (OD.get? d k0).isSome ∧ (OD.get? d k1).isSome then
    match column d n k2 with
    | .ok (some l) => .ok l
    | .ok none => .ok (List.replicate n N.zero)
    | .error e => .error e
  else .ok (List.replicate n N.zero)

/-- L393-L429: the arrays of one element, by part. -/
def element (N : Numbers F) (d : OD Key (List F)) (n : Nat) (k : Fin 3 → Key) : Except PyErr (Fin 3 → List F) :=
  match pair N d n (k 0) (k 1), varOf N d n (k 0) (k 1) (k 2) with
  | .ok (a, b), .ok c => .ok (fun | 0 => a | 1 => b | 2 => c)
  | .error e, _ => .error e
  | _, .error e => .error e

/-- L393-L429 -/
def fill (N : Numbers F) (d : OD Key (List F)) : Except PyErr (Arrays F) :=
  match OD.get? d .freq with
  | none => .error .keyError
  | some f =>
    match element N d f.length (.z 0 0), element N d f.length (.z 0 1), element N d f.length (.z 1 0),
        element N d f.length (.z 1 1), element N d f.length (.t 0), element N d f.length (.t 1) with
    | .ok a, .ok b, .ok c, .ok e, .ok g, .ok h =>
      .ok { freq := f, rot := [], z := fun i j => if i = 0 then (if j = 0 then a else b) else (if j = 0 then c else e),
            t := fun j => if j = 0 then g else h }
    | .error x, _, _, _, _, _ => .error x
    | _, .error x, _, _, _, _ => .error x
    | _, _, .error x, _, _, _ => .error x
    | _, _, _, .error x, _, _ => .error x
    | _, _, _, _, .error x, _ => .error x
    | _, _, _, _, _, .error x => .error x

/-- L247-L268: the arrays are turned around if the second frequency is above the first. -/
def descending (N : Numbers F) (a : Arrays F) : Except PyErr (Arrays F) :=
  match a.freq with
  | f0 :: f1 :: _ =>
    .ok (if N.lt f0 f1 then
      { a with freq := a.freq.reverse, z := fun i j p => (a.z i j p).reverse, t := fun j p => (a.t j p).reverse }
      else a)
  | _ => .error .indexError

/-- L355-L458 -/
def readMt (N : Numbers F) (empty : F) (text : Str) : Except PyErr (Arrays F) :=
  let d := readDict N empty text
  match fill N d with
  | .error e => .error e
  | .ok a =>
    match descending N a with
    | .error e => .error e
    | .ok a => .ok { a with rot := (OD.get? d .zrot).getD (List.replicate a.freq.length N.zero) }

end Verif.EdiData
