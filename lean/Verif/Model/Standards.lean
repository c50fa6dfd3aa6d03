import Verif.Base.Text

/-! # Tables of standards

`mt_metadata/base/schema.py` L172-L246 `BaseDict.to_latex`, L129-L167 `add_dict` as used by
`mt_metadata/utils/summarize.py` L298-L419 (`summarize_pydantic_standards`, `summary_to_array`, `summary_to_dataframe`, `summarize_standards`).

Simplifications: the lines of a table are made by a function that is given (name and description to a line); opening and closing lines of
tables are left out. `int(n / m)` is the quotient. Validation of a description (modelled in `Schema`) gives a value or an error. Texts in
arrays have no zeros at the end, which numpy would take off. -/

namespace Verif.Standards
open Verif.Text

/-! ## LaTeX -/

/-- What `to_latex` uses of a description: options, the text, and the rest. -/
structure Desc (R : Type) where
  options : List Str
  text : Str
  rest : R

/-- `format(options)` of a list of texts is given as `shown`; schema.py L225-L227: what a call does to a stored description. -/
def told {R : Type} (shown : List Str → Str) (d : Desc R) : Desc R :=
  if d.options = [] then d else { d with text := d.text ++ ".  Options: ".toList ++ shown d.options }

/-- `sorted` by name: an order of texts. -/
def nameLe (a b : Str) : Bool := !decide (b < a)

/-- schema.py L220-L222: number of tables. -/
def ntables (n m : Nat) : Nat := n / m + if n / m > 0 then 1 else 0

/-- schema.py L234-L244: which lines are in which table. -/
def tables {L : Type} (first m : Nat) (lines : List L) : List (List L) :=
  lines.take first :: (List.range (ntables lines.length m - 1)).map (fun ii => (lines.drop (first + m * ii)).take m)

/-- schema.py L172-L246 `to_latex`: the dictionary afterwards and the tables; no entries per table cannot be divided by. -/
def toLatex {R L : Type} (shown : List Str → Str) (line : Str → Desc R → L) (first m : Nat) (d : OD Str (Desc R)) :
    OD Str (Desc R) × Except PyErr (List (List L)) :=
  if m = 0 then (d, .error .zeroDivisionError)
  else
    let d' := d.map (fun p => (p.1, told shown p.2))
    (d', .ok (tables first m ((pySorted (fun a b => nameLe a.1 b.1) d').map (fun p => line p.1 p.2))))

/-! ## Summaries -/

/-- A class: its name, its fields with what the validation of their descriptions gives. -/
structure Cls (V : Type) where
  name : Str
  fields : List (Str × Except PyErr V)

/-- schema.py L159-L167: `"{0}.{1}".format(name, key)` -/
def full (name key : Str) : Str := name ++ '.' :: key

/-- schema.py L167 `update`: field by field, up to one that is not valid. -/
def addFields {V : Type} (name : Str) (d : OD Str V) : List (Str × Except PyErr V) → OD Str V
  | [] => d
  | (k, .ok v) :: fs => addFields name (OD.set d (full name k) v) fs
  | (_, .error _) :: _ => d

/-- summarize.py L298-L325 `summarize_pydantic_standards`: errors are logged. -/
def summarize {V : Type} (cs : List (Cls V)) : OD Str V := cs.foldl (fun d c => addFields c.name d c.fields) []

/-- A value in a description. -/
inductive Val where
  | none
  | text (s : Str)
  | list (l : List Str)
  deriving DecidableEq

/-- summarize.py L354-L361: the text of a value. -/
def shownVal : Val → Str
  | .none => []
  | .text s => s
  | .list l => join [','] l

/-- summarize.py L45-L58 `SUMMARIZE_DTYPE`: columns of texts and their widths (`required` is a bool and kept as it is). -/
inductive Col where
  | type
  | style
  | units
  | description
  | options
  | alias
  | example
  | default
  deriving DecidableEq

def Col.width : Col → Nat
  | .type => 15
  | .style => 72
  | .units => 32
  | .description => 300
  | .options => 150
  | .alias => 72
  | .example => 72
  | .default => 72

/-- A row of an array. -/
structure Row where
  attr : Str
  required : Bool
  cell : Col → Str

/-- A description. -/
structure Info where
  required : Bool
  val : Col → Val

/-- summarize.py L343-L347: the first row. -/
def versionRow (version : Str) : Row :=
  { attr := "mt_metadata.standards.version".toList
    required := false
    cell := fun c =>
      match c with
      | .description => ("Metadata standards version ".toList ++ version).take 300
      | .type => "string".toList
      | .style => "free form".toList
      | _ => [] }

/-- summarize.py L349-L364: a row; numpy cuts texts to the width of the column. -/
def row (p : Str × Info) : Row :=
  { attr := p.1.take 72
    required := p.2.required
    cell := fun c => (shownVal (p.2.val c)).take c.width }

/-- summarize.py L328-L366 `summary_to_array` -/
def toArray (version : Str) (d : OD Str Info) : List Row := versionRow version :: d.map row

/-! ## Forms -/

/-- `output_type` -/
inductive Form where
  | array
  | dataframe
  | other
  deriving DecidableEq

/-- What is returned: an array with a dtype, or a data frame. -/
inductive Out (T : Type) where
  | array (dtype : T)
  | frame
  deriving DecidableEq

/-- summarize.py L387-L419 `summarize_standards`: the file that is written, and what is returned; `summary_df` may have no value (`UnboundLocalError`, a `NameError`).
An empty file name counts as none in the last test only. -/
def standards {T : Type} (dtype : T) (form : Form) (csv : Option Str) : Option Str × Except PyErr (Out T) :=
  match form, csv with
  | .array, _ => (none, .ok (.array dtype))
  | .dataframe, none => (none, .ok .frame)
  | _, some [] => (none, .error .nameError)
  | _, some f => (some f, .ok .frame)
  | .other, none => (none, .error .nameError)

end Verif.Standards
