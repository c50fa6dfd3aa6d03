import Verif.Base.Py

/-! # One `JFile` object for several files

`mt_metadata/transfer_functions/io/jfiles/jfile.py` L32-L48, L157-L333 `read`; `jfiles/metadata/header.py` L161-L205 `read_header`,
L207-L229 `read_metadata`.

Simplifications: the header of a file is what its lines set one after another (a parameter, a new block of data, a new set of angles), or
the error a line raises; how lines are read and data blocks are filled is in `JFile`. The information lines set zeros
(`JFile`, C145), so only their names are there. The rest of a file gives data or an error. -/

namespace Verif.JUse

/-- What a name in a header line does. -/
inductive Entry (K V B A : Type) where
  | param (k : K) (v : V)
  | block (b : B)
  | angle (a : A)
  | bad (e : PyErr)

/-- An information line: it sets a value or raises. -/
inductive Info (K : Type) where
  | zero (k : K)
  | bad (e : PyErr)

/-- A file: comment lines (title and others, if there are any), information lines, station, data. -/
structure File (K V B A S D : Type) where
  head : Option (S × List (Entry K V B A))
  info : List (Info K)
  station : Option S
  data : Except PyErr D

/-- An object: `header` and the data. `pos` are the values set by information lines. -/
structure Obj (K V B A S D : Type) where
  title : Option S := none
  params : OD K V := []
  blocks : List B := []
  angles : List A := []
  pos : List K := []
  station : Option S := none
  data : Option D := none

variable {K V B A S D : Type} [DecidableEq K]

/-- header.py L184-L205: line by line, up to one that raises. -/
def readEntries (o : Obj K V B A S D) : List (Entry K V B A) → Obj K V B A S D × Option PyErr
  | [] => (o, none)
  | .param k v :: es => readEntries { o with params := OD.set o.params k v } es
  | .block b :: es => readEntries { o with blocks := o.blocks ++ [b] } es
  | .angle a :: es => readEntries { o with angles := o.angles ++ [a] } es
  | .bad e :: _ => (o, some e)

/-- header.py L161-L205 `read_header`: blocks and angles begin anew, `header_lines[0]` may be missing. -/
def readHeader (o : Obj K V B A S D) (f : File K V B A S D) : Obj K V B A S D × Option PyErr :=
  match f.head with
  | none => ({ o with blocks := [], angles := [] }, some .indexError)
  | some (t, es) => readEntries { o with blocks := [], angles := [], title := some t } es

/-- header.py L220-L229 `read_metadata`. -/
def readInfo (o : Obj K V B A S D) : List (Info K) → Obj K V B A S D × Option PyErr
  | [] => (o, none)
  | .zero k :: l => readInfo { o with pos := k :: o.pos } l
  | .bad e :: _ => (o, some e)

/-- jfile.py L157-L333 `read`: what the object is afterwards, and the error, if any. -/
def read (o : Obj K V B A S D) (f : File K V B A S D) : Obj K V B A S D × Option PyErr :=
  match readHeader o f with
  | (o1, some e) => (o1, some e)
  | (o1, none) =>
    match readInfo o1 f.info with
    | (o2, some e) => (o2, some e)
    | (o2, none) =>
      match f.station with
      | none => (o2, some .indexError)
      | some s =>
        match f.data with
        | .error e => ({ o2 with station := some s }, some e)
        | .ok d => ({ o2 with station := some s, data := some d }, none)

/-- Several files, one after another; errors are caught by the caller. -/
def readAll (o : Obj K V B A S D) (l : List (File K V B A S D)) : Obj K V B A S D := l.foldl (fun o f => (read o f).1) o

end Verif.JUse
