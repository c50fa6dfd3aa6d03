import Verif.Model.Run
import Verif.Base.Text

/-! # The lists of channel names of a run, as they are given

`mt_metadata/timeseries/run.py` L267-L298 `validate_list_of_strings`, L300-L316 `validate_channels_recorded` with its effect on the
run when a name is refused, and the constructor `Run(channels_recorded_electric=..., ...)`. The channels themselves, `add_channel`
and `_update_channels_recorded` are those of Model/Run.

Simplifications: `str(v)` of the entries of a list, and of an array, is given as a text; letters outside ASCII have no other case
form. pydantic stores the assigned list in the model before the validator of the model runs, and takes nothing back when it raises. -/

namespace Verif.RunLists
open Verif.Runs

/-- What a user may assign to a list of names. -/
inductive Input where
  | none
  | text (s : Str)
  | items (l : List Str)
  | array (l : List Str)
  | other

/-- run.py L280: the texts that stand for no names. -/
def nullWords : List Str := ["None".toList, "none".toList, "NONE".toList, "null".toList]

/-- run.py L273-L298 `validate_list_of_strings`. `value in [None, "None", ...]` compares an array with the words entry by entry; the
truth of the outcome is an error for two or more entries, and for none in newer versions of numpy (`emptyOk` says which). -/
def namesIn (emptyOk : Bool) : Input → Except PyErr (List Str)
  | .none => .ok []
  | .text s => if s ∈ nullWords then .ok [] else .ok ((Text.splitC ',' s).map Text.strip)
  | .items l => .ok l
  | .array [] => if emptyOk then .ok [] else .error .valueError
  | .array [x] => if x ∈ nullWords then .ok [] else .ok [x]
  | .array (_ :: _ :: _) => .error .valueError
  | .other => .error .typeError

/-- A character of `[a-zA-Z0-9_]`. -/
def nameChar (c : Char) : Bool := c.isAlphanum || c == '_'

/-- The patterns of `component`: electric.py L22 `^[eE][a-zA-Z0-9_]*$`, magnetic.py L21 `^[hHbBrR][a-zA-Z0-9_]*$`, channel.py L90
`\w+` somewhere in the name for auxiliary channels (`word` says which characters are of words). -/
def nameOk (word : Char → Bool) : Kind → Str → Bool
  | .electric, [] => false
  | .electric, c :: cs => (c == 'e' || c == 'E') && cs.all nameChar
  | .magnetic, [] => false
  | .magnetic, c :: cs => ['h', 'H', 'b', 'B', 'r', 'R'].contains c && cs.all nameChar
  | .auxiliary, n => n.any word

/-- channel.py L255-L262: the component is made lower case, before the pattern is looked at. -/
def lowerName (n : String) : String := String.ofList (Text.lower n.toList)

/-- run.py L307-L309 (L310-L312, L313-L315): a name without a channel gets one, unless the class refuses it. The run after it, and
the error raised. -/
def ensureS (word : Char → Bool) (req : List String) (k : Kind) (r : Run) (n : String) : Run × Option PyErr :=
  if n ∈ OD.keys r.channels then (r, none)
  else if nameOk word k (Text.lower n.toList) then
    match addChannel req r { comp := lowerName n, kind := k } true with
    | .ok r1 => (r1, none)
    | .error e => (r, some e)
  else (r, some .valueError)

/-- The loop over the names of one class. -/
def ensureAllS (word : Char → Bool) (req : List String) (k : Kind) : List String → Run → Run × Option PyErr
  | [], r => (r, none)
  | n :: ns, r =>
    match ensureS word req k r n with
    | (r1, none) => ensureAllS word req k ns r1
    | (r1, some e) => (r1, some e)

/-- run.py L300-L316 `validate_channels_recorded`: each list is copied when its loop starts. -/
def validateS (word : Char → Bool) (req : List String) (r : Run) : Run × Option PyErr :=
  match ensureAllS word req .electric r.elec r with
  | (r1, some e) => (r1, some e)
  | (r1, none) =>
    match ensureAllS word req .magnetic r1.mag r1 with
    | (r2, some e) => (r2, some e)
    | (r2, none) => ensureAllS word req .auxiliary r2.aux r2

/-- The list of one class of a run. -/
def put (k : Kind) (ns : List String) (r : Run) : Run :=
  match k with
  | .electric => { r with elec := ns }
  | .magnetic => { r with mag := ns }
  | .auxiliary => { r with aux := ns }

/-- `run.channels_recorded_<kind> = v`: the run afterwards, and the error raised. -/
def assign (word : Char → Bool) (emptyOk : Bool) (req : List String) (k : Kind) (v : Input) (r : Run) : Run × Option PyErr :=
  match namesIn emptyOk v with
  | .error e => (r, some e)
  | .ok l => validateS word req (put k (l.map String.ofList) r)

/-- `Run(channels_recorded_electric=e, channels_recorded_magnetic=m, channels_recorded_auxiliary=a)` with lists of names. -/
def makeRun (word : Char → Bool) (req : List String) (e m a : List String) : Except PyErr Run :=
  match validateS word req { elec := e, mag := m, aux := a } with
  | (r, none) => .ok r
  | (_, some x) => .error x

/-- run.py L610-L647 `channel_index`: `channels_recorded_all.index(component)`, None if it is not there. -/
def channelIndex (r : Run) (c : String) : Option Nat :=
  if hasChannel r c then some ((recordedAll r).idxOf c) else none

end Verif.RunLists
