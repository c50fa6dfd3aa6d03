import Verif.Model.XmlText

/-!
# Channel epochs of a StationXML station

Model of `mt_metadata/timeseries/stationxml/xml_inventory_mt_experiment.py`: how the channels of
the runs become channel epochs of a station (`add_run`, `compare_xml_channel`) and how epochs are
given back to runs (`xml_to_mt`).

Simplifications: the translation of one channel (`channel_translator`, see `Model/XmlText`,
`Model/Fdsn`) has already happened, so a channel is an `XChan` here; sensors, responses and sample
rates are values of arbitrary types; rounding is an arbitrary function; times are integers; obspy's
`select(channel=code)` is equality of codes (codes are capital letters and digits, and obspy returns
the same channel objects, so that changing them changes the station); a run read from the
equipments has no channels yet and `add_channel` of a known component puts the new channel in
place of the old (it updates it field by field, see C03).
-/

namespace Verif.XmlEpochs
open Verif.Text Verif.XmlText

/-- `obspy.core.inventory.Channel` as filled by `XMLChannelMTChannel.mt_to_xml`. -/
structure XChan (σ ρ : Type) where
  code : Str
  rate : Rat
  sensor : σ
  lat : Rat
  lon : Rat
  azimuth : Rat
  dip : Rat
  start : Int
  stop : Int
  comments : List XComment
  response : ρ
  deriving DecidableEq

variable {σ ρ : Type} [DecidableEq σ]

/-- L252-L296 `compare_xml_channel`; `r3`, `r2` are `round(·, 3)` and `round(·, 2)`. -/
def compare (r3 r2 : Rat → Rat) (a b : XChan σ ρ) : Bool :=
  if a.code ≠ b.code then false
  else if a.rate ≠ b.rate then false
  else if a.sensor ≠ b.sensor then false
  else if r3 a.lat ≠ r3 b.lat then false
  else if r3 a.lon ≠ r3 b.lon then false
  else if r2 a.azimuth ≠ r2 b.azimuth then false
  else if r2 a.dip ≠ r2 b.dip then false
  else true

/-- `max(start_list)` -/
def maxStart (l : List (XChan σ ρ × Nat)) : Option Int := (l.map (fun p => p.1.start)).max?

/-- L199-L204: among the channels with this code, the first of those with the latest start, with
its place in the station. -/
def latest (code : Str) (st : List (XChan σ ρ)) : Option (XChan σ ρ × Nat) :=
  let existing := st.zipIdx.filter (fun p => decide (p.1.code = code))
  existing.find? (fun p => decide (some p.1.start = maxStart existing))

/-- L219-L223, L235-L240, L244-L249: add the run id unless some comment has that value. -/
def addId (rid : Str) (cs : List XComment) : List XComment :=
  if rid ∈ cs.map XComment.value then cs else cs ++ [⟨rid, some "mt.run.id".toList⟩]

/-- L219-L230: an existing epoch takes in a matching channel. -/
def absorb (rid : Str) (x e : XChan σ ρ) : XChan σ ρ :=
  { e with
    comments := addId rid e.comments
    start := if x.start < e.start then x.start else e.start
    stop := if x.stop > e.stop then x.stop else e.stop }

/-- L234-L241, L243-L250: a channel becomes a new epoch. -/
def fresh (rid : Str) (x : XChan σ ρ) : XChan σ ρ := { x with comments := addId rid x.comments }

/-- L195-L250: one pass of the loop of `add_run`. -/
def addChannel (r3 r2 : Rat → Rat) (st : List (XChan σ ρ)) (rid : Str) (x : XChan σ ρ) :
    List (XChan σ ρ) :=
  match latest x.code st with
  | some (e, i) => if compare r3 r2 x e then st.set i (absorb rid x e) else st ++ [fresh rid x]
  | none => st ++ [fresh rid x]

/-- L181-L250 `add_run` -/
def addRun (r3 r2 : Rat → Rat) (st : List (XChan σ ρ)) (run : Str × List (XChan σ ρ)) :
    List (XChan σ ρ) :=
  run.2.foldl (fun st x => addChannel r3 r2 st run.1 x) st

/-- L167-L169: all runs of a station, in the order in which they are stored. -/
def writeStation (r3 r2 : Rat → Rat) (runs : List (Str × List (XChan σ ρ))) : List (XChan σ ρ) :=
  runs.foldl (addRun r3 r2) []

/-! ## reading -/

/-- A run of the station being read: made from an equipment, channels by component. -/
structure RunR (σ ρ : Type) where
  id : Str
  start : Int
  stop : Int
  rate : Rat
  channels : OD Str (XChan σ ρ)
  deriving DecidableEq

/-- L80-L84: a copy of the channel with the times of the run is added to the run. -/
def give (comp : Str → Str) (e : XChan σ ρ) (r : RunR σ ρ) : RunR σ ρ :=
  { r with channels := OD.set r.channels (comp e.code) { e with start := r.start, stop := r.stop } }

/-- L74-L84: one run id of the run list; `get_run` of an unknown id is `None`, which has no time
period. -/
def giveId (comp : Str → Str) (e : XChan σ ρ) (runs : List (RunR σ ρ)) (rid : Str) :
    Except PyErr (List (RunR σ ρ)) :=
  if rid ∈ runs.map RunR.id then
    .ok (runs.map (fun r => if r.id = rid then give comp e r else r))
  else .error .attributeError

/-- L74: the loop over the run ids (`sorted` only changes the order) -/
def giveIds (comp : Str → Str) (e : XChan σ ρ) : List (RunR σ ρ) → List Str →
    Except PyErr (List (RunR σ ρ))
  | runs, [] => .ok runs
  | runs, rid :: ids =>
    match giveId comp e runs rid with
    | .ok runs => giveIds comp e runs ids
    | .error x => .error x

/-- L88-L105: without a run list, every run within the channel's times and with its sample rate
(or none) gets the channel. -/
def giveByTime (comp : Str → Str) (e : XChan σ ρ) (r : RunR σ ρ) : RunR σ ρ :=
  if (r.rate = e.rate ∨ r.rate = 0) ∧ e.start ≤ r.start ∧ r.stop ≤ e.stop then
    { r with channels := OD.set r.channels (comp e.code) e, rate := e.rate }
  else r

/-- Order of run ids. -/
def idLe (a b : Str) : Bool := decide (a ≤ b)

/-- L66-L113: one channel of the station. -/
def readChannel (sh : CVal → Str) (comp : Str → Str) (runs : List (RunR σ ρ)) (e : XChan σ ρ) :
    Except PyErr (List (RunR σ ρ)) :=
  match parseComments sh e.comments with
  | .error x => .error x
  | .ok (_, ids) =>
    if ids ≠ [] then giveIds comp e runs (pySorted idLe ids)
    else if runs ≠ [] then .ok (runs.map (giveByTime comp e))
    else .ok [⟨['0', '0', '1'], e.start, e.stop, e.rate, [(comp e.code, e)]⟩]

/-- L62-L113: all channels of the station; `runs` are those made from the equipments. -/
def readStation (sh : CVal → Str) (comp : Str → Str) : List (RunR σ ρ) → List (XChan σ ρ) →
    Except PyErr (List (RunR σ ρ))
  | runs, [] => .ok runs
  | runs, e :: es =>
    match readChannel sh comp runs e with
    | .ok runs => readStation sh comp runs es
    | .error x => .error x

end Verif.XmlEpochs
