import Verif.Model.Filters
import Verif.Model.Units
import Verif.Model.Applied
import Verif.Base.Text
import Verif.Lemmas.Ints

/-!
# Filters in StationXML

Model of how a channel response is turned into the stages of a StationXML response and back:
`to_obspy` of the filter classes and of `ChannelResponse`
(`mt_metadata/timeseries/filters/*.py`), `from_obspy_stage` (`filter_base.py`),
`create_filter_from_stage` (`obspy_stages.py`) and the handling of a channel's response, orientation and position in
`stationxml/xml_channel_mt_channel.py`.

The stages are the objects of obspy in memory; how obspy writes them to a file is not modelled. Numbers are real
numbers. `rnd` is Python's rounding to a whole number, `fmt` prints a number.
Simplifications: the calibration date and the type of instrument, which no stage holds, are left out; a description
with bars, which `Comment` would cut, is kept whole.
-/

namespace Verif.Stages
open Verif.Filters

/-- filter_base.py L50-L167: a filter with its comment (`comments.value`) and its sequence number. -/
structure Full where
  filter : Filter
  comment : Option Str
  number : ℕ

/-- The description of a stage: a text, or the comment object that `get_filter_description` returns. -/
inductive Desc where
  | text (s : Str)
  | comment (s : Str)
  | missing
  deriving DecidableEq

/-- The classes of stages in obspy's `inventory.response`. -/
inductive StageKind where
  | polesZeros (zeros poles : List ℂ) (normalization : ℝ)
  | coefficients (rate factor delay correction : Option ℝ)
  | fir (coefficients : List ℝ) (symmetry : Symmetry) (rate factor : Option ℝ)
  | responseList (elements : List (ℝ × ℝ × ℝ))
  | plain

/-- A stage. The units are symbols, beside them their names. -/
structure Stage where
  number : ℕ
  gain : ℝ
  gainFrequency : ℝ
  unitsIn : Str
  unitsOut : Str
  unitsInName : Str
  unitsOutName : Str
  name : Option Str
  description : Desc
  kind : StageKind

/-! ### writing -/

/-- The attribute `type` of the filter classes. -/
def typeName (f : Filter) : Str :=
  match f.kind with
  | .zpk .. => "zpk".toList
  | .coefficient => "coefficient".toList
  | .delay _ => "time delay".toList
  | .fap _ => "fap".toList
  | .fir .. => "fir".toList

/-- base/helpers.py L31-L39 `filter_descriptions`. -/
def standard (f : Filter) : Str :=
  match f.kind with
  | .zpk .. => "poles and zeros filter".toList
  | .coefficient => "coefficient filter".toList
  | .delay _ => "time delay filter".toList
  | .fap _ => "frequency amplitude phase lookup table".toList
  | .fir .. => "finite impaulse response filter".toList

/-- filter_base.py L273-L285 `get_filter_description`. -/
def describe (f : Full) : Desc :=
  match f.comment with
  | none => .text (standard f.filter)
  | some s => .comment s

/-- The class and the class's own attributes of the stage: pole_zero_filter.py L125-L164, coefficient_filter.py
L51-L108, time_delay_filter.py L66-L97, frequency_response_table_filter.py L170-L208, fir_filter.py L203-L241. -/
def stageKind (rate : ℝ) (f : Filter) : StageKind :=
  match f.kind with
  | .zpk z p k => .polesZeros z p k
  | .coefficient => .coefficients (some rate) (some 1) (some 0) (some 0)
  | .delay d => .coefficients (some rate) (some 1) (some d) (some 0)
  | .fap t => .responseList t
  | .fir c s _ r d => .fir c s (some r) (some d)

/-- `f.to_obspy(stage_number=n, normalization_frequency=nf, sample_rate=rate)`, the lines of `stageKind`; the units are
looked up first (filter_base.py L222-L228). -/
def toStage (nf rate : ℝ) (n : ℕ) (f : Full) : Except PyErr Stage :=
  (Units.getUnit (some f.filter.unitsIn) false).bind fun u =>
  (Units.getUnit (some f.filter.unitsOut) false).bind fun v =>
  .ok { number := n, gain := f.filter.gain, gainFrequency := nf, unitsIn := u.symbol, unitsOut := v.symbol,
        unitsInName := u.name, unitsOutName := v.name, name := some f.filter.name, description := describe f,
        kind := stageKind rate f.filter }

/-- channel_response.py L488-L497: a coefficient filter that does not end in counts is written as a filter without
poles and zeros. Setting the units normalises them (filter_base.py L191-L220). -/
def asWritten (f : Full) : Except PyErr Full :=
  match f.filter.kind with
  | .coefficient =>
    if f.filter.unitsOut = "count".toList ∨ f.filter.unitsOut = "digital counts".toList then .ok f
    else
      (Units.getUnit (some f.filter.unitsIn) false).bind fun u =>
      (Units.getUnit (some f.filter.unitsOut) false).bind fun v =>
      .ok { f with filter := { name := f.filter.name, unitsIn := u.name, unitsOut := v.name, gain := f.filter.gain,
                               kind := .zpk [] [] 1 } }
  | _ => .ok f

/-- channel_response.py L486-L517: the loop over the filters, numbered from `n`. -/
def writeFrom (nf rate : ℝ) : ℕ → List Full → Except PyErr (List Stage)
  | _, [] => .ok []
  | n, f :: t =>
    (asWritten f).bind fun g => (toStage nf rate n g).bind fun s =>
    (writeFrom nf rate (n + 1) t).bind fun r => .ok (s :: r)

/-- `round(x, n)` for a number of decimals `n`. -/
noncomputable def roundTo (rnd : ℝ → ℤ) (x : ℝ) (n : ℤ) : ℝ := rnd (x * 10 ^ n) / 10 ^ n

/-- `round(x, figs - int(np.floor(np.log10(abs(x)))))` -/
noncomputable def figures (rnd : ℝ → ℤ) (figs : ℤ) (x : ℝ) : ℝ := roundTo rnd x (figs - ⌊Real.logb 10 |x|⌋)

/-- channel_response.py L430-L455, the product of the gains. -/
noncomputable def gainProduct (l : List Full) : ℝ := l.foldl (fun acc f => acc * f.filter.gain) 1

open Classical in
/-- channel_response.py L430-L455 `compute_total_gain`: for a gain 0 the logarithm is `-inf`, which `int` refuses. -/
noncomputable def totalGain (rnd : ℝ → ℤ) (l : List Full) : Except PyErr ℝ :=
  if gainProduct l = 0 then .error .overflowError else .ok (figures rnd 16 (gainProduct l))

open Classical in
/-- channel_response.py L392-L428 `compute_instrument_sensitivity`. -/
noncomputable def sensitivity (rnd : ℝ → ℤ) (nf : ℝ) (l : List Full) : ℝ :=
  let s := ‖l.foldl (fun acc f => acc * respAt f.filter nf) (1 : ℂ)‖
  if s = 0 then 1 else figures rnd 6 s

/-- The response of a StationXML channel. -/
structure Response where
  value : ℝ
  frequency : ℝ
  unitsIn : Str
  unitsOut : Str
  stages : List Stage

/-- channel_response.py L457-L519 `to_obspy`: whatever the sensitivity, the total gain is written (L472-L476). -/
noncomputable def toResponse (rnd : ℝ → ℤ) (nf rate : ℝ) (unitsIn unitsOut : Str) (l : List Full) : Except PyErr Response :=
  (totalGain rnd l).bind fun g =>
  (Units.getUnit (some unitsIn) true).bind fun u =>
  (Units.getUnit (some unitsOut) true).bind fun v =>
  (writeFrom nf rate 1 l).bind fun st => .ok ⟨g, nf, u.symbol, v.symbol, st⟩

/-! ### reading -/

/-- filter_base.py L340-L353: the description becomes the comment; `Comment` refuses a comment object as text
(common/comment.py L77-L90). -/
def readDesc : Desc → Except PyErr (Option Str)
  | .text s => .ok (some s)
  | .comment _ => .error .typeError
  | .missing => .ok none

/-- filter_base.py L191-L220 `validate_units`. -/
def readUnit (s : Str) : Except PyErr Str :=
  match Units.getUnit (some s) false with
  | .ok u => .ok u.name
  | .error _ => .error .keyError

/-- filter_base.py L287-L358 `from_obspy_stage` for a class whose own attributes are `k`. -/
def fromStage (s : Stage) (k : Kind) : Except PyErr Full :=
  (readDesc s.description).bind fun c =>
  (readUnit s.unitsIn).bind fun u =>
  (readUnit s.unitsOut).bind fun v =>
  .ok ⟨⟨s.name.getD [], u, v, s.gain, k⟩, c, s.number⟩

/-- `"counts" in units.lower()` -/
def hasCounts (s : Str) : Bool := Text.hasSub "counts".toList (Units.lower s)

open Classical in
/-- obspy_stages.py L81-L107 `check_if_coefficient_filter_is_delay_only`. -/
noncomputable def delayOnly (gain : ℝ) (factor delay correction : Option ℝ) : Bool :=
  decide (gain = 1) && decide (factor = some 1) && decide (delay ≠ some 0) && decide (correction = some 0)

/-- frequency_response_table_filter.py L118-L140, the phases of the table. -/
noncomputable def readTable (t : List (ℝ × ℝ × ℝ)) : List (ℝ × ℝ × ℝ) :=
  List.zipWith (fun r p => (r.1, r.2.1, p)) t (validatePhases (t.map (fun r => r.2.2)))

open Classical in
/-- obspy_stages.py L110-L180 `create_filter_from_stage`. Missing numbers are refused by pydantic. -/
noncomputable def readStage (s : Stage) : Except PyErr Full :=
  match s.kind with
  | .polesZeros z p k =>
    if z = [] ∧ p = [] ∧ hasCounts s.unitsIn = false ∧ hasCounts s.unitsOut = false then fromStage s .coefficient
    else fromStage s (.zpk z p k)
  | .coefficients _ factor delay correction =>
    if delayOnly s.gain factor delay correction then
      match delay with
      | some d => fromStage s (.delay d)
      | none => .error .valueError
    else fromStage s .coefficient
  | .fir c sy rate factor =>
    match rate, factor with
    | some r, some d => fromStage s (.fir c sy s.gainFrequency r d)
    | _, _ => .error .valueError
  | .responseList t => fromStage s (.fap (readTable t))
  | .plain => fromStage s .coefficient

/-! ### naming the filters of a channel -/

/-- Strings in Python are compared code point by code point. -/
def strLt : Str → Str → Bool
  | [], [] => false
  | [], _ :: _ => true
  | _ :: _, [] => false
  | a :: s, b :: t => if a.toNat < b.toNat then true else if b.toNat < a.toNat then false else strLt s t

/-- `sorted(l)[-1]` -/
def lastOf : List Str → Option Str
  | [] => none
  | k :: t =>
    match lastOf t with
    | none => some k
    | some m => if strLt m k then some k else some m

/-- `f"{n:02}"` -/
def pad2 (n : ℤ) : Str :=
  if 0 ≤ n ∧ n ≤ 9 then '0' :: showInt n else showInt n

/-- xml_channel_mt_channel.py L563-L572: a new number. `int` is that of digits with a sign. -/
def newName (type : Str) (keys : List Str) : Str :=
  match lastOf (keys.filter (fun k => Text.hasSub type k)) with
  | none => type ++ "_00".toList
  | some last =>
    match readInt (last.drop (last.length - 2)) with
    | none => type ++ "_00".toList
    | some n => type ++ '_' :: pad2 (n + 1)

/-- `round(abs(f.complex_response([1])[0]))`: fir_filter.py L278 and time_delay_filter.py L119 multiply the list by a
number, a `TypeError`. -/
noncomputable def amplitudeAt1 (rnd : ℝ → ℤ) (f : Filter) : Except PyErr ℤ :=
  match f.kind with
  | .delay _ => .error .typeError
  | .fir .. => .error .typeError
  | _ => .ok (rnd ‖respAt f 1‖)

/-- xml_channel_mt_channel.py L555-L561: an existing filter of the same type and amplitude. -/
noncomputable def sameAs (rnd : ℝ → ℤ) (f : Filter) : List Full → Except PyErr (Option Str)
  | [] => .ok none
  | g :: t =>
    if typeName g.filter = typeName f then
      (amplitudeAt1 rnd g.filter).bind fun a => (amplitudeAt1 rnd f).bind fun b =>
      if a = b then .ok (some g.filter.name) else sameAs rnd f t
    else sameAs rnd f t

/-- xml_channel_mt_channel.py L544-L572 `_add_filter_number`: the name and whether it is new. -/
noncomputable def addNumber (rnd : ℝ → ℤ) (existing : OD Str Full) (f : Filter) : Except PyErr (Str × Bool) :=
  (sameAs rnd f existing.values).bind fun r =>
    match r with
    | some n => .ok (n, false)
    | none => .ok (newName (typeName f) existing.keys, true)

/-- Set the name of a filter. -/
def rename (f : Full) (n : Str) : Full := { f with filter := { f.filter with name := n } }

/-- xml_channel_mt_channel.py L526-L530 -/
noncomputable def named (rnd : ℝ → ℤ) (existing : OD Str Full) (f : Full) : Except PyErr (Full × Option Str) :=
  if f.filter.name = [] then
    (addNumber rnd existing f.filter).bind fun r => .ok (rename f r.1, if r.2 then some r.1 else none)
  else .ok (f, none)

/-- xml_channel_mt_channel.py L532-L534: a filter that decimates gets its sample rate into its name. -/
noncomputable def rated (fmt : ℝ → Str) (f : Full) : Full :=
  match f.filter.kind with
  | .fir _ _ _ r _ => if decimates f.filter then rename f (f.filter.name ++ '_' :: fmt r) else f
  | _ => f

/-- xml_channel_mt_channel.py L540: `name.replace("/", " per ").lower()`. -/
def keyOf (n : Str) : Str := (n.flatMap (fun c => if c = '/' then " per ".toList else [c])).map Char.toLower

/-- xml_channel_mt_channel.py L518-L542 `_xml_response_to_mt`: the filters of the survey, which unnamed filters are added
to, and the filters of the channel. -/
noncomputable def readLoop (rnd : ℝ → ℤ) (fmt : ℝ → Str) :
    OD Str Full → OD Str Full → List Stage → Except PyErr (OD Str Full × OD Str Full)
  | existing, acc, [] => .ok (existing, acc)
  | existing, acc, s :: t =>
    (readStage s).bind fun f => (named rnd existing f).bind fun r =>
    let g := rated fmt r.1
    let existing := match r.2 with
      | some n => existing.set n g
      | none => existing
    readLoop rnd fmt existing (acc.set (keyOf g.filter.name) g) t

/-- xml_channel_mt_channel.py L131-L139: the filters as applied to the channel, each through `AppliedFilter`
(filtered.py L82-L94) and `add_filter` (channel.py L417-L449). -/
def applied : List Applied.AF → OD Str Full → Except PyErr (List Applied.AF)
  | l, [] => .ok l
  | l, p :: d =>
    (Applied.mkName p.1).bind fun n =>
    applied (Applied.addObj l { name := n, applied := true, stage := some (p.2.number : ℤ) }) d

/-- channel.py L560-L575 `channel_response`: the filters found under the names of the applied filters. -/
def responseList (l : List Applied.AF) (d : OD Str Full) : List Full := l.filterMap (fun a => d.get? a.name)

/-- xml_channel_mt_channel.py L498-L516 `_get_mt_units` with channel.py L274-L301: the units of the channel after
reading, `units` before. -/
def channelUnits (units : Str) (st : List Stage) : Except PyErr Str :=
  match st.getLast? with
  | none => .ok units
  | some s =>
    let best := if s.unitsOutName ≠ [] ∧ s.unitsOut ≠ [] then
        (if s.unitsOut.length < s.unitsOutName.length then s.unitsOutName else s.unitsOut)
      else if s.unitsOutName ≠ [] then s.unitsOutName
      else s.unitsOut
    if best = [] then .ok units
    else match Units.getUnit (some best) true with
      | .ok u => .ok u.name
      | .error _ => .error .keyError

/-! ### orientation and position -/

/-- xml_channel_mt_channel.py L223-L228: `angle % 360`. -/
noncomputable def writeAngle (a : ℝ) : ℝ := a - 360 * ⌊a / 360⌋

open Classical in
/-- xml_channel_mt_channel.py L124-L128: a value that is not zero is taken, else the default 0 stays. -/
noncomputable def readAngle (a : ℝ) : ℝ := if a = 0 then 0 else a

/-- Latitude, longitude and elevation. -/
structure Position where
  latitude : ℝ
  longitude : ℝ
  elevation : ℝ

/-- Where a channel is: the two electrodes of an electric channel, or one place. -/
inductive Place where
  | electric (positive negative : Position)
  | other (location : Position)

/-- xml_channel_mt_channel.py L191-L208: the position written. -/
def writePlace : Place → Position
  | .electric p _ => p
  | .other p => p

/-- xml_channel_mt_channel.py L471-L496 `_get_mt_position`. -/
def readPlace (electric : Bool) (p : Position) : Place := if electric then .electric p p else .other p

end Verif.Stages
