import Verif.Props.StageUnits
import Verif.Props.Filters
import Verif.Props.PassBand
import Verif.Lemmas.OD

/-!
C207-C216: filters, orientation and position of a channel in StationXML.
-/

namespace Verif.Stages
open Verif.Filters

/-! ### one filter -/

/-- A filter with known units and without a comment. -/
def Plain (f : Full) : Prop := f.comment = none ∧ StoredUnit f.filter.unitsIn ∧ StoredUnit f.filter.unitsOut

open Classical in
/-- What becomes of the class of a filter and the attributes of its own when it is written with the normalisation
frequency `nf` and read. -/
noncomputable def afterTrip (nf : ℝ) (f : Filter) : Kind :=
  match f.kind with
  | .zpk z p k => if z = [] ∧ p = [] then .coefficient else .zpk z p k
  | .coefficient => .coefficient
  | .delay d => if f.gain = 1 ∧ d ≠ 0 then .delay d else .coefficient
  | .fap t => .fap (readTable t)
  | .fir c s _ r d => .fir c s nf r d

/-- The stage of a filter whose units are `u` and `v`. -/
def stageOf (nf rate : ℝ) (n : ℕ) (f : Full) (u v : Units.Unit) : Stage where
  number := n
  gain := f.filter.gain
  gainFrequency := nf
  unitsIn := u.symbol
  unitsOut := v.symbol
  unitsInName := f.filter.unitsIn
  unitsOutName := f.filter.unitsOut
  name := some f.filter.name
  description := .text (standard f.filter)
  kind := stageKind rate f.filter

theorem toStage_plain {nf rate : ℝ} {n : ℕ} {f : Full} (h : Plain f) :
    ∃ u v, Units.getUnit (some f.filter.unitsIn) false = .ok u ∧ Units.getUnit (some f.filter.unitsOut) false = .ok v ∧
      u.name = f.filter.unitsIn ∧ v.name = f.filter.unitsOut ∧
      readUnit u.symbol = .ok f.filter.unitsIn ∧ readUnit v.symbol = .ok f.filter.unitsOut ∧
      hasCounts u.symbol = false ∧ hasCounts v.symbol = false ∧
      toStage nf rate n f = .ok (stageOf nf rate n f u v) := by
  obtain ⟨h0, h1, h2⟩ := h
  obtain ⟨u, a1, a2, a3⟩ := h1.back
  obtain ⟨v, b1, b2, b3⟩ := h2.back
  refine ⟨u, v, a1, b1, a2, b2, a3, b3, h1.noCounts a1 a2, h2.noCounts b1 b2, ?_⟩
  unfold toStage
  rw [a1, b1]
  simp only [Except.bind, a2, b2, describe, h0, stageOf]

theorem fromStage_ok {s : Stage} {k : Kind} {c : Option Str} {u v : Str} (hc : readDesc s.description = .ok c)
    (hu : readUnit s.unitsIn = .ok u) (hv : readUnit s.unitsOut = .ok v) :
    fromStage s k = .ok ⟨⟨s.name.getD [], u, v, s.gain, k⟩, c, s.number⟩ := by
  unfold fromStage
  rw [hc, hu, hv]
  rfl

/-- The filter that `to_obspy` of the channel writes for `f`. -/
theorem asWritten_plain {f : Full} (h : Plain f) : ∃ g, asWritten f = .ok g ∧ Plain g ∧
    g.filter.name = f.filter.name ∧ g.filter.unitsIn = f.filter.unitsIn ∧ g.filter.unitsOut = f.filter.unitsOut ∧
    g.filter.gain = f.filter.gain ∧
    (g.filter.kind = f.filter.kind ∨ (f.filter.kind = .coefficient ∧ g.filter.kind = .zpk [] [] 1)) := by
  obtain ⟨h0, h1, h2⟩ := h
  unfold asWritten
  split
  · split
    · exact ⟨f, rfl, ⟨h0, h1, h2⟩, rfl, rfl, rfl, rfl, Or.inl rfl⟩
    · obtain ⟨u, a1, a2, _⟩ := h1.back
      obtain ⟨v, b1, b2, _⟩ := h2.back
      rw [a1, b1]
      refine ⟨_, rfl, ⟨h0, ?_, ?_⟩, rfl, a2, b2, rfl, Or.inr ⟨by assumption, rfl⟩⟩
      · show StoredUnit u.name
        rw [a2]; exact h1
      · show StoredUnit v.name
        rw [b2]; exact h2
  · exact ⟨f, rfl, ⟨h0, h1, h2⟩, rfl, rfl, rfl, rfl, Or.inl rfl⟩

theorem trip (nf rate : ℝ) (n : ℕ) {f : Full} (h : Plain f) : ∃ g s r, asWritten f = .ok g ∧ toStage nf rate n g = .ok s ∧
    readStage s = .ok r ∧ s.number = n ∧ s.gain = f.filter.gain ∧ r.number = n ∧ r.filter.name = f.filter.name ∧ r.filter.unitsIn = f.filter.unitsIn ∧
    r.filter.unitsOut = f.filter.unitsOut ∧ r.filter.gain = f.filter.gain ∧ r.filter.kind = afterTrip nf f.filter := by
  obtain ⟨g, hg, gp, e1, e2, e3, e4, e5⟩ := asWritten_plain h
  obtain ⟨u, v, -, -, -, -, u3, v3, u4, v4, ht⟩ := toStage_plain (nf := nf) (rate := rate) (n := n) gp
  refine ⟨g, stageOf nf rate n g u v, ?_⟩
  suffices ∃ k, readStage (stageOf nf rate n g u v) =
      fromStage (stageOf nf rate n g u v) k ∧
      k = afterTrip nf f.filter by
    obtain ⟨k, hk, hk'⟩ := this
    exact ⟨⟨⟨g.filter.name, g.filter.unitsIn, g.filter.unitsOut, g.filter.gain, k⟩, some (standard g.filter), n⟩, hg, ht,
      by rw [hk]; exact fromStage_ok (s := stageOf nf rate n g u v) rfl u3 v3, rfl, e4, rfl, e1, e2, e3, e4, hk'⟩
  rcases e5 with e5 | ⟨e5, e6⟩
  · unfold afterTrip readStage
    simp only [stageOf]
    unfold stageKind
    rw [e5]
    cases hk : f.filter.kind with
    | zpk z p k =>
      simp only [u4, v4, and_true]
      by_cases hz : z = [] ∧ p = []
      · exact ⟨.coefficient, by rw [if_pos hz], by rw [if_pos hz]⟩
      · exact ⟨.zpk z p k, by rw [if_neg hz], by rw [if_neg hz]⟩
    | coefficient =>
      refine ⟨.coefficient, ?_, rfl⟩
      simp [delayOnly]
    | delay d =>
      by_cases hd : f.filter.gain = 1 ∧ d ≠ 0
      · refine ⟨.delay d, ?_, ?_⟩
        · simp [delayOnly, e4, hd.1, hd.2]
        · simp only [if_pos hd]
      · refine ⟨.coefficient, ?_, ?_⟩
        · have : delayOnly g.filter.gain (some 1) (some d) (some 0) = false := by
            unfold delayOnly
            rw [e4]
            by_contra hh
            simp only [Bool.not_eq_false, Bool.and_eq_true, decide_eq_true_eq, ne_eq, Option.some.injEq] at hh
            exact hd ⟨hh.1.1.1, hh.1.2⟩
          simp [this]
        · simp only [if_neg hd]
    | fap t => exact ⟨_, rfl, rfl⟩
    | fir c s gf r d => exact ⟨_, rfl, rfl⟩
  · refine ⟨.coefficient, ?_, ?_⟩
    · unfold readStage
      simp only [stageOf]
      unfold stageKind
      rw [e6]
      simp [u4, v4]
    · unfold afterTrip
      rw [e5]

/-! ### the filters of a channel -/

/-- What is kept of every filter. -/
structure Kept (nf : ℝ) (f r : Full) : Prop where
  name : r.filter.name = f.filter.name
  unitsIn : r.filter.unitsIn = f.filter.unitsIn
  unitsOut : r.filter.unitsOut = f.filter.unitsOut
  gain : r.filter.gain = f.filter.gain
  kind : r.filter.kind = afterTrip nf f.filter

theorem write_read (nf rate : ℝ) : ∀ (l : List Full) (n : ℕ), (∀ f ∈ l, Plain f) → ∃ st rs,
    writeFrom nf rate n l = .ok st ∧ List.Forall₂ (fun s r => readStage s = .ok r) st rs ∧
    List.Forall₂ (Kept nf) l rs ∧ rs.map (fun r => r.number) = List.range' n l.length := by
  intro l
  induction l with
  | nil => intro n _; exact ⟨[], [], rfl, .nil, .nil, rfl⟩
  | cons f t ih =>
    intro n h
    obtain ⟨g, s, r, h1, h2, h3, -, -, h4, h5, h6, h7, h8, h9⟩ := trip nf rate n (h f (by simp))
    obtain ⟨st, rs, a1, a2, a3, a4⟩ := ih (n + 1) (fun x hx => h x (by simp [hx]))
    refine ⟨s :: st, r :: rs, ?_, .cons h3 a2, .cons ⟨h5, h6, h7, h8, h9⟩ a3, ?_⟩
    · unfold writeFrom
      rw [h1]
      simp only [Except.bind, h2, a1]
    · simp [h4, a4, List.range'_succ]

/-- The entry of one filter among the filters of a channel. -/
noncomputable def entryOf (fmt : ℝ → Str) (r : Full) : Str × Full := (keyOf (rated fmt r).filter.name, rated fmt r)

theorem readLoop_named (rnd : ℝ → ℤ) (fmt : ℝ → Str) (ex : OD Str Full) : ∀ (st : List Stage) (rs : List Full),
    List.Forall₂ (fun s r => readStage s = .ok r) st rs → (∀ r ∈ rs, r.filter.name ≠ []) → ∀ acc : OD Str Full,
    readLoop rnd fmt ex acc st = .ok (ex, (rs.map (entryOf fmt)).foldl (fun d p => d.set p.1 p.2) acc) := by
  intro st rs h
  induction h with
  | nil => intro _ acc; rfl
  | @cons s r st rs h1 h2 ih =>
    intro hn acc
    unfold readLoop
    have : named rnd ex r = .ok (r, none) := by
      unfold named
      rw [if_neg (hn r (by simp))]
    rw [h1]
    simp only [Except.bind, this]
    rw [ih (fun x hx => hn x (by simp [hx]))]
    rfl

/-- The name a filter has after reading: filters that decimate get their sample rate appended. -/
noncomputable def nameRead (fmt : ℝ → Str) (f : Full) : Str :=
  match f.filter.kind with
  | .fir _ _ _ r d => if d ≠ 1 then f.filter.name ++ "_".toList ++ fmt r else f.filter.name
  | _ => f.filter.name

theorem Kept.rated_eq {nf : ℝ} {fmt : ℝ → Str} {f r : Full} (h : Kept nf f r) :
    rated fmt r = rename r (nameRead fmt f) := by
  have hr : ∀ x : Full, rename x x.filter.name = x := fun x => rfl
  have hk := h.kind
  unfold rated nameRead
  unfold afterTrip at hk
  cases hf : f.filter.kind with
  | zpk z p k =>
    rw [hf] at hk
    simp only at hk
    split at hk <;> rw [hk] <;> simp only [← h.name, hr]
  | coefficient => rw [hf] at hk; rw [hk]; simp only [← h.name, hr]
  | delay d =>
    rw [hf] at hk
    simp only at hk
    split at hk <;> rw [hk] <;> simp only [← h.name, hr]
  | fap t => rw [hf] at hk; rw [hk]; simp only [← h.name, hr]
  | fir c s g q d =>
    rw [hf] at hk
    simp only at hk
    have hd : decimates r.filter = !decide (d = 1) := by
      unfold decimates
      rw [hk]
      by_cases e : d = 1 <;> simp [e]
    rw [hk]
    by_cases e : d = 1
    · simp [hd, e, ← h.name, hr]
    · simp [hd, e, h.name]

theorem toLower_ws {c : Char} (h : c.isWhitespace = false) : c.toLower.isWhitespace = false := by
  unfold Char.toLower
  split
  · next hc =>
    have a1 : (65 : UInt32).toNat ≤ c.val.toNat := hc.1
    have a2 : c.val.toNat ≤ (90 : UInt32).toNat := hc.2
    have b1 : (65 : UInt32).toNat = 65 := rfl
    have b2 : (90 : UInt32).toNat = 90 := rfl
    have b3 : (32 : UInt32).toNat = 32 := rfl
    have : (c.val + 32).toNat = c.val.toNat + 32 := by
      rw [UInt32.toNat_add, b3, Nat.mod_eq_of_lt]
      show c.val.toNat + 32 < 2 ^ 32
      omega
    have hne : ∀ (hv : (c.val + 32).isValidChar) (d : Char), d.toNat < 97 → (⟨c.val + 32, hv⟩ : Char) ≠ d := by
      intro hv d hd e
      have := congrArg Char.toNat e
      have h2 : (c.val + 32).toNat = d.toNat := this
      omega
    unfold Char.isWhitespace
    simp only [Bool.or_eq_false_iff, decide_eq_false_iff_not]
    refine ⟨⟨⟨?_, ?_⟩, ?_⟩, ?_⟩ <;> exact hne _ _ (by decide)
  · exact h

theorem keyOf_eq (n : Str) : keyOf n = Applied.norm n := rfl

theorem toLower_ne_slash {c : Char} (h : c ≠ '/') : c.toLower ≠ '/' := by
  unfold Char.toLower
  split
  · next hc =>
    intro e
    have a1 : (65 : UInt32).toNat ≤ c.val.toNat := hc.1
    have a2 : c.val.toNat ≤ (90 : UInt32).toNat := hc.2
    have b1 : (65 : UInt32).toNat = 65 := rfl
    have b2 : (90 : UInt32).toNat = 90 := rfl
    have b3 : (32 : UInt32).toNat = 32 := rfl
    have : (c.val + 32).toNat = c.val.toNat + 32 := by
      rw [UInt32.toNat_add, b3, Nat.mod_eq_of_lt]
      show c.val.toNat + 32 < 2 ^ 32
      omega
    have h2 : (c.val + 32).toNat = 47 := congrArg Char.toNat e
    omega
  · exact h

theorem slash_not_mem_norm (n : Str) : '/' ∉ Applied.norm n := by
  unfold Applied.norm
  intro h
  obtain ⟨c, hc, e⟩ := List.mem_map.1 h
  obtain ⟨d, _, hd⟩ := List.mem_flatMap.1 hc
  split at hd
  · revert hd
    have : ∀ x ∈ " per ".toList, x.toLower ≠ '/' := by decide
    exact fun hd => this c hd e
  · next h' =>
    simp only [List.mem_cons, List.not_mem_nil, or_false] at hd
    subst hd
    exact toLower_ne_slash h' e

theorem norm_of_plain {n : Str} (h : '/' ∉ n) (hl : n.map Char.toLower = n) : Applied.norm n = n := by
  unfold Applied.norm
  have : n.flatMap (fun c => if c = '/' then " per ".toList else [c]) = n := by
    clear hl
    induction n with
    | nil => rfl
    | cons c t ih =>
      rw [List.flatMap_cons, ih (fun hm => h (by simp [hm])), if_neg (fun e => h (by simp [e]))]
      rfl
  rw [this, hl]

theorem norm_idem (n : Str) : Applied.norm (Applied.norm n) = Applied.norm n := by
  apply norm_of_plain (slash_not_mem_norm n)
  unfold Applied.norm
  rw [List.map_map]
  apply List.map_congr_left
  intro c _
  exact Text.toLower_toLower c

/-- Not only blanks. -/
def Spoken (n : Str) : Prop := ∃ c ∈ n, c.isWhitespace = false

theorem Spoken.norm {n : Str} (h : Spoken n) : Spoken (Applied.norm n) := by
  obtain ⟨c, hc, hw⟩ := h
  unfold Applied.norm
  by_cases e : c = '/'
  · refine ⟨'p', List.mem_map.2 ⟨'p', List.mem_flatMap.2 ⟨c, hc, ?_⟩, by decide⟩, by decide⟩
    rw [if_pos e]
    decide
  · refine ⟨c.toLower, List.mem_map.2 ⟨c, List.mem_flatMap.2 ⟨c, hc, ?_⟩, rfl⟩, toLower_ws hw⟩
    rw [if_neg e]
    simp

theorem mkName_norm {n : Str} (h : Spoken n) : Applied.mkName (Applied.norm n) = .ok (Applied.norm n) := by
  unfold Applied.mkName
  rw [if_neg, norm_idem]
  obtain ⟨c, hc, hw⟩ := h.norm
  intro hh
  rw [List.all_eq_true] at hh
  rw [hh c hc] at hw
  cases hw

theorem Spoken.nameRead {fmt : ℝ → Str} {f : Full} (h : Spoken f.filter.name) : Spoken (nameRead fmt f) := by
  obtain ⟨c, hc, hw⟩ := h
  refine ⟨c, ?_, hw⟩
  unfold Stages.nameRead
  split
  · split
    · simp [hc]
    · exact hc
  · exact hc

/-- The applied filter of an entry. -/
def afOf (p : Str × Full) : Applied.AF := ⟨p.1, true, some (p.2.number : ℤ)⟩

theorem applied_fresh : ∀ (d : OD Str Full) (l : List Applied.AF), (∀ p ∈ d, Applied.mkName p.1 = .ok p.1) →
    ((l.map (fun a => a.name)) ++ OD.keys d).Nodup → applied l d = .ok (l ++ d.map afOf) := by
  intro d
  induction d with
  | nil => intro l _ _; simp [applied]
  | cons p d ih =>
    intro l hm hn
    unfold applied
    rw [hm p (by simp)]
    simp only [Except.bind]
    have hp : p.1 ∉ l.map (fun a => a.name) := by
      intro hmem
      have := (List.nodup_append.1 hn).2.2 p.1 hmem p.1 (by simp [OD.keys])
      exact this rfl
    have ha : Applied.addObj l ⟨p.1, true, some (p.2.number : ℤ)⟩ = l ++ [afOf p] := by
      unfold Applied.addObj
      rw [if_neg]
      · rfl
      · intro h
        rw [List.any_eq_true] at h
        obtain ⟨a, ha, e⟩ := h
        simp only [decide_eq_true_eq] at e
        exact hp (List.mem_map.2 ⟨a, ha, e⟩)
    rw [ha, ih]
    · simp
    · exact fun q hq => hm q (by simp [hq])
    · simpa [OD.keys, afOf] using hn

theorem responseList_values {d : OD Str Full} (h : OD.WF d) : responseList (d.map afOf) d = d.map (fun p => p.2) := by
  unfold responseList
  rw [List.filterMap_map]
  have : ∀ p ∈ d, ((fun a : Applied.AF => OD.get? d a.name) ∘ afOf) p = some p.2 := by
    intro p hp
    exact OD.get?_of_mem h (k := p.1) (v := p.2) hp
  rw [List.filterMap_congr this]
  simp

/-- Write the filters of a channel as the stages of its response, read them for a new channel, apply them to it and
collect them again by name: the applied filters and the filters of its `channel_response`. -/
noncomputable def throughXml (rnd : ℝ → ℤ) (fmt : ℝ → Str) (nf rate : ℝ) (ex : OD Str Full) (l : List Full) :
    Except PyErr (List Applied.AF × List Full) :=
  (writeFrom nf rate 1 l).bind fun st => (readLoop rnd fmt ex [] st).bind fun r =>
  (applied [] r.2).bind fun a => .ok (a, responseList a r.2)

theorem chain (rnd : ℝ → ℤ) (fmt : ℝ → Str) (nf rate : ℝ) (ex : OD Str Full) (l : List Full) (hp : ∀ f ∈ l, Plain f)
    (hs : ∀ f ∈ l, Spoken f.filter.name) (hd : (l.map (fun f => Applied.norm (nameRead fmt f))).Nodup) :
    ∃ rs, throughXml rnd fmt nf rate ex l =
        .ok ((rs.map (entryOf fmt)).map afOf, rs.map (rated fmt)) ∧
      (rs.map (entryOf fmt)).map Prod.fst = l.map (fun f => Applied.norm (nameRead fmt f)) ∧
      List.Forall₂ (Kept nf) l rs ∧ rs.map (fun r => r.number) = List.range' 1 l.length := by
  obtain ⟨st, rs, h1, h2, h3, h4⟩ := write_read nf rate l 1 hp
  have hk : (rs.map (entryOf fmt)).map Prod.fst = l.map (fun f => Applied.norm (nameRead fmt f)) := by
    clear h4 h2 h1 hd hs hp
    induction h3 with
    | nil => rfl
    | cons a _ ih =>
      simp only [List.map_cons, ih]
      congr 1
      show keyOf (rated fmt _).filter.name = _
      rw [a.rated_eq]
      rfl
  refine ⟨rs, ?_, hk, h3, h4⟩
  have hn : ∀ r ∈ rs, Spoken r.filter.name := by
    clear hk h4 h2 h1 hd hp
    induction h3 with
    | nil => intro r hr; cases hr
    | cons a _ ih =>
      intro r hr
      rcases List.mem_cons.1 hr with rfl | hr
      · rw [a.name]; exact hs _ (by simp)
      · exact ih (fun x hx => hs x (by simp [hx])) r hr
  have hloop := readLoop_named rnd fmt ex st rs h2 (fun r hr e => by
    obtain ⟨c, hc, _⟩ := hn r hr
    rw [e] at hc; cases hc) []
  have hwf : OD.WF (rs.map (entryOf fmt)) := by
    show (OD.keys _).Nodup
    unfold OD.keys
    rw [hk]; exact hd
  have hof : (rs.map (entryOf fmt)).foldl (fun d p => OD.set d p.1 p.2) [] = rs.map (entryOf fmt) :=
    OD.ofPairs_of_wf hwf
  rw [hof] at hloop
  have hap : applied [] (rs.map (entryOf fmt)) = .ok ((rs.map (entryOf fmt)).map afOf) := by
    have := applied_fresh (rs.map (entryOf fmt)) [] (by
      intro p hp'
      have hmem : p.1 ∈ (rs.map (entryOf fmt)).map Prod.fst := List.mem_map.2 ⟨p, hp', rfl⟩
      rw [hk] at hmem
      obtain ⟨f, hf, e⟩ := List.mem_map.1 hmem
      rw [← e]
      exact mkName_norm (hs f hf).nameRead) (by rw [List.map_nil, List.nil_append]; exact hwf)
    simpa using this
  unfold throughXml
  rw [h1]
  simp only [Except.bind, hloop, hap, responseList_values hwf]
  simp [List.map_map, Function.comp_def, entryOf]

/-! ### C207 -/

/-- C207: the response of a channel survives StationXML: for filters with known units, distinct names and no comments,
the filters read back have together the same response at every frequency. -/
def C207_claim : Prop :=
  ∀ (rnd : ℝ → ℤ) (fmt : ℝ → Str) (nf rate : ℝ) (ex : OD Str Full) (l : List Full), (∀ f ∈ l, Plain f) →
    (∀ f ∈ l, Spoken f.filter.name) → (l.map (fun f => Applied.norm (nameRead fmt f))).Nodup →
    ∃ a out, throughXml rnd fmt nf rate ex l = .ok (a, out) ∧ ∀ (xs : List ℝ) (decimation delay : Bool),
      channelResp (out.map (fun f => f.filter)) xs decimation delay =
        channelResp (l.map (fun f => f.filter)) xs decimation delay

theorem volt_stored : StoredUnit "Volt".toList :=
  ⟨⟨"V".toList, _, rfl, by decide +kernel⟩, by decide +kernel, by decide +kernel⟩

/-- A filter without poles and zeros that doubles its input by its normalisation factor. -/
noncomputable def doubler : Full := ⟨⟨"doubler".toList, "Volt".toList, "Volt".toList, 1, .zpk [] [] 2⟩, none, 0⟩

theorem doubler_plain : Plain doubler := ⟨rfl, volt_stored, volt_stored⟩

/-- C207 is false: a filter without poles and zeros is read as a coefficient filter, its normalisation factor is lost. -/
theorem C207_refuted : ¬ C207_claim := by
  intro h
  have hp : ∀ f ∈ [doubler], Plain f := by
    intro f hf
    simp only [List.mem_cons, List.not_mem_nil, or_false] at hf
    subst hf; exact doubler_plain
  have hs : ∀ f ∈ [doubler], Spoken f.filter.name := by
    intro f hf
    simp only [List.mem_cons, List.not_mem_nil, or_false] at hf
    subst hf; exact ⟨'d', by simp [doubler], by decide⟩
  obtain ⟨a, out, h1, h2⟩ := h (fun _ => 0) (fun _ => []) 0 1 [] [doubler] hp hs (by simp)
  obtain ⟨rs, g1, -, g3, -⟩ := chain (fun _ => 0) (fun _ => []) 0 1 [] [doubler] hp hs (by simp)
  rw [g1] at h1
  cases h1
  cases g3 with
  | cons k t =>
    cases t
    have h2 := h2 [1] true true
    simp only [List.map_cons, List.map_nil] at h2
    rw [C50_product, C50_product] at h2
    have hk := k.kind
    rw [k.rated_eq] at h2
    simp [afterTrip, doubler] at hk
    have hg := k.gain
    simp [respAt, rename, hk, hg, doubler, zpkAt] at h2

/-- The filters whose response is kept when they are written with the normalisation frequency `nf`: a filter without
poles and zeros must not be scaled by its normalisation factor, a delay not by its gain, the gain of a FIR filter
must be that at `nf`, and the phases of a table must be at most three turns. -/
def Faithful (nf : ℝ) (f : Filter) : Prop :=
  match f.kind with
  | .zpk z p k => z = [] → p = [] → k = 1
  | .coefficient => True
  | .delay _ => f.gain = 1
  | .fap t => ∀ r ∈ t, |r.2.2| ≤ 6 * Real.pi
  | .fir _ _ g _ _ => g = nf

theorem readTable_small {t : List (ℝ × ℝ × ℝ)} (h : ∀ r ∈ t, |r.2.2| ≤ 6 * Real.pi) : readTable t = t := by
  unfold readTable
  rw [C53_radians_partial]
  · clear h
    induction t with
    | nil => rfl
    | cons r t ih => simp [ih]
  · intro x hx
    obtain ⟨r, hr, rfl⟩ := List.mem_map.1 hx
    exact h r hr

/-- The factor a filter contributes to the response of a channel. -/
noncomputable def factor (decimation delay : Bool) (x : ℝ) (f : Filter) : ℂ :=
  if ((delay || !isDelay f) && (decimation || !decimates f)) = true then respAt f x else 1

theorem prod_factor (l : List Filter) (xs : List ℝ) (decimation delay : Bool) :
    channelResp l xs decimation delay = xs.map (fun x => (l.map (factor decimation delay x)).prod) := by
  rw [C50_selected]
  apply List.map_congr_left
  intro x _
  induction l with
  | nil => rfl
  | cons f t ih =>
    rw [List.filter_cons, List.map_cons, List.prod_cons, ← ih]
    unfold factor
    split <;> simp_all

theorem Kept.factor {nf : ℝ} {f r : Full} (h : Kept nf f r) (hf : Faithful nf f.filter) (n : Str) (decimation delay : Bool)
    (x : ℝ) : factor decimation delay x (rename r n).filter = factor decimation delay x f.filter := by
  have hk := h.kind
  have hg := h.gain
  unfold afterTrip at hk
  unfold Faithful at hf
  have key : respAt (rename r n).filter x = respAt f.filter x ∧ decimates (rename r n).filter = decimates f.filter ∧
      (isDelay (rename r n).filter = isDelay f.filter ∨ respAt f.filter x = 1) := by
    unfold isDelay decimates respAt
    simp only [rename]
    cases e : f.filter.kind with
    | zpk z p k =>
      rw [e] at hk hf
      simp only at hk hf
      split at hk
      · next hz =>
        rw [hk]
        have := hf hz.1 hz.2
        simp [hz.1, hz.2, this, zpkAt, hg]
      · rw [hk, hg]; simp
    | coefficient => rw [e] at hk; rw [hk, hg]; simp
    | delay d =>
      rw [e] at hk hf
      simp only at hk hf
      split at hk
      · rw [hk]; simp
      · next hd =>
        have hd0 : d = 0 := by
          by_contra hne
          exact hd ⟨hf, hne⟩
        rw [hk]
        simp [hd0, hg, hf]
    | fap t =>
      rw [e] at hk hf
      simp only at hk hf
      rw [readTable_small hf] at hk
      rw [hk, hg]; simp
    | fir c s g q d =>
      rw [e] at hk hf
      simp only at hk hf
      subst hf
      rw [hk, hg]; simp
  obtain ⟨k1, k2, k3⟩ := key
  unfold Stages.factor
  rw [k1, k2]
  rcases k3 with k3 | k3
  · rw [k3]
  · rw [k3]; simp

/-- C207 in part: it holds for the filters above, with any of them left out (`include_decimation`, `include_delay`). -/
theorem C207_response_partial (rnd : ℝ → ℤ) (fmt : ℝ → Str) (nf rate : ℝ) (ex : OD Str Full) (l : List Full)
    (hp : ∀ f ∈ l, Plain f) (hs : ∀ f ∈ l, Spoken f.filter.name)
    (hd : (l.map (fun f => Applied.norm (nameRead fmt f))).Nodup) (hf : ∀ f ∈ l, Faithful nf f.filter) :
    ∃ a out, throughXml rnd fmt nf rate ex l = .ok (a, out) ∧ ∀ (xs : List ℝ) (decimation delay : Bool),
      channelResp (out.map (fun f => f.filter)) xs decimation delay =
        channelResp (l.map (fun f => f.filter)) xs decimation delay := by
  obtain ⟨rs, h1, -, h3, -⟩ := chain rnd fmt nf rate ex l hp hs hd
  refine ⟨_, _, h1, ?_⟩
  intro xs decimation delay
  rw [prod_factor, prod_factor]
  apply List.map_congr_left
  intro x _
  clear h1 hd hs hp
  induction h3 with
  | nil => rfl
  | cons a _ ih =>
    simp only [List.map_cons, List.prod_cons]
    have := ih (fun f hf' => hf f (by simp [hf']))
    simp only [List.map_map] at this ⊢
    rw [this, a.rated_eq, a.factor (hf _ (by simp))]

/-! ### C208, C209 -/

/-- C208: names, units, gains and order of the filters of a channel survive StationXML. -/
def C208_claim : Prop :=
  ∀ (rnd : ℝ → ℤ) (fmt : ℝ → Str) (nf rate : ℝ) (ex : OD Str Full) (l : List Full),
    (∀ f ∈ l, StoredUnit f.filter.unitsIn ∧ StoredUnit f.filter.unitsOut ∧ Spoken f.filter.name) →
    (l.map (fun f => Applied.norm (nameRead fmt f))).Nodup →
    ∃ a out, throughXml rnd fmt nf rate ex l = .ok (a, out) ∧
      out.map (fun r => (r.filter.name, r.filter.unitsIn, r.filter.unitsOut, r.filter.gain)) =
        l.map (fun f => (f.filter.name, f.filter.unitsIn, f.filter.unitsOut, f.filter.gain))

/-- C208 is false: the comment of a filter is put into the stage as an object and refused when it is read. -/
theorem C208_refuted : ¬ C208_claim := by
  intro h
  obtain ⟨a, out, h1, -⟩ := h (fun _ => 0) (fun _ => []) 0 1 []
    [⟨⟨"amplifier".toList, "Volt".toList, "Volt".toList, 1, .delay 1⟩, some "new".toList, 0⟩] (by
      intro f hf
      simp only [List.mem_cons, List.not_mem_nil, or_false] at hf
      subst hf
      exact ⟨volt_stored, volt_stored, 'a', by simp, by decide⟩) (by simp)
  have hv : Units.getUnit (some ['V', 'o', 'l', 't']) false =
      .ok (Units.prefixed ([], []) ("volt".toList, "V".toList, "Unit of electric potential".toList)) := by decide +kernel
  unfold throughXml writeFrom asWritten toStage at h1
  simp [Except.bind, hv, writeFrom, readLoop, readStage, fromStage, describe, readDesc, stageKind, delayOnly] at h1

/-- C208 in part: without comments all filters are there, applied under their names in small letters and numbered from
one, with their units and gains; a filter that decimates has its sample rate appended to its name. -/
theorem C208_kept_partial (rnd : ℝ → ℤ) (fmt : ℝ → Str) (nf rate : ℝ) (ex : OD Str Full) (l : List Full)
    (hp : ∀ f ∈ l, Plain f) (hs : ∀ f ∈ l, Spoken f.filter.name)
    (hd : (l.map (fun f => Applied.norm (nameRead fmt f))).Nodup) :
    ∃ a out, throughXml rnd fmt nf rate ex l = .ok (a, out) ∧
      a.map (fun p => (p.name, p.applied)) = l.map (fun f => (Applied.norm (nameRead fmt f), true)) ∧
      a.map (fun p => p.stage) = (List.range' 1 l.length).map (fun n : ℕ => some (n : ℤ)) ∧
      out.map (fun r => (r.filter.name, r.filter.unitsIn, r.filter.unitsOut, r.filter.gain)) =
        l.map (fun f => (nameRead fmt f, f.filter.unitsIn, f.filter.unitsOut, f.filter.gain)) ∧
      out.map (fun r => r.number) = List.range' 1 l.length := by
  obtain ⟨rs, h1, h2, h3, h4⟩ := chain rnd fmt nf rate ex l hp hs hd
  have hnum : ∀ r, (rated fmt r).number = r.number := by
    intro r
    unfold rated
    split
    · split <;> rfl
    · rfl
  refine ⟨_, _, h1, ?_, ?_, ?_, ?_⟩
  · have := congrArg (List.map (fun n => (n, true))) h2
    simpa [List.map_map, Function.comp_def, afOf] using this
  · rw [← h4]
    simp [List.map_map, Function.comp_def, afOf, entryOf, hnum]
  · clear h1 h2 h4 hd hs hp
    induction h3 with
    | nil => rfl
    | cons k _ ih =>
      simp only [List.map_cons, ih]
      congr 1
      rw [k.rated_eq]
      simp [rename, k.unitsIn, k.unitsOut, k.gain]
  · rw [← h4]
    simp [List.map_map, Function.comp_def, hnum]

/-- C209: every filter is read back as a filter of its class. -/
def C209_claim : Prop :=
  ∀ (rnd : ℝ → ℤ) (fmt : ℝ → Str) (nf rate : ℝ) (ex : OD Str Full) (l : List Full), (∀ f ∈ l, Plain f) →
    (∀ f ∈ l, Spoken f.filter.name) → (l.map (fun f => Applied.norm (nameRead fmt f))).Nodup →
    ∃ a out, throughXml rnd fmt nf rate ex l = .ok (a, out) ∧
      out.map (fun f => typeName f.filter) = l.map (fun f => typeName f.filter)

/-- A delay of one second of a signal that is amplified as well. -/
noncomputable def late : Full := ⟨⟨"late".toList, "Volt".toList, "Volt".toList, 10, .delay 1⟩, none, 0⟩

/-- C209 is false: a delay with a gain is read as a coefficient filter. -/
theorem C209_refuted : ¬ C209_claim := by
  intro h
  have hp : ∀ f ∈ [late], Plain f := by
    intro f hf
    simp only [List.mem_cons, List.not_mem_nil, or_false] at hf
    subst hf; exact ⟨rfl, volt_stored, volt_stored⟩
  have hs : ∀ f ∈ [late], Spoken f.filter.name := by
    intro f hf
    simp only [List.mem_cons, List.not_mem_nil, or_false] at hf
    subst hf; exact ⟨'l', by simp [late], by decide⟩
  obtain ⟨a, out, h1, h2⟩ := h (fun _ => 0) (fun _ => []) 0 1 [] [late] hp hs (by simp)
  obtain ⟨rs, g1, -, g3, -⟩ := chain (fun _ => 0) (fun _ => []) 0 1 [] [late] hp hs (by simp)
  rw [g1] at h1
  cases h1
  cases g3 with
  | cons k t =>
    cases t
    have hk := k.kind
    simp only [List.map_cons, List.map_nil] at h2
    rw [k.rated_eq] at h2
    simp [afterTrip, late] at hk
    simp [typeName, rename, hk, late] at h2

/-- C209 in part: pole zero filters with a pole or a zero, coefficient filters, delays of a gain one and not zero, FIR
filters and tables keep their class and what describes them, except for the frequency of a FIR filter's gain. -/
theorem C209_class_partial (rnd : ℝ → ℤ) (fmt : ℝ → Str) (nf rate : ℝ) (ex : OD Str Full) (l : List Full)
    (hp : ∀ f ∈ l, Plain f) (hs : ∀ f ∈ l, Spoken f.filter.name)
    (hd : (l.map (fun f => Applied.norm (nameRead fmt f))).Nodup) :
    ∃ a out, throughXml rnd fmt nf rate ex l = .ok (a, out) ∧ List.Forall₂ (fun f r =>
      match f.filter.kind with
      | .zpk z p k => z ≠ [] ∨ p ≠ [] → r.filter.kind = .zpk z p k
      | .coefficient => r.filter.kind = .coefficient
      | .delay d => f.filter.gain = 1 → d ≠ 0 → r.filter.kind = .delay d
      | .fap t => (∀ x ∈ t, |x.2.2| ≤ 6 * Real.pi) → r.filter.kind = .fap t
      | .fir c s _ q d => r.filter.kind = .fir c s nf q d) l out := by
  obtain ⟨rs, h1, -, h3, -⟩ := chain rnd fmt nf rate ex l hp hs hd
  refine ⟨_, _, h1, ?_⟩
  clear h1 hd hs hp
  induction h3 with
  | nil => exact .nil
  | cons k _ ih =>
    refine .cons ?_ ih
    have hk := k.kind
    rw [k.rated_eq]
    unfold afterTrip at hk
    simp only [rename]
    split
    · next z p q e =>
      rw [e] at hk
      intro hne
      rw [hk]
      simp only
      rw [if_neg]
      rintro ⟨e1, e2⟩
      rcases hne with hne | hne
      · exact hne e1
      · exact hne e2
    · next e => rw [e] at hk; exact hk
    · next d e =>
      rw [e] at hk
      intro hg h0
      rw [hk]
      simp only
      rw [if_pos ⟨hg, h0⟩]
    · next t e =>
      rw [e] at hk
      intro ht
      rw [hk]
      simp only
      rw [readTable_small ht]
    · next e => rw [e] at hk; exact hk

end Verif.Stages
