import Verif.Model.ExperimentDict
import Verif.Props.Station
import Verif.Props.Applied
import Verif.Lemmas.Words

/-! # C245-C250: experiments as dictionaries -/

namespace Verif.ExpDict
open Verif.Runs Verif.Stations

variable {A B : Type}

/-! ## Specification -/

/-- A channel after its attributes have gone through a dictionary. -/
def again (W : World A B) (c : Chan) : Chan := { c with info := W.chan c.kind c.info }

/-- A run with the same channels, in the same order, with attributes that have gone through a dictionary. -/
def runAgain (W : World A B) (r : Run) : Run := { r with channels := r.channels.map fun p => (p.1, again W p.2) }

/-- A station whose `channels_recorded` names channels of its runs only, each once. -/
def RecordedSub (s : Station) : Prop := s.recorded.Nodup ∧ ∀ n ∈ s.recorded, ∃ p ∈ s.runs, n ∈ OD.keys p.2.channels

/-- C246: a station that was made by any sequence of calls has the same runs after it was read from its dictionary. -/
def C246_claim : Prop := ∀ (A B : Type) (W : World A B) (s : St A), Hist W.req defaultFlags s.body →
  ∃ t, readSt W (stDict s) = .ok t ∧ t.body.runs = s.body.runs.map fun p => (p.1, runAgain W p.2)

/-- C248: a channel to which the filters of its survey were applied by their names has the response of these filters, when the
survey was given a list of them or a dictionary of them by name. -/
def C248_claim : Prop := ∀ (fs : List ExpXml.Filt) (l : List Applied.AF), (fs.map ExpXml.Filt.name).Nodup →
  List.Forall₂ (fun a f => Applied.mkName f.name = .ok a.name) l fs →
    response (filtersOfList fs) l = fs ∧ response (filtersOfDict (fs.map fun f => (f.name, f))) l = fs

/-- C250: the text of a dictionary, or a file with that text, can be given to `from_json`. -/
def C250_claim : Prop := ∀ (J : Type) (D : Disk J) (name text : Str), D.file name = some text → ofText D name = D.loads text

/-! ## Runs -/

theorem get?_mapv {κ ν μ : Type} [DecidableEq κ] (f : ν → μ) (d : OD κ ν) (k : κ) :
    OD.get? (d.map fun p => (p.1, f p.2)) k = (OD.get? d k).map f := by
  induction d with
  | nil => rfl
  | cons p d ih =>
    obtain ⟨a, b⟩ := p
    rw [List.map_cons, OD.get?_cons, OD.get?_cons, ih]
    split <;> rfl

theorem keys_mapv {κ ν μ : Type} (f : ν → μ) (d : OD κ ν) : OD.keys (d.map fun p => (p.1, f p.2)) = OD.keys d := by
  unfold OD.keys; rw [List.map_map]; rfl

theorem kindOfType_typeName (k : Kind) : kindOfType (typeName k) = k := by cases k <;> decide

theorem readChan_chanDict (W : World A B) (c : Chan) : readChan W (chanDict c) = again W c := by
  unfold readChan chanDict again
  simp only [kindOfType_typeName]

theorem keyed_eq {l : List Chan} (h : (l.map Chan.comp).Nodup) : keyed l = l.map fun c => (c.comp, c) := by
  have hw : OD.WF (([] : OD String Chan) ++ l.map fun c => (c.comp, c)) := by
    unfold OD.WF OD.keys
    rw [List.nil_append, List.map_map]
    exact h
  have := OD.foldl_set_fresh (l.map fun c => (c.comp, c)) [] hw
  rw [List.nil_append, List.foldl_map] at this
  exact this

theorem keyed_run (W : World A B) {r : Run} (h : Inv r) :
    keyed (((OD.values r.channels).map chanDict).map (readChan W)) = r.channels.map fun p => (p.1, again W p.2) := by
  have e : ((OD.values r.channels).map chanDict).map (readChan W) = r.channels.map fun p => again W p.2 := by
    rw [OD.values, List.map_map, List.map_map]
    exact List.map_congr_left fun p _ => readChan_chanDict W p.2
  rw [e, keyed_eq]
  · rw [List.map_map]
    refine List.map_congr_left fun p hp => ?_
    have : (again W p.2).comp = p.1 := h.key p hp
    simp only [Function.comp, this]
  · rw [List.map_map]
    have : r.channels.map (Chan.comp ∘ fun p => again W p.2) = OD.keys r.channels := List.map_congr_left fun p hp => h.key p hp
    rw [this]
    exact h.wf

/-- Assigning a list of new names of a class of which there is no channel yet. -/
theorem assign_fresh (req : List String) (k : Kind) {ns : List String} {r : Run} (h : Inv r) (hs : InSync r)
    (hf : ∀ n ∈ ns, n ∉ OD.keys r.channels) (h0 : namesOf k r = []) :
    ∃ r', assignList req k ns r = .ok r' ∧ Inv r' ∧ InSync r' ∧
      ∀ n, OD.get? r'.channels n = if n ∈ ns then some { comp := n, kind := k } else OD.get? r.channels n := by
  have key : ∀ (ns : List String) (r : Run), Inv r → ∃ r', ensureAll req k ns r = .ok r' ∧
      ∀ n, OD.get? r'.channels n = if n ∈ ns ∧ n ∉ OD.keys r.channels then some { comp := n, kind := k } else OD.get? r.channels n := by
    intro ns
    induction ns with
    | nil => intro r _; exact ⟨r, rfl, fun n => by simp⟩
    | cons m ns ih =>
      intro r h
      unfold ensureAll ensure
      by_cases hm : m ∈ OD.keys r.channels
      · rw [if_pos hm]
        obtain ⟨r', e, g⟩ := ih r h
        refine ⟨r', e, fun n => ?_⟩
        rw [g n]
        refine if_congr ?_ rfl rfl
        rw [List.mem_cons]
        constructor
        · rintro ⟨a, b⟩; exact ⟨Or.inr a, b⟩
        · rintro ⟨a | a, b⟩
          · exact absurd (a ▸ hm) b
          · exact ⟨a, b⟩
      · rw [if_neg hm]
        obtain ⟨r1, e1, i1, _, c1⟩ := addChannel_of_inv h req { comp := m, kind := k } true
        rw [e1]
        simp only
        obtain ⟨r', e, g⟩ := ih r1 i1
        refine ⟨r', e, fun n => ?_⟩
        have hnone : OD.get? r.channels m = none := (OD.get?_eq_none_iff _ _).2 hm
        have hg : OD.get? r1.channels n = if n = m then some { comp := m, kind := k } else OD.get? r.channels n := by
          rw [c1, OD.get?_set, hnone]
          exact if_congr eq_comm rfl rfl
        have hk : n ∈ OD.keys r1.channels ↔ n = m ∨ n ∈ OD.keys r.channels := by rw [c1, OD.mem_keys_set]
        rw [g n, hg]
        by_cases hnm : n = m
        · subst hnm; simp [hm, hk]
        · simp [hnm, hk]
  obtain ⟨r', e, i', l', a, b, c⟩ := assignList_of_inv req k ns h (hs.listed h)
  have hst : stored k [] r = r := by
    obtain ⟨h1, h2, h3⟩ := hs
    cases k
    · rw [h0] at h2; unfold stored; rw [← h2]
    · rw [h0] at h3; unfold stored; rw [← h3]
    · rw [h0] at h1; unfold stored; rw [← h1]
  have hs' : InSync r' := by
    rcases c with c | c
    · cases ns with
      | nil => rw [c, hst]; exact hs
      | cons m ns =>
        exfalso
        have := (b m).2 (Or.inr (by simp))
        rw [c, stored_channels] at this
        exact hf m (by simp) this
    · exact c
  refine ⟨r', e, i', hs', fun n => ?_⟩
  by_cases hn : n ∈ ns
  · rw [if_pos hn]
    have e1 : assignList req k ns r = validate req (stored k ns r) := by cases k <;> rfl
    have hi : Inv (stored k ns r) := ⟨by rw [stored_channels]; exact h.wf, by rw [stored_channels]; exact h.key⟩
    obtain ⟨r1, e2, g⟩ := key ns (stored k ns r) hi
    obtain ⟨_, e3, i3, _, b3, c3⟩ := ensureAll_of_inv req k ns hi
    rw [e2] at e3; cases e3
    have hl1 : Listed r1 := by
      have hl := hs.listed h
      rcases c3 with c3 | c3
      · subst c3
        simp only [stored_channels] at b3
        have hns : ∀ n ∈ ns, n ∈ OD.keys r.channels := fun n hn => (b3 n).2 (Or.inr hn)
        cases k
        · exact ⟨hns, hl.2.1, hl.2.2⟩
        · exact ⟨hl.1, hns, hl.2.2⟩
        · exact ⟨hl.1, hl.2.1, hns⟩
      · exact c3.listed i3
    have hl := hs.listed h
    have : validate req (stored k ns r) = .ok r1 := by
      unfold validate
      cases k with
      | electric =>
        have e : ensureAll req .electric (stored .electric ns r).elec (stored .electric ns r) = .ok r1 := e2
        rw [e]
        simp only [ensureAll_noop req _ _ r1 hl1.2.1, ensureAll_noop req _ _ r1 hl1.2.2]
      | magnetic =>
        have e0 : ensureAll req .electric (stored .magnetic ns r).elec (stored .magnetic ns r) =
            .ok (stored .magnetic ns r) := ensureAll_noop req _ _ _ hl.1
        have e : ensureAll req .magnetic (stored .magnetic ns r).mag (stored .magnetic ns r) = .ok r1 := e2
        rw [e0]
        simp only [e, ensureAll_noop req _ _ r1 hl1.2.2]
      | auxiliary =>
        have e0 : ensureAll req .electric (stored .auxiliary ns r).elec (stored .auxiliary ns r) =
            .ok (stored .auxiliary ns r) := ensureAll_noop req _ _ _ hl.1
        have e4 : ensureAll req .magnetic (stored .auxiliary ns r).mag (stored .auxiliary ns r) =
            .ok (stored .auxiliary ns r) := ensureAll_noop req _ _ _ hl.2.1
        have e : ensureAll req .auxiliary (stored .auxiliary ns r).aux (stored .auxiliary ns r) = .ok r1 := e2
        rw [e0]
        simp only [e4, e]
    rw [e1, this] at e
    cases e
    rw [g n, stored_channels, if_pos ⟨hn, hf n hn⟩]
  · rw [if_neg hn]
    by_cases hm : n ∈ OD.keys r.channels
    · exact a n hm
    · rw [(OD.get?_eq_none_iff _ _).2 hm, OD.get?_eq_none_iff, b]
      exact fun h => h.elim hm hn

theorem run_back (W : World A B) (id : String) {r : Run} (h : Inv r) (hs : InSync r) : readRun W (runDict id r) = .ok (runAgain W r) := by
  obtain ⟨s1, s2, s3⟩ := hs
  have disj : ∀ {j k : Kind} {n : String}, n ∈ namesOf j r → n ∈ namesOf k r → j = k := by
    intro j k n h1 h2
    obtain ⟨_, c, g, e⟩ := (mem_namesOf h j n).1 h1
    obtain ⟨_, c', g', e'⟩ := (mem_namesOf h k n).1 h2
    rw [g] at g'; cases g'
    exact e.symm.trans e'
  have nores : ∀ {k : Kind} {n : String}, n ∈ namesOf k r → n ≠ reserved k := fun h1 => ((mem_namesOf h _ _).1 h1).1
  have hnil : ∀ {r' : Run} (_ : Inv r') (k : Kind), (∀ n c, OD.get? r'.channels n = some c → c.kind ≠ k) → namesOf k r' = [] := by
    intro r' i k hk
    rw [List.eq_nil_iff_forall_not_mem]
    intro n hn
    obtain ⟨_, c, g, e⟩ := (mem_namesOf i k n).1 hn
    exact hk n c g e
  have i0 : Inv ({} : Run) := ⟨OD.WF_nil, by simp⟩
  have y0 : InSync ({} : Run) := ⟨rfl, rfl, rfl⟩
  obtain ⟨r1, e1, i1, y1, g1⟩ := assign_fresh W.req .auxiliary (ns := r.aux) i0 y0 (by simp) (hnil i0 _ (by simp))
  simp only [OD.get?_nil] at g1
  have k1 : ∀ n c, OD.get? r1.channels n = some c → c.kind = .auxiliary ∧ n ∈ r.aux := by
    intro n c hc
    rw [g1] at hc
    by_cases hn : n ∈ r.aux
    · rw [if_pos hn] at hc; cases hc; exact ⟨rfl, hn⟩
    · rw [if_neg hn] at hc; cases hc
  obtain ⟨r2, e2, i2, y2, g2⟩ := assign_fresh W.req .electric (ns := r.elec) i1 y1 (by
      intro n hn hk
      obtain ⟨c, hc⟩ := Option.isSome_iff_exists.1 ((OD.get?_isSome_iff _ _).2 hk)
      have := (k1 n c hc).2
      rw [s1] at this; rw [s2] at hn
      exact absurd (disj this hn) (by decide)) (hnil i1 _ fun n c hc => by rw [(k1 n c hc).1]; decide)
  have k2 : ∀ n c, OD.get? r2.channels n = some c → c.kind ≠ .magnetic ∧ (n ∈ r.elec ∨ n ∈ r.aux) := by
    intro n c hc
    rw [g2] at hc
    by_cases hn : n ∈ r.elec
    · rw [if_pos hn] at hc; cases hc; exact ⟨fun h => (by cases h), Or.inl hn⟩
    · rw [if_neg hn] at hc
      exact ⟨by rw [(k1 n c hc).1]; decide, Or.inr (k1 n c hc).2⟩
  obtain ⟨r3, e3, i3, y3, g3⟩ := assign_fresh W.req .magnetic (ns := r.mag) i2 y2 (by
      intro n hn hk
      obtain ⟨c, hc⟩ := Option.isSome_iff_exists.1 ((OD.get?_isSome_iff _ _).2 hk)
      rw [s3] at hn
      rcases (k2 n c hc).2 with h | h
      · rw [s2] at h; exact absurd (disj h hn) (by decide)
      · rw [s1] at h; exact absurd (disj h hn) (by decide)) (hnil i2 _ fun n c hc => (k2 n c hc).1)
  have g : ∀ n, OD.get? r3.channels n = if n ∈ r.mag then some { comp := n, kind := .magnetic }
      else if n ∈ r.elec then some { comp := n, kind := .electric }
      else if n ∈ r.aux then some { comp := n, kind := .auxiliary } else none := by
    intro n; rw [g3, g2, g1]
  have back : ∀ (k : Kind), namesOf k r3 = namesOf k r := by
    intro k
    refine eq_of_lt_of_mem (namesOf_lt i3 k) (namesOf_lt h k) fun n => ?_
    rw [mem_namesOf i3, g]
    constructor
    · rintro ⟨h1, c, h2, h3⟩
      by_cases hm : n ∈ r.mag
      · rw [if_pos hm] at h2; cases h2; subst h3; rw [← s3]; exact hm
      · rw [if_neg hm] at h2
        by_cases he : n ∈ r.elec
        · rw [if_pos he] at h2; cases h2; subst h3; rw [← s2]; exact he
        · rw [if_neg he] at h2
          by_cases ha : n ∈ r.aux
          · rw [if_pos ha] at h2; cases h2; subst h3; rw [← s1]; exact ha
          · rw [if_neg ha] at h2; cases h2
    · intro hn
      refine ⟨nores hn, ?_⟩
      cases k with
      | magnetic => rw [if_pos (s3 ▸ hn)]; exact ⟨_, rfl, rfl⟩
      | electric =>
        rw [if_neg (fun hm => absurd (disj (s3 ▸ hm) hn) (by decide)), if_pos (s2 ▸ hn)]; exact ⟨_, rfl, rfl⟩
      | auxiliary =>
        rw [if_neg (fun hm => absurd (disj (s3 ▸ hm) hn) (by decide)), if_neg (fun hm => absurd (disj (s2 ▸ hm) hn) (by decide)),
          if_pos (s1 ▸ hn)]
        exact ⟨_, rfl, rfl⟩
  obtain ⟨t1, t2, t3⟩ := y3
  unfold readRun runDict
  simp only [e1, e2, e3, Except.bind]
  rw [keyed_run W h]
  have ea : r3.aux = r.aux := by rw [t1, s1, back]
  have ee : r3.elec = r.elec := by rw [t2, s2, back]
  have em : r3.mag = r.mag := by rw [t3, s3, back]
  have hkeys : OD.keys (r.channels.map fun p => (p.1, again W p.2)) = OD.keys r.channels := by
    unfold OD.keys; rw [List.map_map]; rfl
  rw [validate_noop]
  · unfold runAgain
    rw [ea, ee, em]
  · have hl := InSync.listed h ⟨s1, s2, s3⟩
    unfold Listed
    simp only [ea, ee, em, hkeys]
    exact hl

/-- C245: a run that was made by any sequence of calls is read from its dictionary: the same channels of the same classes in the same
order, the same lists and times. -/
theorem C245_run (W : World A B) (id : String) (r : Run) (h : Reachable W.req r) : readRun W (runDict id r) = .ok (runAgain W r) :=
  run_back W id (reachable_inv h).1 (reachable_inv h).2

/-- Non-trivial case: an electric and a magnetic channel. -/
example : exRun.channels.length = 2 ∧ Reachable [] exRun := ⟨by decide, exRun_reachable⟩

/-! ## Stations -/

theorem recorded_of_again (W : World A B) (s : Station) :
    getRecorded { s with runs := s.runs.map fun p => (p.1, runAgain W p.2) } = getRecorded s := by
  refine eq_of_lt_of_mem (getRecorded_lt _) (getRecorded_lt _) fun n => ?_
  rw [mem_getRecorded, mem_getRecorded]
  simp only [List.mem_map]
  constructor
  · rintro ⟨_, ⟨p, hp, rfl⟩, q, hq, e⟩
    obtain ⟨q', hq', rfl⟩ := List.mem_map.1 hq
    exact ⟨p, hp, q', hq', e⟩
  · rintro ⟨p, hp, q, hq, e⟩
    exact ⟨_, ⟨p, hp, rfl⟩, _, List.mem_map.2 ⟨q, hq, rfl⟩, e⟩

theorem again_inv (W : World A B) {r : Run} (h : Inv r) (hs : InSync r) : Inv (runAgain W r) ∧ InSync (runAgain W r) := by
  have hk : OD.keys (runAgain W r).channels = OD.keys r.channels := keys_mapv _ _
  have hi : Inv (runAgain W r) := by
    refine ⟨?_, fun p hp => ?_⟩
    · unfold OD.WF; rw [hk]; exact h.wf
    · obtain ⟨q, hq, rfl⟩ := List.mem_map.1 hp
      exact h.key q hq
  have hg : ∀ n, OD.get? (runAgain W r).channels n = (OD.get? r.channels n).map (again W) := fun n => get?_mapv (again W) r.channels n
  have hn : ∀ k, namesOf k (runAgain W r) = namesOf k r := by
    intro k
    refine eq_of_lt_of_mem (namesOf_lt hi k) (namesOf_lt h k) fun n => ?_
    rw [mem_namesOf hi, mem_namesOf h, hg]
    simp only [Option.map_eq_some_iff]
    constructor
    · rintro ⟨a, _, ⟨c, hc, rfl⟩, e⟩; exact ⟨a, c, hc, e⟩
    · rintro ⟨a, c, hc, e⟩; exact ⟨a, _, ⟨c, hc, rfl⟩, e⟩
  obtain ⟨a, b, c⟩ := hs
  exact ⟨hi, by rw [hn]; exact a, by rw [hn]; exact b, by rw [hn]; exact c⟩

theorem readRuns_eq (W : World A B) (l : List (String × Run)) (h : ∀ p ∈ l, Inv p.2 ∧ InSync p.2) (acc : OD String Run) :
    readRuns W acc (l.map fun p => runDict p.1 p.2) =
      .ok ((l.map fun p => (p.1, runAgain W p.2)).foldl (fun (acc : OD String Run) p => OD.set acc p.1 p.2) acc) := by
  induction l generalizing acc with
  | nil => rfl
  | cons p l ih =>
    have hp := h p (by simp)
    rw [List.map_cons]
    unfold readRuns
    rw [run_back W p.1 hp.1 hp.2]
    exact ih (fun q hq => h q (by simp [hq])) _

theorem readRuns_runs (W : World A B) {s : Station} (h : SInv s) :
    readRuns W [] (s.runs.map fun p => runDict p.1 p.2) = .ok (s.runs.map fun p => (p.1, runAgain W p.2)) := by
  rw [readRuns_eq W _ h.ok]
  have hk : OD.keys (s.runs.map fun p => (p.1, runAgain W p.2)) = OD.keys s.runs := keys_mapv _ _
  rw [OD.foldl_set_fresh, List.nil_append]
  rw [List.nil_append]
  unfold OD.WF
  rw [hk]
  exact h.wf

theorem touch_of_keys (req : List String) {s : Station} (h : s.runList = OD.keys s.runs) : touch req s = fixChannels req s := by
  unfold touch
  simp only [h, if_true, ne_eq, not_true_eq_false, false_and, and_false, if_false]

theorem touch_new (req : List String) (R : List String) :
    touch req ({ recorded := R } : Station) = .ok ({ recorded := R } : Station) := by
  rw [touch_of_keys req (s := ({ recorded := R } : Station)) rfl]
  unfold fixChannels
  split
  · rfl
  · split <;> rename_i h1 h2
    · rfl
    · exfalso
      have e : getRecorded ({ recorded := R } : Station) = [] := by
        rw [List.eq_nil_iff_forall_not_mem]
        intro n hn
        obtain ⟨p, hp, _⟩ := (mem_getRecorded _ n).1 hn
        cases hp
      rw [e] at h1 h2
      cases R with
      | nil => exact h1 rfl
      | cons a b => exact h2 (by simp)

/-- Assigning the list of runs to a new station with names of channels: what is asked for stays. -/
theorem touch_list (req : List String) (R L : List String) (hL : L.Nodup) :
    ∃ rs, touch req ({ recorded := R, runList := L } : Station) = .ok ({ recorded := R, runList := L, runs := rs } : Station) := by
  have fold : ∀ (L : List String) (acc : OD String Run), (OD.keys acc ++ L).Nodup →
      L.foldl (fun (acc : OD String Run) (id : String) => if id ∈ OD.keys acc then acc else OD.set acc id ({} : Run)) acc =
        acc ++ L.map fun id => (id, ({} : Run)) := by
    intro L
    induction L with
    | nil => intro acc _; simp
    | cons i L ih =>
      intro acc h
      have hi : i ∉ OD.keys acc := fun c => (List.nodup_append.1 h).2.2 i c i (by simp) rfl
      rw [List.foldl_cons, if_neg hi, OD.set_of_not_mem _ hi, ih]
      · simp
      · have : OD.keys (acc ++ [(i, ({} : Run))]) = OD.keys acc ++ [i] := by unfold OD.keys; simp
        rw [this, List.append_assoc]; exact h
  have est : ∀ (R L : List String), getRecorded ({ recorded := R, runList := L, runs := L.map fun id => (id, ({} : Run)) } : Station) = [] := by
    intro R L
    rw [List.eq_nil_iff_forall_not_mem]
    intro n hn
    obtain ⟨p, hp, q, hq, _⟩ := (mem_getRecorded _ n).1 hn
    obtain ⟨i, _, rfl⟩ := List.mem_map.1 hp
    cases hq
  have hk : OD.keys (L.map fun id => (id, ({} : Run))) = L := by unfold OD.keys; rw [List.map_map]; exact List.map_id L
  have h1 : touch req ({ recorded := R, runList := L } : Station) =
      fixChannels req ({ recorded := R, runList := L, runs := L.map fun id => (id, ({} : Run)) } : Station) := by
    cases L with
    | nil => exact touch_of_keys req (s := ({ recorded := R } : Station)) rfl
    | cons i L =>
      have e : appendMissing ({ recorded := R, runList := i :: L } : Station) =
          ({ recorded := R, runList := i :: L, runs := (i :: L).map fun id => (id, ({} : Run)) } : Station) := by
        unfold appendMissing
        simp only
        rw [fold (i :: L) [] (by simpa [OD.keys] using hL), List.nil_append]
      unfold touch
      rw [if_neg (by simp [OD.keys]), if_pos (by simp [OD.keys]), e]
      simp only
      rw [if_neg]
      rintro ⟨_, _, c, _⟩
      exact c hk.symm
  rw [h1]
  unfold fixChannels
  rw [est R L]
  simp only
  by_cases hR : R = []
  · rw [if_pos hR]; exact ⟨_, rfl⟩
  · rw [if_neg hR, if_pos (by cases R with | nil => exact absurd rfl hR | cons a b => simp)]
    cases L with
    | nil => exact ⟨[], rfl⟩
    | cons i L =>
      obtain ⟨r1, e1, _⟩ := addNames_of_inv req (R.filter fun n => !([] : List String).contains n) (r := {}) ⟨OD.WF_nil, by simp⟩ ⟨rfl, rfl, rfl⟩
      simp only [List.map_cons, e1]
      exact ⟨_, rfl⟩

theorem st_back (W : World A B) (s : St A) (h : SInv s.body) (hl : s.body.runList = OD.keys s.body.runs) :
    readSt W (stDict s) = (fixChannels W.req { s.body with runs := s.body.runs.map fun p => (p.1, runAgain W p.2) }).bind fun b =>
      .ok ⟨s.id, W.station s.attrs, b⟩ := by
  have hk : OD.keys (s.body.runs.map fun p => (p.1, runAgain W p.2)) = OD.keys s.body.runs := keys_mapv _ _
  obtain ⟨rs, e⟩ := touch_list W.req s.body.recorded s.body.runList (by rw [hl]; exact h.wf)
  unfold readSt stDict
  have e0 := touch_new W.req s.body.recorded
  simp only [Except.bind, e0, e]
  rw [readRuns_runs W h]
  simp only
  rw [touch_of_keys]
  exact hl.trans hk.symm

theorem length_le_of_sub {s : Station} (h : SInv s) (hs : RecordedSub s) : ¬ (getRecorded s).length < s.recorded.length := by
  have : s.recorded.length ≤ (getRecorded s).length := by
    refine (List.subperm_of_subset hs.1 fun n hn => ?_).length_le
    obtain ⟨p, hp, hn⟩ := hs.2 n hn
    exact (mem_getRecorded s n).2 ⟨p, hp, (comp_mem_iff (h.ok p hp).1 n).2 hn⟩
  omega

/-- C246 (part): while `channels_recorded` names channels of the runs only, every run of the station is read from the dictionary,
in order and with all its channels, and the list is brought up to date: the names of the channels of all runs, sorted. -/
theorem C246_runs_partial (W : World A B) (s : St A) (h : Hist W.req defaultFlags s.body) (hs : RecordedSub s.body) :
    ∃ names, readSt W (stDict s) = .ok ⟨s.id, W.station s.attrs,
        { s.body with runs := s.body.runs.map fun p => (p.1, runAgain W p.2), recorded := names }⟩ ∧
      names.Pairwise (· < ·) ∧ ∀ n, n ∈ names ↔ ∃ p ∈ s.body.runs, n ∈ OD.keys p.2.channels := by
  obtain ⟨hi, hl⟩ := hist_inv h
  have hr : getRecorded { s.body with runs := s.body.runs.map fun p => (p.1, runAgain W p.2) } = getRecorded s.body := recorded_of_again W s.body
  refine ⟨getRecorded s.body, ?_, getRecorded_lt _, fun n => ?_⟩
  · rw [st_back W s hi hl]
    unfold fixChannels
    rw [hr]
    simp only
    split
    · next e => simp only [Except.bind]; rw [← e]
    · rw [if_neg (length_le_of_sub hi hs)]; rfl
  · rw [mem_getRecorded]
    constructor
    · rintro ⟨p, hp, hq⟩; exact ⟨p, hp, (comp_mem_iff (hi.ok p hp).1 n).1 hq⟩
    · rintro ⟨p, hp, hq⟩; exact ⟨p, hp, (comp_mem_iff (hi.ok p hp).1 n).2 hq⟩

/-- C246 (part): a station whose list is up to date is read from its dictionary as it is. -/
theorem C246_exact_partial (W : World A B) (s : St A) (h : Hist W.req defaultFlags s.body) (hx : RecordedExact s.body) :
    readSt W (stDict s) = .ok ⟨s.id, W.station s.attrs, { s.body with runs := s.body.runs.map fun p => (p.1, runAgain W p.2) }⟩ := by
  obtain ⟨hi, hl⟩ := hist_inv h
  have hx := (recordedExact_iff hi).1 hx
  have hr : getRecorded { s.body with runs := s.body.runs.map fun p => (p.1, runAgain W p.2) } = getRecorded s.body := recorded_of_again W s.body
  rw [st_back W s hi hl]
  unfold fixChannels
  rw [hr, if_pos hx]
  rfl

/-- C246 (part): so is a station to which runs were added, and nothing else. -/
theorem C246_adds_partial (W : World A B) (s : St A) (h : Adds W.req s.body) :
    readSt W (stDict s) = .ok ⟨s.id, W.station s.attrs, { s.body with runs := s.body.runs.map fun p => (p.1, runAgain W p.2) }⟩ :=
  C246_exact_partial W s h.hist (C36_adds_exact W.req s.body h).1

/-- C246 (part): whatever was done to the station, reading its dictionary does not fail, no run is missing, all runs but the
first are as they were, and the first has all its channels. -/
theorem C246_all_partial (W : World A B) (s : St A) (h : Hist W.req defaultFlags s.body) :
    ∃ t, readSt W (stDict s) = .ok t ∧ t.id = s.id ∧ t.attrs = W.station s.attrs ∧ t.body.runList = s.body.runList ∧
      t.body.start = s.body.start ∧ t.body.stop = s.body.stop ∧ OD.keys t.body.runs = OD.keys s.body.runs ∧
      (∀ i ∈ OD.keys s.body.runs.tail, OD.get? t.body.runs i = (OD.get? s.body.runs i).map (runAgain W)) ∧
      ∀ i r n c, OD.get? s.body.runs i = some r → OD.get? r.channels n = some c →
        (OD.get? t.body.runs i).bind (fun r => OD.get? r.channels n) = some (again W c) := by
  obtain ⟨hi, hl⟩ := hist_inv h
  have hk : OD.keys (s.body.runs.map fun p => (p.1, runAgain W p.2)) = OD.keys s.body.runs := keys_mapv _ _
  have hm : SInv { s.body with runs := s.body.runs.map fun p => (p.1, runAgain W p.2) } := by
    refine ⟨?_, fun p hp => ?_⟩
    · unfold OD.WF; rw [hk]; exact hi.wf
    · obtain ⟨q, hq, rfl⟩ := List.mem_map.1 hp
      exact again_inv W (hi.ok q hq).1 (hi.ok q hq).2
  obtain ⟨t, e, _, tl, tk, ts, te, _, _, tg⟩ := fixChannels_of_inv W.req hm
  have gm : ∀ i, OD.get? (s.body.runs.map fun p => (p.1, runAgain W p.2)) i = (OD.get? s.body.runs i).map (runAgain W) :=
    fun i => get?_mapv (runAgain W) s.body.runs i
  have gc : ∀ (r : Run) n, OD.get? (runAgain W r).channels n = (OD.get? r.channels n).map (again W) :=
    fun r n => get?_mapv (again W) r.channels n
  refine ⟨⟨s.id, W.station s.attrs, t⟩, by rw [st_back W s hi hl, e]; rfl, rfl, rfl, tl, ts, te, tk.trans hk, ?_, ?_⟩
  · intro i hin
    rw [← gm]
    refine tg i ?_
    simp only [← List.map_tail]
    unfold OD.keys at hin ⊢
    rw [List.map_map]
    exact hin
  · intro i r n c hr hc
    have old : (OD.get? (s.body.runs.map fun p => (p.1, runAgain W p.2)) i).bind (fun r => OD.get? r.channels n) = some (again W c) := by
      rw [gm, hr]
      simp only [Option.map_some, Option.bind_some]
      rw [gc, hc]; rfl
    unfold fixChannels at e
    split at e
    · cases e; exact old
    · split at e
      · split at e
        · cases e; exact old
        · next id' r' rest hrs =>
          split at e
          · cases e
          · next r1 ha =>
            cases e
            simp only at hrs ⊢
            rw [hrs] at old
            rw [OD.get?_cons] at old ⊢
            by_cases hid : id' = i
            · rw [if_pos hid] at old ⊢
              simp only [Option.bind_some] at old ⊢
              have hp := hm.ok (id', r') (by simp only; rw [hrs]; simp)
              obtain ⟨r1', ha', _, _, _, g⟩ := addNames_of_inv W.req (s.body.recorded.filter fun n => !(getRecorded { s.body with runs := s.body.runs.map fun p => (p.1, runAgain W p.2) }).contains n) hp.1 hp.2
              rw [ha] at ha'
              cases ha'
              rw [g n, old]
              simp only [List.mem_filter, Bool.not_eq_true', not_and, Bool.not_eq_false, List.contains_iff_mem]
              intro _
              rw [mem_getRecorded]
              refine ⟨(id', r'), by simp only; rw [hrs]; simp, ?_⟩
              rw [comp_mem_iff hp.1]
              exact (OD.get?_isSome_iff _ _).1 (by rw [old]; rfl)
            · rw [if_neg hid] at old ⊢; exact old
      · cases e; exact old

/-- Attributes are the same again. -/
def exWorld : World Unit Unit := ⟨fun _ x => x, id, id, fun _ n => n, fun _ b => b, []⟩

/-- A station whose only run lost its only channel: `station.runs["b"].remove_channel("hz")`. -/
def exLost : St Unit := ⟨"s", (), { exStationB with runs := OD.set exStationB.runs "b" {} }⟩

theorem exLost_hist : Hist [] defaultFlags exLost.body :=
  Hist.edit "b" (Hist.add "b" (upd := true) rfl (Hist.new 0 0) exRunB_reachable (by decide +kernel)) (by decide) (Reachable.new 0 0)

/-- C246 is false: the channel that was removed is there again. -/
theorem C246_refuted : ¬ C246_claim := by
  intro h
  obtain ⟨t, e, g⟩ := h Unit Unit exWorld exLost exLost_hist
  have : ((readSt exWorld (stDict exLost)).toOption.map fun t => t.body.runs.map fun p => OD.keys p.2.channels) = some [["hz"]] := by
    decide +kernel
  rw [e] at this
  simp only [Except.toOption, Option.map_some, Option.some.injEq] at this
  rw [g] at this
  revert this
  decide +kernel

/-! ## Experiments -/

/-- A station, a filter and a survey with attributes that have gone through a dictionary. -/
def stAgain (W : World A B) (s : St A) : St A :=
  ⟨s.id, W.station s.attrs, { s.body with runs := s.body.runs.map fun p => (p.1, runAgain W p.2) }⟩

def filtAgain (W : World A B) (f : ExpXml.Filt) : ExpXml.Filt := ⟨f.cls, f.name, W.filter f.cls f.body⟩

def svAgain (W : World A B) (s : Sv A B) : Sv A B :=
  ⟨s.id, W.survey s.attrs, s.stations.map fun p => (p.1, stAgain W p.2), s.filters.map fun p => (p.1, filtAgain W p.2)⟩

/-- Surveys and stations under their ids, filters under their names, and stations of any history whose `channels_recorded` is up to
date. -/
structure Kept (W : World A B) (e : Exp A B) : Prop where
  surveys : OD.WF e ∧ ∀ p ∈ e, p.2.id = p.1
  stations : ∀ p ∈ e, OD.WF p.2.stations ∧
    ∀ q ∈ p.2.stations, q.2.id = q.1 ∧ Hist W.req defaultFlags q.2.body ∧ RecordedExact q.2.body
  filters : ∀ p ∈ e, OD.WF p.2.filters ∧ ∀ q ∈ p.2.filters, q.2.name = q.1

theorem filterClass_type (c : ExpXml.Cls) : filterClass (filterType c) = some c := by cases c <;> decide +kernel

theorem readSts_eq (W : World A B) (l : List (String × St A))
    (h : ∀ q ∈ l, q.2.id = q.1 ∧ Hist W.req defaultFlags q.2.body ∧ RecordedExact q.2.body) (acc : OD String (St A)) :
    readSts W acc ((l.map Prod.snd).map stDict) =
      .ok ((l.map fun p => (p.1, stAgain W p.2)).foldl (fun (acc : OD String (St A)) p => OD.set acc p.1 p.2) acc) := by
  induction l generalizing acc with
  | nil => rfl
  | cons p l ih =>
    obtain ⟨h1, h2, h3⟩ := h p (by simp)
    rw [List.map_cons, List.map_cons]
    unfold readSts
    rw [C246_exact_partial W p.2 h2 h3]
    simp only
    rw [ih (fun q hq => h q (by simp [hq])), List.map_cons, List.foldl_cons]
    unfold stAgain
    rw [h1]

theorem readFilters_eq (W : World A B) (l : List (Str × ExpXml.Filt)) (h : ∀ q ∈ l, q.2.name = q.1) (acc : OD Str ExpXml.Filt) :
    readFilters W acc ((l.map Prod.snd).map fun f => (filterType f.cls, f)) =
      .ok ((l.map fun p => (p.1, filtAgain W p.2)).foldl (fun (acc : OD Str ExpXml.Filt) p => OD.set acc p.1 p.2) acc) := by
  induction l generalizing acc with
  | nil => rfl
  | cons p l ih =>
    have h1 := h p (by simp)
    rw [List.map_cons, List.map_cons]
    unfold readFilters
    rw [filterClass_type]
    simp only
    rw [ih (fun q hq => h q (by simp [hq])), List.map_cons, List.foldl_cons, h1]
    unfold filtAgain
    rw [h1]

theorem readSv_eq (W : World A B) (e : Exp A B) (h : Kept W e) (p : String × Sv A B) (hp : p ∈ e) :
    readSv W (svDict p.2) = .ok (svAgain W p.2) := by
  obtain ⟨s1, s2⟩ := h.stations p hp
  obtain ⟨f1, f2⟩ := h.filters p hp
  unfold readSv svDict
  simp only [OD.values]
  rw [readSts_eq W _ s2, readFilters_eq W _ f2, OD.foldl_set_fresh, OD.foldl_set_fresh]
  · rfl
  · rw [List.nil_append]; unfold OD.WF; rw [keys_mapv]; exact f1
  · rw [List.nil_append]; unfold OD.WF; rw [keys_mapv]; exact s1

theorem fromDict_eq (W : World A B) (l : List (String × Sv A B)) (h : ∀ p ∈ l, readSv W (svDict p.2) = .ok (svAgain W p.2)) (e : Exp A B) :
    fromDict W e ((l.map Prod.snd).map svDict) = .ok (l.foldl (fun e p => addSurvey W e (svAgain W p.2)) e) := by
  induction l generalizing e with
  | nil => rfl
  | cons p l ih =>
    rw [List.map_cons, List.map_cons]
    unfold fromDict
    rw [h p (by simp)]
    exact ih (fun q hq => h q (by simp [hq])) _

theorem fold_get (W : World A B) (l : List (String × Sv A B)) (hw : (l.map Prod.fst).Nodup) (hid : ∀ p ∈ l, p.2.id = p.1) (e : Exp A B) (i : String) :
    OD.get? (l.foldl (fun e p => addSurvey W e (svAgain W p.2)) e) i =
      match OD.get? e i, OD.get? l i with
      | some old, some new => some { old with attrs := W.update old.attrs (W.survey new.attrs) }
      | some old, none => some old
      | none, some new => some (svAgain W new)
      | none, none => none := by
  induction l generalizing e with
  | nil => simp only [List.foldl_nil, OD.get?_nil]; split <;> simp_all
  | cons p l ih =>
    obtain ⟨k, s⟩ := p
    have hk : s.id = k := hid (k, s) (by simp)
    rw [List.map_cons, List.nodup_cons] at hw
    have hl : OD.get? l k = none := (OD.get?_eq_none_iff _ _).2 hw.1
    rw [List.foldl_cons, ih hw.2 (fun q hq => hid q (by simp [hq])), OD.get?_cons]
    have ha : OD.get? (addSurvey W e (svAgain W s)) i = if k = i then
        some (match OD.get? e k with
          | some old => { old with attrs := W.update old.attrs (W.survey s.attrs) }
          | none => svAgain W s) else OD.get? e i := by
      have e1 : (svAgain W s).id = k := hk
      unfold addSurvey
      rw [e1]
      cases OD.get? e k with
      | none => simp only [OD.get?_set]
      | some old => simp only [OD.get?_set]; rfl
    simp only [ha]
    by_cases hki : k = i
    · subst hki
      rw [if_pos rfl, if_pos rfl, hl]
      cases OD.get? e k <;> rfl
    · rw [if_neg hki, if_neg hki]

theorem fold_fresh (W : World A B) (l : List (String × Sv A B)) (e : Exp A B) (hw : (OD.keys e ++ l.map Prod.fst).Nodup) (hid : ∀ p ∈ l, p.2.id = p.1) :
    l.foldl (fun e p => addSurvey W e (svAgain W p.2)) e = e ++ l.map fun p => (p.1, svAgain W p.2) := by
  induction l generalizing e with
  | nil => simp
  | cons p l ih =>
    obtain ⟨k, s⟩ := p
    have hk : s.id = k := hid (k, s) (by simp)
    have hn : k ∉ OD.keys e := fun c => (List.nodup_append.1 hw).2.2 k c k (by simp) rfl
    have e1 : addSurvey W e (svAgain W s) = e ++ [(k, svAgain W s)] := by
      unfold addSurvey
      have e2 : (svAgain W s).id = k := hk
      rw [e2, (OD.get?_eq_none_iff _ _).2 hn]
      exact OD.set_of_not_mem _ hn
    rw [List.foldl_cons, e1, ih]
    · simp
    · have : OD.keys (e ++ [(k, svAgain W s)]) = OD.keys e ++ [k] := by unfold OD.keys; simp
      rw [this, List.append_assoc]; exact hw
    · exact fun q hq => hid q (by simp [hq])

/-- C247: an experiment is read from its dictionary by a new experiment: the same surveys, stations, runs, channels and filters in the
same order. -/
theorem C247_experiment (W : World A B) (e : Exp A B) (h : Kept W e) :
    fromDict W [] (toDict e) = .ok (e.map fun p => (p.1, svAgain W p.2)) := by
  unfold toDict OD.values
  rw [fromDict_eq W e (fun p hp => readSv_eq W e h p hp), fold_fresh W e [] h.surveys.1 h.surveys.2]
  rfl

/-- C247: read by an experiment with surveys: those whose id is not in the dictionary stay, those whose id is keep their stations
and filters and have their attributes updated, and all others are added. -/
theorem C247_into (W : World A B) (e0 e : Exp A B) (h : Kept W e) :
    ∃ e', fromDict W e0 (toDict e) = .ok e' ∧
      (∀ i old, OD.get? e0 i = some old → OD.get? e i = none → OD.get? e' i = some old) ∧
      (∀ i old new, OD.get? e0 i = some old → OD.get? e i = some new →
        OD.get? e' i = some { old with attrs := W.update old.attrs (W.survey new.attrs) }) ∧
      (∀ i, OD.get? e0 i = none → OD.get? e' i = (OD.get? e i).map (svAgain W)) := by
  refine ⟨e.foldl (fun e p => addSurvey W e (svAgain W p.2)) e0, ?_, ?_, ?_, ?_⟩
  · unfold toDict OD.values
    exact fromDict_eq W e (fun p hp => readSv_eq W e h p hp) e0
  · intro i old h1 h2
    rw [fold_get W e h.surveys.1 h.surveys.2, h1, h2]
  · intro i old new h1 h2
    rw [fold_get W e h.surveys.1 h.surveys.2, h1, h2]
  · intro i h1
    rw [fold_get W e h.surveys.1 h.surveys.2, h1]
    cases OD.get? e i <;> rfl

/-- Non-trivial case: two surveys, the first with two stations and a filter. -/
def exExp : Exp Unit Unit :=
  [("b", ⟨"b", (), [("s2", ⟨"s2", (), exStation⟩), ("s1", ⟨"s1", (), exStationB⟩)], [("Low".toList, ⟨.poleZero, "Low".toList, 3⟩)]⟩), ("a", ⟨"a", (), [], []⟩)]

theorem exExp_kept : Kept exWorld exExp := by
  have hB : Adds [] exStationB := Adds.add "b" (Adds.new 0 0) exRunB_reachable (by decide +kernel)
  refine ⟨by decide +kernel, fun p hp => ?_, by decide +kernel⟩
  rcases List.mem_cons.1 hp with rfl | hp
  · refine ⟨by decide +kernel, fun q hq => ?_⟩
    rcases List.mem_cons.1 hq with rfl | hq
    · exact ⟨rfl, exStation_hist, (C36_adds_exact [] _ exStation_adds).1⟩
    · rcases List.mem_cons.1 hq with rfl | hq
      · exact ⟨rfl, hB.hist, (C36_adds_exact [] _ hB).1⟩
      · cases hq
  · rcases List.mem_cons.1 hp with rfl | hp
    · exact ⟨by decide +kernel, fun q hq => by cases hq⟩
    · cases hp

/-! ## Filters by name -/

/-- No slash and no capital letter. -/
def Plain (s : Str) : Prop := ∀ c ∈ s, c ≠ '/' ∧ c.toLower = c

theorem spelled_is_plain {n m : Str} (h : Applied.Spelled n m) : Plain m := by
  induction h with
  | nil => intro c hc; cases hc
  | slash _ ih =>
    intro c hc
    simp only [List.mem_cons] at hc
    rcases hc with rfl | rfl | rfl | rfl | rfl | hc
    · decide
    · decide
    · decide
    · decide
    · decide
    · exact ih c hc
  | char d hd _ ih =>
    intro c hc
    rcases List.mem_cons.1 hc with rfl | hc
    · refine ⟨fun e => ?_, Text.toLower_toLower d⟩
      rcases Text.toLower_cases d with ⟨h, _⟩ | ⟨h1, h2, h3⟩
      · exact hd (h.symm.trans e)
      · rw [e] at h3
        have : ('/' : Char).toNat = 47 := by decide
        omega
    · exact ih c hc

theorem mkName_spelled {n m : Str} (h : Applied.mkName n = .ok m) : Applied.Spelled n m := by
  unfold Applied.mkName at h
  split at h
  · cases h
  · cases h; exact Applied.spelled_norm n

theorem spelled_lower {n m : Str} (h : Applied.Spelled n m) (hn : ∀ c ∈ n, c ≠ '/') : m = Names.lower n := by
  induction h with
  | nil => rfl
  | slash _ _ => exact absurd rfl (hn '/' (by simp))
  | char c hc _ ih => rw [ih fun d hd => hn d (by simp [hd])]; rfl

/-- A list of filters under distinct keys is found by the keys. -/
theorem response_keyed (key : ExpXml.Filt → Str) (fs : List ExpXml.Filt) (l : List Applied.AF) (hd : (fs.map key).Nodup)
    (h : List.Forall₂ (fun a f => a.name = key f) l fs) :
    response (fs.foldl (fun (acc : OD Str ExpXml.Filt) f => OD.set acc (key f) f) []) l = fs := by
  have e : fs.foldl (fun (acc : OD Str ExpXml.Filt) f => OD.set acc (key f) f) [] = fs.map fun f => (key f, f) := by
    have hw : OD.WF (([] : OD Str ExpXml.Filt) ++ fs.map fun f => (key f, f)) := by
      unfold OD.WF OD.keys; rw [List.nil_append, List.map_map]; exact hd
    have := OD.foldl_set_fresh (fs.map fun f => (key f, f)) [] hw
    rw [List.nil_append, List.foldl_map] at this
    exact this
  have hw : OD.WF (fs.map fun f => (key f, f)) := by unfold OD.WF OD.keys; rw [List.map_map]; exact hd
  rw [e]
  unfold response
  have g : ∀ f ∈ fs, OD.get? (fs.map fun f => (key f, f)) (key f) = some f := fun f hf =>
    OD.get?_of_mem hw (List.mem_map.2 ⟨f, hf, rfl⟩)
  generalize (fs.map fun f => (key f, f)) = d at g
  clear hd hw e
  induction h with
  | nil => rfl
  | @cons a f l fs hf _ ih =>
    rw [List.filterMap_cons, hf, g f (by simp), ih fun f hf => g f (by simp [hf])]

/-- C248 (part): a survey given a list of filters with distinct names without slash and capital letter. -/
theorem C248_list_partial (fs : List ExpXml.Filt) (l : List Applied.AF) (hd : (fs.map ExpXml.Filt.name).Nodup)
    (hp : ∀ f ∈ fs, Plain f.name) (h : List.Forall₂ (fun a f => Applied.mkName f.name = .ok a.name) l fs) :
    response (filtersOfList fs) l = fs := by
  refine response_keyed ExpXml.Filt.name fs l hd ?_
  clear hd
  induction h with
  | nil => exact .nil
  | cons hf _ ih =>
    refine .cons ?_ (ih fun f hf => hp f (by simp [hf]))
    exact (mkName_spelled hf).unique (Applied.spelled_plain _ (hp _ (by simp)))

/-- C248 (part): a survey given a dictionary of filters by name; there may be capital letters, but the names in lower case have to be
distinct. -/
theorem C248_dict_partial (fs : List ExpXml.Filt) (l : List Applied.AF) (hd : (fs.map fun f => f.name.map Char.toLower).Nodup)
    (hp : ∀ f ∈ fs, ∀ c ∈ f.name, c ≠ '/') (h : List.Forall₂ (fun a f => Applied.mkName f.name = .ok a.name) l fs) :
    response (filtersOfDict (fs.map fun f => (f.name, f))) l = fs := by
  unfold filtersOfDict
  rw [List.foldl_map]
  refine response_keyed (fun f => Names.lower f.name) fs l hd ?_
  clear hd
  induction h with
  | nil => exact .nil
  | cons hf _ ih =>
    refine .cons ?_ (ih fun f hf => hp f (by simp [hf]))
    exact spelled_lower (mkName_spelled hf) (hp _ (by simp))

/-- Filters under their names. -/
def Named (d : OD Str ExpXml.Filt) : Prop := ∀ k f, OD.get? d k = some f → f.name = k

theorem Named.set {d : OD Str ExpXml.Filt} (h : Named d) (f : ExpXml.Filt) : Named (OD.set d f.name f) := by
  intro k g hg
  rw [OD.get?_set] at hg
  split at hg
  · next e => cases hg; exact e
  · exact h k g hg

theorem named_list (fs : List ExpXml.Filt) : Named (filtersOfList fs) := by
  unfold filtersOfList
  suffices ∀ d, Named d → Named (fs.foldl (fun (acc : OD Str ExpXml.Filt) f => OD.set acc f.name f) d) from
    this [] fun k f h => by cases h
  induction fs with
  | nil => intro d h; exact h
  | cons f fs ih => intro d h; exact ih _ (h.set f)

theorem named_read (W : World A B) (l : List (Str × ExpXml.Filt)) : ∀ d d', Named d → readFilters W d l = .ok d' → Named d' := by
  induction l with
  | nil => intro d d' h e; cases e; exact h
  | cons p l ih =>
    obtain ⟨t, f⟩ := p
    intro d d' h e
    unfold readFilters at e
    split at e
    · split at e <;> cases e
    · next c _ => exact ih _ _ (h.set ⟨c, f.name, W.filter c f.body⟩) e

theorem response_plain {d : OD Str ExpXml.Filt} (h : Named d) (l : List Applied.AF) (hl : ∀ a ∈ l, Applied.Normal a) (f : ExpXml.Filt)
    (hf : f ∈ response d l) : Plain f.name := by
  obtain ⟨a, ha, e⟩ := List.mem_filterMap.1 hf
  rw [h _ _ e]
  obtain ⟨s, hs⟩ := hl a ha
  rw [hs]
  exact spelled_is_plain (Applied.spelled_norm s)

/-- C248 (part): whatever the filters of a channel, a filter with a slash or a capital letter in its name is not in its response when the
survey was given a list. -/
theorem C248_list_never_partial (fs : List ExpXml.Filt) (l : List Applied.AF) (hl : ∀ a ∈ l, Applied.Normal a) (f : ExpXml.Filt)
    (hf : ¬ Plain f.name) : f ∉ response (filtersOfList fs) l :=
  fun h => hf (response_plain (named_list fs) l hl f h)

/-- C248 (part): nor when the survey was read from its dictionary, however it was given its filters. -/
theorem C248_read_never_partial (W : World A B) (s : Sv A B) (d : OD Str ExpXml.Filt)
    (h : readFilters W [] (svDict s).filters = .ok d) (l : List Applied.AF) (hl : ∀ a ∈ l, Applied.Normal a) (f : ExpXml.Filt)
    (hf : ¬ Plain f.name) : f ∉ response d l :=
  fun c => hf (response_plain (named_read W _ [] d (fun k f h => by cases h) h) l hl f c)

def exFilt : ExpXml.Filt := ⟨.poleZero, "Low/Pass".toList, 3⟩
def exCap : ExpXml.Filt := ⟨.coefficient, "Gain".toList, 1⟩
def exAf : Applied.AF := ⟨"gain".toList, true, some 1⟩

/-- C248 is false: a filter is not found in a survey that was given a list. -/
theorem C248_refuted : ¬ C248_claim := by
  intro h
  have := (h [exCap] [exAf] (by decide +kernel) (.cons (by decide +kernel) .nil)).1
  revert this
  decide +kernel

/-- The same filter is found in a survey that was given a dictionary, and is not found after that survey was read from its dictionary. -/
theorem C248_lost : ∃ d, response (filtersOfDict [(exCap.name, exCap)]) [exAf] = [exCap] ∧
    readFilters exWorld [] (svDict (A := Unit) (B := Unit) ⟨"s", (), [], filtersOfDict [(exCap.name, exCap)]⟩).filters = .ok d ∧
    response d [exAf] = [] := ⟨_, by decide +kernel, rfl, by decide +kernel⟩

/-- A slash is a trouble for dictionaries, too. -/
theorem C248_slash : response (filtersOfDict [(exFilt.name, exFilt)]) [⟨"low per pass".toList, true, some 1⟩] = [] ∧
    Applied.mkName exFilt.name = .ok "low per pass".toList := by decide +kernel

/-! ## Sorting -/

/-- What can be found in an experiment. -/
def surveyAt (e : Exp A B) (i : String) : Option (Sv A B) := OD.get? e i
def stationAt (e : Exp A B) (i j : String) : Option (St A) := (surveyAt e i).bind fun s => OD.get? s.stations j
def runAt (e : Exp A B) (i j k : String) : Option Run := (stationAt e i j).bind fun s => OD.get? s.body.runs k
def chanAt (e : Exp A B) (i j k n : String) : Option Chan := (runAt e i j k).bind fun r => OD.get? r.channels n

/-- The same is found under the same ids. -/
structure Same (e e' : Exp A B) : Prop where
  survey : ∀ i, (surveyAt e' i).map (fun s => (s.id, s.attrs, s.filters)) = (surveyAt e i).map fun s => (s.id, s.attrs, s.filters)
  station : ∀ i j, (stationAt e' i j).map (fun s => (s.id, s.attrs, s.body.runList, s.body.recorded, s.body.start, s.body.stop)) =
    (stationAt e i j).map fun s => (s.id, s.attrs, s.body.runList, s.body.recorded, s.body.start, s.body.stop)
  run : ∀ i j k, (runAt e' i j k).map (fun r => (r.elec, r.mag, r.aux, r.start, r.stop)) =
    (runAt e i j k).map fun r => (r.elec, r.mag, r.aux, r.start, r.stop)
  chan : ∀ i j k n, chanAt e' i j k n = chanAt e i j k n

/-- Ids and components increase. -/
structure Increasing (e : Exp A B) : Prop where
  surveys : (OD.keys e).Pairwise (· < ·)
  stations : ∀ i s, surveyAt e i = some s → (OD.keys s.stations).Pairwise (· < ·)
  runs : ∀ i j s, stationAt e i j = some s → (OD.keys s.body.runs).Pairwise (· < ·)
  channels : ∀ i j k r, runAt e i j k = some r → (OD.keys r.channels).Pairwise (· < ·)

theorem keys_insert {ν : Type} (p : String × ν) (d : OD String ν) :
    OD.keys (insertSorted (fun a b => strLe a.1 b.1) p d) = insertSorted strLe p.1 (OD.keys d) := by
  induction d with
  | nil => rfl
  | cons q d ih =>
    unfold insertSorted OD.keys
    rw [List.map_cons]
    simp only
    split
    · rw [List.map_cons, List.map_cons]
    · rw [List.map_cons]
      unfold OD.keys at ih
      rw [ih]

theorem keys_sortOD {ν : Type} (d : OD String ν) : OD.keys (sortOD d) = sortNames (OD.keys d) := by
  unfold sortOD sortNames
  induction d with
  | nil => rfl
  | cons p d ih =>
    have e : OD.keys (p :: d) = p.1 :: OD.keys d := rfl
    rw [e]
    unfold pySorted
    rw [keys_insert, ih]

theorem get_sortOD {ν : Type} {d : OD String ν} (h : OD.WF d) (k : String) : OD.get? (sortOD d) k = OD.get? d k :=
  (OD.get?_perm h (pySorted_perm _ d).symm k).symm

/-- Sorted channels, runs and stations. -/
def runSorted (r : Run) : Run := { r with channels := sortOD r.channels }
def stSorted (s : St A) : St A := { s with body := { s.body with runs := sortOD (s.body.runs.map fun r => (r.1, runSorted r.2)) } }
def svSorted (s : Sv A B) : Sv A B := { s with stations := sortOD (s.stations.map fun q => (q.1, stSorted q.2)) }

theorem sorted_def (e : Exp A B) : sorted e = sortOD (e.map fun p => (p.1, svSorted p.2)) := rfl

/-- Distinct ids everywhere. -/
structure Distinct (e : Exp A B) : Prop where
  surveys : OD.WF e
  stations : ∀ i s, surveyAt e i = some s → OD.WF s.stations
  runs : ∀ i j s, stationAt e i j = some s → OD.WF s.body.runs
  channels : ∀ i j k r, runAt e i j k = some r → OD.WF r.channels

theorem WF_mapv {κ ν μ : Type} {f : ν → μ} {d : OD κ ν} (h : OD.WF d) : OD.WF (d.map fun p => (p.1, f p.2)) := by
  unfold OD.WF; rw [keys_mapv]; exact h

theorem Kept.distinct {W : World A B} {e : Exp A B} (h : Kept W e) : Distinct e := by
  have hst : ∀ i j s, stationAt e i j = some s → SInv s.body := by
    intro i j s hs
    obtain ⟨v, hv, hs⟩ := Option.bind_eq_some_iff.1 hs
    obtain ⟨_, h2⟩ := h.stations _ (OD.mem_of_get? hv)
    exact (hist_inv (h2 _ (OD.mem_of_get? hs)).2.1).1
  refine ⟨h.surveys.1, fun i s hs => (h.stations _ (OD.mem_of_get? hs)).1, fun i j s hs => (hst i j s hs).wf, fun i j k r hr => ?_⟩
  obtain ⟨v, hv, hs⟩ := Option.bind_eq_some_iff.1 hr
  exact ((hst i j v hv).ok _ (OD.mem_of_get? hs)).1.wf

theorem survey_sorted {e : Exp A B} (h : Distinct e) (i : String) : surveyAt (sorted e) i = (surveyAt e i).map svSorted := by
  unfold surveyAt
  rw [sorted_def, get_sortOD (WF_mapv h.surveys), get?_mapv]

theorem station_sorted {e : Exp A B} (h : Distinct e) (i j : String) : stationAt (sorted e) i j = (stationAt e i j).map stSorted := by
  unfold stationAt
  rw [survey_sorted h]
  cases hs : surveyAt e i with
  | none => rfl
  | some s =>
    simp only [Option.map_some, Option.bind_some]
    unfold svSorted
    rw [get_sortOD (WF_mapv (h.stations i s hs)), get?_mapv]

theorem run_sorted {e : Exp A B} (h : Distinct e) (i j k : String) : runAt (sorted e) i j k = (runAt e i j k).map runSorted := by
  unfold runAt
  rw [station_sorted h]
  cases hs : stationAt e i j with
  | none => rfl
  | some s =>
    simp only [Option.map_some, Option.bind_some]
    unfold stSorted
    rw [get_sortOD (WF_mapv (h.runs i j s hs)), get?_mapv]

theorem chan_sorted {e : Exp A B} (h : Distinct e) (i j k n : String) : chanAt (sorted e) i j k n = chanAt e i j k n := by
  unfold chanAt
  rw [run_sorted h]
  cases hs : runAt e i j k with
  | none => rfl
  | some r =>
    simp only [Option.map_some, Option.bind_some]
    unfold runSorted
    rw [get_sortOD (h.channels i j k r hs)]

theorem sorted_same {e : Exp A B} (h : Distinct e) : Same e (sorted e) ∧ Increasing (sorted e) := by
  refine ⟨⟨fun i => ?_, fun i j => ?_, fun i j k => ?_, fun i j k n => chan_sorted h i j k n⟩,
    ⟨?_, fun i s hs => ?_, fun i j s hs => ?_, fun i j k r hs => ?_⟩⟩
  · rw [survey_sorted h, Option.map_map]; rfl
  · rw [station_sorted h, Option.map_map]; rfl
  · rw [run_sorted h, Option.map_map]; rfl
  · rw [sorted_def, keys_sortOD, keys_mapv]; exact sortNames_lt _ h.surveys
  · rw [survey_sorted h] at hs
    obtain ⟨s', hs', rfl⟩ := Option.map_eq_some_iff.1 hs
    unfold svSorted
    rw [keys_sortOD, keys_mapv]; exact sortNames_lt _ (h.stations i s' hs')
  · rw [station_sorted h] at hs
    obtain ⟨s', hs', rfl⟩ := Option.map_eq_some_iff.1 hs
    unfold stSorted
    rw [keys_sortOD, keys_mapv]; exact sortNames_lt _ (h.runs i j s' hs')
  · rw [run_sorted h] at hs
    obtain ⟨s', hs', rfl⟩ := Option.map_eq_some_iff.1 hs
    unfold runSorted
    rw [keys_sortOD]; exact sortNames_lt _ (h.channels i j k s' hs')

/-- C249: sorting in place gives increasing ids and components at all levels, and everything is found under the ids as before. -/
theorem C249_inplace (W : World A B) (e : Exp A B) (h : Kept W e) :
    ∃ e', sort W e true = .ok (e', none) ∧ Same e e' ∧ Increasing e' :=
  ⟨sorted e, rfl, (sorted_same h.distinct).1, (sorted_same h.distinct).2⟩

theorem again_distinct (W : World A B) {e : Exp A B} (h : Distinct e) : Distinct (e.map fun p => (p.1, svAgain W p.2)) := by
  have s1 : ∀ i, surveyAt (e.map fun p => (p.1, svAgain W p.2)) i = (surveyAt e i).map (svAgain W) := fun i => get?_mapv _ e i
  have s2 : ∀ i j, stationAt (e.map fun p => (p.1, svAgain W p.2)) i j = (stationAt e i j).map (stAgain W) := by
    intro i j
    unfold stationAt
    rw [s1]
    cases surveyAt e i with
    | none => rfl
    | some s => exact get?_mapv _ s.stations j
  have s3 : ∀ i j k, runAt (e.map fun p => (p.1, svAgain W p.2)) i j k = (runAt e i j k).map (runAgain W) := by
    intro i j k
    unfold runAt
    rw [s2]
    cases stationAt e i j with
    | none => rfl
    | some s => exact get?_mapv _ s.body.runs k
  refine ⟨WF_mapv h.surveys, fun i s hs => ?_, fun i j s hs => ?_, fun i j k r hs => ?_⟩
  · rw [s1] at hs
    obtain ⟨s', hs', rfl⟩ := Option.map_eq_some_iff.1 hs
    exact WF_mapv (h.stations i s' hs')
  · rw [s2] at hs
    obtain ⟨s', hs', rfl⟩ := Option.map_eq_some_iff.1 hs
    exact WF_mapv (h.runs i j s' hs')
  · rw [s3] at hs
    obtain ⟨s', hs', rfl⟩ := Option.map_eq_some_iff.1 hs
    exact WF_mapv (h.channels i j k s' hs')

/-- C249: otherwise the experiment stays as it is, and a sorted copy is returned. -/
theorem C249_copy (W : World A B) (e : Exp A B) (h : Kept W e) :
    ∃ e', sort W e false = .ok (e, some e') ∧ Same (e.map fun p => (p.1, svAgain W p.2)) e' ∧ Increasing e' := by
  have := sorted_same (again_distinct W h.distinct)
  refine ⟨_, ?_, this.1, this.2⟩
  unfold sort
  rw [if_neg (by decide), C247_experiment W e h]
  rfl

/-- C251: after sorting, the list of runs of every station has the ids of its runs in their order. -/
def C251_claim : Prop := ∀ (A B : Type) (W : World A B) (e e' : Exp A B), Kept W e → sort W e true = .ok (e', none) →
  ∀ i j s, stationAt e' i j = some s → s.body.runList = OD.keys s.body.runs

/-- C251 (part): it has the ids of its runs. -/
theorem C251_same_partial (W : World A B) (e e' : Exp A B) (h : Kept W e) (hs : sort W e true = .ok (e', none)) (i j : String) (s : St A)
    (hj : stationAt e' i j = some s) : s.body.runList.Perm (OD.keys s.body.runs) := by
  cases hs
  rw [station_sorted h.distinct] at hj
  obtain ⟨t, ht, rfl⟩ := Option.map_eq_some_iff.1 hj
  have hl : t.body.runList = OD.keys t.body.runs := by
    obtain ⟨v, hv, hs⟩ := Option.bind_eq_some_iff.1 ht
    obtain ⟨_, h2⟩ := h.stations _ (OD.mem_of_get? hv)
    exact (hist_inv (h2 _ (OD.mem_of_get? hs)).2.1).2
  unfold stSorted
  rw [keys_sortOD, keys_mapv, hl]
  exact (pySorted_perm strLe _).symm

/-- Run "b" before run "a". -/
def exTwo : Station := { runs := [("b", exRunB), ("a", {})], runList := ["b", "a"], recorded := ["hz"], start := 30, stop := 40 }

def exTwoExp : Exp Unit Unit := [("v", ⟨"v", (), [("s", ⟨"s", (), exTwo⟩)], []⟩)]

theorem exTwo_adds : Adds [] exTwo :=
  Adds.add "a" (Adds.add "b" (Adds.new 0 0) exRunB_reachable (s' := exStationB) (by decide +kernel)) (Reachable.new 0 0) (by decide +kernel)

theorem exTwo_kept : Kept exWorld exTwoExp := by
  refine ⟨by decide +kernel, fun p hp => ?_, by decide +kernel⟩
  rcases List.mem_cons.1 hp with rfl | hp
  · refine ⟨by decide +kernel, fun q hq => ?_⟩
    rcases List.mem_cons.1 hq with rfl | hq
    · exact ⟨rfl, exTwo_adds.hist, (C36_adds_exact [] _ exTwo_adds).1⟩
    · cases hq
  · cases hp

/-- C251 is false: the list keeps the order in which the runs were added. -/
theorem C251_refuted : ¬ C251_claim := by
  intro h
  have := h Unit Unit exWorld exTwoExp _ exTwo_kept rfl "v" "s" _ rfl
  revert this
  decide +kernel

/-! ## JSON -/

/-- Only "{}" is JSON, and it is in the file "f". -/
def exDisk : Disk Unit :=
  ⟨fun n => if n = "f".toList then some "{}".toList else none, fun t => if t = "{}".toList then .ok () else .error .valueError⟩

/-- C250 is false: with a file name as text, the name itself is read as JSON. -/
theorem C250_refuted : ¬ C250_claim := by
  intro h
  have := h Unit exDisk "f".toList "{}".toList (by decide +kernel)
  revert this
  decide +kernel

/-- C250 (part): a text that is no file name is read, a `Path` of a file is read, and a `Path` without a file is an error, which is not
one about files. -/
theorem C250_partial {J : Type} (D : Disk J) (s t : Str) :
    (D.file s = none → ofText D s = D.loads s) ∧ (D.file s = some t → ofPath D s = D.loads t) ∧
    (D.file s = none → ofPath D s = .error .nameError) := by
  refine ⟨fun h => ?_, fun h => ?_, fun h => ?_⟩
  · unfold ofText; rw [h]
  · unfold ofPath; rw [h]
  · unfold ofPath; rw [h]

/-- C250 (part): a file name given as text is never read from: what the call gives does not depend on what the file holds, except
that a file that is no JSON is an error. -/
theorem C250_ignored_partial {J : Type} (D : Disk J) (s t : Str) (h : D.file s = some t) (j : J) (hj : ofText D s = .ok j) :
    D.loads s = .ok j := by
  unfold ofText at hj
  rw [h] at hj
  simp only at hj
  cases ht : D.loads t with
  | error e => rw [ht] at hj; cases hj
  | ok x => rw [ht] at hj; exact hj

end Verif.ExpDict
