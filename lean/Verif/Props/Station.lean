import Verif.Lemmas.Station
import Verif.Props.Run
import Mathlib.Data.List.Perm.Subperm

/-!
C35-C38, C83: run bookkeeping of `mt_metadata/timeseries/station.py`.
-/

namespace Verif.Stations
open Runs

/-! ### Vocabulary -/

/-- Stations obtained by any sequence of calls on a new one, where `update=` takes only values in
`flags`. Runs handed over, and runs edited in place (`station.runs[id].…`), are arbitrary runs
obtained from `Run` calls; merged stations are such stations; `touch` is the assignment of an
unrelated attribute. -/
inductive Hist (req : List String) (flags : Bool → Prop) : Station → Prop
  | new (a b : Int) : Hist req flags { start := a, stop := b }
  | add {s s' : Station} (id : String) {r : Run} {upd : Bool} : flags upd → Hist req flags s →
      Reachable req r → addRun req s id r upd = .ok s' → Hist req flags s'
  | remove {s s' : Station} (id : String) {upd : Bool} : flags upd → Hist req flags s →
      removeRun req s id upd = .ok s' → Hist req flags s'
  | merge {s o s' : Station} : Hist req flags s → Hist req flags o → merge req s o = .ok s' →
      Hist req flags s'
  | edit {s : Station} (id : String) {r : Run} : Hist req flags s → id ∈ OD.keys s.runs →
      Reachable req r → Hist req flags { s with runs := OD.set s.runs id r }
  | touch {s s' : Station} : Hist req flags s → touch req s = .ok s' → Hist req flags s'
  | time {s : Station} : Hist req flags s → Hist req flags (updateTime s)

/-- Only `update=True`, the default. -/
abbrev defaultFlags : Bool → Prop := (· = true)

theorem addRun_true (req : List String) {s : Station} (h : SInv s) (hl : s.runList = OD.keys s.runs)
    (id : String) {r : Run} (hr : Inv r ∧ InSync r) :
    ∃ s1 : Station, ∃ r1 : Run, (Inv r1 ∧ InSync r1) ∧ s1 = { s with runs := OD.set s.runs id r1 } ∧
      addRun req s id r true = updateAll req s1 ∧
      (id ∉ OD.keys s.runs → r1 = r) ∧
      (∀ old, OD.get? s.runs id = some old → Runs.update req old r = .ok r1) := by
  unfold addRun
  by_cases hm : id ∈ OD.keys s.runs
  · have hh : hasRun s id = true := by
      unfold hasRun; rw [hl]; simpa using hm
    obtain ⟨old, ho⟩ := Option.isSome_iff_exists.1 ((OD.get?_isSome_iff _ _).2 hm)
    have hold := h.ok _ (OD.mem_of_get? ho)
    obtain ⟨r1, e1, i1, s1, _⟩ := update_of_inv req hold.1 hold.2 hr.1 hr.2
    refine ⟨_, r1, ⟨i1, s1⟩, rfl, ?_, fun hn => absurd hm hn, ?_⟩
    · simp only [hh, if_true, ho, e1]
    · intro o ho'
      rw [ho] at ho'
      simp only [Option.some.injEq] at ho'
      rw [← ho', e1]
  · have hh : hasRun s id = false := by
      unfold hasRun; rw [hl]; simpa using hm
    refine ⟨_, r, hr, rfl, ?_, fun _ => rfl, ?_⟩
    · simp only [hh, if_true, Bool.false_eq_true, if_false]
    · intro o ho'
      exact absurd ((OD.get?_isSome_iff _ _).1 (by rw [ho']; rfl)) hm

theorem hist_inv {req : List String} {s : Station} (h : Hist req defaultFlags s) :
    SInv s ∧ s.runList = OD.keys s.runs := by
  induction h with
  | new a b => exact ⟨⟨OD.WF_nil, by simp⟩, rfl⟩
  | @add s s' id r upd hf _ hr he ih =>
    obtain rfl : upd = true := hf
    obtain ⟨s1, r1, hr1, es, e, _⟩ := addRun_true req ih.1 ih.2 id (reachable_inv hr)
    have hs1 : SInv s1 := es ▸ set_sinv ih.1 id r1 hr1
    obtain ⟨s2, e2, i2, l2, _⟩ := updateAll_of_inv req hs1
    rw [e, e2] at he
    simp only [Except.ok.injEq] at he
    subst he; exact ⟨i2, l2⟩
  | @remove s s' id upd hf _ he ih =>
    obtain rfl : upd = true := hf
    unfold removeRun at he
    split at he
    · split at he
      · simp only [if_true] at he
        obtain ⟨s2, e2, i2, l2, _⟩ := updateAll_of_inv req (erase_sinv ih.1 id)
        rw [e2] at he
        simp only [Except.ok.injEq] at he
        subst he; exact ⟨i2, l2⟩
      · cases he
    · simp only [Except.ok.injEq] at he
      subst he; exact ih
  | @merge s o s' _ _ he ih1 ih2 =>
    obtain ⟨s2, e2, i2, l2, _⟩ := updateAll_of_inv req (extend_sinv ih1.1 o.runs ih2.1.ok)
    unfold merge at he
    rw [e2] at he
    simp only [Except.ok.injEq] at he
    subst he; exact ⟨i2, l2⟩
  | @edit s id r _ hid hr ih =>
    refine ⟨set_sinv ih.1 id r (reachable_inv hr), ?_⟩
    simp only [OD.keys_set, if_pos hid]
    exact ih.2
  | @touch s s' _ he ih =>
    unfold touch at he
    simp only [ih.2, if_true, ne_eq, not_true_eq_false, false_and, and_false, if_false] at he
    obtain ⟨s2, e2, i2, l2, k2, _⟩ := fixChannels_of_inv req ih.1
    rw [e2] at he
    simp only [Except.ok.injEq] at he
    subst he
    exact ⟨i2, by rw [l2, k2, ih.2]⟩
  | @time s _ ih => exact ⟨⟨ih.1.wf, ih.1.ok⟩, ih.2⟩

/-! ### C35 -/

/-- The statement of C35. -/
def C35_claim : Prop :=
  ∀ (req : List String) (s : Station), Hist req (fun _ => True) s →
    s.runList = OD.keys s.runs ∧
    ∀ id, hasRun s id = true ↔ ∃ r, getRun s id = .ok (some r)

/-- C35 is false: `add_run(run, update=False)` stores the run but `run_list` does not name it, so
`has_run` denies it and `get_run` returns `None`. -/
theorem C35_refuted : ¬ C35_claim := by
  intro h
  have h1 := (h [] { runs := [("a", {})] }
    (Hist.add (upd := false) "a" trivial (Hist.new 0 0) (Reachable.new 0 0) rfl)).1
  exact absurd h1 (by decide +kernel)

/-- C35 for histories with the default `update=True` (including merges, edits of stored runs and
attribute assignments): `run_list` is the list of keys, and `has_run` agrees with `get_run`. The
full claim would allow `update=False`. -/
theorem C35_run_list_partial (req : List String) (s : Station) (h : Hist req defaultFlags s) :
    s.runList = OD.keys s.runs ∧ s.runList.Nodup ∧
    ∀ id, (hasRun s id = true ↔ ∃ r, getRun s id = .ok (some r)) ∧
      (hasRun s id = false ↔ getRun s id = .ok none) := by
  obtain ⟨hi, hl⟩ := hist_inv h
  refine ⟨hl, hl ▸ hi.wf, fun id => ?_⟩
  unfold getRun
  by_cases hm : hasRun s id = true
  · have hk : id ∈ OD.keys s.runs := by
      rw [← hl]; unfold hasRun at hm; simpa using hm
    obtain ⟨old, ho⟩ := Option.isSome_iff_exists.1 ((OD.get?_isSome_iff _ _).2 hk)
    simp [hm, ho]
  · rw [Bool.not_eq_true] at hm
    simp [hm]

/-- C35: with the default `update=True` no call raises. -/
theorem C35_total_partial (req : List String) (s o : Station) (h : Hist req defaultFlags s)
    (ho : Hist req defaultFlags o) (id : String) (r : Run) (hr : Reachable req r) :
    (∃ s', addRun req s id r true = .ok s') ∧ (∃ s', removeRun req s id true = .ok s') ∧
    (∃ s', merge req s o = .ok s') ∧ (∃ s', touch req s = .ok s') := by
  obtain ⟨hi, hl⟩ := hist_inv h
  obtain ⟨hoi, _⟩ := hist_inv ho
  refine ⟨?_, ?_, ?_, ?_⟩
  · obtain ⟨s1, r1, hr1, es, e, _⟩ := addRun_true req hi hl id (reachable_inv hr)
    have hs1 : SInv s1 := es ▸ set_sinv hi id r1 hr1
    obtain ⟨s2, e2, _⟩ := updateAll_of_inv req hs1
    exact ⟨s2, by rw [e, e2]⟩
  · unfold removeRun
    split
    · next hm =>
      have hk : id ∈ OD.keys s.runs := by
        rw [← hl]; unfold hasRun at hm; simpa using hm
      obtain ⟨s2, e2, _⟩ := updateAll_of_inv req (erase_sinv hi id)
      exact ⟨s2, by simp only [if_pos hk, if_true, e2]⟩
    · exact ⟨s, rfl⟩
  · obtain ⟨s2, e2, _⟩ := updateAll_of_inv req (extend_sinv hi o.runs hoi.ok)
    exact ⟨s2, e2⟩
  · unfold touch
    simp only [hl, if_true, ne_eq, not_true_eq_false, false_and, and_false, if_false]
    obtain ⟨s2, e2, _⟩ := fixChannels_of_inv req hi
    exact ⟨s2, e2⟩

/-- C35: adding a new id appends it to `run_list`, adding a known id leaves the list alone,
removing takes the id out of it. -/
theorem C35_order_partial (req : List String) (s s' : Station) (h : Hist req defaultFlags s)
    (id : String) :
    (∀ r, Reachable req r → addRun req s id r true = .ok s' →
      s'.runList = if hasRun s id then s.runList else s.runList ++ [id]) ∧
    (removeRun req s id true = .ok s' → s'.runList = s.runList.filter (fun n => n ≠ id)) := by
  obtain ⟨hi, hl⟩ := hist_inv h
  constructor
  · intro r hr he
    obtain ⟨s1, r1, hr1, es, e, _⟩ := addRun_true req hi hl id (reachable_inv hr)
    have hs1 : SInv s1 := es ▸ set_sinv hi id r1 hr1
    obtain ⟨s2, e2, _, l2, k2, _⟩ := updateAll_of_inv req hs1
    rw [e, e2] at he
    simp only [Except.ok.injEq] at he
    subst he
    rw [l2, k2, es]
    simp only [OD.keys_set, hl]
    by_cases hm : id ∈ OD.keys s.runs
    · have : hasRun s id = true := by unfold hasRun; rw [hl]; simpa using hm
      simp [hm, this]
    · have : hasRun s id = false := by unfold hasRun; rw [hl]; simpa using hm
      simp [hm, this]
  · intro he
    unfold removeRun at he
    split at he
    · split at he
      · simp only [if_true] at he
        obtain ⟨s2, e2, _, l2, k2, _⟩ := updateAll_of_inv req (erase_sinv hi id)
        rw [e2] at he
        simp only [Except.ok.injEq] at he
        subst he
        rw [l2, k2, hl]
        simp only [OD.WF.erase_eq_filter hi.wf, OD.keys, List.filter_map]
        congr 1
      · cases he
    · next hm =>
      simp only [Except.ok.injEq] at he
      subst he
      symm
      rw [List.filter_eq_self]
      intro a ha
      simp only [decide_eq_true_eq]
      rintro rfl
      exact hm (by unfold hasRun; simpa using ha)

/-- A run with an additional channel. -/
def exHz : Chan := { comp := "hz", kind := .magnetic, start := 30, stop := 40 }
/-- Run "b". -/
def exRunB : Run :=
  { channels := [("hz", exHz)], mag := ["hz"], start := 30, stop := 40 }
theorem exRunB_reachable : Reachable [] exRunB :=
  Reachable.add exHz true (Reachable.new 0 0) (by decide +kernel)

/-- Station with runs "a" (ex, hy) and "b" (hz). -/
def exStation : Station :=
  { runs := [("a", exRun), ("b", exRunB)], runList := ["a", "b"], recorded := ["ex", "hy", "hz"],
    start := 5, stop := 40 }

theorem exStation_hist : Hist [] defaultFlags exStation :=
  Hist.add "b" (upd := true) rfl
    (Hist.add "a" (upd := true) rfl (Hist.new 0 0) exRun_reachable
      (s' := { runs := [("a", exRun)], runList := ["a"], recorded := ["ex", "hy"],
               start := 5, stop := 20 }) (by decide +kernel))
    exRunB_reachable (by decide +kernel)

example : hasRun exStation "b" = true ∧ hasRun exStation "c" = false := by decide +kernel

/-! ### C36 -/

/-- The statement of C36. -/
def C36_claim : Prop :=
  ∀ (req : List String) (s s' : Station) (id : String), Hist req defaultFlags s →
    removeRun req s id true = .ok s' →
    OD.get? s'.runs id = none ∧
    (∀ j, j ≠ id → OD.get? s'.runs j = OD.get? s.runs j) ∧
    ∀ n, n ∈ s'.recorded ↔ ∃ p ∈ s.runs, p.1 ≠ id ∧ n ∈ OD.keys p.2.channels

/-- Run "a" after "b" has been removed: it has acquired a channel `hz`. -/
def exRunPhantom : Run :=
  { channels := [("hy", exHy), ("ex", exEx), ("hz", { comp := "hz", kind := .magnetic })],
    elec := ["ex"], mag := ["hy", "hz"], start := 5, stop := 20 }

/-- The station after `remove_run("b")`. -/
def exAfter : Station :=
  { runs := [("a", exRunPhantom)], runList := ["a"], recorded := ["ex", "hy", "hz"],
    start := 5, stop := 40 }

theorem exAfter_eq : removeRun [] exStation "b" true = .ok exAfter := by decide +kernel

/-- C36 is false: removing run "b" creates its channel `hz` on run "a". -/
theorem C36_refuted : ¬ C36_claim := by
  intro h
  have := (h [] exStation exAfter "b" exStation_hist exAfter_eq).2.1 "a" (by decide)
  exact absurd this (by decide +kernel)

theorem removed_get? {s : Station} (h : SInv s) (id : String) :
    OD.get? (OD.erase s.runs id) id = none ∧
    ∀ j, j ≠ id → OD.get? (OD.erase s.runs id) j = OD.get? s.runs j :=
  ⟨by rw [OD.get?_erase h.wf, if_pos rfl], fun j hj => by rw [OD.get?_erase h.wf, if_neg (Ne.symm hj)]⟩

/-- C36, first part: the run is gone, and every remaining run other than the first one is
exactly as it was. -/
theorem C36_others_partial (req : List String) (s s' : Station) (h : Hist req defaultFlags s)
    (id : String) (he : removeRun req s id true = .ok s') :
    OD.get? s'.runs id = none ∧
    ∀ j, j ≠ id → (OD.keys (OD.erase s.runs id)).head? ≠ some j →
      OD.get? s'.runs j = OD.get? s.runs j := by
  obtain ⟨hi, hl⟩ := hist_inv h
  unfold removeRun at he
  split at he
  · split at he
    · simp only [if_true] at he
      obtain ⟨s2, e2, i2, l2, k2, _, _, _, _, g2⟩ := updateAll_of_inv req (erase_sinv hi id)
      rw [e2] at he
      simp only [Except.ok.injEq] at he
      subst he
      constructor
      · have : id ∉ OD.keys s2.runs := by
          rw [k2]
          intro hm
          have := (OD.get?_isSome_iff _ _).2 hm
          rw [(removed_get? hi id).1] at this
          exact absurd this (by simp)
        cases hg : OD.get? s2.runs id with
        | none => rfl
        | some r => exact absurd ((OD.get?_isSome_iff _ _).1 (by rw [hg]; rfl)) this
      · intro j hj hh
        rw [← (removed_get? hi id).2 j hj]
        cases hr : OD.erase s.runs id with
        | nil =>
          have : OD.keys s2.runs = [] := by rw [k2]; simp [hr, OD.keys]
          have h0 : s2.runs = [] := by simpa [OD.keys] using this
          rw [h0]
        | cons p rest =>
          simp only [hr] at g2 hh
          have hpj : p.1 ≠ j := by simpa [OD.keys] using hh
          by_cases hm : j ∈ OD.keys rest
          · exact g2 j hm
          · have h1 : j ∉ OD.keys s2.runs := by
              rw [k2]
              simp only [hr, OD.keys, List.map_cons, List.mem_cons, not_or]
              exact ⟨Ne.symm hpj, hm⟩
            have h2 : j ∉ OD.keys (p :: rest : OD String Run) := by
              simp only [OD.keys, List.map_cons, List.mem_cons, not_or]
              exact ⟨Ne.symm hpj, hm⟩
            have e0 : ∀ d : OD String Run, j ∉ OD.keys d → OD.get? d j = none := by
              intro d hd
              cases hg : OD.get? d j with
              | none => rfl
              | some r => exact absurd ((OD.get?_isSome_iff _ _).1 (by rw [hg]; rfl)) hd
            rw [e0 _ h1, e0 _ h2]
    · cases he
  · next hm =>
    simp only [Except.ok.injEq] at he
    subst he
    refine ⟨?_, fun _ _ _ => rfl⟩
    cases hg : OD.get? s.runs id with
    | none => rfl
    | some r =>
      have := (OD.get?_isSome_iff _ _).1 (by rw [hg]; rfl : (OD.get? s.runs id).isSome)
      exact absurd (by unfold hasRun; rw [hl]; simpa using this) hm

/-- A station whose `channels_recorded` lists exactly the channels of its runs, sorted. -/
def RecordedExact (s : Station) : Prop :=
  s.recorded.Pairwise (· < ·) ∧
    ∀ n, n ∈ s.recorded ↔ ∃ p ∈ s.runs, n ∈ OD.keys p.2.channels

theorem recordedExact_iff {s : Station} (h : SInv s) :
    RecordedExact s ↔ s.recorded = getRecorded s := by
  have hm : ∀ n, n ∈ getRecorded s ↔ ∃ p ∈ s.runs, n ∈ OD.keys p.2.channels := by
    intro n
    rw [mem_getRecorded]
    constructor
    · rintro ⟨p, hp, hq⟩; exact ⟨p, hp, (comp_mem_iff (h.ok p hp).1 n).1 hq⟩
    · rintro ⟨p, hp, hq⟩; exact ⟨p, hp, (comp_mem_iff (h.ok p hp).1 n).2 hq⟩
  constructor
  · rintro ⟨h1, h2⟩
    exact eq_of_lt_of_mem h1 (getRecorded_lt s) (fun n => by rw [h2, hm])
  · intro e
    unfold RecordedExact
    rw [e]
    exact ⟨getRecorded_lt s, hm⟩

/-- C36, second part: when `channels_recorded` is exact and every channel of the removed run
also occurs in another run, the remaining runs are unchanged and `channels_recorded` is
exact again. -/
theorem C36_covered_partial (req : List String) (s s' : Station) (h : Hist req defaultFlags s)
    (hx : RecordedExact s) (id : String) (r : Run) (hr : OD.get? s.runs id = some r)
    (hc : ∀ n, n ∈ OD.keys r.channels → ∃ p ∈ s.runs, p.1 ≠ id ∧ n ∈ OD.keys p.2.channels)
    (he : removeRun req s id true = .ok s') :
    s'.runs = OD.erase s.runs id ∧ RecordedExact s' := by
  obtain ⟨hi, hl⟩ := hist_inv h
  have hie := erase_sinv hi id
  have hk : id ∈ OD.keys s.runs := (OD.get?_isSome_iff _ _).1 (by rw [hr]; rfl)
  have hh : hasRun s id = true := by unfold hasRun; rw [hl]; simpa using hk
  unfold removeRun at he
  rw [if_pos hh, if_pos hk, if_pos rfl] at he
  obtain ⟨s2, e2, i2, l2, k2, _, _, f2, _⟩ := updateAll_of_inv req hie
  rw [e2] at he
  simp only [Except.ok.injEq] at he
  subst he
  have hx1 : RecordedExact { s with runs := OD.erase s.runs id } := by
    refine ⟨hx.1, fun n => ?_⟩
    rw [show ({ s with runs := OD.erase s.runs id } : Station).recorded = s.recorded from rfl, hx.2]
    simp only [OD.WF.erase_eq_filter hi.wf, List.mem_filter]
    constructor
    · rintro ⟨p, hp, hn⟩
      by_cases e : p.1 = id
      · have hpr : p.2 = r := by
          have := OD.get?_of_mem hi.wf (k := p.1) (v := p.2) hp
          rw [e, hr] at this
          simpa using this.symm
        obtain ⟨q, hq, hqi, hqn⟩ := hc n (hpr ▸ hn)
        exact ⟨q, ⟨hq, by simpa using hqi⟩, hqn⟩
      · exact ⟨p, ⟨hp, by simpa using e⟩, hn⟩
    · rintro ⟨p, ⟨hp, _⟩, hn⟩
      exact ⟨p, hp, hn⟩
  have hs := f2 ((recordedExact_iff hie).1 hx1)
  refine ⟨hs.1, hx1.1 |> fun a => ⟨hs.2 ▸ a, fun n => ?_⟩⟩
  rw [hs.1, hs.2]
  exact hx1.2 n

/-- C36: what actually happens. If `channels_recorded` is exact and a run remains, the channels of
the removed run do not go away: every channel name of the station before the removal is a
channel of some run afterwards, and `channels_recorded` does not change. -/
theorem C36_names_survive (req : List String) (s s' : Station) (h : Hist req defaultFlags s)
    (hx : RecordedExact s) (id : String) (hid : id ∈ OD.keys s.runs)
    (hrest : ∃ j, j ≠ id ∧ j ∈ OD.keys s.runs) (he : removeRun req s id true = .ok s') :
    s'.recorded = s.recorded ∧
    ∀ n, (∃ p ∈ s.runs, n ∈ OD.keys p.2.channels) → ∃ p ∈ s'.runs, n ∈ OD.keys p.2.channels := by
  obtain ⟨hi, hl⟩ := hist_inv h
  have hie := erase_sinv hi id
  have hh : hasRun s id = true := by unfold hasRun; rw [hl]; simpa using hid
  have hrec := (recordedExact_iff hi).1 hx
  unfold removeRun at he
  rw [if_pos hh, if_pos hid, if_pos rfl] at he
  have hu : updateAll req { s with runs := OD.erase s.runs id } =
      fixChannels req { updateTime { s with runs := OD.erase s.runs id } with
        runList := OD.keys (OD.erase s.runs id) } := rfl
  rw [hu] at he
  generalize hs1 : ({ updateTime { s with runs := OD.erase s.runs id } with
        runList := OD.keys (OD.erase s.runs id) } : Station) = s1 at he
  have r1 : s1.runs = OD.erase s.runs id := by rw [← hs1]; rfl
  have c1 : s1.recorded = s.recorded := by rw [← hs1]; rfl
  have hi1 : SInv s1 := ⟨r1 ▸ hie.wf, fun p hp => hie.ok p (by simpa [r1] using hp)⟩
  have hsub : ∀ n, n ∈ getRecorded s1 → n ∈ s1.recorded := by
    intro n hn
    rw [c1, hrec, mem_getRecorded]
    rw [mem_getRecorded, r1] at hn
    simp only [OD.WF.erase_eq_filter hi.wf, List.mem_filter] at hn
    obtain ⟨p, ⟨hp, _⟩, hq⟩ := hn
    exact ⟨p, hp, hq⟩
  unfold fixChannels at he
  split at he
  · next e =>
    simp only [Except.ok.injEq] at he
    subst he
    refine ⟨c1, fun n hn => ?_⟩
    have h1 := (recordedExact_iff hi1).2 e
    rw [← h1.2, c1]
    exact (hx.2 n).2 hn
  · next hne =>
    have hnd1 : (getRecorded s1).Nodup := (getRecorded_lt s1).imp (fun h => ne_of_lt h)
    have hnd2 : s1.recorded.Nodup := by rw [c1]; exact hx.1.imp (fun h => ne_of_lt h)
    have hlt : (getRecorded s1).length < s1.recorded.length := by
      have hsp : (getRecorded s1).Subperm s1.recorded := hnd1.subperm hsub
      rcases Nat.lt_or_ge (getRecorded s1).length s1.recorded.length with hl | hl
      · exact hl
      · exfalso
        apply hne
        have hp := hsp.perm_of_length_le hl
        exact eq_of_lt_of_mem (by rw [c1]; exact hx.1) (getRecorded_lt s1)
          (fun n => (hp.mem_iff).symm)
    rw [if_pos hlt] at he
    cases hr : s1.runs with
    | nil =>
      exfalso
      obtain ⟨j, hj, hjm⟩ := hrest
      have := (OD.get?_isSome_iff _ _).2 hjm
      rw [← (removed_get? hi id).2 j hj, ← r1, hr] at this
      simp [OD.get?] at this
    | cons p rest =>
      obtain ⟨i, r⟩ := p
      rw [hr] at he
      simp only at he
      have hp := hi1.ok (i, r) (by simp [hr])
      obtain ⟨r', e1, i1, sy1, k1, _⟩ := addNames_of_inv req
        (s1.recorded.filter (fun n => !(getRecorded s1).contains n)) hp.1 hp.2
      rw [e1] at he
      simp only [Except.ok.injEq] at he
      subst he
      refine ⟨c1, fun n hn => ?_⟩
      have hn1 : n ∈ s1.recorded := by rw [c1]; exact (hx.2 n).2 hn
      by_cases hg : n ∈ getRecorded s1
      · rw [mem_getRecorded] at hg
        obtain ⟨p, hp1, hq⟩ := hg
        have hpk := (comp_mem_iff (hi1.ok p hp1).1 n).1 hq
        rw [hr] at hp1
        rcases List.mem_cons.1 hp1 with rfl | hp1
        · exact ⟨(i, r'), by simp, (k1 n).2 (Or.inl hpk)⟩
        · exact ⟨p, by simp [hp1], hpk⟩
      · exact ⟨(i, r'), by simp, (k1 n).2 (Or.inr (by simp [hn1, hg]))⟩

/-- A station with run "b" only. -/
def exStationB : Station :=
  { runs := [("b", exRunB)], runList := ["b"], recorded := ["hz"], start := 30, stop := 40 }

/-- C36: with no run left `channels_recorded` keeps the removed run's channels, and the
next run added receives them. -/
theorem C36_stale_recorded : ∃ (s1 s2 : Station),
    Hist [] defaultFlags exStationB ∧ removeRun [] exStationB "b" true = .ok s1 ∧ s1.runs = [] ∧ s1.recorded = ["hz"] ∧
    addRun [] s1 "a" {} true = .ok s2 ∧
    (OD.get? s2.runs "a").map (fun r => OD.keys r.channels) = some ["hz"] :=
  ⟨{ recorded := ["hz"], start := 30, stop := 40 },
   { runs := [("a", { channels := [("hz", { comp := "hz", kind := .magnetic })], mag := ["hz"] })],
     runList := ["a"], recorded := ["hz"], start := 30, stop := 40 },
   Hist.add "b" (upd := true) rfl (Hist.new 0 0) exRunB_reachable (by decide +kernel),
   by decide +kernel⟩

/-- Histories that only add runs. -/
inductive Adds (req : List String) : Station → Prop
  | new (a b : Int) : Adds req { start := a, stop := b }
  | add {s s' : Station} (id : String) {r : Run} : Adds req s → Reachable req r →
      addRun req s id r true = .ok s' → Adds req s'

theorem Adds.hist {req : List String} {s : Station} (h : Adds req s) : Hist req defaultFlags s := by
  induction h with
  | new a b => exact Hist.new a b
  | add id _ hr he ih => exact Hist.add id (upd := true) rfl ih hr he

theorem adds_key (req : List String) (s : Station) (hi : SInv s) (hl : s.runList = OD.keys s.runs)
    (hx : RecordedExact s) (s' : Station) (id : String) (r : Run) (hr : Reachable req r)
    (he : addRun req s id r true = .ok s') :
      (∀ j, j ≠ id → OD.get? s'.runs j = OD.get? s.runs j) ∧
      (OD.get? s.runs id = none → OD.get? s'.runs id = some r) ∧
      (∀ old, OD.get? s.runs id = some old →
        ∃ r1, Runs.update req old r = .ok r1 ∧ OD.get? s'.runs id = some r1) ∧
      RecordedExact s' ∧ s'.start = (updateTime s').start ∧ s'.stop = (updateTime s').stop := by
    obtain ⟨s1, r1, hr1, es, e, hnew, hupd⟩ := addRun_true req hi hl id (reachable_inv hr)
    have hs1 : SInv s1 := es ▸ set_sinv hi id r1 hr1
    obtain ⟨s2, e2, i2, l2, k2, a2, b2, _, f2, _⟩ := updateAll_of_inv req hs1
    rw [e, e2] at he
    simp only [Except.ok.injEq] at he
    subst he
    have hsub : ∀ n, n ∈ s1.recorded → n ∈ getRecorded s1 := by
      intro n hn
      rw [es] at hn
      obtain ⟨p, hp, hn⟩ := (hx.2 n).1 hn
      rw [mem_getRecorded]
      by_cases hpi : p.1 = id
      · have hg := OD.get?_of_mem hi.wf (k := p.1) (v := p.2) hp
        rw [hpi] at hg
        have hu := hupd _ hg
        have hpo := hi.ok p hp
        obtain ⟨r2, e2', _, _, k2'⟩ :=
          update_of_inv req hpo.1 hpo.2 (reachable_inv hr).1 (reachable_inv hr).2
        rw [hu] at e2'
        simp only [Except.ok.injEq] at e2'
        subst e2'
        refine ⟨(id, r1), ?_, (comp_mem_iff hr1.1 n).2 ((k2' n).2 (Or.inl hn))⟩
        rw [es]
        exact OD.mem_of_get? (by rw [OD.get?_set]; simp)
      · refine ⟨p, ?_, (comp_mem_iff (hi.ok p hp).1 n).2 hn⟩
        rw [es]
        exact OD.mem_of_get? (by
          rw [OD.get?_set_ne _ _ hpi]
          exact OD.get?_of_mem hi.wf (k := p.1) (v := p.2) hp)
    have hnd : s1.recorded.Nodup := by rw [es]; exact hx.1.imp (fun h => ne_of_lt h)
    have hle : ¬ (getRecorded s1).length < s1.recorded.length :=
      Nat.not_lt.2 (hnd.subperm hsub).length_le
    obtain ⟨hruns, hrec⟩ := f2 hle
    refine ⟨?_, ?_, ?_, (recordedExact_iff i2).2 hrec, ?_, ?_⟩
    · intro j hj
      rw [hruns, es, OD.get?_set_ne _ _ hj]
    · intro hn
      rw [hruns, es, hnew, OD.get?_set, if_pos rfl]
      intro hm
      have := (OD.get?_isSome_iff _ _).2 hm
      rw [hn] at this; exact absurd this (by simp)
    · intro old ho
      exact ⟨r1, hupd old ho, by rw [hruns, es, OD.get?_set, if_pos rfl]⟩
    · rw [a2]; unfold updateTime; simp only [a2, hruns]
      unfold updateTime
      simp only
      rw [newStart_idem _ _ (by simp)]
    · rw [b2]; unfold updateTime; simp only [b2, hruns]
      unfold updateTime
      simp only
      rw [newStop_idem _ _ (by simp)]

/-- C36: while runs are only added, `channels_recorded` is exact and adding never alters another
run. -/
theorem C36_adds_exact (req : List String) (s : Station) (h : Adds req s) :
    RecordedExact s ∧
    ∀ s' id r, Reachable req r → addRun req s id r true = .ok s' →
      (∀ j, j ≠ id → OD.get? s'.runs j = OD.get? s.runs j) ∧
      (OD.get? s.runs id = none → OD.get? s'.runs id = some r) ∧
      (∀ old, OD.get? s.runs id = some old →
        ∃ r1, Runs.update req old r = .ok r1 ∧ OD.get? s'.runs id = some r1) ∧
      RecordedExact s' := by
  have hx : RecordedExact s := by
    induction h with
    | new a b => exact ⟨List.Pairwise.nil, by simp⟩
    | add id h0 hr he ih =>
      obtain ⟨hi, hl⟩ := hist_inv h0.hist
      exact (adds_key req _ hi hl ih _ id _ hr he).2.2.2.1
  obtain ⟨hi, hl⟩ := hist_inv h.hist
  refine ⟨hx, fun s' id r hr he => ?_⟩
  obtain ⟨g1, g2, g3, g4, _⟩ := adds_key req s hi hl hx s' id r hr he
  exact ⟨g1, g2, g3, g4⟩

theorem exStation_adds : Adds [] exStation :=
  Adds.add "b"
    (Adds.add "a" (Adds.new 0 0) exRun_reachable
      (s' := { runs := [("a", exRun)], runList := ["a"], recorded := ["ex", "hy"],
               start := 5, stop := 20 }) (by decide +kernel))
    exRunB_reachable (by decide +kernel)

example : RecordedExact exStation := (C36_adds_exact [] _ exStation_adds).1

/-! ### C37 -/

/-- The statement of C37. -/
def C37_claim : Prop :=
  ∀ s : Station, ∃ s', sortRunsByTime s = .ok s' ∧ s'.runs.Perm s.runs ∧
    (OD.values s'.runs).Pairwise (fun a b => a.start ≤ b.start)

/-- C37 is false: with at least one run the call raises. -/
theorem C37_refuted : ¬ C37_claim := by
  intro h
  obtain ⟨s', e, _⟩ := h exStation
  exact absurd e (by simp [sortRunsByTime, exStation])

/-- C37: `sort_runs_by_time` succeeds exactly on stations without runs. -/
theorem C37_never_partial (s : Station) :
    (∃ s', sortRunsByTime s = .ok s') ↔ s.runs = [] := by
  unfold sortRunsByTime
  cases h : s.runs with
  | nil => simp
  | cons p l => simp

/-! ### C38 -/

/-- C38: after `update_time_period` the station's period contains the period of every run with
non-default times. -/
theorem C38_covers (s : Station) (p : String × Run) (hp : p ∈ s.runs) :
    (p.2.start ≠ 0 → (updateTime s).start ≤ p.2.start) ∧
    (p.2.stop ≠ 0 → p.2.stop ≤ (updateTime s).stop) := by
  have hv : p.2 ∈ OD.values s.runs := List.mem_map.2 ⟨p, hp, rfl⟩
  constructor
  · intro h
    exact (newStart_spec s.start _).1 _ (List.mem_filter.2 ⟨List.mem_map.2 ⟨p.2, hv, rfl⟩, by simpa using h⟩)
  · intro h
    exact (newStop_spec s.stop _).1 _ (List.mem_filter.2 ⟨List.mem_map.2 ⟨p.2, hv, rfl⟩, by simpa using h⟩)

/-- C38: the period only grows, and its ends are former ends or ends of runs. -/
theorem C38_grows (s : Station) :
    (s.start ≠ 0 → (updateTime s).start ≤ s.start) ∧ (s.stop ≠ 0 → s.stop ≤ (updateTime s).stop) ∧
    ((updateTime s).start = s.start ∨
      ∃ p ∈ s.runs, p.2.start ≠ 0 ∧ (updateTime s).start = p.2.start) ∧
    ((updateTime s).stop = s.stop ∨
      ∃ p ∈ s.runs, p.2.stop ≠ 0 ∧ (updateTime s).stop = p.2.stop) := by
  have s1 := newStart_spec s.start (((OD.values s.runs).map Run.start).filter (· ≠ 0))
  have s2 := newStop_spec s.stop (((OD.values s.runs).map Run.stop).filter (· ≠ 0))
  refine ⟨s1.2.1, s2.2.1, ?_, ?_⟩
  · rcases s1.2.2.1 with h | h
    · exact Or.inl h
    · simp only [List.mem_filter, List.mem_map, OD.values, decide_eq_true_eq] at h
      obtain ⟨⟨ch, ⟨p, hp, rfl⟩, e⟩, h0⟩ := h
      exact Or.inr ⟨p, hp, by rw [e]; exact h0, e.symm⟩
  · rcases s2.2.2.1 with h | h
    · exact Or.inl h
    · simp only [List.mem_filter, List.mem_map, OD.values, decide_eq_true_eq] at h
      obtain ⟨⟨ch, ⟨p, hp, rfl⟩, e⟩, h0⟩ := h
      exact Or.inr ⟨p, hp, by rw [e]; exact h0, e.symm⟩

/-- C38: the call is idempotent and changes nothing but the period. -/
theorem C38_idempotent (s : Station) :
    updateTime (updateTime s) = updateTime s ∧ (updateTime s).runs = s.runs ∧
    (updateTime s).runList = s.runList ∧ (updateTime s).recorded = s.recorded := by
  refine ⟨?_, rfl, rfl, rfl⟩
  unfold updateTime
  simp only
  rw [newStart_idem _ _ (by simp), newStop_idem _ _ (by simp)]

/-- C38: while runs are only added (default `update=True`), the period covers every run. -/
theorem C38_after_add (req : List String) (s s' : Station) (h : Adds req s) (id : String)
    (r : Run) (hr : Reachable req r) (he : addRun req s id r true = .ok s')
    (p : String × Run) (hp : p ∈ s'.runs) :
    (p.2.start ≠ 0 → s'.start ≤ p.2.start) ∧ (p.2.stop ≠ 0 → p.2.stop ≤ s'.stop) := by
  obtain ⟨hi, hl⟩ := hist_inv h.hist
  obtain ⟨_, _, _, _, g5, g6⟩ :=
    adds_key req s hi hl (C36_adds_exact req s h).1 s' id r hr he
  rw [g5, g6]
  exact C38_covers s' p hp

example : (updateTime { exStation with start := 7, stop := 0 }).start = 5 ∧
    (updateTime { exStation with start := 7, stop := 0 }).stop = 40 := by decide +kernel

/-! ### C83 -/

/-- C83: a removed run stays removed until a run of that id is added again. -/
def C83_claim : Prop :=
  ∀ (req : List String) (s s' s'' : Station) (id : String) (upd : Bool),
    Hist req defaultFlags s → removeRun req s id upd = .ok s' → touch req s' = .ok s'' →
    OD.get? s''.runs id = none

/-- C83 is false: after `remove_run("b", update=False)` assigning any attribute of the station
creates an empty run "b". -/
theorem C83_refuted : ¬ C83_claim := by
  intro h
  have := h [] exStation { exStation with runs := [("a", exRun)] }
    { exStation with runs := [("a", exRunPhantom), ("b", {})] } "b" false exStation_hist
    (by decide +kernel) (by decide +kernel)
  exact absurd this (by decide +kernel)

/-- C83 holds with the default `update=True`, through any number of attribute assignments. -/
theorem C83_default_partial (req : List String) (s s' : Station) (id : String)
    (h : Hist req defaultFlags s) (he : removeRun req s id true = .ok s') :
    OD.get? s'.runs id = none ∧ hasRun s' id = false ∧
    ∃ s'', touch req s' = .ok s'' ∧ OD.get? s''.runs id = none ∧ hasRun s'' id = false := by
  have h0 := (C36_others_partial req s s' h id he).1
  have hs' : Hist req defaultFlags s' := Hist.remove id (upd := true) rfl h he
  obtain ⟨hi, hl⟩ := hist_inv hs'
  have hnk := (OD.get?_eq_none_iff _ _).1 h0
  obtain ⟨s2, e2, i2, l2, k2, _⟩ := fixChannels_of_inv req hi
  refine ⟨h0, ?_, s2, ?_, ?_, ?_⟩
  · unfold hasRun; rw [hl]; simpa using hnk
  · unfold touch
    simp only [hl, if_true, ne_eq, not_true_eq_false, false_and, and_false, if_false]
    exact e2
  · rw [OD.get?_eq_none_iff, k2]; exact hnk
  · unfold hasRun; rw [l2, hl]; simpa using hnk

end Verif.Stations
