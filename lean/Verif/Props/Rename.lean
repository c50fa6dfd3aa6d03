import Verif.Model.Rename
import Verif.Props.Station
import Mathlib.Tactic.Tauto

/-! # C252, C253: renaming channels and runs -/

namespace Verif.Rename
open Verif.Runs Verif.Stations

/-- The channels under new names, in the same order. -/
def moved (f : String → String) (d : OD String Chan) : OD String Chan := d.map fun p => (f p.1, { p.2 with comp := f p.1 })

/-- C252: after channels have been given other names and the keys were updated, the run has these channels, whatever attribute of the
run is assigned next. -/
def C252_claim : Prop := ∀ (req : List String) (r : Run) (f : String → String), Reachable req r → ((OD.keys r.channels).map f).Nodup →
  ∃ r', validate req (updateChannelKeys (renameChannels f r)).1 = .ok r' ∧ r'.channels = moved f r.channels

theorem moved_keys (f : String → String) (d : OD String Chan) : OD.keys (moved f d) = (OD.keys d).map f := by
  unfold moved OD.keys; rw [List.map_map, List.map_map]; rfl

theorem moved_wf {f : String → String} {d : OD String Chan} (h : ((OD.keys d).map f).Nodup) : OD.WF (moved f d) := by
  unfold OD.WF; rw [moved_keys]; exact h

theorem update_channels (f : String → String) (r : Run) (h : ((OD.keys r.channels).map f).Nodup) :
    (updateChannelKeys (renameChannels f r)).1 = { r with channels := moved f r.channels } := by
  unfold updateChannelKeys renameChannels
  simp only
  have := OD.foldl_set_fresh (moved f r.channels) [] (by rw [List.nil_append]; exact moved_wf h)
  rw [List.nil_append] at this
  congr 1
  rw [← this]
  unfold moved
  rw [List.foldl_map, List.foldl_map]

theorem moved_inv {f : String → String} {r : Run} (h : ((OD.keys r.channels).map f).Nodup) : Inv { r with channels := moved f r.channels } := by
  refine ⟨moved_wf h, fun p hp => ?_⟩
  obtain ⟨q, _, rfl⟩ := List.mem_map.1 hp
  rfl

/-- C252 (part): after the keys were updated, the run has the channels under their new names, in the same order, and the names that
changed are returned. -/
theorem C252_keys_partial (req : List String) (r : Run) (f : String → String) (hr : Reachable req r) (h : ((OD.keys r.channels).map f).Nodup) :
    (updateChannelKeys (renameChannels f r)).1 = { r with channels := moved f r.channels } ∧
    (updateChannelKeys (renameChannels f r)).2 = ((OD.keys r.channels).filter fun k => k ≠ f k).map (fun k => (k, f k)) ∧
    ∀ k c, OD.get? r.channels k = some c →
      getChannel (updateChannelKeys (renameChannels f r)).1 (f k) = .ok (some { c with comp := f k }) := by
  refine ⟨update_channels f r h, ?_, ?_⟩
  · have hw : OD.WF r.channels := (reachable_inv hr).1.wf
    unfold updateChannelKeys renameChannels
    simp only
    rw [List.foldl_map]
    have key : ∀ (l : OD String Chan) (acc : OD String String), (OD.keys acc ++ OD.keys l).Nodup →
        l.foldl (fun (acc : OD String String) p => if p.1 ≠ f p.1 then OD.set acc p.1 (f p.1) else acc) acc =
          acc ++ ((OD.keys l).filter fun k => k ≠ f k).map (fun k => (k, f k)) := by
      intro l
      induction l with
      | nil => intro acc _; simp [OD.keys]
      | cons p l ih =>
        intro acc hd
        have ek : OD.keys (p :: l) = p.1 :: OD.keys l := rfl
        rw [ek] at hd ⊢
        rw [List.foldl_cons]
        have hn : p.1 ∉ OD.keys acc := fun c => (List.nodup_append.1 hd).2.2 p.1 c p.1 (by simp) rfl
        by_cases hp : p.1 = f p.1
        · rw [if_neg (by simpa using hp), List.filter_cons_of_neg (by simpa using hp), ih]
          exact hd.sublist ((List.Sublist.refl _).append (List.sublist_cons_self _ _))
        · rw [if_pos hp, OD.set_of_not_mem _ hn, List.filter_cons_of_pos (by simpa using hp), ih]
          · simp
          · have : OD.keys (acc ++ [(p.1, f p.1)]) = OD.keys acc ++ [p.1] := by unfold OD.keys; simp
            rw [this, List.append_assoc]; exact hd
    exact (key r.channels [] hw).trans (List.nil_append _)
  · intro k c hk
    rw [update_channels f r h]
    have hg : OD.get? (moved f r.channels) (f k) = some { c with comp := f k } :=
      OD.get?_of_mem (moved_wf h) (List.mem_map.2 ⟨(k, c), OD.mem_of_get? hk, rfl⟩)
    unfold getChannel
    rw [if_pos]
    · simp only [hg]
    · exact (hasChannel_iff (moved_inv h) _).2 (OD.mem_keys_of_get? hg)

/-- A step of the validator over a list: nothing to do, or the lists are up to date afterwards. -/
theorem step (req : List String) (k : Kind) (ns : List String) {q : Run} (hi : Inv q) :
    ∃ q', ensureAll req k ns q = .ok q' ∧ Inv q' ∧ (∀ n, n ∈ OD.keys q.channels → OD.get? q'.channels n = OD.get? q.channels n) ∧
      (∀ n, n ∈ OD.keys q'.channels ↔ n ∈ OD.keys q.channels ∨ n ∈ ns) ∧
      ((∀ n ∈ ns, n ∈ OD.keys q.channels) → q' = q) ∧ ((¬ ∀ n ∈ ns, n ∈ OD.keys q.channels) → InSync q') := by
  obtain ⟨q', e, i, g, m, c⟩ := ensureAll_of_inv req k ns hi
  refine ⟨q', e, i, g, m, fun h => ?_, fun h => ?_⟩
  · rw [ensureAll_noop req k ns q h] at e
    cases e; rfl
  · rcases c with rfl | c
    · exact absurd (fun n hn => (m n).2 (Or.inr hn)) h
    · exact c

/-- C252 (part): what is there after another attribute was assigned: the channels under their new names, and place holders under old
names that are no names any more, of the first class (electric, magnetic, auxiliary) that has any. -/
theorem C252_after_partial (req : List String) (r : Run) (f : String → String) (h : ((OD.keys r.channels).map f).Nodup) :
    ∃ r', validate req (updateChannelKeys (renameChannels f r)).1 = .ok r' ∧
      (∀ k c, OD.get? r.channels k = some c → OD.get? r'.channels (f k) = some { c with comp := f k }) ∧
      ∀ n, n ∈ OD.keys r'.channels ↔ n ∈ (OD.keys r.channels).map f ∨ n ∈ r.elec ∨
        ((∀ m ∈ r.elec, m ∈ (OD.keys r.channels).map f) ∧ n ∈ r.mag) ∨
        ((∀ m ∈ r.elec ++ r.mag, m ∈ (OD.keys r.channels).map f) ∧ n ∈ r.aux) := by
  rw [update_channels f r h]
  have hg : ∀ k c, OD.get? r.channels k = some c → OD.get? (moved f r.channels) (f k) = some { c with comp := f k } :=
    fun k c hk => OD.get?_of_mem (moved_wf h) (List.mem_map.2 ⟨(k, c), OD.mem_of_get? hk, rfl⟩)
  have hi := moved_inv h
  have hk := moved_keys f r.channels
  generalize (OD.keys r.channels).map f = new at hk ⊢
  obtain ⟨q1, e1, i1, g1, m1, a1, b1⟩ := step req .electric r.elec hi
  simp only [hk] at g1 m1 a1 b1
  unfold validate
  simp only [e1]
  by_cases c1 : ∀ m ∈ r.elec, m ∈ new
  · have := a1 c1
    subst this
    obtain ⟨q2, e2, i2, g2, m2, a2, b2⟩ := step req .magnetic r.mag hi
    simp only [hk] at g2 m2 a2 b2
    simp only [e2]
    by_cases c2 : ∀ m ∈ r.mag, m ∈ new
    · have := a2 c2
      subst this
      obtain ⟨q3, e3, i3, g3, m3, _⟩ := step req .auxiliary r.aux hi
      simp only [hk] at g3 m3
      refine ⟨q3, e3, fun k c hc => ?_, fun n => ?_⟩
      · rw [g3 _ (hk ▸ OD.mem_keys_of_get? (hg k c hc)), hg k c hc]
      · rw [m3]
        have hall : ∀ m ∈ r.elec ++ r.mag, m ∈ new := fun m hm => (List.mem_append.1 hm).elim (c1 m) (c2 m)
        constructor
        · rintro (x | x)
          · exact Or.inl x
          · exact Or.inr (Or.inr (Or.inr ⟨hall, x⟩))
        · rintro (x | x | ⟨_, x⟩ | ⟨_, x⟩)
          · exact Or.inl x
          · exact Or.inl (c1 n x)
          · exact Or.inl (c2 n x)
          · exact Or.inr x
    · have l2 := (b2 c2).listed i2
      refine ⟨q2, ensureAll_noop req _ _ _ l2.2.2, fun k c hc => ?_, fun n => ?_⟩
      · rw [g2 _ (hk ▸ OD.mem_keys_of_get? (hg k c hc)), hg k c hc]
      · rw [m2]
        constructor
        · rintro (x | x)
          · exact Or.inl x
          · exact Or.inr (Or.inr (Or.inl ⟨c1, x⟩))
        · rintro (x | x | ⟨_, x⟩ | ⟨x, _⟩)
          · exact Or.inl x
          · exact Or.inl (c1 n x)
          · exact Or.inr x
          · exact absurd (fun m hm => x m (List.mem_append_right _ hm)) c2
  · have l1 := (b1 c1).listed i1
    simp only [ensureAll_noop req .magnetic _ q1 l1.2.1]
    refine ⟨q1, ensureAll_noop req _ _ _ l1.2.2, fun k c hc => ?_, fun n => ?_⟩
    · rw [g1 _ (hk ▸ OD.mem_keys_of_get? (hg k c hc)), hg k c hc]
    · rw [m1]
      constructor
      · rintro (x | x)
        · exact Or.inl x
        · exact Or.inr (Or.inl x)
      · rintro (x | x | ⟨x, _⟩ | ⟨x, _⟩)
        · exact Or.inl x
        · exact Or.inr x
        · exact absurd x c1
        · exact absurd (fun m hm => x m (List.mem_append_left _ hm)) c1

/-- C252 (part): when the channels exchange their names, nothing is added. -/
theorem C252_exchange_partial (req : List String) (r : Run) (f : String → String) (hr : Reachable req r) (h : ((OD.keys r.channels).map f).Nodup)
    (hp : ∀ n ∈ OD.keys r.channels, n ∈ (OD.keys r.channels).map f) :
    validate req (updateChannelKeys (renameChannels f r)).1 = .ok { r with channels := moved f r.channels } := by
  rw [update_channels f r h]
  refine validate_noop _ _ ?_
  obtain ⟨a, b, c⟩ := (reachable_inv hr).2.listed (reachable_inv hr).1
  unfold Listed
  rw [moved_keys]
  exact ⟨fun n hn => hp n (a n hn), fun n hn => hp n (b n hn), fun n hn => hp n (c n hn)⟩

/-- `ex` becomes `ey`. -/
def exF (k : String) : String := if k = "ex" then "ey" else k

/-- C252 is false: there is a channel `ex` again. -/
theorem C252_refuted : ¬ C252_claim := by
  intro h
  obtain ⟨r', e, g⟩ := h [] exRun exF exRun_reachable (by decide +kernel)
  have : (validate [] (updateChannelKeys (renameChannels exF exRun)).1).toOption.map (fun r => OD.keys r.channels) =
      some ["hy", "ey", "ex"] := by decide +kernel
  rw [e] at this
  simp only [Except.toOption, Option.map_some, Option.some.injEq, g] at this
  revert this
  decide +kernel

/-- The name `ex` is in the list of the run, and is not among the new names. -/
example : "ex" ∈ exRun.elec ∧ "ex" ∉ (OD.keys exRun.channels).map exF := by decide +kernel

/-! ## Runs of a station -/

/-- C253: after runs have been given other ids, distinct ones, and the keys were updated, the station has these runs under their new ids in the
same order; with the next attribute assigned the list of runs has the new ids, and `channels_recorded` is what it was. -/
theorem C253_runs (req : List String) (s : Station) (f : String → String) (hs : Hist req defaultFlags s) (hx : RecordedExact s)
    (h : ((OD.keys s.runs).map f).Nodup) :
    (renameRuns f s).runs = s.runs.map (fun p => (f p.1, p.2)) ∧
    ∃ s', touch req (renameRuns f s) = .ok s' ∧ s'.runs = s.runs.map (fun p => (f p.1, p.2)) ∧
      s'.runList = (OD.keys s.runs).map f ∧ s'.recorded = s.recorded := by
  obtain ⟨hi, hl⟩ := hist_inv hs
  have hk : OD.keys (s.runs.map fun p => (f p.1, p.2)) = (OD.keys s.runs).map f := by
    unfold OD.keys; rw [List.map_map, List.map_map]; rfl
  have e : renameRuns f s = { s with runs := s.runs.map fun p => (f p.1, p.2) } := by
    unfold renameRuns
    have := OD.foldl_set_fresh (s.runs.map fun p => (f p.1, p.2)) [] (by rw [List.nil_append]; unfold OD.WF; rw [hk]; exact h)
    rw [List.nil_append, List.foldl_map] at this
    rw [this]
  have hi' : SInv { s with runs := s.runs.map fun p => (f p.1, p.2) } := by
    refine ⟨by unfold OD.WF; rw [hk]; exact h, fun p hp => ?_⟩
    obtain ⟨q, hq, rfl⟩ := List.mem_map.1 hp
    exact hi.ok q hq
  have hr : s.recorded = getRecorded { s with runs := s.runs.map fun p => (f p.1, p.2) } := by
    rw [(recordedExact_iff hi).1 hx]
    refine eq_of_lt_of_mem (getRecorded_lt _) (getRecorded_lt _) fun n => ?_
    rw [mem_getRecorded, mem_getRecorded]
    simp only [List.mem_map]
    constructor
    · rintro ⟨p, hp, q⟩; exact ⟨_, ⟨p, hp, rfl⟩, q⟩
    · rintro ⟨_, ⟨p, hp, rfl⟩, q⟩; exact ⟨p, hp, q⟩
  refine ⟨by rw [e], ?_⟩
  rw [e]
  unfold touch
  by_cases c : s.runList = (OD.keys s.runs).map f
  · simp only [hk, if_pos c]
    rw [if_neg (fun x => x.2.2.1 c)]
    unfold fixChannels
    rw [if_pos hr]
    exact ⟨_, rfl, rfl, c, rfl⟩
  · simp only [hk]
    rw [if_neg c, if_neg (by rw [hl, List.length_map]; omega)]
    obtain ⟨s', e', _, l', k', _, _, g, _⟩ := updateAll_of_inv req hi'
    have := g hr
    simp only [e']
    have kk : s'.runList = (OD.keys s.runs).map f := by rw [l', k']; exact hk
    rw [if_neg (fun x => x.2.2.1 l')]
    unfold fixChannels
    rw [if_pos]
    · exact ⟨_, rfl, this.1, kk, this.2⟩
    · rw [this.2]
      refine hr.trans ?_
      refine eq_of_lt_of_mem (getRecorded_lt _) (getRecorded_lt _) fun n => ?_
      rw [mem_getRecorded, mem_getRecorded, this.1]

/-- Non-trivial case: a station with a run under a new id. -/
example : Hist [] defaultFlags exStation ∧ RecordedExact exStation ∧ ((OD.keys exStation.runs).map (fun k => k ++ "1")).Nodup :=
  ⟨exStation_hist, (C36_adds_exact [] _ exStation_adds).1, by decide +kernel⟩

end Verif.Rename
