import Verif.Model.Station
import Verif.Lemmas.Run

namespace Verif.Stations
open Runs

theorem mem_dedup (l : List String) (n : String) : n ∈ dedup l ↔ n ∈ l := by
  induction l with
  | nil => simp [dedup]
  | cons a l ih =>
    unfold dedup
    split
    · next h =>
      rw [ih, List.mem_cons]
      constructor
      · exact Or.inr
      · rintro (h' | h')
        · exact h' ▸ h
        · exact h'
    · rw [List.mem_cons, List.mem_cons, ih]

theorem nodup_dedup (l : List String) : (dedup l).Nodup := by
  induction l with
  | nil => simp [dedup]
  | cons a l ih =>
    unfold dedup
    split
    · exact ih
    · next h => exact List.nodup_cons.2 ⟨fun hm => h ((mem_dedup l a).1 hm), ih⟩

/-- The estimate lists exactly the component names of the channels of all runs. -/
theorem mem_getRecorded (s : Station) (n : String) :
    n ∈ getRecorded s ↔ ∃ p ∈ s.runs, ∃ q ∈ p.2.channels, q.2.comp = n := by
  simp only [getRecorded, mem_sortNames, mem_dedup, List.mem_flatMap, OD.values, List.mem_map]
  constructor
  · rintro ⟨r, ⟨p, hp, rfl⟩, hn⟩
    simp only [recordedAll, mem_sortNames, List.mem_map] at hn
    exact ⟨p, hp, hn⟩
  · rintro ⟨p, hp, hn⟩
    refine ⟨p.2, ⟨p, hp, rfl⟩, ?_⟩
    simp only [recordedAll, mem_sortNames, List.mem_map]
    exact hn

theorem getRecorded_lt (s : Station) : (getRecorded s).Pairwise (· < ·) :=
  sortNames_lt _ (nodup_dedup _)

/-- Two strictly increasing lists with the same members are equal. -/
theorem eq_of_lt_of_mem {l m : List String} (hl : l.Pairwise (· < ·)) (hm : m.Pairwise (· < ·))
    (h : ∀ n, n ∈ l ↔ n ∈ m) : l = m := by
  have h1 : l.Nodup := hl.imp (fun h => ne_of_lt h)
  have h2 : m.Nodup := hm.imp (fun h => ne_of_lt h)
  exact ((List.perm_ext_iff_of_nodup h1 h2).2 h).eq_of_pairwise
    (fun a b _ _ hab hba => absurd hab (not_lt_of_gt hba)) hl hm

/-- Runs stored under distinct ids, each consistent. -/
structure SInv (s : Station) : Prop where
  wf : OD.WF s.runs
  ok : ∀ p ∈ s.runs, Inv p.2 ∧ InSync p.2

theorem addNames_of_inv (req : List String) (ns : List String) {r : Run} (h : Inv r)
    (hs : InSync r) :
    ∃ r', addNames req ns r = .ok r' ∧ Inv r' ∧ InSync r' ∧
      (∀ n, n ∈ OD.keys r'.channels ↔ n ∈ OD.keys r.channels ∨ n ∈ ns) ∧
      (∀ n, n ∉ ns → OD.get? r'.channels n = OD.get? r.channels n) := by
  induction ns generalizing r with
  | nil => exact ⟨r, rfl, h, hs, by simp, fun _ _ => rfl⟩
  | cons n ns ih =>
    obtain ⟨r1, e1, i1, s1, c1⟩ :=
      addChannel_of_inv h req { comp := n, kind := kindOfName n.toList } true
    obtain ⟨r', e, i, s, k, g⟩ := ih i1 s1
    refine ⟨r', ?_, i, s, ?_, ?_⟩
    · unfold addNames addNamed; rw [e1]; exact e
    · intro m
      rw [k, c1, OD.mem_keys_set, List.mem_cons]
      constructor
      · rintro ((h | h) | h)
        · exact Or.inr (Or.inl h)
        · exact Or.inl h
        · exact Or.inr (Or.inr h)
      · rintro (h | h | h)
        · exact Or.inl (Or.inr h)
        · exact Or.inl (Or.inl h)
        · exact Or.inr h
    · intro m hm
      simp only [List.mem_cons, not_or] at hm
      rw [g m hm.2, c1, OD.get?_set_ne _ _ hm.1]

theorem comp_mem_iff {r : Run} (h : Inv r) (n : String) :
    (∃ q ∈ r.channels, q.2.comp = n) ↔ n ∈ OD.keys r.channels := by
  rw [← map_comp_of_inv h, List.mem_map]

/-- The second half of the validator never raises and keeps the structure. -/
theorem fixChannels_of_inv (req : List String) {s : Station} (h : SInv s) :
    ∃ s', fixChannels req s = .ok s' ∧ SInv s' ∧ s'.runList = s.runList ∧
      OD.keys s'.runs = OD.keys s.runs ∧ s'.start = s.start ∧ s'.stop = s.stop ∧
      (s.recorded = getRecorded s → s' = s) ∧
      (¬ (getRecorded s).length < s.recorded.length →
        s'.runs = s.runs ∧ s'.recorded = getRecorded s') ∧
      (∀ id, id ∈ OD.keys s.runs.tail → OD.get? s'.runs id = OD.get? s.runs id) := by
  unfold fixChannels
  split
  · next e => exact ⟨s, rfl, h, rfl, rfl, rfl, rfl, fun _ => rfl, fun _ => ⟨rfl, e⟩, fun _ _ => rfl⟩
  · next hne =>
    split
    · next hlt =>
      cases hr : s.runs with
      | nil =>
        simp only
        exact ⟨s, rfl, h, rfl, by rw [hr], rfl, rfl, fun e => absurd e hne,
          fun hn => absurd hlt hn, by simp [OD.keys]⟩
      | cons p rest =>
        obtain ⟨id, r⟩ := p
        simp only
        have hp := h.ok (id, r) (by simp [hr])
        obtain ⟨r1, e1, i1, s1, k1, g1⟩ := addNames_of_inv req
          (s.recorded.filter (fun n => !(getRecorded s).contains n)) hp.1 hp.2
        rw [e1]
        have hwf := h.wf
        rw [hr] at hwf
        refine ⟨_, rfl, ⟨?_, ?_⟩, rfl, rfl, rfl, rfl, fun e => absurd e hne,
          fun hn => absurd hlt hn, ?_⟩
        · exact hwf
        · intro q hq
          rcases List.mem_cons.1 hq with rfl | hq
          · exact ⟨i1, s1⟩
          · exact h.ok q (by simp [hr, hq])
        · intro id' hid'
          have hne' : id ≠ id' := by
            intro e
            apply (List.nodup_cons.1 hwf).1
            rw [e]; exact hid'
          rw [OD.get?_cons, OD.get?_cons, if_neg hne', if_neg hne']
    · next hge =>
      exact ⟨_, rfl, ⟨h.wf, h.ok⟩, rfl, rfl, rfl, rfl, fun e => absurd e hne, fun _ => ⟨rfl, rfl⟩,
        fun _ _ => rfl⟩

theorem updateAll_of_inv (req : List String) {s : Station} (h : SInv s) :
    ∃ s', updateAll req s = .ok s' ∧ SInv s' ∧ s'.runList = OD.keys s'.runs ∧
      OD.keys s'.runs = OD.keys s.runs ∧ s'.start = (updateTime s).start ∧
      s'.stop = (updateTime s).stop ∧
      (s.recorded = getRecorded s → s'.runs = s.runs ∧ s'.recorded = s.recorded) ∧
      (¬ (getRecorded s).length < s.recorded.length →
        s'.runs = s.runs ∧ s'.recorded = getRecorded s') ∧
      (∀ id, id ∈ OD.keys s.runs.tail → OD.get? s'.runs id = OD.get? s.runs id) := by
  have h1 : SInv { updateTime s with runList := OD.keys s.runs } := ⟨h.wf, h.ok⟩
  obtain ⟨s', e, i, hl, hk, hs, ht, h2, h3, h4⟩ := fixChannels_of_inv req h1
  refine ⟨s', e, i, ?_, hk, hs, ht, ?_, h3, h4⟩
  · rw [hl, hk]; rfl
  · intro he
    have := h2 he
    rw [this]
    exact ⟨rfl, rfl⟩

theorem set_sinv {s : Station} (h : SInv s) (id : String) (r : Run) (hr : Inv r ∧ InSync r) :
    SInv { s with runs := OD.set s.runs id r } where
  wf := OD.WF.set h.wf _ _
  ok := by
    intro p hp
    have hg := OD.get?_of_mem (OD.WF.set h.wf id r) (k := p.1) (v := p.2) hp
    rw [OD.get?_set] at hg
    split at hg
    · simp only [Option.some.injEq] at hg; rw [← hg]; exact hr
    · exact h.ok _ (OD.mem_of_get? hg)

theorem erase_sinv {s : Station} (h : SInv s) (id : String) :
    SInv { s with runs := OD.erase s.runs id } where
  wf := OD.WF.erase h.wf _
  ok := by
    intro p hp
    simp only [OD.WF.erase_eq_filter h.wf, List.mem_filter] at hp
    exact h.ok p hp.1

theorem extend_sinv {s : Station} (h : SInv s) (l : OD String Run)
    (hl : ∀ p ∈ l, Inv p.2 ∧ InSync p.2) :
    SInv { s with runs := l.foldl (fun (acc : OD String Run) p => OD.set acc p.1 p.2) s.runs } := by
  induction l generalizing s with
  | nil => exact ⟨h.wf, h.ok⟩
  | cons p l ih =>
    exact ih (set_sinv h p.1 p.2 (hl p (by simp))) (fun q hq => hl q (by simp [hq]))

end Verif.Stations
