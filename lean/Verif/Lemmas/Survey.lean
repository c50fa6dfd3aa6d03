import Verif.Model.Survey
import Verif.Lemmas.Station

namespace Verif.Surveys
open Stations Runs

/-! Minimum and maximum of a list. -/

theorem minOf_le {α : Type} [LinearOrder α] (x : α) (xs : List α) : ∀ y ∈ x :: xs, minOf x xs ≤ y := by
  induction xs generalizing x with
  | nil => simp [minOf]
  | cons a xs ih =>
    intro y hy
    have e : minOf x (a :: xs) = minOf (min x a) xs := rfl
    rw [e]
    have h0 := ih (min x a) (min x a) (by simp)
    simp only [List.mem_cons] at hy
    rcases hy with rfl | rfl | hy
    · exact le_trans h0 (min_le_left _ _)
    · exact le_trans h0 (min_le_right _ _)
    · exact ih (min x a) y (by simp [hy])

theorem minOf_mem {α : Type} [LinearOrder α] (x : α) (xs : List α) : minOf x xs ∈ x :: xs := by
  induction xs generalizing x with
  | nil => simp [minOf]
  | cons a xs ih =>
    have e : minOf x (a :: xs) = minOf (min x a) xs := rfl
    rw [e]
    rcases List.mem_cons.1 (ih (min x a)) with h | h
    · rw [h]
      rcases min_choice x a with h' | h' <;> rw [h'] <;> simp
    · simp [h]

theorem le_maxOf {α : Type} [LinearOrder α] (x : α) (xs : List α) : ∀ y ∈ x :: xs, y ≤ maxOf x xs := by
  induction xs generalizing x with
  | nil => simp [maxOf]
  | cons a xs ih =>
    intro y hy
    have e : maxOf x (a :: xs) = maxOf (max x a) xs := rfl
    rw [e]
    have h0 := ih (max x a) (max x a) (by simp)
    simp only [List.mem_cons] at hy
    rcases hy with rfl | rfl | hy
    · exact le_trans (le_max_left _ _) h0
    · exact le_trans (le_max_right _ _) h0
    · exact ih (max x a) y (by simp [hy])

theorem maxOf_mem {α : Type} [LinearOrder α] (x : α) (xs : List α) : maxOf x xs ∈ x :: xs := by
  induction xs generalizing x with
  | nil => simp [maxOf]
  | cons a xs ih =>
    have e : maxOf x (a :: xs) = maxOf (max x a) xs := rfl
    rw [e]
    rcases List.mem_cons.1 (ih (max x a)) with h | h
    · rw [h]
      rcases max_choice x a with h' | h' <;> rw [h'] <;> simp
    · simp [h]

/-! The validator of a station never raises on consistent runs. -/

theorem foldl_missing (l : List String) (d : OD String Run) :
    (∀ n, n ∈ OD.keys (l.foldl (fun (acc : OD String Run) (id : String) =>
      if id ∈ OD.keys acc then acc else OD.set acc id ({} : Run)) d) ↔ n ∈ OD.keys d ∨ n ∈ l) ∧
    (∀ n, n ∈ OD.keys d → OD.get? (l.foldl (fun (acc : OD String Run) (id : String) =>
      if id ∈ OD.keys acc then acc else OD.set acc id ({} : Run)) d) n = OD.get? d n) := by
  induction l generalizing d with
  | nil => simp
  | cons a l ih =>
    simp only [List.foldl_cons]
    by_cases h : a ∈ OD.keys d
    · rw [if_pos h]
      refine ⟨fun n => ?_, (ih d).2⟩
      rw [(ih d).1]
      simp only [List.mem_cons]
      constructor
      · rintro (h' | h')
        · exact Or.inl h'
        · exact Or.inr (Or.inr h')
      · rintro (h' | h' | h')
        · exact Or.inl h'
        · exact Or.inl (h' ▸ h)
        · exact Or.inr h'
    · rw [if_neg h]
      constructor
      · intro n
        rw [(ih _).1, OD.mem_keys_set]
        simp only [List.mem_cons]
        constructor
        · rintro ((h' | h') | h')
          · exact Or.inr (Or.inl h')
          · exact Or.inl h'
          · exact Or.inr (Or.inr h')
        · rintro (h' | h' | h')
          · exact Or.inl (Or.inr h')
          · exact Or.inl (Or.inl h')
          · exact Or.inr h'
      · intro n hn
        have hna : n ≠ a := fun e => h (e ▸ hn)
        rw [(ih _).2 n (by rw [OD.mem_keys_set]; exact Or.inr hn), OD.get?_set_ne _ _ hna]

theorem appendMissing_sinv {s : Station} (h : SInv s) : SInv (appendMissing s) := by
  have key : ∀ (l : List String) (d : OD String Run), OD.WF d →
      (∀ p ∈ d, Inv p.2 ∧ InSync p.2) →
      OD.WF (l.foldl (fun (acc : OD String Run) (id : String) =>
        if id ∈ OD.keys acc then acc else OD.set acc id ({} : Run)) d) ∧
      ∀ p ∈ (l.foldl (fun (acc : OD String Run) (id : String) =>
        if id ∈ OD.keys acc then acc else OD.set acc id ({} : Run)) d), Inv p.2 ∧ InSync p.2 := by
    intro l
    induction l with
    | nil => exact fun d hw ho => ⟨hw, ho⟩
    | cons a l ih =>
      intro d hw ho
      simp only [List.foldl_cons]
      by_cases ha : a ∈ OD.keys d
      · rw [if_pos ha]; exact ih d hw ho
      · rw [if_neg ha]
        apply ih _ (OD.WF.set hw _ _)
        intro p hp
        rw [OD.set_of_not_mem _ ha] at hp
        rcases List.mem_append.1 hp with hp | hp
        · exact ho p hp
        · rw [List.mem_singleton.1 hp]
          exact ⟨⟨OD.WF_nil, by simp⟩, rfl, rfl, rfl⟩
  exact ⟨(key _ _ h.wf h.ok).1, (key _ _ h.wf h.ok).2⟩

/-- The validator succeeds, keeps every run id and can only add empty runs for ids in `run_list`. -/
theorem touch_of_sinv (req : List String) {s : Station} (h : SInv s) :
    ∃ s', touch req s = .ok s' ∧ SInv s' ∧
      (∀ n, n ∈ OD.keys s.runs → n ∈ OD.keys s'.runs) ∧
      (∀ n, n ∈ OD.keys s'.runs → n ∈ OD.keys s.runs ∨ n ∈ s.runList) := by
  have second : ∀ s1 : Station, SInv s1 → ∃ s',
      (if s1.recorded ≠ getRecorded s1 ∧ ¬ (getRecorded s1).length < s1.recorded.length ∧
        s1.runList ≠ OD.keys s1.runs ∧ ¬ (OD.keys s1.runs).length < s1.runList.length then
      updateAll req { s1 with recorded := getRecorded s1 }
      else fixChannels req s1) = .ok s' ∧ SInv s' ∧ OD.keys s'.runs = OD.keys s1.runs := by
    intro s1 h1
    split
    · obtain ⟨s2, e2, i2, _, k2, _⟩ := updateAll_of_inv req
        (s := { s1 with recorded := getRecorded s1 }) ⟨h1.wf, h1.ok⟩
      exact ⟨s2, e2, i2, k2⟩
    · obtain ⟨s2, e2, i2, _, k2, _⟩ := fixChannels_of_inv req h1
      exact ⟨s2, e2, i2, k2⟩
  unfold touch
  by_cases h1 : s.runList = OD.keys s.runs
  · simp only [if_pos h1]
    obtain ⟨s', e, i, k⟩ := second s h
    exact ⟨s', e, i, fun n hn => k ▸ hn, fun n hn => Or.inl (k ▸ hn)⟩
  · simp only [if_neg h1]
    by_cases h2 : (OD.keys s.runs).length < s.runList.length
    · simp only [if_pos h2]
      obtain ⟨s', e, i, k⟩ := second (appendMissing s) (appendMissing_sinv h)
      have hk := (foldl_missing s.runList s.runs).1
      exact ⟨s', e, i, fun n hn => k ▸ (hk n).2 (Or.inl hn), fun n hn => (hk n).1 (k ▸ hn)⟩
    · simp only [if_neg h2]
      obtain ⟨s2, e2, i2, _, k2, _⟩ := updateAll_of_inv req h
      rw [e2]
      obtain ⟨s', e, i, k⟩ := second s2 i2
      refine ⟨s', e, i, fun n hn => ?_, fun n hn => Or.inl ?_⟩
      · rw [k, k2]; exact hn
      · rw [k, k2] at hn; exact hn

theorem assignRecorded_of_sinv (req : List String) {s : Station} (h : SInv s) (l : List String) :
    ∃ s', assignRecorded req s l = .ok s' ∧ SInv s' ∧
      (∀ n, n ∈ OD.keys s.runs → n ∈ OD.keys s'.runs) := by
  unfold assignRecorded
  split
  · exact ⟨s, rfl, h, fun _ hn => hn⟩
  · obtain ⟨s', e, i, k, _⟩ := touch_of_sinv req (s := { s with recorded := l }) ⟨h.wf, h.ok⟩
    exact ⟨s', e, i, k⟩

theorem assignRunList_of_sinv (req : List String) {s : Station} (h : SInv s) (l : List String) :
    ∃ s', assignRunList req s l = .ok s' ∧ SInv s' ∧
      (∀ n, n ∈ OD.keys s.runs → n ∈ OD.keys s'.runs) := by
  unfold assignRunList
  split
  · exact ⟨s, rfl, h, fun _ hn => hn⟩
  · obtain ⟨s', e, i, k, _⟩ := touch_of_sinv req (s := { s with runList := l }) ⟨h.wf, h.ok⟩
    exact ⟨s', e, i, k⟩

/-- `station.update(other)` never raises, keeps every run id, takes the other's id. -/
theorem St.update_of_sinv (req : List String) {a : St} (b : St) (h : SInv a.body) :
    ∃ c, a.update req b = .ok c ∧ SInv c.body ∧ c.id = b.id ∧
      (∀ n, n ∈ OD.keys a.body.runs → n ∈ OD.keys c.body.runs) := by
  unfold St.update
  obtain ⟨s1, e1, i1, k1⟩ := assignRecorded_of_sinv req h b.body.recorded
  obtain ⟨s2, e2, i2, k2, _⟩ := touch_of_sinv req i1
  obtain ⟨s3, e3, i3, k3⟩ := assignRunList_of_sinv req i2 b.body.runList
  simp only [e1, e2, e3]
  exact ⟨_, rfl, ⟨i3.wf, i3.ok⟩, rfl, fun n hn => k3 n (k2 n (k1 n hn))⟩

/-- Stations stored under their ids, consistent inside. -/
structure VInv (s : Survey) : Prop where
  wf : OD.WF s.stations
  key : ∀ p ∈ s.stations, p.2.id = p.1
  ok : ∀ p ∈ s.stations, SInv p.2.body

@[simp] theorem updateBox_stations (s : Survey) : (updateBox s).stations = s.stations := by
  have e : ∀ (l m : List ℚ), (match m with
      | [] => (match l with
        | [] => s
        | x :: xs => { s with seLat := minOf x xs, nwLat := maxOf x xs } : Survey)
      | x :: xs => { (match l with
        | [] => s
        | x :: xs => { s with seLat := minOf x xs, nwLat := maxOf x xs } : Survey) with
          seLon := maxOf x xs, nwLon := minOf x xs } : Survey).stations = s.stations := by
    intro l m
    cases l <;> cases m <;> rfl
  exact e _ _

@[simp] theorem updateTime_stations (s : Survey) : (updateTime s).stations = s.stations := rfl

theorem updateKeys_of_inv {s : Survey} (h : VInv s) : updateKeys s = s := by
  unfold updateKeys
  have e : ∀ (l acc : OD String St), (∀ p ∈ l, p.2.id = p.1) →
      l.foldl (fun (acc : OD String St) p => OD.set acc p.2.id p.2) acc =
      l.foldl (fun (acc : OD String St) p => OD.set acc p.1 p.2) acc := by
    intro l
    induction l with
    | nil => exact fun _ _ => rfl
    | cons p l ih =>
      intro acc hl
      simp only [List.foldl_cons]
      rw [hl p (by simp), ih _ (fun q hq => hl q (by simp [hq]))]
  rw [e _ _ h.key]
  have := OD.ofPairs_of_wf h.wf
  unfold OD.ofPairs at this
  rw [this]

theorem set_vinv {s : Survey} (h : VInv s) (x : St) (hx : SInv x.body) :
    VInv { s with stations := OD.set s.stations x.id x } where
  wf := OD.WF.set h.wf _ _
  key := by
    intro p hp
    have hg := OD.get?_of_mem (OD.WF.set h.wf x.id x) (k := p.1) (v := p.2) hp
    rw [OD.get?_set] at hg
    split at hg
    · next e => simp only [Option.some.injEq] at hg; rw [← hg, e]
    · exact h.key _ (OD.mem_of_get? hg)
  ok := by
    intro p hp
    have hg := OD.get?_of_mem (OD.WF.set h.wf x.id x) (k := p.1) (v := p.2) hp
    rw [OD.get?_set] at hg
    split at hg
    · simp only [Option.some.injEq] at hg; rw [← hg]; exact hx
    · exact h.ok _ (OD.mem_of_get? hg)

theorem erase_vinv {s : Survey} (h : VInv s) (id : String) :
    VInv { s with stations := OD.erase s.stations id } where
  wf := OD.WF.erase h.wf _
  key := by
    intro p hp
    simp only [OD.WF.erase_eq_filter h.wf, List.mem_filter] at hp
    exact h.key p hp.1
  ok := by
    intro p hp
    simp only [OD.WF.erase_eq_filter h.wf, List.mem_filter] at hp
    exact h.ok p hp.1

theorem VInv.congr {s t : Survey} (h : VInv s) (e : t.stations = s.stations) : VInv t :=
  ⟨e ▸ h.wf, fun p hp => h.key p (e ▸ hp), fun p hp => h.ok p (e ▸ hp)⟩

theorem addStation_of_inv (req : List String) {s : Survey} (h : VInv s) (x : St) (hx : SInv x.body)
    (upd : Bool) :
    ∃ s' y, addStation req s x upd = .ok s' ∧ VInv s' ∧ y.id = x.id ∧
      s'.stations = OD.set s.stations x.id y ∧
      (OD.get? s.stations x.id = none → y = x) ∧
      (∀ old, OD.get? s.stations x.id = some old → old.update req x = .ok y) := by
  have fin : ∀ (s1 : Survey) (y : St), VInv s1 → s1.stations = OD.set s.stations x.id y →
      ∃ s', (if upd then .ok (updateKeys (updateTime (updateBox s1))) else .ok s1 :
        Except PyErr Survey) = .ok s' ∧ VInv s' ∧ s'.stations = OD.set s.stations x.id y := by
    intro s1 y h1 e1
    cases upd
    · exact ⟨s1, rfl, h1, e1⟩
    · have h2 : VInv (updateTime (updateBox s1)) := h1.congr (by simp)
      refine ⟨_, rfl, ?_, ?_⟩
      · rw [updateKeys_of_inv h2]; exact h2
      · rw [updateKeys_of_inv h2]; simpa using e1
  unfold addStation
  cases hg : OD.get? s.stations x.id with
  | none =>
    have hn : hasStation s x.id = false := by
      unfold hasStation
      have := (OD.get?_eq_none_iff _ _).1 hg
      simpa using this
    obtain ⟨s', e, i, es⟩ := fin _ x (set_vinv h x hx) rfl
    refine ⟨s', x, ?_, i, rfl, es, fun _ => rfl, fun old ho => by cases ho⟩
    simp only [hn, Bool.false_eq_true, if_false]
    exact e
  | some old =>
    have hn : hasStation s x.id = true := by
      unfold hasStation
      have := OD.mem_keys_of_get? hg
      simpa using this
    have ho := h.ok _ (OD.mem_of_get? hg)
    obtain ⟨y, ey, iy, idy, _⟩ := St.update_of_sinv req x ho
    have hv : VInv { s with stations := OD.set s.stations x.id y } := by
      have := set_vinv h y iy
      rw [idy] at this
      exact this
    obtain ⟨s', e, i, es⟩ := fin _ y hv rfl
    refine ⟨s', y, ?_, i, idy, es, (by simp), ?_⟩
    · simp only [hn, if_true, ey]
      exact e
    · intro old' h'
      simp only [Option.some.injEq] at h'
      rw [← h', ey]

theorem removeStation_of_inv {s : Survey} (h : VInv s) (id : String) (upd : Bool) :
    ∃ s', removeStation s id upd = .ok s' ∧ VInv s' ∧ s'.stations = OD.erase s.stations id := by
  unfold removeStation
  by_cases hh : hasStation s id = true
  · rw [if_pos hh]
    cases upd
    · exact ⟨_, rfl, erase_vinv h id, rfl⟩
    · exact ⟨_, rfl, (erase_vinv h id).congr (by simp), by simp⟩
  · rw [if_neg hh]
    refine ⟨s, rfl, h, ?_⟩
    rw [OD.erase_of_not_mem]
    unfold hasStation at hh
    simpa using hh

theorem get?_foldl_set {ν : Type} (l d : OD String ν) (k : String) (hw : OD.WF l) :
    OD.get? (l.foldl (fun (acc : OD String ν) p => OD.set acc p.1 p.2) d) k =
      (OD.get? l k).or (OD.get? d k) := by
  induction l generalizing d with
  | nil => simp
  | cons p l ih =>
    have hw' : OD.WF l := (List.nodup_cons.1 hw).2
    have hn : p.1 ∉ OD.keys l := (List.nodup_cons.1 hw).1
    simp only [List.foldl_cons]
    rw [ih _ hw', OD.get?_cons, OD.get?_set]
    by_cases e : k = p.1
    · rw [if_pos e.symm, if_pos e.symm, e, (OD.get?_eq_none_iff _ _).2 hn]; rfl
    · rw [if_neg (fun e' => e e'.symm), if_neg (fun e' => e e'.symm)]

theorem extend_vinv {s : Survey} (h : VInv s) (l : OD String St) (hk : ∀ p ∈ l, p.2.id = p.1)
    (hl : ∀ p ∈ l, SInv p.2.body) :
    VInv { s with
      stations := l.foldl (fun (acc : OD String St) p => OD.set acc p.1 p.2) s.stations } := by
  induction l generalizing s with
  | nil => exact ⟨h.wf, h.key, h.ok⟩
  | cons p l ih =>
    have h1 := set_vinv h p.2 (hl p (by simp))
    rw [hk p (by simp)] at h1
    exact ih h1 (fun q hq => hk q (by simp [hq])) (fun q hq => hl q (by simp [hq]))

end Verif.Surveys
