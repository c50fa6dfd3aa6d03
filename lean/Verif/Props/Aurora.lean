import Verif.Model.Aurora
import Verif.Lemmas.OD
import Verif.Props.Enums

/-!
Properties C65, C66, C100, C103: processing stations and channel nomenclature.
-/

namespace Verif.Aurora

/-! ### C65 -/

/-- C65 as a claim: writing a station to a data frame and reading it gives the station. -/
def C65_claim : Prop := ∀ t s : Station, fromDf t (toDf s) = s

/-- A run that was given no time period is lost. -/
theorem C65_refuted : ¬ C65_claim := by
  intro h
  have := h {} { id := "mt01", runs := [{ id := "001" }] }
  revert this; decide +kernel

/-- Channels of the same name within a run have the same scale factor. -/
def ScalesAgree (r : Run) : Prop :=
  ∀ c ∈ r.inputs ++ r.outputs, ∀ d ∈ r.inputs ++ r.outputs, c.id = d.id → c.scale = d.scale

theorem mem_of_get?_foldl (l : List (String × ℚ)) (d : OD String ℚ) (k : String) (v : ℚ)
    (h : OD.get? (l.foldl (fun d p => OD.set d p.1 p.2) d) k = some v) :
    (k, v) ∈ l ∨ OD.get? d k = some v := by
  induction l generalizing d with
  | nil => exact .inr h
  | cons p l ih =>
    rcases ih _ h with h1 | h1
    · exact .inl (List.mem_cons_of_mem _ h1)
    · rw [OD.get?_set] at h1
      split at h1
      · rename_i e
        cases h1
        exact .inl (by rw [← e]; exact List.mem_cons_self)
      · exact .inr h1

theorem mem_keys_foldl (l : List (String × ℚ)) (d : OD String ℚ) (k : String) :
    k ∈ OD.keys (l.foldl (fun d p => OD.set d p.1 p.2) d) ↔ k ∈ l.map Prod.fst ∨ k ∈ OD.keys d := by
  induction l generalizing d with
  | nil => simp
  | cons p l ih =>
    rw [List.foldl_cons, ih, OD.mem_keys_set]
    simp only [List.map_cons, List.mem_cons]
    tauto

theorem scaleFactors_get {r : Run} (hs : ScalesAgree r) {c : Chan} (hc : c ∈ r.inputs ++ r.outputs) :
    OD.get? (scaleFactors r) c.id = some c.scale := by
  have hk : c.id ∈ OD.keys (scaleFactors r) := by
    rw [scaleFactors, OD.ofPairs, mem_keys_foldl]
    left
    rw [List.map_map]
    exact List.mem_map.2 ⟨c, hc, rfl⟩
  obtain ⟨v, hv⟩ := Option.isSome_iff_exists.1 ((OD.get?_isSome_iff _ _).2 hk)
  rw [hv]
  rw [scaleFactors, OD.ofPairs] at hv
  rcases mem_of_get?_foldl _ _ _ _ hv with h | h
  · obtain ⟨d, hd, e⟩ := List.mem_map.1 h
    simp only [Prod.mk.injEq] at e
    rw [← e.2, hs d hd c hc e.1]
  · simp at h

theorem setScale_back {r : Run} (hs : ScalesAgree r) {l : List Chan} (hl : ∀ c ∈ l, c ∈ r.inputs ++ r.outputs) :
    ((l.map Chan.id).map (fun n => ({ id := n } : Chan))).map (setScale (scaleFactors r)) = l := by
  rw [List.map_map, List.map_map]
  conv => rhs; rw [← List.map_id l]
  apply List.map_congr_left
  intro c hc
  simp only [Function.comp, setScale, scaleFactors_get hs (hl c hc), id]

theorem newRun_eq (s : Station) (r : Run) (hs : ScalesAgree r) (p : Int × Int) (w : Row)
    (hw : w ∈ runRows s { r with periods := [p] }) : newRun w = { r with periods := [p] } := by
  simp only [runRows, List.map_cons, List.map_nil, List.mem_singleton] at hw
  subst hw
  have e1 : scaleFactors { r with periods := [p] } = scaleFactors r := rfl
  simp only [newRun, setScales, Option.getD_some, e1]
  rw [setScale_back hs (fun c hc => List.mem_append_left _ hc),
    setScale_back hs (fun c hc => List.mem_append_right _ hc)]

/-- Rows of a run whose id is not there yet. -/
theorem foldl_addPeriods (s : Station) (r r0 : Run) (acc : List Run) (hid : r0.id = r.id)
    (hn : r.id ∉ acc.map Run.id) (ps : List (Int × Int)) :
    (runRows s { r with periods := ps }).foldl addRow (acc ++ [r0]) =
      acc ++ [{ r0 with periods := r0.periods ++ ps }] := by
  induction ps generalizing r0 with
  | nil => simp [runRows]
  | cons p ps ih =>
    simp only [runRows, List.map_cons, List.foldl_cons] at ih ⊢
    have h1 : ∀ w : Row, w.run = r.id →
        addRow (acc ++ [r0]) w = acc ++ [{ r0 with periods := r0.periods ++ [(w.start, w.stop)] }] := by
      intro w hw
      have hm : w.run ∈ (acc ++ [r0]).map Run.id := by simp [hw, hid]
      rw [addRow, if_pos hm, List.map_append]
      congr 1
      · conv => rhs; rw [← List.map_id acc]
        apply List.map_congr_left
        intro a ha
        have : a.id ≠ w.run := fun e => hn (List.mem_map.2 ⟨a, ha, e.trans hw⟩)
        simp [addPeriod, this]
      · simp [addPeriod, hid, hw]
    rw [h1 _ rfl]
    have := ih { r0 with periods := r0.periods ++ [p] } hid
    rw [show (scaleFactors { r with periods := ps }) = scaleFactors { r with periods := p :: ps } from rfl] at this
    rw [this]
    simp

theorem foldl_runRows (s : Station) (r : Run) (acc : List Run) (hs : ScalesAgree r)
    (hp : r.periods ≠ []) (hn : r.id ∉ acc.map Run.id) :
    (runRows s r).foldl addRow acc = acc ++ [r] := by
  obtain ⟨id, ins, outs, ps, rate⟩ := r
  cases ps with
  | nil => exact absurd rfl hp
  | cons p ps =>
    let r : Run := ⟨id, ins, outs, p :: ps, rate⟩
    have h0 : ∀ w, w ∈ runRows s { r with periods := [p] } → addRow acc w = acc ++ [{ r with periods := [p] }] := by
      intro w hw
      have hwr : w.run = r.id := by
        simp only [runRows, List.map_cons, List.map_nil, List.mem_singleton] at hw
        subst hw; rfl
      rw [addRow, if_neg (by rw [hwr]; exact hn), newRun_eq s r hs p w hw]
    have e : runRows s r = runRows s { r with periods := [p] } ++ runRows s { r with periods := ps } := by
      simp only [runRows, r, List.map_cons, List.map_nil, List.cons_append, List.nil_append]
      rfl
    show (runRows s r).foldl addRow acc = acc ++ [r]
    rw [e, List.foldl_append]
    have e2 : (runRows s { r with periods := [p] }).foldl addRow acc = acc ++ [{ r with periods := [p] }] := by
      have hx : ∃ w, runRows s { r with periods := [p] } = [w] := ⟨_, rfl⟩
      obtain ⟨w, hw⟩ := hx
      rw [hw, List.foldl_cons, List.foldl_nil]
      exact h0 w (by rw [hw]; exact List.mem_singleton.2 rfl)
    rw [e2, foldl_addPeriods s r { r with periods := [p] } acc rfl hn ps]
    simp [r]

theorem foldl_toDf (s : Station) (rs acc : List Run) (hp : ∀ r ∈ rs, r.periods ≠ [])
    (hs : ∀ r ∈ rs, ScalesAgree r) (hn : (acc ++ rs).map Run.id |>.Nodup) :
    (rs.flatMap (runRows s)).foldl addRow acc = acc ++ rs := by
  induction rs generalizing acc with
  | nil => simp
  | cons r rs ih =>
    rw [List.flatMap_cons, List.foldl_append, foldl_runRows s r acc (hs r List.mem_cons_self)
      (hp r List.mem_cons_self), ih]
    · simp
    · exact fun q hq => hp q (List.mem_cons_of_mem _ hq)
    · exact fun q hq => hs q (List.mem_cons_of_mem _ hq)
    · simpa using hn
    · rw [List.map_append, List.map_cons] at hn
      intro hm
      exact (List.nodup_append.1 hn).2.2 _ hm _ List.mem_cons_self rfl

/-- What a data frame can hold: at least one run, each with a time period and its own id, and one scale
factor per channel name. -/
structure Storable (s : Station) : Prop where
  runs : s.runs ≠ []
  periods : ∀ r ∈ s.runs, r.periods ≠ []
  ids : (s.runs.map Run.id).Nodup
  scales : ∀ r ∈ s.runs, ScalesAgree r

theorem toDf_fields (s : Station) : ∀ w ∈ toDf s, w.station = s.id ∧ w.path = s.path ∧ w.remote = s.remote := by
  intro w hw
  rw [toDf, List.mem_flatMap] at hw
  obtain ⟨r, -, hw⟩ := hw
  rw [runRows, List.mem_map] at hw
  obtain ⟨p, -, rfl⟩ := hw
  exact ⟨rfl, rfl, rfl⟩

theorem toDf_ne_nil {s : Station} (h : Storable s) : toDf s ≠ [] := by
  obtain ⟨r, hr⟩ := List.exists_mem_of_ne_nil _ h.runs
  obtain ⟨p, hp⟩ := List.exists_mem_of_ne_nil _ (h.periods r hr)
  intro e
  have : ∃ w, w ∈ toDf s := ⟨_, List.mem_flatMap.2 ⟨r, hr, List.mem_map.2 ⟨p, hp, rfl⟩⟩⟩
  rw [e] at this
  obtain ⟨w, hw⟩ := this
  cases hw

/-- C65 for the stations a data frame can hold: whatever station it is read into, the station comes back
with its id, path, flag and all runs with their channels, scale factors, rates and time periods in
order. -/
theorem C65_round_trip_partial (t s : Station) (h : Storable s) : fromDf t (toDf s) = s := by
  cases hd : toDf s with
  | nil => exact absurd hd (toDf_ne_nil h)
  | cons w ws =>
    obtain ⟨h1, h2, h3⟩ := toDf_fields s w (by rw [hd]; exact List.mem_cons_self)
    have h4 : (w :: ws).foldl addRow [] = s.runs := by
      rw [← hd, toDf, foldl_toDf s s.runs [] h.periods h.scales (by simpa using h.ids)]
      rfl
    obtain ⟨id, path, remote, runs⟩ := s
    simp only [fromDf] at *
    rw [h1, h2, h3, h4]

/-- The time periods listed for a run id. -/
def periodsOf (rs : List Run) (i : String) : List (Int × Int) :=
  (rs.filter fun r => decide (r.id = i)).flatMap Run.periods

theorem addRow_ids (rs : List Run) (w : Row) (h : (rs.map Run.id).Nodup) :
    ((addRow rs w).map Run.id).Nodup := by
  unfold addRow
  split
  · rw [List.map_map]
    have : Run.id ∘ addPeriod w = Run.id := by funext r; simp only [Function.comp, addPeriod]; split <;> rfl
    rw [this]; exact h
  · rename_i hn
    rw [List.map_append]
    refine List.nodup_append.2 ⟨h, by simp, ?_⟩
    intro a ha b hb e
    have : b = w.run := by simpa [newRun, setScales] using hb
    exact hn (this ▸ e ▸ ha)

theorem foldl_ids (ws : List Row) (rs : List Run) (h : (rs.map Run.id).Nodup) :
    ((ws.foldl addRow rs).map Run.id).Nodup := by
  induction ws generalizing rs with
  | nil => exact h
  | cons w ws ih => exact ih _ (addRow_ids rs w h)

theorem periodsOf_map (rs : List Run) (w : Row) (i : String) (h : (rs.map Run.id).Nodup)
    (hm : w.run ∈ rs.map Run.id) :
    periodsOf (rs.map (addPeriod w)) i =
      periodsOf rs i ++ if w.run = i then [(w.start, w.stop)] else [] := by
  induction rs with
  | nil => cases hm
  | cons r rs ih =>
    rw [List.map_cons, List.nodup_cons] at h
    have hid : (addPeriod w r).id = r.id := by unfold addPeriod; split <;> rfl
    by_cases hr : r.id = w.run
    · have hrest : rs.map (addPeriod w) = rs := by
        conv => rhs; rw [← List.map_id rs]
        apply List.map_congr_left
        intro a ha
        have : a.id ≠ w.run := fun e => h.1 (List.mem_map.2 ⟨a, ha, by rw [e, hr]⟩)
        simp [addPeriod, this]
      rw [List.map_cons, hrest]
      by_cases hi : r.id = i
      · have hnone : rs.filter (fun r => decide (r.id = i)) = [] := by
          rw [List.filter_eq_nil_iff]
          intro a ha
          have : a.id ≠ i := fun e => h.1 (List.mem_map.2 ⟨a, ha, by rw [e, hi]⟩)
          simpa using this
        have hwi : w.run = i := hr ▸ hi
        simp only [periodsOf, List.filter_cons, hid, hi, decide_true, if_true, hnone, hwi]
        simp [addPeriod, hr, hwi]
      · have hwi : w.run ≠ i := hr ▸ hi
        simp [periodsOf, hid, hi, hwi]
    · have hm' : w.run ∈ rs.map Run.id := by
        rcases List.mem_cons.1 hm with e | e
        · exact absurd e.symm hr
        · exact e
      have e := ih h.2 hm'
      have ha : addPeriod w r = r := by simp [addPeriod, hr]
      rw [List.map_cons, ha]
      simp only [periodsOf, List.filter_cons] at e ⊢
      by_cases hi : r.id = i
      · simp [hi, e]
      · simp [hi, e]

theorem periodsOf_addRow (rs : List Run) (w : Row) (i : String) (h : (rs.map Run.id).Nodup) :
    periodsOf (addRow rs w) i = periodsOf rs i ++ if w.run = i then [(w.start, w.stop)] else [] := by
  unfold addRow
  split
  · rename_i hm; exact periodsOf_map rs w i h hm
  · simp only [periodsOf, List.filter_append, List.flatMap_append]
    congr 1
    by_cases hi : w.run = i <;> simp [newRun, setScales, hi]

theorem periodsOf_foldl (ws : List Row) (rs : List Run) (i : String) (h : (rs.map Run.id).Nodup) :
    periodsOf (ws.foldl addRow rs) i =
      periodsOf rs i ++ (ws.filter fun w => decide (w.run = i)).map fun w => (w.start, w.stop) := by
  induction ws generalizing rs with
  | nil => simp
  | cons w ws ih =>
    rw [List.foldl_cons, ih _ (addRow_ids rs w h), periodsOf_addRow rs w i h, List.filter_cons]
    by_cases hi : w.run = i <;> simp [hi]

theorem toDf_periods (s : Station) (i : String) :
    ((toDf s).filter fun w => decide (w.run = i)).map (fun w => (w.start, w.stop)) = periodsOf s.runs i := by
  unfold toDf
  induction s.runs with
  | nil => rfl
  | cons r rs ih =>
    rw [List.flatMap_cons, List.filter_append, List.map_append, ih]
    simp only [periodsOf, List.filter_cons]
    by_cases hi : r.id = i
    · have : (runRows s r).filter (fun w => decide (w.run = i)) = runRows s r := by
        rw [List.filter_eq_self]
        intro w hw
        obtain ⟨p, -, rfl⟩ := List.mem_map.1 hw
        simp [hi]
      rw [this]
      simp [hi, runRows, Function.comp_def]
    · have : (runRows s r).filter (fun w => decide (w.run = i)) = [] := by
        rw [List.filter_eq_nil_iff]
        intro w hw
        obtain ⟨p, -, rfl⟩ := List.mem_map.1 hw
        simp [hi]
      rw [this]
      simp [hi]

/-- C65 for every station: no time period is lost, moved to another run or reordered, and each run id
occurs once. -/
theorem C65_periods (t s : Station) (i : String) :
    periodsOf (fromDf t (toDf s)).runs i = periodsOf s.runs i ∧
      ((fromDf t (toDf s)).runs.map Run.id).Nodup := by
  have key : (fromDf t (toDf s)).runs = (toDf s).foldl addRow [] := by
    cases toDf s <;> rfl
  rw [key]
  refine ⟨?_, foldl_ids _ _ (by simp)⟩
  rw [periodsOf_foldl _ _ _ (by simp), toDf_periods]
  simp [periodsOf]

/-- A station with two runs, one of two periods; the remote channels have scale factors. -/
def exStation : Station :=
  ⟨"mt01", "a.h5", false,
    [⟨"001", [⟨"hx", 2⟩, ⟨"hy", 1⟩], [⟨"ex", 3⟩], [(0, 5), (7, 9)], 8⟩, ⟨"002", [⟨"hx", 1⟩], [], [(10, 20)], 1⟩]⟩

theorem exStation_storable : Storable exStation :=
  ⟨by decide, by decide, by decide, by
    simp only [ScalesAgree]; decide +kernel⟩

/-! ### C100 -/

/-- C100 as a claim: writing stations to a data frame and reading it gives the stations. -/
def C100_claim : Prop := ∀ t s : Stations, stationsFromDf t (stationsToDf s) = .ok s

def exRemote : Station := ⟨"rr01", "b.h5", true, [⟨"001", [⟨"hx", 1⟩], [], [(0, 5)], 8⟩]⟩

/-- Reading into an object that already has remote stations keeps those: reading twice doubles them. -/
theorem C100_refuted : ¬ C100_claim := by
  intro h
  have := h ⟨exStation, [exRemote]⟩ ⟨exStation, [exRemote]⟩
  revert this; decide +kernel

theorem mem_unique (l : List String) (a : String) : a ∈ unique l ↔ a ∈ l := by
  induction l with
  | nil => simp [unique]
  | cons b l ih =>
    simp only [unique, List.mem_cons, List.mem_filter, ih]
    by_cases h : a = b <;> simp [h]

theorem unique_const (l : List String) (a : String) (hl : l ≠ []) (h : ∀ b ∈ l, b = a) : unique l = [a] := by
  cases l with
  | nil => exact absurd rfl hl
  | cons b l =>
    have hb := h b List.mem_cons_self
    subst hb
    simp only [unique]
    have : (unique l).filter (fun c => decide (c ≠ b)) = [] := by
      rw [List.filter_eq_nil_iff]
      intro c hc
      simp [h c (List.mem_cons_of_mem _ ((mem_unique l c).1 hc))]
    rw [this]

theorem unique_append (l m : List String) :
    unique (l ++ m) = unique l ++ (unique m).filter (fun b => decide (b ∉ l)) := by
  induction l with
  | nil =>
    simp only [List.nil_append, unique, List.not_mem_nil, not_false_eq_true, decide_true]
    exact (List.filter_eq_self.2 fun _ _ => rfl).symm
  | cons a l ih =>
    simp only [List.cons_append, unique, ih, List.filter_append, List.filter_filter]
    congr 2
    apply List.filter_congr
    intro b _
    by_cases h : b = a <;> simp [h]

theorem rowsOf_append (a b : List Row) (n : String) : rowsOf (a ++ b) n = rowsOf a n ++ rowsOf b n :=
  List.filter_append ..

theorem rowsOf_self (s : Station) : rowsOf (toDf s) s.id = toDf s := by
  rw [rowsOf, List.filter_eq_self]
  intro w hw
  simp [(toDf_fields s w hw).1]

theorem rowsOf_ne (s : Station) {n : String} (h : s.id ≠ n) : rowsOf (toDf s) n = [] := by
  rw [rowsOf, List.filter_eq_nil_iff]
  intro w hw
  simp [(toDf_fields s w hw).1, h]

theorem rowsOf_flatMap_ne (l : List Station) {n : String} (h : ∀ s ∈ l, s.id ≠ n) :
    rowsOf (l.flatMap toDf) n = [] := by
  induction l with
  | nil => rfl
  | cons s l ih =>
    rw [List.flatMap_cons, rowsOf_append, rowsOf_ne s (h s List.mem_cons_self),
      ih fun q hq => h q (List.mem_cons_of_mem _ hq)]
    rfl

theorem rowsOf_flatMap (l : List Station) (hn : (l.map Station.id).Nodup) {s : Station} (hs : s ∈ l) :
    rowsOf (l.flatMap toDf) s.id = toDf s := by
  induction l with
  | nil => cases hs
  | cons q l ih =>
    rw [List.map_cons, List.nodup_cons] at hn
    rw [List.flatMap_cons, rowsOf_append]
    rcases List.mem_cons.1 hs with rfl | hs
    · rw [rowsOf_self, rowsOf_flatMap_ne l]
      · simp
      · intro x hx e; exact hn.1 (List.mem_map.2 ⟨x, hx, e⟩)
    · rw [rowsOf_ne q, ih hn.2 hs]
      · rfl
      · intro e; exact hn.1 (List.mem_map.2 ⟨s, hs, e.symm⟩)

theorem unique_flatMap (l : List Station) (hst : ∀ s ∈ l, Storable s) (hn : (l.map Station.id).Nodup) :
    unique ((l.flatMap toDf).map Row.station) = l.map Station.id := by
  induction l with
  | nil => rfl
  | cons s l ih =>
    rw [List.map_cons, List.nodup_cons] at hn
    rw [List.flatMap_cons, List.map_append, unique_append, List.map_cons,
      unique_const _ s.id, ih (fun q hq => hst q (List.mem_cons_of_mem _ hq)) hn.2]
    · rw [List.singleton_append]
      congr 1
      rw [List.filter_eq_self]
      intro b hb
      have hb' : b ≠ s.id := fun e => hn.1 (e ▸ hb)
      simp only [List.mem_map, decide_eq_true_eq, not_exists, not_and]
      intro w hw e
      exact hb' (e ▸ (toDf_fields s w hw).1)
    · intro e
      exact toDf_ne_nil (hst s List.mem_cons_self) (List.map_eq_nil_iff.1 e)
    · intro b hb
      obtain ⟨w, hw, rfl⟩ := List.mem_map.1 hb
      exact (toDf_fields s w hw).1

theorem foldl_addRemote (f : String → Station) (ns : List String) (st : Stations) :
    ns.foldl (fun acc n => addRemote acc (f n)) st =
      { st with remote := st.remote ++ ns.map fun n => { f n with remote := true } } := by
  induction ns generalizing st with
  | nil => simp
  | cons n ns ih => rw [List.foldl_cons, ih]; simp [addRemote]

/-- What a data frame can hold: every station storable, all ids distinct, flags telling local from
remote. -/
structure AllStorable (s : Stations) : Prop where
  loc : Storable s.loc
  remote : ∀ r ∈ s.remote, Storable r
  ids : (s.loc.id :: s.remote.map Station.id).Nodup
  locFlag : s.loc.remote = false
  remoteFlag : ∀ r ∈ s.remote, r.remote = true

theorem filter_remote (l : List Station) (h : ∀ r ∈ l, r.remote = true) (b : Bool) :
    (l.flatMap toDf).filter (fun w => w.remote == b) = if b then l.flatMap toDf else [] := by
  have hw : ∀ w ∈ l.flatMap toDf, w.remote = true := by
    intro w hw
    obtain ⟨s, hs, hw⟩ := List.mem_flatMap.1 hw
    rw [(toDf_fields s w hw).2.2, h s hs]
  cases b
  · simp only [Bool.false_eq_true, if_false, List.filter_eq_nil_iff]
    intro w h1; simp [hw w h1]
  · simp only [if_true, List.filter_eq_self]
    intro w h1; simp [hw w h1]

/-- Reading a data frame sets the local station and appends all remote stations, in order, to those already
there. -/
theorem C100_appends_partial (t s : Stations) (h : AllStorable s) :
    stationsFromDf t (stationsToDf s) = .ok { loc := s.loc, remote := t.remote ++ s.remote } := by
  have hne : stationsToDf s ≠ [] := fun e => toDf_ne_nil h.loc (List.append_eq_nil_iff.1 e).1
  have hids := List.nodup_cons.1 h.ids
  have hlocrem : ∀ w ∈ toDf s.loc, w.remote = false := fun w hw => by
    rw [(toDf_fields s.loc w hw).2.2, h.locFlag]
  have f1 : (stationsToDf s).filter (fun w => !w.remote) = toDf s.loc := by
    rw [stationsToDf, List.filter_append, List.filter_eq_self.2, List.filter_eq_nil_iff.2]
    · simp
    · intro w hw
      obtain ⟨q, hq, hw⟩ := List.mem_flatMap.1 hw
      simp [(toDf_fields q w hw).2.2, h.remoteFlag q hq]
    · intro w hw; simp [hlocrem w hw]
  have f2 : (stationsToDf s).filter (fun w => w.remote) = s.remote.flatMap toDf := by
    rw [stationsToDf, List.filter_append, List.filter_eq_nil_iff.2, List.filter_eq_self.2]
    · simp
    · intro w hw
      obtain ⟨q, hq, hw⟩ := List.mem_flatMap.1 hw
      simp [(toDf_fields q w hw).2.2, h.remoteFlag q hq]
    · intro w hw; simp [hlocrem w hw]
  have u1 : unique ((toDf s.loc).map Row.station) = [s.loc.id] := by
    apply unique_const
    · intro e; exact toDf_ne_nil h.loc (List.map_eq_nil_iff.1 e)
    · intro b hb
      obtain ⟨w, hw, rfl⟩ := List.mem_map.1 hb
      exact (toDf_fields s.loc w hw).1
  have r1 : rowsOf (stationsToDf s) s.loc.id = toDf s.loc := by
    rw [stationsToDf, rowsOf_append, rowsOf_self, rowsOf_flatMap_ne]
    · simp
    · intro q hq e; exact hids.1 (List.mem_map.2 ⟨q, hq, e⟩)
  rw [stationsFromDf, if_neg hne, f1, u1, f2, unique_flatMap s.remote h.remote hids.2]
  simp only
  rw [foldl_addRemote, r1, C65_round_trip_partial _ _ h.loc]
  simp only [List.map_map]
  have e : s.remote.map ((fun n => ({ fromDf {} (rowsOf (stationsToDf s) n) with remote := true } : Station)) ∘
      Station.id) = s.remote := by
    conv => rhs; rw [← List.map_id s.remote]
    apply List.map_congr_left
    intro q hq
    have hq1 : rowsOf (stationsToDf s) q.id = toDf q := by
      rw [stationsToDf, rowsOf_append, rowsOf_flatMap _ hids.2 hq, rowsOf_ne]
      · rfl
      · intro e; exact hids.1 (List.mem_map.2 ⟨q, hq, e.symm⟩)
    simp only [Function.comp, hq1, C65_round_trip_partial _ _ (h.remote q hq), id]
    rw [← h.remoteFlag q hq]
  rw [e]

/-- C100 for an object without remote stations. -/
theorem C100_round_trip_partial (t s : Stations) (h : AllStorable s) (ht : t.remote = []) :
    stationsFromDf t (stationsToDf s) = .ok s := by
  rw [C100_appends_partial t s h, ht]; rfl

/-- C100: a data frame in which every row is remote is refused. -/
theorem C100_needs_local (t : Stations) (df : List Row) (hne : df ≠ []) (h : ∀ w ∈ df, w.remote = true) :
    stationsFromDf t df = .error .indexError := by
  have : df.filter (fun w => !w.remote) = [] := by
    rw [List.filter_eq_nil_iff]; intro w hw; simp [h w hw]
  rw [stationsFromDf, if_neg hne, this]; rfl

theorem exStations_storable : AllStorable ⟨exStation, [exRemote]⟩ :=
  ⟨exStation_storable, by
    intro r hr
    rw [List.mem_singleton.1 hr]
    exact ⟨by decide, by decide, by decide, by simp only [ScalesAgree]; decide +kernel⟩, by decide, by decide, by decide⟩

/-! ### C103 -/

/-- C103: looking up a station gives a station with that id among the local and the remote ones, the
local one first, then the remote one added last; it fails exactly if there is none. -/
theorem C103_get (st : Stations) (id : String) :
    getStation st id =
      if st.loc.id = id then .ok st.loc
      else match (st.remote.filter fun s => decide (s.id = id)).getLast? with
        | some s => .ok s
        | none => .error .keyError := by
  have key : ∀ (l : List Station) (d : OD String Station),
      OD.get? ((l.map fun s => (s.id, s)).foldl (fun d p => OD.set d p.1 p.2) d) id =
        match (l.filter fun s => decide (s.id = id)).getLast? with
        | some s => some s
        | none => OD.get? d id := by
    intro l
    induction l with
    | nil => intro d; rfl
    | cons s l ih =>
      intro d
      rw [List.map_cons, List.foldl_cons, ih, List.filter_cons]
      by_cases hs : s.id = id
      · rw [if_pos (by simpa using hs)]
        cases hl : l.filter fun s => decide (s.id = id) with
        | nil => simp [hs]
        | cons a as =>
          rw [List.getLast?_cons_cons]
          cases hg : (a :: as).getLast? with
          | none => simp at hg
          | some x => rfl
      · rw [if_neg (by simpa using hs)]
        cases hg : (l.filter fun s => decide (s.id = id)).getLast? with
        | none => simp only; rw [OD.get?_set_ne _ _ (Ne.symm hs)]
        | some x => rfl
  unfold getStation remoteDict OD.ofPairs
  rw [key]
  split
  · rfl
  · cases (st.remote.filter fun s => decide (s.id = id)).getLast? <;> rfl

example : getStation ⟨exStation, [exRemote, { exRemote with path := "c.h5" }]⟩ "rr01" =
    .ok { exRemote with path := "c.h5" } := by decide +kernel
/-! ### C66 -/

open Verif.Enums (In validate)

/-- The names of each supported keyword, as documented (transfer_functions/__init__.py L64-L70). -/
def documented : List (String × List (Fld × String)) :=
  [("default", [(.hx, "hx"), (.hy, "hy"), (.hz, "hz"), (.ex, "ex"), (.ey, "ey")]),
   ("lemi12", [(.hx, "bx"), (.hy, "by"), (.hz, "bz"), (.ex, "e1"), (.ey, "e2")]),
   ("lemi34", [(.hx, "bx"), (.hy, "by"), (.hz, "bz"), (.ex, "e3"), (.ey, "e4")]),
   ("phoenix123", [(.hx, "h1"), (.hy, "h2"), (.hz, "h3"), (.ex, "e1"), (.ey, "e2")]),
   ("musgraves", [(.hx, "bx"), (.hy, "by"), (.hz, "bz"), (.ex, "ex"), (.ey, "ey")])]

/-- The name that keyword `k` gives to channel `f`. -/
def nameFor (k : Str) (f : Fld) : Option Str :=
  (documented.find? fun p => p.1.toList == k).bind fun p => (p.2.find? fun q => q.1 == f).map fun q => q.2.toList

theorem fld_all (P : Fld → Prop) (h : ∀ f ∈ [Fld.hx, .hy, .hz, .ex, .ey], P f) : ∀ f, P f := by
  intro f; apply h; cases f <;> decide

/-- C66: the names of one keyword are pairwise distinct. -/
theorem C66_distinct (k : Str) (f g : Fld) (v : Str) (hf : nameFor k f = some v) (hg : nameFor k g = some v) :
    f = g := by
  have key : ∀ p ∈ documented, ∀ f ∈ [Fld.hx, .hy, .hz, .ex, .ey], ∀ g ∈ [Fld.hx, .hy, .hz, .ex, .ey],
      ((p.2.find? fun q => q.1 == f).map fun q => q.2.toList) =
        ((p.2.find? fun q => q.1 == g).map fun q => q.2.toList) → f = g := by decide +kernel
  unfold nameFor at hf hg
  cases hd : documented.find? fun p => p.1.toList == k with
  | none => rw [hd] at hf; cases hf
  | some p =>
    rw [hd, Option.bind_some] at hf hg
    exact key p (List.mem_of_find?_eq_some hd) f (by cases f <;> decide) g (by cases g <;> decide) (hf.trans hg.symm)

theorem put_get (n : Nom) (f g : Fld) (v : Str) : (n.put f v).get g = if f = g then v else n.get g := by
  cases f <;> cases g <;> rfl

theorem put_keyword (n : Nom) (f : Fld) (v : Str) : (n.put f v).keyword = n.keyword := by cases f <;> rfl

theorem nom_ext (a b : Nom) (hk : a.keyword = b.keyword) (h : ∀ f, a.get f = b.get f) : a = b := by
  obtain ⟨a1, a2, a3, a4, a5, a6⟩ := a
  obtain ⟨b1, b2, b3, b4, b5, b6⟩ := b
  have h1 := h .hx
  have h2 := h .hy
  have h3 := h .hz
  have h4 := h .ex
  have h5 := h .ey
  simp only [Nom.get] at *
  rw [h1, h2, h3, h4, h5, hk]

/-- The object with the names of keyword `k`. -/
def named (k : Str) : Nom :=
  { hx := (nameFor k .hx).getD [], hy := (nameFor k .hy).getD [], hz := (nameFor k .hz).getD [],
    ex := (nameFor k .ex).getD [], ey := (nameFor k .ey).getD [], keyword := k }

theorem keywords_maps : ∀ k ∈ keywords, ∃ m, OD.get? channelMaps (Enums.lower k) = some m ∧
    ∀ f ∈ [Fld.hx, .hy, .hz, .ex, .ey], ∃ v, OD.get? m f = some v ∧ nameFor k f = some v ∧
      validate (allowed f) (.str v) = .ok v := by
  have key : ∀ k ∈ keywords, (OD.get? channelMaps (Enums.lower k)).any fun m =>
      [Fld.hx, .hy, .hz, .ex, .ey].all fun f => (OD.get? m f).any fun v =>
        decide (nameFor k f = some v) && decide (validate (allowed f) (.str v) = .ok v) := by decide +kernel
  intro k hk
  have h := key k hk
  rw [Option.any_eq_true] at h
  obtain ⟨m, h1, h2⟩ := h
  refine ⟨m, h1, fun f hf => ?_⟩
  have h3 := List.all_eq_true.1 h2 f hf
  rw [Option.any_eq_true] at h3
  obtain ⟨v, h4, h5⟩ := h3
  rw [Bool.and_eq_true, decide_eq_true_eq, decide_eq_true_eq] at h5
  exact ⟨v, h4, h5.1, h5.2⟩

theorem update_ok (n : Nom) (hk : n.keyword ∈ keywords) : n.update = .ok (named n.keyword) := by
  obtain ⟨m, h1, h2⟩ := keywords_maps _ hk
  obtain ⟨v1, a1, b1, c1⟩ := h2 .ex (by decide)
  obtain ⟨v2, a2, b2, c2⟩ := h2 .ey (by decide)
  obtain ⟨v3, a3, b3, c3⟩ := h2 .hx (by decide)
  obtain ⟨v4, a4, b4, c4⟩ := h2 .hy (by decide)
  obtain ⟨v5, a5, b5, c5⟩ := h2 .hz (by decide)
  simp only [Nom.update, getMap, h1, assignAll, a1, a2, a3, a4, a5, setField, c1, c2, c3, c4, c5]
  simp [named, b1, b2, b3, b4, b5, Nom.put]

theorem validate_mem {ms : List Str} {v : In} {m : Str} (h : validate ms v = .ok m) : m ∈ ms := by
  unfold validate at h
  split at h
  · cases h
  · split at h
    · cases h; assumption
    · cases h
  · cases h

theorem setKeyword_spec (n : Nom) (v : In) : setKeyword n v =
    match validate keywords (checkKeyword v) with
    | .error e => .error e
    | .ok k => .ok (named k) := by
  unfold setKeyword
  cases h : validate keywords (checkKeyword v) with
  | error e => rfl
  | ok k => exact update_ok { n with keyword := k } (validate_mem h)

/-- C66: changing the keyword replaces all five names by the names of the new keyword (matched up to
case; `None` means the default). -/
theorem C66_keyword (n n1 : Nom) (v : Str) (h : setKeyword n (.str v) = .ok n1) :
    n1.keyword.map Char.toLower = v.map Char.toLower ∧ ∀ f, nameFor n1.keyword f = some (n1.get f) := by
  rw [setKeyword_spec, show checkKeyword (.str v) = .str v from rfl] at h
  cases hv : validate keywords (.str v) with
  | error e => rw [hv] at h; cases h
  | ok k =>
    rw [hv] at h; cases h
    obtain ⟨h1, h2⟩ := Enums.C71_returns_member _ _ _ hv
    refine ⟨h2, ?_⟩
    obtain ⟨m, -, h3⟩ := keywords_maps k h1
    apply fld_all
    intro f hf
    obtain ⟨x, -, hx, -⟩ := h3 f hf
    simp only [List.mem_cons, List.not_mem_nil, or_false] at hf
    rcases hf with rfl | rfl | rfl | rfl | rfl <;> simp [named, Nom.get, hx]

/-- C66: exactly the five documented keywords, in any case, and `None` are accepted. -/
theorem C66_accepts (n : Nom) (v : Str) : (∃ n1, setKeyword n (.str v) = .ok n1) ↔
    ∃ k ∈ ["default", "lemi12", "lemi34", "musgraves", "phoenix123"],
      v.map Char.toLower = k.toList.map Char.toLower := by
  rw [setKeyword_spec, show checkKeyword (.str v) = .str v from rfl]
  have h := Enums.C71_accepts keywords v
  constructor
  · rintro ⟨n1, h1⟩
    cases hv : validate keywords (.str v) with
    | error e => rw [hv] at h1; cases h1
    | ok k =>
      obtain ⟨m, hm, e⟩ := h.1 ⟨k, hv⟩
      obtain ⟨k', hk', rfl⟩ := List.mem_map.1 hm
      exact ⟨k', hk', e.symm⟩
  · rintro ⟨k, hk, e⟩
    obtain ⟨m, hm⟩ := h.2 ⟨k.toList, List.mem_map.2 ⟨k, hk, rfl⟩, e.symm⟩
    exact ⟨named m, by rw [hm]⟩

theorem C66_none (n : Nom) : setKeyword n .none = setKeyword n (.str "default".toList) := rfl

/-- C66: assigning one name changes that name only. -/
theorem C66_field (n n1 : Nom) (f : Fld) (v : Str) (h : setField n f (.str v) = .ok n1) :
    (n1.get f).map Char.toLower = v.map Char.toLower ∧ (∀ g, g ≠ f → n1.get g = n.get g) ∧
      n1.keyword = n.keyword := by
  unfold setField at h
  cases hv : validate (allowed f) (.str v) with
  | error e => rw [hv] at h; cases h
  | ok m =>
    rw [hv] at h; cases h
    obtain ⟨-, h2⟩ := Enums.C71_returns_member _ _ _ hv
    refine ⟨by rw [put_get, if_pos rfl]; exact h2, ?_, put_keyword ..⟩
    intro g hg; rw [put_get, if_neg (Ne.symm hg)]

/-- C66, the part on explicit names, as a claim: a name given to the constructor is the name in use. -/
def C66_claim : Prop :=
  ∀ (given : List (Fld × In)) (k : Option In) (n : Nom), construct given k = .ok n →
    ∀ f v, (f, In.str v) ∈ given → (n.get f).map Char.toLower = v.map Char.toLower

/-- The constructor overwrites the names it is given: `ChannelNomenclature(ex="e1").ex == "ex"`. -/
theorem C66_refuted : ¬ C66_claim := by
  intro h
  have := h [(.ex, .str "e1".toList)] none {} (by decide +kernel) .ex "e1".toList (by simp)
  revert this; decide +kernel

theorem setGiven_keyword (l : List (Fld × In)) (n n1 : Nom) (h : setGiven l n = .ok n1) :
    n1.keyword = n.keyword := by
  induction l generalizing n with
  | nil => cases h; rfl
  | cons p l ih =>
    simp only [setGiven] at h
    split at h
    · cases h
    · rename_i n2 h2
      rw [ih n2 h]
      unfold setField at h2
      split at h2
      · cases h2; exact put_keyword ..
      · cases h2

/-- C66: whatever names the constructor is given, the names in use are those of the keyword. -/
theorem C66_construct (given : List (Fld × In)) (k : Option In) (n : Nom) (h : construct given k = .ok n) :
    n.keyword ∈ keywords ∧ (∀ f, nameFor n.keyword f = some (n.get f)) ∧
      (k = none → n.keyword = "default".toList) ∧
      (∀ v, k = some (.str v) → n.keyword.map Char.toLower = v.map Char.toLower) := by
  have hn : ∀ k ∈ keywords, ∀ f, nameFor (named k).keyword f = some ((named k).get f) := by
    intro k hk f
    obtain ⟨m, -, h3⟩ := keywords_maps k hk
    obtain ⟨x, -, hx, -⟩ := h3 f (by cases f <;> decide)
    cases f <;> simp [named, Nom.get, hx]
  unfold construct at h
  split at h
  · cases h
  · rename_i n0 h0
    have hk0 := setGiven_keyword given {} n0 h0
    split at h
    · have hm : n0.keyword ∈ keywords := by rw [hk0]; decide +kernel
      rw [update_ok n0 hm] at h
      cases h
      exact ⟨hm, hn _ hm, fun _ => hk0, fun v e => by cases e⟩
    · split at h
      · cases h
      · rename_i k' hk
        have hm := validate_mem hk
        have := update_ok { n0 with keyword := k' } hm
        rw [this] at h
        cases h
        refine ⟨hm, hn _ hm, fun e => (by cases e), fun v e => ?_⟩
        cases e
        exact (Enums.C71_returns_member _ _ _ hk).2

theorem step_field_other (n : Nom) (f : Fld) (v : In) (g : Fld) (hg : g ≠ f) :
    (step n (.field f v)).get g = n.get g ∧ (step n (.field f v)).keyword = n.keyword := by
  simp only [step, setField]
  cases validate (allowed f) v with
  | error e => exact ⟨rfl, rfl⟩
  | ok m => exact ⟨by simp only; rw [put_get, if_neg (Ne.symm hg)], put_keyword ..⟩

theorem step_keyword_mem (n : Nom) (o : Op) (h : n.keyword ∈ keywords) : (step n o).keyword ∈ keywords := by
  cases o with
  | field f v =>
    simp only [step, setField]
    cases validate (allowed f) v with
    | error e => exact h
    | ok m => simp only; rw [put_keyword]; exact h
  | keyword v =>
    simp only [step, setKeyword_spec]
    cases hv : validate keywords (checkKeyword v) with
    | error e => exact h
    | ok k => exact validate_mem hv

/-- C66 over every history: as long as a channel's own name has not been assigned since the constructor
call or since the last accepted keyword, it has the name of the keyword in force — whatever else
has been assigned, accepted or refused. -/
theorem C66_history (n : Nom) (ops : List Op) (f : Fld) (hk : n.keyword ∈ keywords)
    (h0 : nameFor n.keyword f = some (n.get f)) (hops : ∀ v, Op.field f v ∉ ops) :
    (runOps n ops).keyword ∈ keywords ∧
      nameFor (runOps n ops).keyword f = some ((runOps n ops).get f) := by
  induction ops generalizing n with
  | nil => exact ⟨hk, h0⟩
  | cons o ops ih =>
    refine ih (step n o) (step_keyword_mem n o hk) ?_ fun v hv => hops v (List.mem_cons_of_mem _ hv)
    cases o with
    | field g v =>
      have hg : f ≠ g := fun e => hops v (by rw [e]; exact List.mem_cons_self)
      obtain ⟨h1, h2⟩ := step_field_other n g v f hg
      rw [h1, h2, h0]
    | keyword v =>
      simp only [step, setKeyword_spec]
      cases hv : validate keywords (checkKeyword v) with
      | error e => exact h0
      | ok k =>
        obtain ⟨m, -, h3⟩ := keywords_maps k (validate_mem hv)
        obtain ⟨x, -, hx, -⟩ := h3 f (by cases f <;> decide)
        simp only
        cases f <;> simp [named, Nom.get, hx]

/-- C66: an explicitly assigned name stays until that name or the keyword is assigned again. -/
theorem C66_explicit_kept (n : Nom) (ops : List Op) (f : Fld) (hops : ∀ v, Op.field f v ∉ ops)
    (hkw : ∀ v, Op.keyword v ∉ ops) : (runOps n ops).get f = n.get f := by
  induction ops generalizing n with
  | nil => rfl
  | cons o ops ih =>
    have := ih (step n o) (fun v hv => hops v (List.mem_cons_of_mem _ hv))
      (fun v hv => hkw v (List.mem_cons_of_mem _ hv))
    rw [runOps, List.foldl_cons]
    rw [runOps] at this
    rw [this]
    cases o with
    | field g v => exact (step_field_other n g v f fun e => hops v (by rw [e]; exact List.mem_cons_self)).1
    | keyword v => exact absurd List.mem_cons_self (hkw v)

/-- C66: `channels` lists the names of the keyword (order hx, hy, hz, ex, ey), not the explicit ones. -/
theorem C66_channels (n : Nom) (hk : n.keyword ∈ keywords) :
    channels n = .ok ([Fld.hx, .hy, .hz, .ex, .ey].filterMap (nameFor n.keyword)) := by
  have key : ∀ k ∈ keywords, (OD.get? channelMaps (Enums.lower k)).any fun m =>
      decide (OD.values m = [Fld.hx, .hy, .hz, .ex, .ey].filterMap (nameFor k)) := by decide +kernel
  have h := key _ hk
  rw [Option.any_eq_true] at h
  obtain ⟨m, h1, h2⟩ := h
  simp only [channels, getMap, h1]
  rw [of_decide_eq_true h2]

example : construct [] (some (.str "LEMI34".toList)) =
    .ok ⟨"bx".toList, "by".toList, "bz".toList, "e3".toList, "e4".toList, "lemi34".toList⟩ := by decide +kernel

example : (runOps {} [.keyword (.str "lemi12".toList), .field .ex (.str "E4".toList),
    .keyword (.str "nims".toList), .field .hz (.str "foo".toList)]) =
    ⟨"bx".toList, "by".toList, "bz".toList, "e4".toList, "e2".toList, "lemi12".toList⟩ := by decide +kernel

end Verif.Aurora
