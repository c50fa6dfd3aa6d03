import Verif.Model.TfMeta
import Verif.Props.Survey
import Verif.Props.ExperimentDict

/-! # C254-C258: the metadata of transfer function objects -/

namespace Verif.TfMeta
open Verif.Runs Verif.Stations Verif.Surveys

/-! ## Vocabulary -/

/-- A run with the five channels of a new TF. -/
def fiveRun : Run :=
  { channels := [("ex", ⟨"ex", .electric, 0, 0, []⟩), ("ey", ⟨"ey", .electric, 0, 0, []⟩), ("hx", ⟨"hx", .magnetic, 0, 0, []⟩),
      ("hy", ⟨"hy", .magnetic, 0, 0, []⟩), ("hz", ⟨"hz", .magnetic, 0, 0, []⟩)]
    elec := ["ex", "ey"], mag := ["hx", "hy", "hz"] }

/-- The metadata of a new TF: station "0" with run "0". -/
def freshTf : Survey := { id := "0", stations := [("0", { id := "0", body := { runs := [("0", fiveRun)] } })] }

/-- A station with the time period that covers its runs. -/
def timed (x : St) : St := { x with body := Stations.updateTime x.body }

/-- The metadata of a TF after any sequence of assignments. -/
inductive Hist (req : List String) : Survey → Prop
  | new {t : Survey} : fresh req = .ok t → Hist req t
  | survey {t t' sv : Survey} : Hist req t → Made req sv → setSurvey req t sv = .ok t' → Hist req t'
  | station {t t' : Survey} {st : St} : Hist req t → Stations.Hist req (fun _ => True) st.body → setStation req t st = .ok t' →
      Hist req t'

theorem five (req : List String) : addChannels req {} = .ok fiveRun := by
  unfold addChannels
  rfl

theorem fresh_eq (req : List String) : fresh req = .ok freshTf := by
  unfold fresh
  rw [five]
  rfl

/-! ## Invariants -/

theorem addChannels_of_inv (req : List String) {r : Run} (h : Inv r) :
    ∃ r', addChannels req r = .ok r' ∧ Inv r' ∧ InSync r' := by
  unfold addChannels
  obtain ⟨r', e, i, s, _⟩ := addAll_of_inv req [⟨"ex", .electric, 0, 0, []⟩, ⟨"ey", .electric, 0, 0, []⟩, ⟨"hx", .magnetic, 0, 0, []⟩,
    ⟨"hy", .magnetic, 0, 0, []⟩, ⟨"hz", .magnetic, 0, 0, []⟩] h
  exact ⟨r', e, i, s (by simp)⟩

theorem five_inv : Inv fiveRun ∧ InSync fiveRun := by
  obtain ⟨r, e, i, s⟩ := addChannels_of_inv [] (r := {}) ⟨OD.WF_nil, by simp⟩
  rw [five] at e
  cases e
  exact ⟨i, s⟩

theorem freshTf_vinv : VInv freshTf := by
  refine ⟨by decide, fun p hp => ?_, fun p hp => ?_⟩
  · simp only [freshTf, List.mem_singleton] at hp; rw [hp]
  · simp only [freshTf, List.mem_singleton] at hp
    rw [hp]
    refine ⟨by decide, fun q hq => ?_⟩
    simp only [List.mem_singleton] at hq
    rw [hq]
    exact five_inv

theorem timed_sinv {x : St} (h : SInv x.body) : SInv (timed x).body := ⟨h.wf, h.ok⟩

theorem update_vinv {t sv : Survey} (h : VInv t) : VInv (updateSurvey t sv) := h.congr rfl

/-- Adding stations: which there are, and that those not named stay as they are. -/
theorem addStations_of_inv (req : List String) (xs : List St) {s : Survey} (h : VInv s) (hx : ∀ x ∈ xs, SInv x.body) :
    ∃ s', addStations req xs s = .ok s' ∧ VInv s' ∧ OD.keys s.stations <+: OD.keys s'.stations ∧
      (∀ n, n ∈ OD.keys s'.stations ↔ n ∈ OD.keys s.stations ∨ n ∈ xs.map St.id) ∧
      (∀ n, n ∉ xs.map St.id → OD.get? s'.stations n = OD.get? s.stations n) := by
  induction xs generalizing s with
  | nil => exact ⟨s, rfl, h, List.prefix_refl _, by simp, by simp⟩
  | cons x xs ih =>
    obtain ⟨s1, y, e1, i1, _, q1, _⟩ := addStation_of_inv req h (timed x) (timed_sinv (hx x (by simp))) true
    obtain ⟨s2, e2, i2, p2, k2, g2⟩ := ih i1 (fun z hz => hx z (by simp [hz]))
    refine ⟨s2, ?_, i2, ?_, fun n => ?_, fun n hn => ?_⟩
    · unfold addStations
      have e1' : addStation req s { x with body := Stations.updateTime x.body } true = .ok s1 := e1
      rw [e1']; exact e2
    · refine List.IsPrefix.trans ?_ p2
      rw [q1]
      by_cases c : (timed x).id ∈ OD.keys s.stations
      · rw [OD.keys_set, if_pos c]; exact List.prefix_refl _
      · rw [OD.keys_set, if_neg c]; exact List.prefix_append _ _
    · rw [k2, q1, OD.mem_keys_set]
      simp only [List.map_cons, List.mem_cons]
      have : (timed x).id = x.id := rfl
      rw [this]; tauto
    · rw [List.map_cons, List.mem_cons, not_or] at hn
      rw [g2 n hn.2, q1, OD.get?_set, if_neg]
      exact fun c => hn.1 c.symm

theorem updateBox_id (s : Survey) : (updateBox s).id = s.id := by
  unfold updateBox
  cases (OD.values s.stations).filterMap St.lat <;> cases (OD.values s.stations).filterMap St.lon <;> rfl

theorem addStation_id {req : List String} {s s' : Survey} {x : St} {upd : Bool} (e : addStation req s x upd = .ok s') : s'.id = s.id := by
  have fin : ∀ s1 : Survey, s1.id = s.id → (if upd then .ok (updateKeys (Surveys.updateTime (updateBox s1))) else .ok s1 : Except PyErr Survey) = .ok s' →
      s'.id = s.id := by
    intro s1 h1 e
    cases upd
    · simp only [Bool.false_eq_true, if_false, Except.ok.injEq] at e
      rw [← e, h1]
    · simp only [if_true, Except.ok.injEq] at e
      rw [← e, ← h1]
      exact updateBox_id s1
  unfold addStation at e
  split at e
  · cases e
  · rename_i s1 h1
    refine fin s1 ?_ e
    split at h1
    · split at h1
      · cases h1
      · split at h1
        · cases h1
        · cases h1; rfl
    · cases h1; rfl

theorem addStations_id (req : List String) (xs : List St) {s s' : Survey} (e : addStations req xs s = .ok s') : s'.id = s.id := by
  induction xs generalizing s with
  | nil => cases e; rfl
  | cons x xs ih =>
    unfold addStations at e
    split at e
    · cases e
    · rename_i s1 h1
      rw [ih e, addStation_id h1]

/-- Adding stations with new ids. -/
theorem addStations_new (req : List String) (xs : List St) {s : Survey} (h : VInv s) (hx : ∀ x ∈ xs, SInv x.body)
    (hd : (OD.keys s.stations ++ xs.map St.id).Nodup) :
    ∃ s', addStations req xs s = .ok s' ∧ VInv s' ∧ s'.stations = s.stations ++ xs.map (fun x => (x.id, timed x)) := by
  induction xs generalizing s with
  | nil => exact ⟨s, rfl, h, by simp⟩
  | cons x xs ih =>
    obtain ⟨s1, y, e1, i1, _, q1, n1, _⟩ := addStation_of_inv req h (timed x) (timed_sinv (hx x (by simp))) true
    have hn : x.id ∉ OD.keys s.stations := fun c => (List.nodup_append.1 hd).2.2 _ c _ (by simp) rfl
    have hy := n1 ((OD.get?_eq_none_iff _ _).2 hn)
    subst hy
    have q : s1.stations = s.stations ++ [(x.id, timed x)] := by rw [q1]; exact OD.set_of_not_mem _ hn
    obtain ⟨s2, e2, i2, p2⟩ := ih i1 (fun z hz => hx z (by simp [hz])) (by
      have : OD.keys s1.stations = OD.keys s.stations ++ [x.id] := by rw [q]; unfold OD.keys; simp
      rw [this, List.append_assoc]; exact hd)
    refine ⟨s2, ?_, i2, ?_⟩
    · unfold addStations
      have e1' : addStation req s { x with body := Stations.updateTime x.body } true = .ok s1 := e1
      rw [e1']; exact e2
    · rw [p2, q, List.append_assoc]; rfl

theorem drop_vinv {s : Survey} (h : VInv s) : VInv (dropPlaceholder s) := by
  obtain ⟨s', _, i, q⟩ := removeStation_of_inv h "0" false
  unfold dropPlaceholder
  split
  · exact i.congr q.symm
  · exact h.congr rfl

theorem values_ids {sv : Survey} (h : VInv sv) : (OD.values sv.stations).map St.id = OD.keys sv.stations := by
  unfold OD.values OD.keys
  rw [List.map_map]
  exact List.map_congr_left fun p hp => h.key p hp

theorem values_sinv {sv : Survey} (h : VInv sv) : ∀ x ∈ OD.values sv.stations, SInv x.body := by
  intro x hx
  obtain ⟨p, hp, rfl⟩ := List.mem_map.1 hx
  exact h.ok p hp

theorem setSurvey_of_inv (req : List String) {t sv : Survey} (h : VInv t) (hs : VInv sv) :
    ∃ t', setSurvey req t sv = .ok t' ∧ VInv t' := by
  obtain ⟨s', e, i, _⟩ := addStations_of_inv req (OD.values sv.stations) (update_vinv (sv := sv) h) (values_sinv hs)
  refine ⟨dropPlaceholder s', ?_, drop_vinv i⟩
  unfold setSurvey
  rw [e]; rfl

theorem runOf_mem {t : Survey} (h : VInv t) {k : String} {r : Run} (e : runOf t = .ok (k, r)) : Inv r ∧ InSync r := by
  unfold runOf stationOf at e
  cases hs : t.stations with
  | nil => rw [hs] at e; cases e
  | cons p l =>
    rw [hs] at e
    change (match p.2.body.runs with | [] => _ | q :: _ => Except.ok q) = _ at e
    cases hr : p.2.body.runs with
    | nil => rw [hr] at e; cases e
    | cons q m =>
      rw [hr] at e
      simp only [Except.ok.injEq] at e
      have := (h.ok p (by rw [hs]; simp)).ok q (by rw [hr]; simp)
      rw [e] at this; exact this

/-- The runs of the new station are complete. -/
theorem newRuns_of_inv (req : List String) {k : String} {r : Run} (hr : Inv r ∧ InSync r) {s : Station} (h : SInv s) :
    ∃ d, newRuns req (k, r) s = .ok d ∧ SInv { s with runs := d } := by
  have h0 : SInv ({ runs := startRuns (k, r) } : Station) := by
    unfold startRuns
    split
    · refine ⟨by unfold OD.WF OD.keys; simp, fun p hp => ?_⟩
      simp only [List.mem_singleton] at hp
      rw [hp]; exact hr
    · exact ⟨OD.WF_nil, by simp⟩
  have h1 := extend_sinv h0 s.runs h.ok
  simp only at h1
  have h2 : SInv ({ runs := orOne (s.runs.foldl (fun (acc : OD String Run) p => OD.set acc p.1 p.2) (startRuns (k, r))) } : Station) := by
    unfold orOne
    split
    · refine ⟨by unfold OD.WF OD.keys; simp, fun p hp => ?_⟩
      simp only [List.mem_singleton] at hp
      rw [hp]
      exact ⟨⟨OD.WF_nil, by simp⟩, by unfold InSync; decide +kernel⟩
    · exact ⟨h1.wf, h1.ok⟩
  have h3 : orOne (s.runs.foldl (fun (acc : OD String Run) p => OD.set acc p.1 p.2) (startRuns (k, r))) ≠ [] := by
    unfold orOne
    split
    · simp
    · assumption
  unfold newRuns
  generalize orOne (s.runs.foldl (fun (acc : OD String Run) p => OD.set acc p.1 p.2) (startRuns (k, r))) = d at h2 h3
  cases d with
  | nil => exact absurd rfl h3
  | cons p d =>
    unfold withChannels
    by_cases c : p.2.channels = []
    · obtain ⟨r', e, i, y⟩ := addChannels_of_inv req (h2.ok p (by simp)).1
      simp only [if_pos c, e]
      refine ⟨_, rfl, h2.wf, fun q hq => ?_⟩
      rcases List.mem_cons.1 hq with rfl | hq
      · exact ⟨i, y⟩
      · exact h2.ok q (by simp [hq])
    · simp only [if_neg c]
      exact ⟨_, rfl, h2.wf, h2.ok⟩

theorem setStation_of_inv (req : List String) {t : Survey} (h : VInv t) {k : String} {r : Run} (e : runOf t = .ok (k, r)) {st : St}
    (hs : SInv st.body) : ∃ t', setStation req t st = .ok t' ∧ VInv t' := by
  obtain ⟨d, ed, id'⟩ := newRuns_of_inv req (k := k) (runOf_mem h e) hs
  obtain ⟨b, eb, ib, _⟩ := touch_of_sinv req id'
  refine ⟨_, by unfold setStation; rw [e]; simp only [Except.bind, ed, eb]; rfl, ?_⟩
  refine VInv.congr (s := { t with stations := [(st.id, { st with body := Stations.updateTime b })] }) ⟨by unfold OD.WF OD.keys; simp, fun p hp => ?_,
    fun p hp => ?_⟩ rfl
  · simp only [List.mem_singleton] at hp; rw [hp]
  · simp only [List.mem_singleton] at hp; rw [hp]; exact ⟨ib.wf, ib.ok⟩

theorem Hist.vinv {req : List String} {t : Survey} (h : Hist req t) : VInv t := by
  induction h with
  | new e => rw [fresh_eq] at e; cases e; exact freshTf_vinv
  | survey _ hm e ih =>
    obtain ⟨t', e', i⟩ := setSurvey_of_inv req ih hm.inv
    rw [e] at e'; cases e'; exact i
  | @station t t' st _ hs e ih =>
    cases hr : runOf t with
    | error x => unfold setStation at e; rw [hr] at e; cases e
    | ok q =>
      obtain ⟨t2, e', i⟩ := setStation_of_inv req ih hr (hist_sinv hs)
      rw [e] at e'; cases e'; exact i

/-! ## C254, C255: `tf.survey_metadata = survey` -/

/-- Assigning a survey with new stations: its stations come after those of the TF, and the station "0" goes. -/
theorem survey_new (req : List String) {t sv : Survey} (h : VInv t) (hs : VInv sv) (ht : t.stations ≠ []) (hv : sv.stations ≠ [])
    (hd : ∀ k ∈ OD.keys sv.stations, k ∉ OD.keys t.stations) :
    ∃ t', setSurvey req t sv = .ok t' ∧
      t'.stations = (t.stations ++ sv.stations.map fun p => (p.1, timed p.2)).filter (fun p => p.1 ≠ "0") := by
  obtain ⟨s', e, i, q⟩ := addStations_new req (OD.values sv.stations) (update_vinv (sv := sv) h) (values_sinv hs) (by
    rw [values_ids hs]
    exact List.nodup_append.2 ⟨h.wf, hs.wf, fun a ha b hb c => hd b hb (c ▸ ha)⟩)
  have q' : s'.stations = t.stations ++ sv.stations.map fun p => (p.1, timed p.2) := by
    rw [q]
    refine congrArg (t.stations ++ ·) ?_
    unfold OD.values
    rw [List.map_map]
    exact List.map_congr_left fun p hp => by simp only [Function.comp_apply]; rw [hs.key p hp]
  refine ⟨dropPlaceholder s', by unfold setSurvey; rw [e]; rfl, ?_⟩
  rw [← q', ← i.wf.erase_eq_filter]
  unfold dropPlaceholder
  have hl : 1 < (OD.keys s'.stations).length := by
    unfold OD.keys
    rw [List.length_map, q', List.length_append, List.length_map]
    have := List.length_pos_iff.2 ht
    have := List.length_pos_iff.2 hv
    omega
  by_cases c : "0" ∈ OD.keys s'.stations
  · rw [if_pos ⟨hl, c⟩]; rfl
  · rw [if_neg (fun x => c x.2), OD.erase_of_not_mem c]; rfl

/-- C254: a new TF that is given a survey has its stations, each with the time period that covers its runs, in the same order and
nothing else; `station_metadata` is the first one. -/
theorem C254_survey (req : List String) (sv t : Survey) (ht : fresh req = .ok t) (hs : Made req sv) (hv : sv.stations ≠ [])
    (h0 : "0" ∉ OD.keys sv.stations) :
    ∃ t', setSurvey req t sv = .ok t' ∧ t'.stations = sv.stations.map (fun p => (p.1, timed p.2)) ∧
      (∀ p ∈ sv.stations.head?, stationOf t' = .ok (timed p.2)) ∧ (sv.id ≠ "" → t'.id = sv.id) := by
  rw [fresh_eq] at ht
  cases ht
  obtain ⟨t', e, q⟩ := survey_new req freshTf_vinv hs.inv (by simp [freshTf]) hv (fun k hk c => by
    have : k = "0" := by simpa [freshTf, OD.keys] using c
    exact h0 (this ▸ hk))
  have q' : t'.stations = sv.stations.map (fun p => (p.1, timed p.2)) := by
    rw [q, List.filter_append]
    have a : freshTf.stations.filter (fun p => p.1 ≠ "0") = [] := by decide +kernel
    rw [a, List.nil_append, List.filter_eq_self]
    intro p hp
    obtain ⟨x, hx, rfl⟩ := List.mem_map.1 hp
    simp only [ne_eq, decide_not, Bool.not_eq_eq_eq_not, Bool.not_true, decide_eq_false_iff_not]
    exact fun c => h0 (c ▸ List.mem_map_of_mem hx)
  refine ⟨t', e, q', fun p hp => ?_, ?_⟩
  · unfold stationOf
    rw [q']
    cases hh : sv.stations with
    | nil => rw [hh] at hp; cases hp
    | cons x l => rw [hh] at hp; cases hp; rfl
  · intro hi
    unfold setSurvey at e
    cases ha : addStations req (OD.values sv.stations) (updateSurvey freshTf sv) with
    | error x => rw [ha] at e; cases e
    | ok s =>
      rw [ha] at e
      cases e
      have : (dropPlaceholder s).id = s.id := by unfold dropPlaceholder; split <;> rfl
      rw [this, addStations_id req _ ha]
      exact if_neg hi

/-- Non-trivial case: a survey with station "A". -/
example : Made [] exSurvey ∧ exSurvey.stations ≠ [] ∧ "0" ∉ OD.keys exSurvey.stations := ⟨exSurvey_made, by decide +kernel, by decide +kernel⟩

/-- C255: whatever a TF had before, after it is given a survey its `station_metadata` is the first station of that survey. -/
def C255_claim : Prop := ∀ (req : List String) (t sv t' : Survey), Hist req t → Made req sv → setSurvey req t sv = .ok t' →
  ∀ p ∈ sv.stations.head?, p.1 ≠ "0" → stationOf t' = .ok (timed p.2)

/-- C255 (part): a TF with a first station other than "0" keeps it as its `station_metadata`, whatever survey it is given. If the survey does
not have a station of this id, nothing of it is changed. -/
theorem C255_first_partial (req : List String) (t sv : Survey) (ht : Hist req t) (hs : Made req sv) (p : String × St)
    (hp : p ∈ t.stations.head?) (h0 : p.1 ≠ "0") :
    ∃ t' x, setSurvey req t sv = .ok t' ∧ stationOf t' = .ok x ∧ x.id = p.1 ∧ (p.1 ∉ OD.keys sv.stations → x = p.2) := by
  obtain ⟨s', e, i, pre, _, g⟩ := addStations_of_inv req (OD.values sv.stations) (update_vinv (sv := sv) ht.vinv) (values_sinv hs.inv)
  rw [values_ids hs.inv] at g
  have hst : (updateSurvey t sv).stations = t.stations := rfl
  rw [hst] at pre g
  cases hh : t.stations with
  | nil => rw [hh] at hp; cases hp
  | cons q l =>
    rw [hh] at hp
    cases hp
    cases hh' : s'.stations with
    | nil => rw [hh, hh'] at pre; simp [OD.keys] at pre
    | cons q' l' =>
      have hk : q'.1 = p.1 := by
        rw [hh, hh'] at pre
        obtain ⟨m, hm⟩ := pre
        simp only [OD.keys, List.map_cons, List.cons_append, List.cons.injEq] at hm
        exact hm.1.symm
      refine ⟨dropPlaceholder s', q'.2, by unfold setSurvey; rw [e]; rfl, ?_, ?_, fun hn => ?_⟩
      · have : (dropPlaceholder s').stations = q' :: (if 1 < (OD.keys s'.stations).length ∧ "0" ∈ OD.keys s'.stations then OD.erase l' "0" else l') := by
          unfold dropPlaceholder
          rw [hh']
          have hne : q'.1 ≠ "0" := hk ▸ h0
          split
          · change OD.erase (q' :: l') "0" = _
            obtain ⟨a, b⟩ := q'
            simp only [OD.erase]
            rw [if_neg hne]
          · exact hh'
        unfold stationOf
        rw [this]
      · rw [← hk]; exact i.key q' (by rw [hh']; simp)
      · have h1 := g p.1 hn
        rw [hh, hh'] at h1
        obtain ⟨a, b⟩ := p
        obtain ⟨a', b'⟩ := q'
        simp only at hk
        subst hk
        rw [OD.get?_cons, OD.get?_cons, if_pos rfl, if_pos rfl] at h1
        exact Option.some.inj h1

/-- C255 (part): the stations after a TF is given a survey with other stations: those it had, then those of the survey, without a
station "0". -/
theorem C255_stations_partial (req : List String) (t sv : Survey) (ht : Hist req t) (hs : Made req sv) (hn : t.stations ≠ [])
    (hv : sv.stations ≠ []) (hd : ∀ k ∈ OD.keys sv.stations, k ∉ OD.keys t.stations) :
    ∃ t', setSurvey req t sv = .ok t' ∧
      t'.stations = (t.stations ++ sv.stations.map fun p => (p.1, timed p.2)).filter (fun p => p.1 ≠ "0") :=
  survey_new req ht.vinv hs.inv hn hv hd

/-- Station "B". -/
def exB : St := { exA2 with id := "B" }

/-- A survey with station "B". -/
def exSurveyB : Survey := { id := "s", stations := [("B", exB)], seLat := 41, nwLat := 41, seLon := -120, nwLon := -120 }

theorem exSurveyB_made : Made [] exSurveyB := by
  refine ⟨"s", [.add exB true], ?_, by decide +kernel⟩
  intro o ho
  simp only [List.mem_singleton] at ho
  subst ho
  exact exA2_hist

/-- The TF with the survey of station "A". -/
theorem exT : ∃ t, Hist [] t ∧ t.stations = [("A", timed exA)] := by
  obtain ⟨t, e, q, _⟩ := C254_survey [] exSurvey freshTf (fresh_eq []) exSurvey_made (by decide +kernel) (by decide +kernel)
  exact ⟨t, Hist.survey (Hist.new (fresh_eq [])) exSurvey_made e, q⟩

/-- C255 is false: a TF that was given station "A", and then a survey with station "B", has station "A". -/
theorem C255_refuted : ¬ C255_claim := by
  intro h
  obtain ⟨t, ht, hq⟩ := exT
  obtain ⟨t', x, e, ex, ix, _⟩ := C255_first_partial [] t exSurveyB ht exSurveyB_made ("A", timed exA) (by rw [hq]; rfl) (by decide)
  have := h [] t exSurveyB t' ht exSurveyB_made e ("B", exB) rfl (by decide)
  rw [ex] at this
  simp only [Except.ok.injEq] at this
  rw [this] at ix
  revert ix
  decide +kernel

/-! ## C256: `tf.station_metadata = station` -/

/-- C256: after `tf.station_metadata = st` the runs of the station are those of `st`. -/
def C256_claim : Prop := ∀ (req : List String) (t t' : Survey) (st x : St), Hist req t → Stations.Hist req defaultFlags st.body →
  RecordedExact st.body → (∀ p ∈ st.body.runs, p.2.channels ≠ []) → st.body.runs ≠ [] → setStation req t st = .ok t' →
  stationOf t' = .ok x → x.body.runs = st.body.runs

/-- Assigning runs that have all recorded channels. -/
theorem touch_sub (req : List String) {s : Station} (h : SInv s) (hs : ExpDict.RecordedSub s)
    (hl : ¬ (OD.keys s.runs).length < s.runList.length) :
    ∃ s', touch req s = .ok s' ∧ SInv s' ∧ s'.runs = s.runs ∧ s'.runList = OD.keys s.runs ∧ s'.recorded = getRecorded s := by
  have hn := ExpDict.length_le_of_sub h hs
  have hg : ∀ a b : Station, a.runs = b.runs → getRecorded a = getRecorded b := fun a b e => by unfold getRecorded; rw [e]
  by_cases c : s.runList = OD.keys s.runs
  · rw [ExpDict.touch_of_keys req c]
    obtain ⟨s', e, i, l, _, _, _, _, g, _⟩ := fixChannels_of_inv req h
    exact ⟨s', e, i, (g hn).1, l.trans c, (g hn).2.trans (hg _ _ (g hn).1)⟩
  · obtain ⟨s', e, i, l, k, _, _, _, g, _⟩ := updateAll_of_inv req h
    refine ⟨s', ?_, i, (g hn).1, l.trans k, (g hn).2.trans (hg _ _ (g hn).1)⟩
    unfold touch
    rw [if_neg c, if_neg hl, e]
    simp only
    rw [if_neg (fun x => x.1 (g hn).2)]
    unfold fixChannels
    rw [if_pos (g hn).2]

/-- The runs: those of the station over the first run of the TF. -/
theorem newRuns_eq (req : List String) (old : String × Run) (s : Station) (d : OD String Run)
    (hd : s.runs.foldl (fun (acc : OD String Run) p => OD.set acc p.1 p.2) (startRuns old) = d) (hn : d ≠ [])
    (hc : ∀ p ∈ d, p.2.channels ≠ []) : newRuns req old s = .ok d := by
  unfold newRuns
  rw [hd]
  unfold orOne
  rw [if_neg hn]
  cases d with
  | nil => exact absurd rfl hn
  | cons p d =>
    obtain ⟨k, r⟩ := p
    unfold withChannels
    simp only [if_neg (hc (k, r) (by simp))]

/-- `tf.station_metadata = st` in terms of the runs. -/
theorem setStation_eq (req : List String) {t : Survey} {k : String} {r : Run} (hr : Inv r ∧ InSync r) (e : runOf t = .ok (k, r)) (st : St)
    (hs : Stations.Hist req defaultFlags st.body) (hx : RecordedExact st.body) (d : OD String Run)
    (hd : st.body.runs.foldl (fun (acc : OD String Run) p => OD.set acc p.1 p.2) (startRuns (k, r)) = d) (hn : d ≠ [])
    (hc : ∀ p ∈ d, p.2.channels ≠ []) (hsub : ∀ p ∈ st.body.runs, p ∈ d) :
    ∃ t' x, setStation req t st = .ok t' ∧ t'.stations = [(st.id, x)] ∧ x.id = st.id ∧ x.lat = st.lat ∧ x.lon = st.lon ∧ x.body.runs = d ∧
      x.body.runList = OD.keys d ∧ x.body.recorded = getRecorded { runs := d } := by
  obtain ⟨hi, hl⟩ := hist_inv hs
  obtain ⟨d', ed, id'⟩ := newRuns_of_inv req (k := k) hr hi
  have ed2 := newRuns_eq req (k, r) st.body d hd hn hc
  rw [ed2] at ed
  cases ed
  obtain ⟨b, eb, ib, rb, lb, cb⟩ := touch_sub req id' ⟨hx.1.imp (fun h => ne_of_lt h), fun n hn => by
    obtain ⟨p, hp, q⟩ := (hx.2 n).1 hn
    exact ⟨p, hsub p hp, q⟩⟩ (by
    simp only
    rw [hl]
    have : (OD.keys st.body.runs) ⊆ OD.keys d := by
      intro a ha
      obtain ⟨p, hp, rfl⟩ := List.mem_map.1 ha
      exact List.mem_map_of_mem (hsub p hp)
    have := (List.subperm_of_subset hi.wf this).length_le
    omega)
  refine ⟨_, { st with body := Stations.updateTime b }, by unfold setStation; rw [e]; simp only [Except.bind, ed2, eb]; rfl, rfl, rfl, rfl, rfl, rb,
    lb, cb⟩

theorem fold_self (k : String) (r : Run) (l : OD String Run) (h : OD.WF ((k, r) :: l)) :
    ((k, r) :: l).foldl (fun (acc : OD String Run) p => OD.set acc p.1 p.2) [(k, r)] = (k, r) :: l := by
  rw [List.foldl_cons]
  have : OD.set [(k, r)] k r = [(k, r)] := by simp [OD.set]
  rw [this, OD.foldl_set_fresh l [(k, r)] h]
  rfl

/-- C256 (part): when the first run of the TF is the run "0" (as that of a new TF), the station has the runs of `st`, exactly, and is the
only station. -/
theorem C256_runs_partial (req : List String) (t : Survey) (st : St) (r : Run) (ht : Hist req t) (e : runOf t = .ok ("0", r))
    (hs : Stations.Hist req defaultFlags st.body) (hx : RecordedExact st.body) (hn : st.body.runs ≠ [])
    (hc : ∀ p ∈ st.body.runs, p.2.channels ≠ []) :
    ∃ t' x, setStation req t st = .ok t' ∧ t'.stations = [(st.id, x)] ∧ x.id = st.id ∧ x.lat = st.lat ∧ x.lon = st.lon ∧
      x.body.runs = st.body.runs ∧ x.body.runList = st.body.runList ∧ x.body.recorded = st.body.recorded := by
  obtain ⟨hi, hl⟩ := hist_inv hs
  have hd : st.body.runs.foldl (fun (acc : OD String Run) p => OD.set acc p.1 p.2) (startRuns ("0", r)) = st.body.runs := by
    have : startRuns ("0", r) = [] := by unfold startRuns; simp
    rw [this]
    have := OD.foldl_set_fresh st.body.runs [] (by rw [List.nil_append]; exact hi.wf)
    rwa [List.nil_append] at this
  obtain ⟨t', x, a, b, c, d, f, g, h1, h2⟩ := setStation_eq req (runOf_mem ht.vinv e) e st hs hx _ hd hn hc (fun p hp => hp)
  refine ⟨t', x, a, b, c, d, f, g, h1.trans hl.symm, h2.trans ?_⟩
  rw [(recordedExact_iff hi).1 hx]
  rfl

/-- C256 (part): any other first run of the TF stays the first run, with the content that `st` has under its id, if any; the other runs
of `st` follow. -/
theorem C256_old_partial (req : List String) (t : Survey) (st : St) (k : String) (r : Run) (ht : Hist req t) (e : runOf t = .ok (k, r))
    (hk : k ≠ "0") (hr : r.channels ≠ []) (hs : Stations.Hist req defaultFlags st.body) (hx : RecordedExact st.body)
    (hc : ∀ p ∈ st.body.runs, p.2.channels ≠ []) :
    ∃ t' x, setStation req t st = .ok t' ∧ t'.stations = [(st.id, x)] ∧
      (∃ r', x.body.runs.head? = some (k, r') ∧ (k ∉ OD.keys st.body.runs → r' = r)) ∧
      (∀ id, id ∈ OD.keys x.body.runs ↔ id = k ∨ id ∈ OD.keys st.body.runs) ∧
      (∀ id q, OD.get? st.body.runs id = some q → OD.get? x.body.runs id = some q) ∧ x.body.runList = OD.keys x.body.runs := by
  obtain ⟨hi, hl⟩ := hist_inv hs
  have h0 : startRuns (k, r) = [(k, r)] := by unfold startRuns; simp [hk]
  have hg := fun id => get?_foldl_set st.body.runs [(k, r)] id hi.wf
  have hkeys : ∀ id, id ∈ OD.keys (st.body.runs.foldl (fun (acc : OD String Run) p => OD.set acc p.1 p.2) [(k, r)]) ↔
      id = k ∨ id ∈ OD.keys st.body.runs := by
    intro id
    rw [← OD.get?_isSome_iff, hg, Option.isSome_or, Bool.or_eq_true, OD.get?_isSome_iff, OD.get?_isSome_iff]
    simp only [OD.keys, List.map_cons, List.map_nil, List.mem_singleton]
    tauto
  have hw : OD.WF (st.body.runs.foldl (fun (acc : OD String Run) p => OD.set acc p.1 p.2) [(k, r)]) :=
    (extend_sinv (s := { runs := [(k, r)] }) ⟨by unfold OD.WF OD.keys; simp, fun p hp => by
      simp only [List.mem_singleton] at hp; rw [hp]; exact runOf_mem ht.vinv e⟩ st.body.runs hi.ok).wf
  have hhead : ∃ r' l, st.body.runs.foldl (fun (acc : OD String Run) p => OD.set acc p.1 p.2) [(k, r)] = (k, r') :: l := by
    have : ∀ (m : OD String Run) (r0 : Run) (l0 : OD String Run), ∃ r' l,
        m.foldl (fun (acc : OD String Run) p => OD.set acc p.1 p.2) ((k, r0) :: l0) = (k, r') :: l := by
      intro m
      induction m with
      | nil => exact fun r0 l0 => ⟨r0, l0, rfl⟩
      | cons p m ih =>
        intro r0 l0
        rw [List.foldl_cons]
        by_cases c : k = p.1
        · have : OD.set ((k, r0) :: l0) p.1 p.2 = (k, p.2) :: l0 := by simp [OD.set, c]
          rw [this]; exact ih _ _
        · have : OD.set ((k, r0) :: l0) p.1 p.2 = (k, r0) :: OD.set l0 p.1 p.2 := by simp [OD.set, c]
          rw [this]; exact ih _ _
    exact this _ _ _
  obtain ⟨r', l, hd⟩ := hhead
  rw [hd] at hkeys hw hg
  obtain ⟨t', x, a, b, c, d, f, g, h1, h2⟩ := setStation_eq req (runOf_mem ht.vinv e) e st hs hx ((k, r') :: l) (by rw [h0, hd]) (by simp)
    (fun p hp => by
      have hp' := OD.get?_of_mem hw hp
      rw [hg] at hp'
      cases hq : OD.get? st.body.runs p.1 with
      | some v =>
        rw [hq] at hp'
        have : v = p.2 := Option.some.inj hp'
        exact hc (p.1, p.2) (OD.mem_of_get? (this ▸ hq))
      | none =>
        rw [hq] at hp'
        have hp2 : OD.get? [(k, r)] p.1 = some p.2 := hp'
        have := OD.mem_of_get? hp2
        simp only [List.mem_singleton] at this
        rw [(Prod.ext_iff.1 this).2]; exact hr)
    (fun p hp => OD.mem_of_get? (by rw [hg, OD.get?_of_mem hi.wf hp]; rfl))
  refine ⟨t', x, a, b, ⟨r', by rw [g]; rfl, fun hn => ?_⟩, fun id => by rw [g]; exact hkeys id, fun id q hq => ?_, by rw [h1, g]⟩
  · have := hg k
    rw [(OD.get?_eq_none_iff _ _).2 hn, OD.get?_cons, if_pos rfl] at this
    have h3 : OD.get? [(k, r)] k = some r := by simp [OD.get?]
    rw [h3] at this
    exact Option.some.inj this
  · rw [g, hg, hq]; rfl

theorem exA2_adds : Adds [] exA2.body := Adds.add "c" (Adds.new 0 0) exRunB_reachable (by decide +kernel)

theorem exB_ok : Stations.Hist [] defaultFlags exB.body ∧ RecordedExact exB.body ∧ exB.body.runs ≠ [] ∧ ∀ p ∈ exB.body.runs, p.2.channels ≠ [] :=
  ⟨exA2_adds.hist, (C36_adds_exact [] _ exA2_adds).1, by decide +kernel, by decide +kernel⟩

/-- C256 is false: a TF with station "A" that is given station "B" has the first run of "A" as a run of "B". -/
theorem C256_refuted : ¬ C256_claim := by
  intro h
  obtain ⟨t, ht, hq⟩ := exT
  obtain ⟨h1, h2, h3, h4⟩ := exB_ok
  have er : runOf t = .ok ("a", exRun) := by unfold runOf stationOf; rw [hq]; rfl
  obtain ⟨t', x, e, q, ⟨r', hh, _⟩, _⟩ := C256_old_partial [] t exB "a" exRun ht er (by decide) (by decide +kernel) h1 h2 h4
  have := h [] t t' exB x ht h1 h2 h4 h3 e (by unfold stationOf; rw [q])
  rw [this] at hh
  revert hh
  have : exB.body.runs.head? = some ("c", exRunB) := rfl
  rw [this]
  intro hh
  exact absurd (Prod.ext_iff.1 (Option.some.inj hh)).1 (show ¬ ("c" : String) = "a" by decide)

/-- C256 (part): a station without runs gets a run "0" with the channels ex, ey, hx, hy and hz. -/
theorem C256_empty_partial (req : List String) (t : Survey) (st : St) (r : Run) (e : runOf t = .ok ("0", r)) (hs : st.body.runs = [])
    (hl : st.body.runList = []) (hr : st.body.recorded = []) :
    ∃ t' x, setStation req t st = .ok t' ∧ t'.stations = [(st.id, x)] ∧ x.body.runs = [("0", fiveRun)] ∧ x.body.runList = ["0"] ∧
      x.body.recorded = ["ex", "ey", "hx", "hy", "hz"] := by
  have hi : SInv ({ st.body with runs := [("0", fiveRun)] }) := by
    refine ⟨by unfold OD.WF OD.keys; simp, fun q hq => ?_⟩
    simp only [List.mem_singleton] at hq
    rw [hq]
    exact five_inv
  obtain ⟨b, eb, _, rb, lb, cb⟩ := touch_sub req hi ⟨by simp only [hr]; exact List.nodup_nil, by simp only [hr]; simp⟩ (by simp [hl])
  have en : newRuns req ("0", r) st.body = .ok [("0", fiveRun)] := by
    unfold newRuns
    rw [hs]
    have : startRuns ("0", r) = [] := by unfold startRuns; simp
    rw [this]
    unfold orOne
    simp only [List.foldl_nil, if_true]
    unfold withChannels
    simp only [if_true, five]
    rfl
  refine ⟨_, { st with body := Stations.updateTime b }, by unfold setStation; rw [e]; simp only [Except.bind, en, eb]; rfl, rfl, rb, lb, ?_⟩
  refine cb.trans ?_
  have : getRecorded { st.body with runs := [("0", fiveRun)] } = getRecorded { runs := [("0", fiveRun)] } := rfl
  rw [this]
  decide +kernel

/-- Non-trivial case: a new station. -/
example (req : List String) : ∃ t', setStation req freshTf { id := "mt01" } = .ok t' ∧ (stationOf t').toOption.map St.id = some "mt01" := by
  obtain ⟨t', x, e, q, _⟩ := C256_empty_partial req freshTf { id := "mt01" } fiveRun rfl rfl rfl rfl
  refine ⟨t', e, ?_⟩
  unfold setStation at e
  have er : runOf freshTf = .ok ("0", fiveRun) := rfl
  rw [er] at e
  simp only [Except.bind] at e
  split at e
  · cases e
  · split at e
    · cases e
    · cases e; rfl

/-! ## C257: reading files into new TF objects -/

/-- A station as files give it: made by calls, with `channels_recorded` up to date and channels in every run. -/
structure Whole (req : List String) (st : St) : Prop where
  hist : Stations.Hist req defaultFlags st.body
  exact : RecordedExact st.body
  runs : st.body.runs ≠ []
  channels : ∀ p ∈ st.body.runs, p.2.channels ≠ []

theorem Whole.timed {req : List String} {st : St} (h : Whole req st) : Whole req (timed st) :=
  ⟨Stations.Hist.time h.hist, h.exact, h.runs, h.channels⟩

theorem timed_timed (x : St) : timed (timed x) = timed x := by
  unfold TfMeta.timed
  simp only
  rw [(C38_idempotent x.body).1]

/-- The station that is assigned again. -/
theorem setStation_self (req : List String) (t : Survey) (st : St) (k : String) (l : OD String St) (ht : VInv t)
    (hq : t.stations = (k, st) :: l) (h : Whole req st) :
    ∃ t', setStation req t st = .ok t' ∧ t'.stations = [(st.id, TfMeta.timed st)] := by
  obtain ⟨hi, hl⟩ := hist_inv h.hist
  cases hr : st.body.runs with
  | nil => exact absurd hr h.runs
  | cons p m =>
    have e : runOf t = .ok p := by
      unfold runOf stationOf
      rw [hq]
      change (match st.body.runs with | [] => _ | q :: _ => Except.ok q) = _
      rw [hr]
    have hd : st.body.runs.foldl (fun (acc : OD String Run) p => OD.set acc p.1 p.2) (startRuns p) = st.body.runs := by
      unfold startRuns
      split
      · rw [hr]; exact fold_self p.1 p.2 m (hr ▸ hi.wf)
      · have := OD.foldl_set_fresh st.body.runs [] (by rw [List.nil_append]; exact hi.wf)
        rwa [List.nil_append] at this
    have en := newRuns_eq req p st.body _ hd h.runs h.channels
    have et : touch req { st.body with runs := st.body.runs } = .ok st.body := by
      have : touch req st.body = .ok st.body := by
        rw [ExpDict.touch_of_keys req hl]
        unfold fixChannels
        rw [if_pos ((recordedExact_iff hi).1 h.exact)]
      exact this
    refine ⟨_, by unfold setStation; rw [e]; simp only [Except.bind, en]; rw [et], rfl⟩

/-- C257: a new TF that reads an EDI, J or AVG file has the stations of the file's survey. -/
theorem C257_edi (req : List String) (sv t : Survey) (ht : fresh req = .ok t) (hs : Made req sv) (p : String × St) (l : OD String St)
    (hv : sv.stations = p :: l) (h0 : "0" ∉ OD.keys sv.stations) :
    ∃ t', fromEdi req t sv = .ok t' ∧ t'.stations = sv.stations.map (fun p => (p.1, timed p.2)) ∧ stationOf t' = .ok (timed p.2) := by
  obtain ⟨t', e, q, s, _⟩ := C254_survey req sv t ht hs (by rw [hv]; simp) h0
  exact ⟨t', e, q, s p (by rw [hv]; rfl)⟩

/-- C257: a new TF that reads an EMTF XML file has the first station of the file's survey, with its runs, and no other. -/
theorem C257_emtfxml (req : List String) (sv t : Survey) (ht : fresh req = .ok t) (hs : Made req sv) (p : String × St) (l : OD String St)
    (hv : sv.stations = p :: l) (h0 : "0" ∉ OD.keys sv.stations) (hw : Whole req p.2) :
    ∃ t', fromEmtfxml req t sv = .ok t' ∧ t'.stations = [(p.1, timed p.2)] := by
  obtain ⟨t1, e, q, s, _⟩ := C254_survey req sv t ht hs (by rw [hv]; simp) h0
  have hh := Hist.survey (Hist.new ht) hs e
  rw [hv, List.map_cons] at q
  obtain ⟨t2, e2, q2⟩ := setStation_self req t1 (timed p.2) _ _ hh.vinv q hw.timed
  refine ⟨t2, ?_, ?_⟩
  · unfold fromEmtfxml
    rw [e]
    change (stationOf t1).bind _ = _
    rw [s p (by rw [hv]; rfl)]
    exact e2
  · rw [q2, timed_timed]
    have : (timed p.2).id = p.1 := hs.inv.key p (by rw [hv]; simp)
    rw [this]

/-- C257: a new TF that reads a Z file has its station, with its runs, and no other. -/
theorem C257_zmm (req : List String) (st : St) (t : Survey) (ht : fresh req = .ok t) (hw : Whole req st) (h0 : st.id ≠ "0") :
    ∃ t' x, fromZmm req t st = .ok t' ∧ t'.stations = [(st.id, x)] ∧ x.id = st.id ∧ x.lat = st.lat ∧ x.lon = st.lon ∧
      x.body.runs = st.body.runs ∧ x.body.runList = st.body.runList ∧ x.body.recorded = st.body.recorded := by
  have hv : VInv ({} : Survey) := new_vinv ""
  obtain ⟨sv, y, e0, i0, _, q0, n0, _⟩ := addStation_of_inv req hv st (hist_inv hw.hist).1 true
  have hy := n0 rfl
  subst hy
  have hs : Made req sv := by
    refine ⟨"", [.add y true], ?_, ?_⟩
    · intro o ho
      simp only [List.mem_singleton] at ho
      subst ho
      exact hist_mono (fun _ _ => trivial) hw.hist
    · unfold steps step
      simp only [e0]
      rfl
  have qs : sv.stations = [(y.id, y)] := q0
  obtain ⟨t1, e1, q1, _, _⟩ := C254_survey req sv t ht hs (by rw [qs]; simp) (by rw [qs]; simpa [OD.keys] using Ne.symm h0)
  have hh := Hist.survey (Hist.new ht) hs e1
  rw [qs] at q1
  have q1' : t1.stations = [(y.id, timed y)] := q1
  obtain ⟨hi, hl⟩ := hist_inv hw.hist
  cases hr : y.body.runs with
  | nil => exact absurd hr hw.runs
  | cons p m =>
    have e : runOf t1 = .ok p := by
      unfold runOf stationOf
      rw [q1']
      change (match y.body.runs with | [] => _ | q :: _ => Except.ok q) = _
      rw [hr]
    have hd : y.body.runs.foldl (fun (acc : OD String Run) p => OD.set acc p.1 p.2) (startRuns p) = y.body.runs := by
      unfold startRuns
      split
      · rw [hr]; exact fold_self p.1 p.2 m (hr ▸ hi.wf)
      · have := OD.foldl_set_fresh y.body.runs [] (by rw [List.nil_append]; exact hi.wf)
        rwa [List.nil_append] at this
    obtain ⟨t', x, a, b, c, d, f, g, h1, h2⟩ := setStation_eq req (k := p.1) (r := p.2) (runOf_mem hh.vinv e) e y hw.hist hw.exact _ hd hw.runs
      hw.channels (fun p hp => hp)
    refine ⟨t', x, ?_, b, c, d, f, g.trans hr, h1.trans hl.symm, h2.trans ?_⟩
    · unfold fromZmm
      rw [e0]
      change (setSurvey req t sv).bind _ = _
      rw [e1]
      exact a
    · rw [(recordedExact_iff hi).1 hw.exact]
      rfl

/-- Non-trivial case: station "A" of the example survey. -/
example : Whole [] exA :=
  ⟨exStation_hist, (C36_adds_exact [] _ exStation_adds).1, by decide +kernel, by decide +kernel⟩

/-! ## C258: `tf.station = name` -/

/-- C258: after `tf.station = name` the survey of the TF has a station of that name. -/
def C258_claim : Prop := ∀ (req : List String) (t t' : Survey) (name : String), Hist req t → setName req t name = .ok t' →
  hasStation t' name = true

/-- C258 (part): the id of `station_metadata` is the name; the survey has the station under its old name only. -/
theorem C258_partial (req : List String) (t : Survey) (name : String) (ht : Hist req t) (hn : t.stations ≠ []) :
    ∃ t' x, setName req t name = .ok t' ∧ stationOf t' = .ok x ∧ x.id = name ∧ ∀ n, hasStation t' n = hasStation t n := by
  cases hs : t.stations with
  | nil => exact absurd hs hn
  | cons p l =>
    obtain ⟨k, st⟩ := p
    obtain ⟨b, e, _⟩ := touch_of_sinv req (ht.vinv.ok (k, st) (by rw [hs]; simp))
    refine ⟨{ t with stations := (k, { st with id := name, body := b }) :: l }, { st with id := name, body := b }, ?_, rfl, rfl, fun n => ?_⟩
    · unfold setName
      rw [hs]
      simp only [e]
      rfl
    · unfold hasStation
      rw [hs]
      rfl

/-- C258 is false: the station of a new TF is known as "0" after it got a name. -/
theorem C258_refuted : ¬ C258_claim := by
  intro h
  obtain ⟨t', x, e, _, _, g⟩ := C258_partial [] freshTf "mt01" (Hist.new (fresh_eq [])) (by simp [freshTf])
  have := h [] freshTf t' "mt01" (Hist.new (fresh_eq [])) e
  rw [g] at this
  revert this
  decide +kernel

/-- C258 (part): a new TF that got a name keeps its empty station, under that name, when it is given a survey without a station of this
name. -/
theorem C258_kept_partial (req : List String) (sv : Survey) (name : String) (hs : Made req sv) (hv : sv.stations ≠ [])
    (h0 : "0" ∉ OD.keys sv.stations) (hn : name ∉ OD.keys sv.stations) (hn0 : name ≠ "0") :
    ∃ t1 t2 x, setName req freshTf name = .ok t1 ∧ setSurvey req t1 sv = .ok t2 ∧ stationOf t2 = .ok x ∧ x.id = name ∧
      x.body.runs = [("0", fiveRun)] := by
  have hi : SInv ({ runs := [("0", fiveRun)] } : Station) := freshTf_vinv.ok ("0", _) (by simp [freshTf]; rfl)
  obtain ⟨b, eb, ib, rb, _⟩ := touch_sub req hi ⟨List.nodup_nil, by simp⟩ (by simp)
  have e1 : setName req freshTf name = .ok { freshTf with stations := [("0", { id := name, body := b })] } := by
    unfold setName freshTf
    simp only [eb]
    rfl
  refine ⟨{ freshTf with stations := [("0", { id := name, body := b })] }, ?_⟩
  have hids := values_ids hs.inv
  have hsin := values_sinv hs.inv
  have hwf := hs.inv.wf
  unfold OD.WF at hwf
  rw [← hids] at hn h0 hwf
  have hne : OD.values sv.stations ≠ [] := by unfold OD.values; simpa using hv
  cases hx : OD.values sv.stations with
  | nil => exact absurd hx hne
  | cons x xs =>
    rw [hx] at hn h0 hsin hwf
    rw [List.map_cons] at hn h0 hwf
    simp only [List.mem_cons, not_or] at hn h0
    generalize hu : updateSurvey { freshTf with stations := [("0", { id := name, body := b })] } sv = u
    have hus : u.stations = [("0", { id := name, body := b })] := by rw [← hu]; rfl
    have ea : ∃ s1, addStation req u { x with body := Stations.updateTime x.body } true = .ok s1 ∧
        s1.stations = [(name, { id := name, body := b }), (x.id, timed x)] := by
      have hh : hasStation u x.id = false := by
        unfold hasStation
        rw [hus]
        simpa [OD.keys] using Ne.symm h0.1
      refine ⟨updateKeys (Surveys.updateTime (updateBox { u with stations := OD.set u.stations x.id (timed x) })),
        by unfold addStation; simp only [hh, Bool.false_eq_true, if_false, if_true]; rfl, ?_⟩
      unfold updateKeys
      simp only [updateTime_stations, updateBox_stations, hus]
      have : OD.set [("0", ({ id := name, body := b } : St))] x.id (timed x) = [("0", { id := name, body := b }), (x.id, timed x)] :=
        OD.set_of_not_mem _ (by simpa [OD.keys] using Ne.symm h0.1)
      have hset : OD.set [(name, ({ id := name, body := b } : St))] x.id (timed x) = [(name, { id := name, body := b }), (x.id, timed x)] :=
        OD.set_of_not_mem _ (by simpa [OD.keys] using Ne.symm hn.1)
      rw [this]
      simp only [List.foldl_cons, List.foldl_nil]
      exact hset
    obtain ⟨s1, ea, qa⟩ := ea
    have i1 : VInv s1 := by
      refine ⟨by unfold OD.WF OD.keys; rw [qa]; simpa using hn.1, fun p hp => ?_, fun p hp => ?_⟩ <;>
        rw [qa] at hp <;> simp only [List.mem_cons, List.not_mem_nil, or_false] at hp <;> rcases hp with rfl | rfl
      · rfl
      · rfl
      · exact ib
      · exact timed_sinv (hsin x (by simp))
    obtain ⟨s2, e2, i2, q2⟩ := addStations_new req xs i1 (fun y hy => hsin y (by simp [hy])) (by
      have : OD.keys s1.stations = [name, x.id] := by rw [qa]; rfl
      rw [this]
      simp only [List.cons_append, List.nil_append, List.nodup_cons, List.mem_cons, not_or]
      exact ⟨⟨hn.1, hn.2⟩, List.nodup_cons.1 hwf⟩)
    refine ⟨dropPlaceholder s2, { id := name, body := b }, e1, ?_, ?_, rfl, rb⟩
    · unfold setSurvey
      rw [hu, hx]
      unfold addStations
      rw [ea]
      simp only [e2]
      rfl
    · have : "0" ∉ OD.keys s2.stations := by
        rw [q2, qa]
        unfold OD.keys
        simp only [List.cons_append, List.nil_append, List.map_cons, List.map_map, List.mem_cons, not_or]
        exact ⟨Ne.symm hn0, h0.1, h0.2⟩
      unfold stationOf dropPlaceholder
      rw [if_neg (fun c => this c.2)]
      simp only [updateTime_stations, q2, qa, List.cons_append]

/-- Non-trivial case: the example survey has no station "mt01". -/
example : "mt01" ∉ OD.keys exSurvey.stations ∧ "0" ∉ OD.keys exSurvey.stations := by decide +kernel

/-! ## C259: `tf.run_metadata = run` -/

/-- C259: after `tf.run_metadata = run` the first run of the TF is `run`. -/
def C259_claim : Prop := ∀ (req : List String) (t : Survey) (id : String) (r : Run), Hist req t → Reachable req r →
  ∃ t', setRun [] t id r = .ok t' ∧ runOf t' = .ok (id, r)

/-- C259 (part): the assignment raises an `AttributeError`, whatever the run, unless the user gave the TF an attribute `component`. -/
theorem C259_never_partial (extra : List String) (t : Survey) (id : String) (r : Run) (h : "component" ∉ extra) :
    setRun extra t id r = .error .attributeError := by
  unfold setRun hasName
  have : "component" ∉ tfNames := by decide +kernel
  rw [if_neg (by simp [this, h])]
  rfl

/-- C259 is false. -/
theorem C259_refuted : ¬ C259_claim := by
  intro h
  obtain ⟨t', e, _⟩ := h [] freshTf "a" exRun (Hist.new (fresh_eq [])) exRun_reachable
  rw [C259_never_partial [] _ _ _ (by simp)] at e
  cases e

end Verif.TfMeta
