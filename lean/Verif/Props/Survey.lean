import Verif.Lemmas.Survey
import Verif.Props.Station

/-!
C39-C41, C84-C86: surveys and experiments (`timeseries/survey.py`, `timeseries/experiment.py`).
-/

namespace Verif.Surveys
open Stations Runs

/-! ### Vocabulary -/

theorem hist_sinv {req : List String} {flags : Bool → Prop} {s : Station} (h : Hist req flags s) :
    SInv s := by
  induction h with
  | new a b => exact ⟨OD.WF_nil, by simp⟩
  | @add s s' id r upd hf _ hr he ih =>
    have hri := reachable_inv hr
    have fin : ∀ s1 : Station, SInv s1 →
        (if upd then updateAll req s1 else .ok s1 : Except PyErr Station) = .ok s' → SInv s' := by
      intro s1 h1 e
      cases upd
      · simp only [Bool.false_eq_true, if_false, Except.ok.injEq] at e
        exact e ▸ h1
      · simp only [if_true] at e
        obtain ⟨s2, e2, i2, _⟩ := updateAll_of_inv req h1
        rw [e2] at e
        simp only [Except.ok.injEq] at e
        exact e ▸ i2
    unfold addRun at he
    by_cases hh : hasRun s id = true
    · cases hg : OD.get? s.runs id with
      | none => simp only [hh, if_true, hg] at he; cases he
      | some old =>
        have ho := ih.ok _ (OD.mem_of_get? hg)
        obtain ⟨r1, e1, i1, s1, _⟩ := update_of_inv req ho.1 ho.2 hri.1 hri.2
        simp only [hh, if_true, hg, e1] at he
        exact fin _ (set_sinv ih id r1 ⟨i1, s1⟩) he
    · simp only [hh] at he
      exact fin _ (set_sinv ih id r hri) he
  | @remove s s' id upd hf _ he ih =>
    unfold removeRun at he
    split at he
    · split at he
      · cases upd
        · simp only [Bool.false_eq_true, if_false, Except.ok.injEq] at he
          exact he ▸ erase_sinv ih id
        · simp only [if_true] at he
          obtain ⟨s2, e2, i2, _⟩ := updateAll_of_inv req (erase_sinv ih id)
          rw [e2] at he
          simp only [Except.ok.injEq] at he
          exact he ▸ i2
      · cases he
    · simp only [Except.ok.injEq] at he
      exact he ▸ ih
  | @merge s o s' _ _ he ih1 ih2 =>
    obtain ⟨s2, e2, i2, _⟩ := updateAll_of_inv req (extend_sinv ih1 o.runs ih2.ok)
    unfold Stations.merge at he
    rw [e2] at he
    simp only [Except.ok.injEq] at he
    exact he ▸ i2
  | @edit s id r _ _ hr ih => exact set_sinv ih id r (reachable_inv hr)
  | @touch s s' _ he ih =>
    obtain ⟨s2, e2, i2, _⟩ := touch_of_sinv req ih
    rw [e2] at he
    simp only [Except.ok.injEq] at he
    exact he ▸ i2
  | time _ ih => exact ⟨ih.wf, ih.ok⟩

/-- The calls on a survey's stations. Stations handed over have any id, any coordinates and
any run history. -/
inductive Op
  | add (x : St) (upd : Bool)
  | remove (id : String) (upd : Bool)
  | box
  | time

/-- The station id an operation is about. -/
def Op.target : Op → Option String
  | .add x _ => some x.id
  | .remove id _ => some id
  | .box => none
  | .time => none

/-- Perform an operation. -/
def step (req : List String) (s : Survey) : Op → Except PyErr Survey
  | .add x upd => addStation req s x upd
  | .remove id upd => removeStation s id upd
  | .box => .ok (updateBox s)
  | .time => .ok (updateTime s)

/-- Perform a list of operations, stopping at an exception. -/
def steps (req : List String) (s : Survey) : List Op → Except PyErr Survey
  | [] => .ok s
  | o :: os =>
    match step req s o with
    | .error e => .error e
    | .ok s1 => steps req s1 os

/-- Stations handed over are results of calls on `Station`. -/
def Op.Valid (req : List String) : Op → Prop
  | .add x _ => Hist req (fun _ => True) x.body
  | _ => True

theorem step_of_inv (req : List String) {s : Survey} (h : VInv s) (o : Op) (ho : o.Valid req) :
    ∃ s', step req s o = .ok s' ∧ VInv s' := by
  cases o with
  | add x upd =>
    obtain ⟨s', y, e, i, _⟩ := addStation_of_inv req h x (hist_sinv ho) upd
    exact ⟨s', e, i⟩
  | remove id upd =>
    obtain ⟨s', e, i, _⟩ := removeStation_of_inv h id upd
    exact ⟨s', e, i⟩
  | box => exact ⟨_, rfl, h.congr (by simp)⟩
  | time => exact ⟨_, rfl, h.congr (by simp)⟩

theorem steps_of_inv (req : List String) {s : Survey} (h : VInv s) (os : List Op)
    (hv : ∀ o ∈ os, o.Valid req) : ∃ s', steps req s os = .ok s' ∧ VInv s' := by
  induction os generalizing s with
  | nil => exact ⟨s, rfl, h⟩
  | cons o os ih =>
    obtain ⟨s1, e1, i1⟩ := step_of_inv req h o (hv o (by simp))
    obtain ⟨s2, e2, i2⟩ := ih i1 (fun q hq => hv q (by simp [hq]))
    exact ⟨s2, by unfold steps; rw [e1]; exact e2, i2⟩

theorem new_vinv (id : String) : VInv { id := id } := ⟨OD.WF_nil, by simp, by simp⟩

/-- Surveys obtained from a new one by a list of calls. -/
def Made (req : List String) (s : Survey) : Prop :=
  ∃ (id : String) (os : List Op), (∀ o ∈ os, o.Valid req) ∧ steps req { id := id } os = .ok s

theorem Made.inv {req : List String} {s : Survey} (h : Made req s) : VInv s := by
  obtain ⟨id, os, hv, e⟩ := h
  obtain ⟨s', e', i⟩ := steps_of_inv req (new_vinv id) os hv
  rw [e] at e'
  simp only [Except.ok.injEq] at e'
  exact e' ▸ i

/-! ### C39 -/

/-- C39: with at least one known latitude (longitude), every station lies within the box and each
side touches a station. -/
theorem C39_tight (s : Survey) :
    (∀ p ∈ s.stations, ∀ v, p.2.lat = some v →
      (updateBox s).seLat ≤ v ∧ v ≤ (updateBox s).nwLat ∧
      (∃ q ∈ s.stations, q.2.lat = some (updateBox s).seLat) ∧
      (∃ q ∈ s.stations, q.2.lat = some (updateBox s).nwLat)) ∧
    (∀ p ∈ s.stations, ∀ v, p.2.lon = some v →
      (updateBox s).nwLon ≤ v ∧ v ≤ (updateBox s).seLon ∧
      (∃ q ∈ s.stations, q.2.lon = some (updateBox s).nwLon) ∧
      (∃ q ∈ s.stations, q.2.lon = some (updateBox s).seLon)) := by
  have mem : ∀ (f : St → Option ℚ) (v : ℚ), v ∈ (OD.values s.stations).filterMap f →
      ∃ q ∈ s.stations, f q.2 = some v := by
    intro f v hv
    simp only [List.mem_filterMap, OD.values, List.mem_map] at hv
    obtain ⟨a, ⟨q, hq, rfl⟩, e⟩ := hv
    exact ⟨q, hq, e⟩
  have mem' : ∀ (f : St → Option ℚ) (p : String × St) (v : ℚ), p ∈ s.stations → f p.2 = some v →
      v ∈ (OD.values s.stations).filterMap f := by
    intro f p v hp e
    simp only [List.mem_filterMap, OD.values, List.mem_map]
    exact ⟨p.2, ⟨p, hp, rfl⟩, e⟩
  have m1 := mem St.lat
  have m2 := mem St.lon
  have n1 := mem' St.lat
  have n2 := mem' St.lon
  unfold updateBox
  cases hl : (OD.values s.stations).filterMap St.lat with
  | nil =>
    rw [hl] at n1
    refine ⟨fun p hp v hv => absurd (n1 p v hp hv) (by simp), ?_⟩
    cases hm : (OD.values s.stations).filterMap St.lon with
    | nil => rw [hm] at n2; exact fun p hp v hv => absurd (n2 p v hp hv) (by simp)
    | cons x xs =>
      rw [hm] at n2 m2
      intro p hp v hv
      exact ⟨minOf_le x xs v (n2 p v hp hv), le_maxOf x xs v (n2 p v hp hv),
        m2 _ (minOf_mem x xs), m2 _ (maxOf_mem x xs)⟩
  | cons x xs =>
    rw [hl] at n1 m1
    cases hm : (OD.values s.stations).filterMap St.lon with
    | nil =>
      rw [hm] at n2
      refine ⟨fun p hp v hv => ?_, fun p hp v hv => absurd (n2 p v hp hv) (by simp)⟩
      exact ⟨minOf_le x xs v (n1 p v hp hv), le_maxOf x xs v (n1 p v hp hv),
        m1 _ (minOf_mem x xs), m1 _ (maxOf_mem x xs)⟩
    | cons y ys =>
      rw [hm] at n2 m2
      refine ⟨fun p hp v hv => ?_, fun p hp v hv => ?_⟩
      · exact ⟨minOf_le x xs v (n1 p v hp hv), le_maxOf x xs v (n1 p v hp hv),
          m1 _ (minOf_mem x xs), m1 _ (maxOf_mem x xs)⟩
      · exact ⟨minOf_le y ys v (n2 p v hp hv), le_maxOf y ys v (n2 p v hp hv),
          m2 _ (minOf_mem y ys), m2 _ (maxOf_mem y ys)⟩

/-- C39: with no known latitude (longitude), in particular with no station, that part of the box
is unchanged; nothing but the box ever changes. -/
theorem C39_unchanged (s : Survey) :
    ((∀ p ∈ s.stations, p.2.lat = none) →
      (updateBox s).seLat = s.seLat ∧ (updateBox s).nwLat = s.nwLat) ∧
    ((∀ p ∈ s.stations, p.2.lon = none) →
      (updateBox s).seLon = s.seLon ∧ (updateBox s).nwLon = s.nwLon) ∧
    (updateBox s).stations = s.stations ∧ (updateBox s).startDay = s.startDay ∧
    (updateBox s).stopDay = s.stopDay ∧ (updateBox s).id = s.id := by
  have nil : ∀ f : St → Option ℚ, (∀ p ∈ s.stations, f p.2 = none) →
      (OD.values s.stations).filterMap f = [] := by
    intro f h
    simp only [List.filterMap_eq_nil_iff, OD.values, List.mem_map]
    rintro a ⟨p, hp, rfl⟩
    exact h p hp
  refine ⟨fun h => ?_, fun h => ?_, updateBox_stations s, ?_, ?_, ?_⟩
  · unfold updateBox
    rw [nil St.lat h]
    cases (OD.values s.stations).filterMap St.lon <;> exact ⟨rfl, rfl⟩
  · unfold updateBox
    rw [nil St.lon h]
    cases (OD.values s.stations).filterMap St.lat <;> exact ⟨rfl, rfl⟩
  all_goals
    unfold updateBox
    cases (OD.values s.stations).filterMap St.lat <;>
      cases (OD.values s.stations).filterMap St.lon <;> rfl

theorem minOf_perm {x y : ℚ} {xs ys : List ℚ} (h : (x :: xs).Perm (y :: ys)) :
    minOf x xs = minOf y ys ∧ maxOf x xs = maxOf y ys := by
  constructor
  · exact le_antisymm (minOf_le x xs _ (h.mem_iff.2 (minOf_mem y ys)))
      (minOf_le y ys _ (h.mem_iff.1 (minOf_mem x xs)))
  · exact le_antisymm (le_maxOf y ys _ (h.mem_iff.1 (maxOf_mem x xs)))
      (le_maxOf x xs _ (h.mem_iff.2 (maxOf_mem y ys)))

/-- C39: the box does not depend on the order of the stations. -/
theorem C39_order (s t : Survey) (hp : s.stations.Perm t.stations)
    (h : t = { s with stations := t.stations }) :
    updateBox t = { updateBox s with stations := t.stations } := by
  have pf : ∀ f : St → Option ℚ,
      ((OD.values s.stations).filterMap f).Perm ((OD.values t.stations).filterMap f) := by
    intro f
    exact (hp.map Prod.snd).filterMap f
  have e : ∀ (a b a' b' : List ℚ), a.Perm a' → b.Perm b' →
      (match b' with
        | [] => (match a' with
          | [] => t
          | x :: xs => { t with seLat := minOf x xs, nwLat := maxOf x xs } : Survey)
        | x :: xs => { (match a' with
          | [] => t
          | x :: xs => { t with seLat := minOf x xs, nwLat := maxOf x xs } : Survey) with
            seLon := maxOf x xs, nwLon := minOf x xs } : Survey) =
      { (match b with
        | [] => (match a with
          | [] => s
          | x :: xs => { s with seLat := minOf x xs, nwLat := maxOf x xs } : Survey)
        | x :: xs => { (match a with
          | [] => s
          | x :: xs => { s with seLat := minOf x xs, nwLat := maxOf x xs } : Survey) with
            seLon := maxOf x xs, nwLon := minOf x xs } : Survey) with stations := t.stations } := by
    intro a b a' b' h1 h2
    generalize t.stations = ts at h
    subst h
    cases a with
    | nil =>
      rw [List.nil_perm.1 h1]
      cases b with
      | nil => rw [List.nil_perm.1 h2]
      | cons y ys =>
        cases b' with
        | nil => exact absurd (List.perm_nil.1 h2) (by simp)
        | cons z zs =>
          simp only
          rw [(minOf_perm h2).1, (minOf_perm h2).2]
    | cons x xs =>
      cases a' with
      | nil => exact absurd (List.perm_nil.1 h1) (by simp)
      | cons w ws =>
        cases b with
        | nil =>
          rw [List.nil_perm.1 h2]
          simp only
          rw [(minOf_perm h1).1, (minOf_perm h1).2]
        | cons y ys =>
          cases b' with
          | nil => exact absurd (List.perm_nil.1 h2) (by simp)
          | cons z zs =>
            simp only
            rw [(minOf_perm h1).1, (minOf_perm h1).2, (minOf_perm h2).1, (minOf_perm h2).2]
  exact e _ _ _ _ (pf St.lat) (pf St.lon)

/-- Two stations. -/
def exA : St := { id := "A", lat := some 40, lon := some (-120), body := exStation }
/-- A second station, without latitude. -/
def exB : St := { id := "B", lat := none, lon := some (-110) }
/-- A third one. -/
def exC : St := { id := "C", lat := some (-5), lon := some (-115) }

example : updateBox { stations := [("A", exA), ("B", exB), ("C", exC)] } =
    { stations := [("A", exA), ("B", exB), ("C", exC)], seLat := -5, nwLat := 40, seLon := -110,
      nwLon := -120 } := by decide +kernel

/-! ### C40 -/

/-- C40: after any list of calls no call has raised and station ids are distinct and equal to the
keys. -/
theorem C40_total (req : List String) (id : String) (os : List Op) (hv : ∀ o ∈ os, o.Valid req) :
    ∃ s, steps req { id := id } os = .ok s ∧ (OD.keys s.stations).Nodup ∧
      ∀ p ∈ s.stations, p.2.id = p.1 := by
  obtain ⟨s, e, i⟩ := steps_of_inv req (new_vinv id) os hv
  exact ⟨s, e, i.wf, i.key⟩

theorem getStation_eq (s : Survey) (id : String) : getStation s id = .ok (OD.get? s.stations id) := by
  unfold getStation
  by_cases h : hasStation s id = true
  · rw [if_pos h]
    have hk : id ∈ OD.keys s.stations := by unfold hasStation at h; simpa using h
    obtain ⟨x, e⟩ := Option.isSome_iff_exists.1 ((OD.get?_isSome_iff _ _).2 hk)
    rw [e]
  · rw [if_neg h]
    have hk : id ∉ OD.keys s.stations := by unfold hasStation at h; simpa using h
    rw [(OD.get?_eq_none_iff _ _).2 hk]

theorem hasStation_iff (s : Survey) (id : String) :
    hasStation s id = true ↔ ∃ x, getStation s id = .ok (some x) := by
  rw [getStation_eq]
  unfold hasStation
  simp only [List.contains_iff_mem]
  rw [← OD.get?_isSome_iff, Option.isSome_iff_exists]
  simp

/-- C40: `has_station` and `get_station` agree, and `get_station` never raises. -/
theorem C40_has_get (s : Survey) (id : String) :
    (hasStation s id = true ↔ ∃ x, getStation s id = .ok (some x)) ∧
    (hasStation s id = false ↔ getStation s id = .ok none) := by
  refine ⟨hasStation_iff s id, ?_⟩
  rw [← Bool.not_eq_true, hasStation_iff, getStation_eq]
  cases OD.get? s.stations id <;> simp

/-- C40: adding a new id stores exactly that station, adding a known id stores the old station
updated with the new; every other station is untouched. -/
theorem C40_add (req : List String) (s s' : Survey) (h : Made req s) (x : St)
    (hx : Hist req (fun _ => True) x.body) (upd : Bool) (he : addStation req s x upd = .ok s') :
    (getStation s x.id = .ok none → getStation s' x.id = .ok (some x)) ∧
    (∀ old, getStation s x.id = .ok (some old) →
      ∃ y, old.update req x = .ok y ∧ getStation s' x.id = .ok (some y)) ∧
    (∀ id, id ≠ x.id → getStation s' id = getStation s id) := by
  obtain ⟨s1, y, e, _, _, es, hn, ho⟩ := addStation_of_inv req h.inv x (hist_sinv hx) upd
  rw [he] at e
  simp only [Except.ok.injEq] at e
  subst e
  simp only [getStation_eq, Except.ok.injEq, es]
  refine ⟨?_, ?_, ?_⟩
  · intro h0
    rw [OD.get?_set_self, hn h0]
  · intro old h0
    exact ⟨y, ho old h0, by rw [OD.get?_set_self]⟩
  · intro id hid
    rw [OD.get?_set_ne _ _ hid]

/-- C40: removing takes away exactly that station; an unknown id changes nothing at all. -/
theorem C40_remove (req : List String) (s s' : Survey) (h : Made req s) (id : String) (upd : Bool)
    (he : removeStation s id upd = .ok s') :
    getStation s' id = .ok none ∧
    (∀ j, j ≠ id → getStation s' j = getStation s j) ∧
    (getStation s id = .ok none → s' = s) := by
  obtain ⟨s1, e, _, es⟩ := removeStation_of_inv h.inv id upd
  rw [he] at e
  simp only [Except.ok.injEq] at e
  subst e
  refine ⟨?_, ?_, ?_⟩
  · rw [getStation_eq, es, OD.get?_erase h.inv.wf, if_pos rfl]
  · intro j hj
    rw [getStation_eq, getStation_eq, es, OD.get?_erase h.inv.wf, if_neg (Ne.symm hj)]
  · intro h0
    have : hasStation s id = false := (C40_has_get s id).2.2 h0
    unfold removeStation at he
    simp only [this, Bool.false_eq_true, if_false, Except.ok.injEq] at he
    exact he.symm

/-- Whether an operation adds a station called `id`. -/
def Op.isAdd (id : String) : Op → Bool
  | .add x _ => x.id == id
  | .remove _ _ => false
  | .box => false
  | .time => false

/-- C40: removing with update leaves the box of the remaining stations; without it the box and the dates
stay. -/
theorem C40_remove_box (s s' : Survey) (id : String) (upd : Bool) (hs : hasStation s id = true)
    (he : removeStation s id upd = .ok s') :
    (upd = true → ∀ p ∈ s'.stations, ∀ v,
      (p.2.lat = some v → s'.seLat ≤ v ∧ v ≤ s'.nwLat ∧ (∃ q ∈ s'.stations, q.2.lat = some s'.seLat) ∧
        ∃ q ∈ s'.stations, q.2.lat = some s'.nwLat) ∧
      (p.2.lon = some v → s'.nwLon ≤ v ∧ v ≤ s'.seLon ∧ (∃ q ∈ s'.stations, q.2.lon = some s'.nwLon) ∧
        ∃ q ∈ s'.stations, q.2.lon = some s'.seLon)) ∧
    (upd = false → s' = { s with stations := s'.stations }) := by
  unfold removeStation at he
  rw [if_pos hs] at he
  constructor
  · rintro rfl
    simp only [if_true, Except.ok.injEq] at he
    subst he
    intro p hp v
    have hst := updateBox_stations { s with stations := OD.erase s.stations id }
    have hp' : p ∈ (updateBox { s with stations := OD.erase s.stations id }).stations := hp
    rw [hst] at hp'
    obtain ⟨t1, t2⟩ := C39_tight { s with stations := OD.erase s.stations id }
    have e : (updateTime (updateBox { s with stations := OD.erase s.stations id })).stations =
        OD.erase s.stations id := hst
    rw [e]
    exact ⟨t1 p hp' v, t2 p hp' v⟩
  · rintro rfl
    simp only [Bool.false_eq_true, if_false, Except.ok.injEq] at he
    subst he
    rfl

/-- Whether the last operation about `id` is an add. -/
def lastIsAdd (id : String) : List Op → Bool
  | [] => false
  | o :: os => if os.any (fun q => q.target == some id) then lastIsAdd id os else o.isAdd id

/-- C40: `has_station(id)` holds iff the last operation on `id` was an add. -/
theorem C40_last_op (req : List String) (sid : String) (os : List Op)
    (hv : ∀ o ∈ os, o.Valid req) (s : Survey) (he : steps req { id := sid } os = .ok s)
    (id : String) : hasStation s id = lastIsAdd id os := by
  have key : ∀ (os : List Op) (s0 s : Survey), VInv s0 → (∀ o ∈ os, o.Valid req) →
      steps req s0 os = .ok s →
      hasStation s id = if os.any (fun q => q.target == some id) then lastIsAdd id os
        else hasStation s0 id := by
    intro os
    induction os with
    | nil =>
      intro s0 s _ _ e
      simp only [steps, Except.ok.injEq] at e
      subst e
      simp
    | cons o os ih =>
      intro s0 s h0 hv e
      obtain ⟨s1, e1, i1⟩ := step_of_inv req h0 o (hv o (by simp))
      have e2 : steps req s0 (o :: os) = steps req s1 os := by
        unfold steps; rw [e1]
        cases os <;> rfl
      rw [e2] at e
      rw [ih s1 s i1 (fun q hq => hv q (by simp [hq])) e]
      by_cases hany : (os.any (fun q => q.target == some id)) = true
      · have : ((o :: os).any (fun q => q.target == some id)) = true := by
          rw [List.any_cons, hany, Bool.or_true]
        rw [if_pos hany, if_pos this]
        conv => rhs; unfold lastIsAdd
        rw [if_pos hany]
      · rw [if_neg hany]
        have hl : lastIsAdd id (o :: os) = o.isAdd id := by
          conv => lhs; unfold lastIsAdd
          rw [if_neg hany]
        have hb : os.any (fun q => q.target == some id) = false := by simpa using hany
        rw [List.any_cons, hb, Bool.or_false, hl]
        have hs : ∀ t : Survey, hasStation t id = (OD.keys t.stations).contains id := fun _ => rfl
        cases o with
        | add x upd =>
          obtain ⟨s2, y, e3, _, _, es, _⟩ :=
            addStation_of_inv req h0 x (hist_sinv (hv (.add x upd) (by simp))) upd
          have : s1 = s2 := by
            have := e1.symm.trans e3
            simpa using this
          subst this
          rw [hs, hs, es]
          by_cases hid : x.id = id
          · have hm : id ∈ OD.keys (OD.set s0.stations x.id y) := by
              rw [OD.mem_keys_set]; exact Or.inl hid.symm
            simp [Op.target, Op.isAdd, hid]
            rw [hid] at hm; exact hm
          · simp only [Op.target, Option.some.injEq, beq_iff_eq, hid, if_false]
            rw [Bool.eq_iff_iff]
            simp only [List.contains_iff_mem, OD.mem_keys_set]
            constructor
            · rintro (h | h)
              · exact absurd h.symm hid
              · exact h
            · exact Or.inr
        | remove id' upd =>
          obtain ⟨s2, e3, _, es⟩ := removeStation_of_inv h0 id' upd
          have : s1 = s2 := by
            have := e1.symm.trans e3
            simpa using this
          subst this
          rw [hs, hs, es]
          by_cases hid : id' = id
          · have hm : id ∉ OD.keys (OD.erase s0.stations id') := by
              rw [← OD.get?_eq_none_iff, OD.get?_erase h0.wf, if_pos hid]
            simp only [Op.target, Op.isAdd, hid, beq_self_eq_true, if_true]
            rw [hid] at hm
            simpa using hm
          · simp only [Op.target, Option.some.injEq, beq_iff_eq, hid, if_false]
            rw [Bool.eq_iff_iff]
            simp only [List.contains_iff_mem]
            rw [← OD.get?_isSome_iff, ← OD.get?_isSome_iff, OD.get?_erase h0.wf, if_neg hid]
        | box =>
          have : updateBox s0 = s1 := by simpa [step] using e1
          subst this
          simp [Op.target, hs]
        | time =>
          have : updateTime s0 = s1 := by simpa [step] using e1
          subst this
          simp [Op.target, hs]
  have := key os _ s (new_vinv sid) hv he
  rw [this]
  split
  · rfl
  · next h =>
    have : ∀ os : List Op, ¬ (os.any (fun q => q.target == some id)) = true →
        lastIsAdd id os = false := by
      intro os h
      cases os with
      | nil => rfl
      | cons o os =>
        simp only [List.any_cons, Bool.or_eq_true, not_or] at h
        unfold lastIsAdd
        rw [if_neg h.2]
        cases o with
        | add x u => simpa [Op.target, Op.isAdd] using h.1
        | remove _ _ => rfl
        | box => rfl
        | time => rfl
    rw [this os h]
    rfl

example : lastIsAdd "A" [.add exA true, .remove "A" true, .add exA false, .add exB true] = true ∧
    lastIsAdd "A" [.add exA true, .remove "A" true, .add exB true] = false := by decide +kernel

/-! ### C41 -/

/-- C41: merging experiments keeps every survey of both sides under its id, the right-hand one on a
clash. -/
theorem C41_merge (e o : Experiment) (ho : (OD.keys o).Nodup) (id : String) :
    getSurvey (mergeExp e o) id = (getSurvey o id).or (getSurvey e id) :=
  get?_foldl_set o e id ho

/-- C41: `add_survey` of a new id stores exactly that survey; of a known id it stores the dates and the
nonzero corners of the new one in the old one; other surveys are untouched. -/
theorem C41_add (e : Experiment) (s : Survey) :
    (getSurvey e s.id = none → getSurvey (addSurvey e s) s.id = some s) ∧
    (∀ old, getSurvey e s.id = some old → ∃ y, getSurvey (addSurvey e s) s.id = some y ∧ y.id = s.id ∧
      y.startDay = s.startDay ∧ y.stopDay = s.stopDay ∧ y.stations = old.stations ∧
      (s.seLat ≠ 0 → y.seLat = s.seLat) ∧ (s.seLat = 0 → y.seLat = old.seLat)) ∧
    (∀ id, id ≠ s.id → getSurvey (addSurvey e s) id = getSurvey e id) := by
  unfold addSurvey getSurvey
  constructor
  · intro h; simp [h]
  refine ⟨?_, ?_⟩
  · intro old h
    simp only [h]
    exact ⟨_, OD.get?_set_self .., rfl, rfl, rfl, rfl, fun h0 => if_neg h0, fun h0 => if_pos h0⟩
  · intro id hid
    cases OD.get? e s.id <;> simp [OD.get?_set_ne _ _ hid]

/-- C41: the keys stay distinct under adding, merging and removing. -/
theorem C41_distinct (e o : Experiment) (h : (OD.keys e).Nodup) (s : Survey) (id : String) :
    (OD.keys (addSurvey e s)).Nodup ∧ (OD.keys (mergeExp e o)).Nodup ∧
    (OD.keys (removeSurvey e id)).Nodup := by
  refine ⟨?_, ?_, OD.WF.erase h id⟩
  · unfold addSurvey
    cases OD.get? e s.id <;> exact OD.WF.set h _ _
  · unfold mergeExp
    have : ∀ (o e : Experiment), OD.WF e →
        OD.WF (o.foldl (fun (acc : Experiment) p => OD.set acc p.1 p.2) e) := by
      intro o
      induction o with
      | nil => exact fun e h => h
      | cons p o ih => exact fun e h => ih _ (OD.WF.set h _ _)
    exact this o e h

example : getSurvey (mergeExp [("x", { id := "x" })] [("x", { id := "x", seLat := 1 }), ("y", {})]) "x" =
    some { id := "x", seLat := 1 } := by decide +kernel

/-! ### C84 -/

/-- C84: adding a station under a known id loses none of the runs of either. -/
def C84_claim : Prop :=
  ∀ (req : List String) (s s' : Survey) (x old y : St) (upd : Bool), Made req s →
    Hist req (fun _ => True) x.body → getStation s x.id = .ok (some old) →
    addStation req s x upd = .ok s' → getStation s' x.id = .ok (some y) →
    ∀ id r, OD.get? x.body.runs id = some r → ∃ r', OD.get? y.body.runs id = some r'

/-- Station "A" again, with another run. -/
def exA2 : St :=
  { id := "A", lat := some 41, lon := some (-120),
    body := { runs := [("c", exRunB)], runList := ["c"], recorded := ["hz"], start := 30, stop := 40 } }

theorem exA2_hist : Hist [] (fun _ => True) exA2.body :=
  Hist.add "c" (upd := true) trivial (Hist.new 0 0) exRunB_reachable (by decide +kernel)

theorem hist_mono {req : List String} {f g : Bool → Prop} (hfg : ∀ b, f b → g b) {s : Station}
    (h : Hist req f s) : Hist req g s := by
  induction h with
  | new a b => exact Hist.new a b
  | add id hf _ hr he ih => exact Hist.add id (hfg _ hf) ih hr he
  | remove id hf _ he ih => exact Hist.remove id (hfg _ hf) ih he
  | merge _ _ he ih1 ih2 => exact Hist.merge ih1 ih2 he
  | edit id _ hid hr ih => exact Hist.edit id ih hid hr
  | touch _ he ih => exact Hist.touch ih he
  | time _ ih => exact Hist.time ih

/-- The survey with station "A". -/
def exSurvey : Survey :=
  { id := "s", stations := [("A", exA)], seLat := 40, nwLat := 40, seLon := -120, nwLon := -120 }

theorem exSurvey_made : Made [] exSurvey := by
  refine ⟨"s", [.add exA true], ?_, by decide +kernel⟩
  intro o ho
  simp only [List.mem_singleton] at ho
  subst ho
  exact hist_mono (fun _ _ => trivial) exStation_hist

/-- What is stored after adding the second one. -/
def exA12 : St := { id := "A", lat := some 41, lon := some (-120), body := { exStation with start := 30 } }

/-- C84 is false: run "c" of the added station is dropped. -/
theorem C84_refuted : ¬ C84_claim := by
  intro h
  obtain ⟨r, hr⟩ := h [] exSurvey
    { exSurvey with stations := [("A", exA12)], seLat := 41, nwLat := 41 } exA2 exA exA12 true
    exSurvey_made exA2_hist (by decide +kernel) (by decide +kernel) (by decide +kernel) "c" exRunB
    (by decide +kernel)
  have e : OD.get? exA12.body.runs "c" = none := by decide +kernel
  rw [e] at hr
  cases hr

/-- C84, the half that holds: none of the stored station's own runs disappears. -/
theorem C84_own_runs_partial (req : List String) (s s' : Survey) (x old : St) (upd : Bool)
    (h : Made req s) (hx : Hist req (fun _ => True) x.body)
    (ho : getStation s x.id = .ok (some old)) (he : addStation req s x upd = .ok s') :
    ∃ y, getStation s' x.id = .ok (some y) ∧
      ∀ id, id ∈ OD.keys old.body.runs → id ∈ OD.keys y.body.runs := by
  obtain ⟨y, ey, hy⟩ := (C40_add req s s' h x hx upd he).2.1 old ho
  rw [getStation_eq] at ho
  simp only [Except.ok.injEq] at ho
  obtain ⟨c, ec, _, _, hc⟩ := St.update_of_sinv req x (h.inv.ok _ (OD.mem_of_get? ho))
  rw [ey] at ec
  simp only [Except.ok.injEq] at ec
  subst ec
  exact ⟨y, hy, hc⟩

/-! ### C85 -/

/-- C85: adding a survey under a known id loses none of its stations. -/
def C85_claim : Prop :=
  ∀ (e : Experiment) (s old t : Survey), getSurvey e s.id = some old →
    getSurvey (addSurvey e s) s.id = some t →
    ∀ id x, OD.get? s.stations id = some x → (OD.get? t.stations id).isSome

/-- C85 is false: the stations of the added survey are all dropped (`ListDict.to_dict` is
`None`). -/
theorem C85_refuted : ¬ C85_claim := by
  intro h
  have := h [("s", exSurvey)] { id := "s", stations := [("B", exB)] } exSurvey exSurvey
    (by decide +kernel) (by decide +kernel) "B" exB (by decide +kernel)
  exact absurd this (by decide +kernel)

/-- C85: what happens instead: the stored stations stay, none is taken over, and the survey's
period is replaced by that of the added survey even when that is the default. -/
theorem C85_effect_partial (e : Experiment) (s old : Survey) (h : getSurvey e s.id = some old) :
    ∃ t, getSurvey (addSurvey e s) s.id = some t ∧ t.stations = old.stations ∧
      t.startDay = s.startDay ∧ t.stopDay = s.stopDay ∧
      (s.seLat ≠ 0 → t.seLat = s.seLat) ∧ (s.seLat = 0 → t.seLat = old.seLat) := by
  unfold addSurvey getSurvey at *
  refine ⟨old.update s, by simp [h], rfl, rfl, rfl, ?_, ?_⟩
  · intro h0; simp [Survey.update, h0]
  · intro h0; simp [Survey.update, h0]

/-! ### C86 -/

/-- C86: after `update_time_period` the survey's days cover every station's set times: the start day
begins no later than any start, the end day ends after any end. -/
theorem C86_covers (s : Survey) (p : String × St) (hp : p ∈ s.stations) :
    (p.2.body.start ≠ 0 → (updateTime s).startDay * day ≤ p.2.body.start) ∧
    (p.2.body.stop ≠ 0 → p.2.body.stop < ((updateTime s).stopDay + 1) * day) := by
  have hd : (0 : Int) < day := by decide
  constructor
  · intro h
    have hm : p.2.body.start ∈
        (((OD.values s.stations).map (fun x => x.body.start)).filter (· ≠ 0)) := by
      simp only [List.mem_filter, List.mem_map, OD.values, decide_eq_true_eq]
      exact ⟨⟨p.2, ⟨p, hp, rfl⟩, rfl⟩, h⟩
    show newStartDay _ _ * day ≤ _
    cases hl : (((OD.values s.stations).map (fun x => x.body.start)).filter (· ≠ 0)) with
    | nil => rw [hl] at hm; exact absurd hm (by simp)
    | cons x xs =>
      rw [hl] at hm
      have h1 := minOf_le x xs _ hm
      have h2 : minOf x xs / day * day ≤ minOf x xs := Int.ediv_mul_le _ (by decide)
      simp only [newStartDay]
      split
      · exact le_trans h2 h1
      · split
        · exact le_trans h2 h1
        · next h3 => exact le_trans (not_lt.1 h3) h1
  · intro h
    have hm : p.2.body.stop ∈
        (((OD.values s.stations).map (fun x => x.body.stop)).filter (· ≠ 0)) := by
      simp only [List.mem_filter, List.mem_map, OD.values, decide_eq_true_eq]
      exact ⟨⟨p.2, ⟨p, hp, rfl⟩, rfl⟩, h⟩
    show _ < (newStopDay _ _ + 1) * day
    cases hl : (((OD.values s.stations).map (fun x => x.body.stop)).filter (· ≠ 0)) with
    | nil => rw [hl] at hm; exact absurd hm (by simp)
    | cons x xs =>
      rw [hl] at hm
      have h1 := le_maxOf x xs _ hm
      have h2 : maxOf x xs < (maxOf x xs / day + 1) * day := Int.lt_ediv_add_one_mul_self _ hd
      simp only [newStopDay]
      split
      · exact lt_of_le_of_lt h1 h2
      · split
        · exact lt_of_le_of_lt h1 h2
        · next h3 =>
          refine lt_of_le_of_lt (le_trans h1 (not_lt.1 h3)) ?_
          rw [add_mul]
          omega

/-- C86: a period that is set only grows. -/
theorem C86_grows (s : Survey) :
    (s.startDay ≠ 0 → (updateTime s).startDay ≤ s.startDay) ∧
    (s.stopDay ≠ 0 → s.stopDay ≤ (updateTime s).stopDay) := by
  have hd : (0 : Int) < day := by decide
  constructor
  · intro h
    show newStartDay _ _ ≤ _
    cases hl : (((OD.values s.stations).map (fun x => x.body.start)).filter (· ≠ 0)) with
    | nil => exact le_refl _
    | cons x xs =>
      simp only [newStartDay]
      rw [if_neg h]
      split
      · next h3 =>
        exact Int.le_of_lt (Int.ediv_lt_of_lt_mul hd h3)
      · exact le_refl _
  · intro h
    show _ ≤ newStopDay _ _
    cases hl : (((OD.values s.stations).map (fun x => x.body.stop)).filter (· ≠ 0)) with
    | nil => exact le_refl _
    | cons x xs =>
      simp only [newStopDay]
      rw [if_neg h]
      split
      · next h3 => exact (Int.le_ediv_iff_mul_le hd).2 (Int.le_of_lt h3)
      · exact le_refl _

/-- A station recording from day 3 to the beginning of day 7. -/
def exD : St := { id := "D", body := { start := day * 3 + 5, stop := day * 7 } }
/-- A survey whose start was entered by hand as day 9. -/
def exPeriod : Survey := { stations := [("D", exD)], startDay := 9 }

example : (updateTime exPeriod).startDay = 3 ∧ (updateTime exPeriod).stopDay = 7 := by
  decide +kernel

end Verif.Surveys
