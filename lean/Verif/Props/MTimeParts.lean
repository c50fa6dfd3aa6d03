import Verif.Model.MTimeParts
import Verif.Lemmas.MTime

/-! # C289 – C290: assigning the parts of a time -/

namespace Verif.MTime

/-- A time as `pandas` stores it: 64 bits of nanoseconds, an offset below one day. -/
def Held (s : Stamp) : Prop :=
  (tMin ≤ s.value ∧ s.value ≤ tMax) ∧ -86400 < offsetOf s.zone ∧ offsetOf s.zone < 86400

/-! ## Parts and walls -/

theorem ordinal_of_valid {p : Parts} (h : p.Ok) : (⟨p.y, p.m, p.d⟩ : Date).Valid :=
  ⟨h.1.1, h.2.1.1, h.2.1.2, h.2.2.1.1, h.2.2.1.2⟩

theorem parts_of_wall {p : Parts} {s : Stamp} (h : p.Ok) (hn : 0 ≤ p.ns ∧ p.ns ≤ 999) (hw : s.wall = p.wall) :
    s.parts = p := by
  obtain ⟨y, m, d, hh, mi, ss, us, ns⟩ := p
  have hv := ordinal_of_valid h
  obtain ⟨_, _, _, h4, h5, h6, h7⟩ := h
  simp only [Parts.wall] at hw h4 h5 h6 h7 hn hv
  have hq : s.wall / nsDay = (⟨y, m, d⟩ : Date).ordinal - 719163 := by
    rw [hw]; unfold nsDay; omega
  have hr : s.tod = hh * 3600000000000 + mi * 60000000000 + ss * 1000000000 + us * 1000 + ns := by
    unfold Stamp.tod; rw [hw]; unfold nsDay; omega
  have hd : s.date = ⟨y, m, d⟩ := by
    unfold Stamp.date
    rw [show s.value + offsetOf s.zone * 1000000000 = s.wall from rfl, hq, Int.sub_add_cancel]
    exact ofOrdinal_ordinal hv
  unfold Stamp.parts
  rw [hd, hr]
  simp only [Parts.mk.injEq, true_and]
  refine ⟨by omega, by omega, by omega, by omega, by omega⟩

theorem wall_ord {s : Stamp} (h : Held s) :
    1 ≤ s.wall / nsDay + 719163 ∧ s.wall / nsDay + 719163 ≤ 1000000 := by
  obtain ⟨⟨h1, h2⟩, h3, h4⟩ := h
  unfold tMin at h1; unfold tMax at h2
  unfold Stamp.wall nsDay
  omega

theorem parts_ok {s : Stamp} (h : Held s) : s.parts.Ok ∧ (0 ≤ s.parts.ns ∧ s.parts.ns ≤ 999) ∧ s.parts.wall = s.wall := by
  have ho := wall_ord h
  obtain ⟨hv, he⟩ := ofOrdinal_spec (s.wall / nsDay + 719163) ho.1
  have hd : s.date = ofOrdinal (s.wall / nsDay + 719163) := rfl
  rw [← hd] at hv he
  have hb := dayOfYear_bounds hv
  have hy : s.date.y ≤ 9999 := by
    unfold Date.ordinal daysBeforeYear at he
    omega
  have ht : 0 ≤ s.tod ∧ s.tod < nsDay := by unfold Stamp.tod nsDay; omega
  have hw : s.wall = s.wall / nsDay * nsDay + s.tod := by unfold Stamp.tod nsDay; omega
  unfold nsDay at ht
  obtain ⟨v1, v2, v3, v4, v5⟩ := hv
  refine ⟨⟨⟨v1, hy⟩, ⟨v2, v3⟩, ⟨v4, v5⟩, ?_, ?_, ?_, ?_⟩, ?_, ?_⟩
  · simp only [Stamp.parts]; omega
  · simp only [Stamp.parts]; omega
  · simp only [Stamp.parts]; omega
  · simp only [Stamp.parts]; omega
  · simp only [Stamp.parts]; omega
  · simp only [Stamp.parts, Parts.wall]
    rw [show (⟨s.date.y, s.date.m, s.date.d⟩ : Date) = s.date from rfl, he, hw]
    generalize s.wall / nsDay = k
    unfold nsDay
    omega

theorem stampOf_ok {z : Zone} {p : Parts} {s : Stamp} (h : stampOf z p = .ok s) :
    p.Ok ∧ s.zone = z ∧ s.wall = p.wall ∧ tMin ≤ s.value ∧ s.value ≤ tMax := by
  unfold stampOf at h
  split at h
  · rename_i hp
    simp only at h
    split at h
    · cases h
    · rename_i hb
      injection h with h
      subst h
      refine ⟨hp, rfl, ?_, ?_, ?_⟩
      · simp only [Stamp.wall]; omega
      · simp only; omega
      · simp only; omega
  · cases h

theorem stampOf_held {s : Stamp} (h : Held s) : stampOf s.zone s.parts = .ok s := by
  obtain ⟨hp, _, hw⟩ := parts_ok h
  obtain ⟨⟨h1, h2⟩, _⟩ := h
  unfold stampOf
  have hv : s.parts.wall - offsetOf s.zone * 1000000000 = s.value := by rw [hw]; simp only [Stamp.wall]; omega
  rw [if_pos hp]
  simp only [hv]
  rw [if_neg (by omega)]

theorem get_parts (s : Stamp) (p : Parts) (h : ∀ q, s.get q = (match q with
    | .year => p.y | .month => p.m | .day => p.d | .hour => p.h | .minutes => p.mi | .seconds => p.s
    | .microseconds => p.us | .nanoseconds => p.ns)) : s.parts = p := by
  have a := h .year; have b := h .month; have c := h .day; have d := h .hour
  have e := h .minutes; have f := h .seconds; have g := h .microseconds; have i := h .nanoseconds
  simp only [Stamp.get] at a b c d e f g i
  rw [← show (⟨s.parts.y, s.parts.m, s.parts.d, s.parts.h, s.parts.mi, s.parts.s, s.parts.us, s.parts.ns⟩ : Parts)
    = s.parts from rfl, a, b, c, d, e, f, g, i]

/-! ## C289 one part is set -/

/-- What an assignment should lead to: the part has the value, the other seven are those of before. -/
def Assigned (s t : Stamp) (q : Part) (v : Int) : Prop :=
  t.get q = v ∧ (∀ r, r ≠ q → t.get r = s.get r) ∧ t.zone = s.zone

theorem put_ns {s : Stamp} (h : Held s) (q : Part) (v : Int) (hv : q = .nanoseconds → 0 ≤ v ∧ v ≤ 999) :
    0 ≤ (s.parts.put v q).ns ∧ (s.parts.put v q).ns ≤ 999 := by
  have := (parts_ok h).2.1
  cases q <;> first | exact this | exact hv rfl

theorem put_iff (s t : Stamp) (q : Part) (v : Int) :
    t.parts = s.parts.put v q ↔ t.get q = v ∧ ∀ r, r ≠ q → t.get r = s.get r := by
  constructor
  · intro h
    refine ⟨?_, fun r hr => ?_⟩
    · cases q <;> simp only [Stamp.get, h, Parts.put]
    · cases q <;> cases r <;> first | exact absurd rfl hr | simp only [Stamp.get, h, Parts.put]
  · rintro ⟨h1, h2⟩
    refine get_parts _ _ (fun r => ?_)
    by_cases e : r = q
    · subst e; rw [h1]; cases r <;> rfl
    · rw [h2 r e]
      cases q <;> cases r <;> first | exact absurd rfl e | rfl

/-- C289, after an assignment: the part has the assigned value, the other seven parts, the zone and the flag of GPS
are those of before, and the result is again a time of 64 bits. -/
theorem C289_sets (a b : MT) (q : Part) (v : Int) (ha : Held a.ts) (hv : q = .nanoseconds → 0 ≤ v ∧ v ≤ 999)
    (h : a.put q v = .ok b) : Assigned a.ts b.ts q v ∧ b.gps = a.gps ∧ Held b.ts := by
  unfold MT.put at h
  cases hs : stampOf a.ts.zone (a.ts.parts.put v q) with
  | error e => rw [hs] at h; cases h
  | ok t =>
    rw [hs] at h
    injection h with h
    subst h
    obtain ⟨hp, hz, hw, h1, h2⟩ := stampOf_ok hs
    have hparts := parts_of_wall hp (put_ns ha q v hv) hw
    have := (put_iff a.ts t q v).1 hparts
    exact ⟨⟨this.1, this.2, hz⟩, rfl, ⟨⟨h1, h2⟩, by rw [hz]; exact ha.2⟩⟩

/-- C289, when an assignment succeeds: exactly if there is a time of 64 bits that differs in this part only.
Otherwise it raises `ValueError`. -/
theorem C289_iff (a : MT) (q : Part) (v : Int) (ha : Held a.ts) (hv : q = .nanoseconds → 0 ≤ v ∧ v ≤ 999) :
    ((∃ b, a.put q v = .ok b) ↔ ∃ t, Held t ∧ Assigned a.ts t q v) ∧
      ((¬ ∃ b, a.put q v = .ok b) → a.put q v = .error .valueError) := by
  refine ⟨⟨?_, ?_⟩, ?_⟩
  · rintro ⟨b, h⟩
    obtain ⟨h1, _, h3⟩ := C289_sets a b q v ha hv h
    exact ⟨b.ts, h3, h1⟩
  · rintro ⟨t, ht, h1, h2, hz⟩
    have hp := (put_iff a.ts t q v).2 ⟨h1, h2⟩
    refine ⟨{ a with ts := t }, ?_⟩
    unfold MT.put
    rw [← hp, ← hz, stampOf_held ht]
  · intro h
    unfold MT.put at h ⊢
    cases hs : stampOf a.ts.zone (a.ts.parts.put v q) with
    | ok t => exact absurd ⟨_, by rw [hs]⟩ h
    | error e =>
      unfold stampOf at hs
      split at hs
      · simp only at hs
        split at hs
        · injection hs with hs; rw [← hs]
        · cases hs
      · injection hs with hs; rw [← hs]

/-- C289, two times with the same parts and zone are the same time, so the result is the only one possible. -/
theorem C289_only (s t : Stamp) (hs : Held s) (ht : Held t) (hz : t.zone = s.zone) (h : ∀ q, t.get q = s.get q) :
    t = s := by
  have hp : t.parts = s.parts := get_parts _ _ (fun q => by rw [h q]; cases q <;> rfl)
  have a := stampOf_held hs
  have b := stampOf_held ht
  rw [hp, hz, a] at b
  injection b with b
  exact b.symm

/-- C289: to assign a part the value it has changes nothing. -/
theorem C289_same (a : MT) (q : Part) (ha : Held a.ts) : a.put q (a.ts.get q) = .ok a := by
  have hp : a.ts.parts.put (a.ts.get q) q = a.ts.parts := by cases q <;> rfl
  unfold MT.put
  rw [hp, stampOf_held ha]

/-- Last of January 2024, 12:30:45.000006007 UTC. -/
def jan31 : MT := ⟨false, ⟨1706704245000006007, .fixed 0⟩⟩

/-- The hypotheses are met, parts are as read off the clock, and both outcomes occur. -/
theorem C289_example : Held jan31.ts ∧ jan31.ts.parts = ⟨2024, 1, 31, 12, 30, 45, 6, 7⟩ ∧
    (∃ b, jan31.put .hour 23 = .ok b ∧ b.ts.parts = ⟨2024, 1, 31, 23, 30, 45, 6, 7⟩) ∧
    jan31.put .hour 24 = .error .valueError ∧ jan31.put .month 2 = .error .valueError ∧
    jan31.put .year 2263 = .error .valueError := by
  refine ⟨by unfold Held; decide +kernel, by decide +kernel, ⟨⟨false, ⟨1706743845000006007, .fixed 0⟩⟩, by decide +kernel,
    by decide +kernel⟩, by decide +kernel, by decide +kernel, by decide +kernel⟩

/-! ## C290 a date is set part by part -/

/-- C290, full statement: assigning year, month and day of a date that exists, one after the other, gives this date
at the same time of day. -/
def C290_claim : Prop :=
  ∀ (a : MT) (g : Date), Held a.ts → a.ts.zone = .fixed 0 → g.Valid → 1678 ≤ g.y → g.y ≤ 2261 →
    ∃ b, a.putDate g.y g.m g.d = .ok b ∧ b.ts.date = g ∧ b.ts.tod = a.ts.tod

/-- C290 is false of the code: from the last of January to the first of February raises `ValueError`, as there is no
31 February on the way. -/
theorem C290_refuted : ¬ C290_claim := by
  intro h
  obtain ⟨b, hb, _⟩ := h jan31 ⟨2024, 2, 1⟩ C289_example.1 rfl
    ⟨by decide, by decide, by decide, by decide, by decide⟩ (by decide) (by decide)
  have : jan31.putDate 2024 2 1 = .error .valueError := by decide +kernel
  rw [this] at hb
  cases hb

theorem inside {p : Parts} (h : p.Ok) (hn : 0 ≤ p.ns ∧ p.ns ≤ 999) (h1 : 1678 ≤ p.y) (h2 : p.y ≤ 2261) :
    tMin ≤ p.wall ∧ p.wall ≤ tMax := by
  have hb := dayOfYear_bounds (ordinal_of_valid h)
  obtain ⟨_, _, _, h4, h5, h6, h7⟩ := h
  simp only at hb
  have : (if isLeap p.y then (1 : Int) else 0) ≤ 1 := by split <;> omega
  unfold Parts.wall Date.ordinal daysBeforeYear tMin tMax nsDay
  simp only
  omega

theorem put_date {a : MT} {q : Part} {v : Int} (ha : Held a.ts) (hz : a.ts.zone = .fixed 0) (hq : q ≠ .nanoseconds)
    (hp : (a.ts.parts.put v q).Ok) (h1 : 1678 ≤ (a.ts.parts.put v q).y) (h2 : (a.ts.parts.put v q).y ≤ 2261) :
    ∃ b, a.put q v = .ok b ∧ b.ts.parts = a.ts.parts.put v q ∧ Held b.ts ∧ b.ts.zone = .fixed 0 := by
  have hn := put_ns ha q v (fun e => absurd e hq)
  have hi := inside hp hn h1 h2
  have hs : stampOf a.ts.zone (a.ts.parts.put v q) = .ok ⟨(a.ts.parts.put v q).wall, .fixed 0⟩ := by
    have hv : (a.ts.parts.put v q).wall - offsetOf (.fixed 0) * 1000000000 = (a.ts.parts.put v q).wall := by
      simp [offsetOf]
    unfold stampOf
    rw [if_pos hp, hz]
    simp only [hv]
    rw [if_neg (by omega)]
  refine ⟨{ a with ts := ⟨(a.ts.parts.put v q).wall, .fixed 0⟩ }, by unfold MT.put; rw [hs], ?_, ?_, rfl⟩
  · exact parts_of_wall hp hn (by simp [Stamp.wall, offsetOf])
  · exact ⟨hi, by simp [offsetOf]⟩

theorem days28 (y m : Int) : 28 ≤ daysInMonth y m := by
  unfold daysInMonth; split
  · split <;> omega
  · split <;> omega

/-- C290, what holds: if the time lies on one of the first 28 days of its month every date of the range can be
assigned this way, and nothing but the date changes. -/
theorem C290_date_partial (a : MT) (g : Date) (ha : Held a.ts) (hz : a.ts.zone = .fixed 0) (hg : g.Valid)
    (h1 : 1678 ≤ g.y) (h2 : g.y ≤ 2261) (h28 : a.ts.get .day ≤ 28) :
    ∃ b, a.putDate g.y g.m g.d = .ok b ∧ b.ts.date = g ∧ b.ts.get .hour = a.ts.get .hour ∧
      b.ts.get .minutes = a.ts.get .minutes ∧ b.ts.get .seconds = a.ts.get .seconds ∧
      b.ts.get .microseconds = a.ts.get .microseconds ∧ b.ts.get .nanoseconds = a.ts.get .nanoseconds := by
  obtain ⟨⟨_, p2, p3, p4, p5, p6, p7⟩, _, _⟩ := parts_ok ha
  obtain ⟨g1, g2, g3, g4, g5⟩ := hg
  simp only [Stamp.get] at h28
  have d1 := days28 g.y a.ts.parts.m
  have d2 := days28 g.y g.m
  obtain ⟨b, hb, eb, Hb, zb⟩ := put_date (q := .year) (v := g.y) ha hz (by decide)
    ⟨⟨g1, by simp only [Parts.put]; omega⟩, p2, ⟨p3.1, by simp only [Parts.put]; omega⟩, p4, p5, p6, p7⟩ h1 h2
  obtain ⟨c, hc, ec, Hc, zc⟩ := put_date (q := .month) (v := g.m) Hb zb (by decide)
    (by rw [eb]; exact ⟨⟨g1, by simp only [Parts.put]; omega⟩, ⟨g2, g3⟩, ⟨p3.1, by simp only [Parts.put]; omega⟩, p4, p5, p6, p7⟩)
    (by rw [eb]; exact h1) (by rw [eb]; exact h2)
  obtain ⟨d, hd, ed, _, _⟩ := put_date (q := .day) (v := g.d) Hc zc (by decide)
    (by rw [ec, eb]; exact ⟨⟨g1, by simp only [Parts.put]; omega⟩, ⟨g2, g3⟩, ⟨g4, g5⟩, p4, p5, p6, p7⟩)
    (by rw [ec, eb]; exact h1) (by rw [ec, eb]; exact h2)
  rw [ec, eb] at ed
  have hdate : d.ts.date = ⟨d.ts.parts.y, d.ts.parts.m, d.ts.parts.d⟩ := rfl
  refine ⟨d, ?_, by rw [hdate, ed]; rfl, ?_⟩
  · unfold MT.putDate
    rw [hb]
    simp only [Except.bind]
    rw [hc]
    exact hd
  · simp only [Stamp.get, ed, Parts.put, and_self]

/-- C290: the day is lost on the way exactly then: if the month is assigned while the day does not exist in it, the
assignment raises `ValueError`. -/
theorem C290_fails_partial (a : MT) (m : Int) (ha : Held a.ts) (h : daysInMonth (a.ts.get .year) m < a.ts.get .day) :
    a.put .month m = .error .valueError := by
  refine (C289_iff a .month m ha (fun e => (by cases e))).2 ?_
  rintro ⟨b, hb⟩
  obtain ⟨⟨h1, h2, _⟩, _, h3⟩ := C289_sets a b .month m ha (fun e => (by cases e)) hb
  have hp := (parts_ok h3).1.2.2.1.2
  have e1 : b.ts.parts.y = a.ts.get .year := h2 .year (by decide)
  have e2 : b.ts.parts.d = a.ts.get .day := h2 .day (by decide)
  have e3 : b.ts.parts.m = m := h1
  rw [e1, e2, e3] at hp
  omega

/-- Beside `C290_date_partial` and `C290_fails_partial`: both kinds of times exist. -/
theorem C290_example : (⟨0, .fixed 0⟩ : Stamp).get .day = 1 ∧ Held ⟨0, .fixed 0⟩ ∧ (⟨2024, 2, 29⟩ : Date).Valid ∧
    daysInMonth (jan31.ts.get .year) 2 < jan31.ts.get .day :=
  ⟨by decide +kernel, by unfold Held; decide +kernel, ⟨by decide, by decide, by decide, by decide, by decide +kernel⟩,
    by decide +kernel⟩

end Verif.MTime
