import Verif.Model.MDate
import Verif.Lemmas.MTime
import Verif.Props.MTime

/-! # C320 – C322: calculating with dates -/

namespace Verif.MTime

/-- The date is strictly inside the range of times, and has a zone (all parsed ones have). -/
def Inside (s : Stamp) : Prop := tMin < s.value ∧ s.value < tMax ∧ s.zone ≠ .naive

theorem mk'_same (w : Int) (z : Zone) (hz : z ≠ .naive) (hw : w % 1000 ≤ 500) (h1 : tMin < w) (h2 : w < tMax) :
    MT.mk' ⟨w, z⟩ false = .ok ⟨false, ⟨w, z⟩⟩ := by
  have e : roundUp w = w := by unfold roundUp; rw [if_pos hw]
  have : parseStamp ⟨w, z⟩ false = .ok ⟨w, z⟩ := by
    rw [parse_mid (s := ⟨w, z⟩) h1 h2]
    simp only [e, if_neg (show ¬ tMax < w by omega)]
    rw [localizeUtc_of_aware (s := ⟨w, z⟩) hz]
  simp only [MT.mk', this, bind, Except.bind]

/-- Times that were parsed have at most 500 odd nanoseconds. -/
theorem mk'_ns {s : Stamp} {a : MT} (h : MT.mk' s false = .ok a) (hi : Inside a.ts) :
    a.ts.value % 1000 ≤ 500 ∧ a.gps = false := by
  have hp : parseStamp s false = .ok a.ts ∧ a.gps = false := by
    cases e : parseStamp s false with
    | error x => simp only [MT.mk', e, bind, Except.bind] at h; cases h
    | ok t =>
      simp only [MT.mk', e, bind, Except.bind, Except.ok.injEq] at h
      subst h
      exact ⟨rfl, rfl⟩
  refine ⟨?_, hp.2⟩
  rcases parse_value hp.1 with ⟨_, e⟩ | ⟨_, e⟩ | ⟨h1, h2, h3, e⟩
  · rw [e] at hi; exact absurd hi.1 (by unfold tMin; simp)
  · rw [e] at hi; exact absurd hi.2.1 (by unfold tMax; simp)
  · rw [e]; unfold roundUp; simp only; split <;> omega

/-- Midnight of the date shown, as it is parsed: the same date, in UTC, if it is inside the range. -/
theorem asDate_eq (a : MT) (h1 : tMin < a.ts.wall / nsDay * nsDay) (h2 : a.ts.wall / nsDay * nsDay < tMax) :
    a.asDate = .ok ⟨false, ⟨a.ts.wall / nsDay * nsDay, .fixed 0⟩⟩ := by
  have hw : (a.ts.wall / nsDay * nsDay) % 1000 ≤ 500 := by
    unfold nsDay; omega
  have e : roundUp (a.ts.wall / nsDay * nsDay) = a.ts.wall / nsDay * nsDay := by unfold roundUp; rw [if_pos hw]
  have : parseStamp a.midnight false = .ok ⟨a.ts.wall / nsDay * nsDay, .fixed 0⟩ := by
    rw [parse_mid (s := a.midnight) h1 h2]
    simp only [MT.midnight, e, if_neg (show ¬ tMax < a.ts.wall / nsDay * nsDay by omega)]
    rfl
  simp only [MT.asDate, MT.mk', this, bind, Except.bind]

/-- The stamp of a date whose midnight is inside the range as well. -/
def Day (a : MT) : Prop := tMin < a.ts.wall / nsDay * nsDay ∧ a.ts.wall / nsDay * nsDay < tMax

theorem subDate_eq (a b : MT) (hb : Day b) : a.subDate b = .ok (a.ts.value - b.ts.wall / nsDay * nsDay) := by
  have hw : (b.ts.wall / nsDay * nsDay) % 1000 ≤ 500 := by
    unfold nsDay; omega
  simp only [MT.subDate, asDate_eq b hb.1 hb.2, Except.bind,
    mk'_same _ (.fixed 0) (fun h => (by cases h)) hw hb.1 hb.2]

/-! ## C320: differences -/

/-- The claim: a date and the date some days later differ by as many days. -/
def C320_claim : Prop :=
  ∀ (s : Stamp) (a b : MT) (n : Int), MT.mk' s false = .ok a → Day a → a.addDays n = .ok b →
    b.subDate a = .ok (n * nsDay)

/-- The claim is false: the date that is subtracted loses its time of day, so a date of 12 o'clock differs by half a day
from itself. -/
theorem C320_refuted : ¬ C320_claim := by
  intro h
  have := h ⟨43200000000000, .fixed 0⟩ ⟨false, ⟨43200000000000, .fixed 0⟩⟩ ⟨false, ⟨43200000000000, .fixed 0⟩⟩ 0
    (by decide) (by unfold Day; decide) (by decide)
  revert this
  decide

theorem addDays_eq (a : MT) (n : Int) (b : MT) (hns : a.ts.value % 1000 ≤ 500) (hz : a.ts.zone ≠ .naive)
    (h : a.addDays n = .ok b) (hb : Inside b.ts) :
    b = ⟨false, ⟨a.ts.value + n * nsDay, a.ts.zone⟩⟩ ∧ tMin ≤ n * nsDay ∧ n * nsDay ≤ tMax := by
  unfold MT.addDays days at h
  split at h
  · cases h
  · rename_i hd
    simp only [Except.bind, MT.add] at h
    split at h
    · cases h
    · rename_i hv
      by_cases hi : tMin < a.ts.value + n * nsDay ∧ a.ts.value + n * nsDay < tMax
      · rw [mk'_same _ _ hz (by unfold nsDay; omega) hi.1 hi.2] at h
        injection h with h
        exact ⟨h.symm, by omega, by omega⟩
      · exfalso
        have hp : parseStamp ⟨a.ts.value + n * nsDay, a.ts.zone⟩ false = .ok b.ts := by
          cases e : parseStamp ⟨a.ts.value + n * nsDay, a.ts.zone⟩ false with
          | error x => simp only [MT.mk', e, bind, Except.bind] at h; cases h
          | ok t => simp only [MT.mk', e, bind, Except.bind, Except.ok.injEq] at h; subst h; rfl
        rcases parse_value hp with ⟨_, e⟩ | ⟨_, e⟩ | ⟨h1, h2, h3, e⟩
        · rw [e] at hb; exact absurd hb.1 (by unfold tMin; simp)
        · rw [e] at hb; exact absurd hb.2.1 (by unfold tMax; simp)
        · simp only at h1 h2
          have hl : (localizeUtc ⟨a.ts.value + n * nsDay, a.ts.zone⟩).value = a.ts.value + n * nsDay := by
            unfold localizeUtc; split <;> rfl
          first
            | exact hi ⟨h1, h2⟩
            | (rw [hl] at h1 h2; exact hi ⟨h1, h2⟩)

/-- What the difference is: the days, and the time of day (in UTC) of the date that is subtracted; so it is the days exactly
for dates at midnight. -/
theorem C320_difference_partial (s : Stamp) (a b : MT) (n : Int) (h : MT.mk' s false = .ok a) (hz : a.ts.zone = .fixed 0)
    (ha : Inside a.ts) (hd : Day a) (hb : Inside b.ts) (hab : a.addDays n = .ok b) :
    b.subDate a = .ok (n * nsDay + a.ts.value % nsDay) ∧
    (b.subDate a = .ok (n * nsDay) ↔ a.ts.value % nsDay = 0) := by
  obtain ⟨hns, -⟩ := mk'_ns h ha
  obtain ⟨rfl, -, -⟩ := addDays_eq a n b hns ha.2.2 hab hb
  have hw : a.ts.wall = a.ts.value := by unfold Stamp.wall; rw [hz]; simp [offsetOf]
  rw [subDate_eq _ a hd, hw]
  have e : a.ts.value + n * nsDay - a.ts.value / nsDay * nsDay = n * nsDay + a.ts.value % nsDay := by
    unfold nsDay; omega
  refine ⟨congrArg Except.ok e, ?_⟩
  simp only [e, Except.ok.injEq]
  constructor <;> intro h <;> omega

example : MT.addDays ⟨false, defaultStamp⟩ 31 = .ok ⟨false, ⟨318211200000000000, .fixed 0⟩⟩ ∧
    Inside defaultStamp ∧ Day ⟨false, defaultStamp⟩ := by
  refine ⟨by decide, ⟨by decide, by decide, by decide⟩, by unfold Day; decide⟩

/-! ## C321: adding and subtracting days -/

/-- Adding days gives the date as many days later on the calendar, in the same zone and at the same time of day, and
subtracting them gives the date back. -/
theorem C321_days (s : Stamp) (a b : MT) (n : Int) (h : MT.mk' s false = .ok a) (ha : Inside a.ts) (hb : Inside b.ts)
    (ho : ZoneOK a.ts.zone) (hab : a.addDays n = .ok b) :
    a.isodate.Valid ∧ b.isodate.Valid ∧ b.isodate.ordinal = a.isodate.ordinal + n ∧ b.ts.tod = a.ts.tod ∧
    b.ts.zone = a.ts.zone ∧ b.subDays n = .ok a := by
  obtain ⟨hns, hg⟩ := mk'_ns h ha
  obtain ⟨rfl, h1, h2⟩ := addDays_eq a n b hns ha.2.2 hab hb
  have na : 1 ≤ (a.ts.value + offsetOf a.ts.zone * 1000000000) / nsDay + 719163 := by
    have := ha.1
    unfold ZoneOK tMin nsDay at *; omega
  have nb : 1 ≤ (a.ts.value + n * nsDay + offsetOf a.ts.zone * 1000000000) / nsDay + 719163 := by
    have := hb.1
    simp only at this
    unfold ZoneOK tMin nsDay at *; omega
  obtain ⟨va, oa⟩ := ofOrdinal_spec _ na
  obtain ⟨vb, ob⟩ := ofOrdinal_spec _ nb
  refine ⟨va, vb, ?_, ?_, rfl, ?_⟩
  · unfold MT.isodate Stamp.date
    simp only
    rw [oa, ob]
    unfold nsDay; omega
  · unfold Stamp.tod Stamp.wall
    simp only
    unfold nsDay; omega
  · unfold MT.subDays days
    rw [if_neg (by omega)]
    simp only [Except.bind, MT.subDelta]
    have hav : a.ts.value + n * nsDay - n * nsDay = a.ts.value := by omega
    have h3 := ha.1
    have h4 := ha.2.1
    rw [hav, if_neg (by omega)]
    have := mk'_same a.ts.value a.ts.zone ha.2.2 hns ha.1 ha.2.1
    rw [this]
    obtain ⟨g, ⟨v, z⟩⟩ := a
    have hg : g = false := hg
    rw [hg]

example : (⟨false, defaultStamp⟩ : MT).isodate.ordinal + 31 = (⟨1980, 2, 1⟩ : Date).ordinal ∧ ZoneOK defaultStamp.zone := by
  refine ⟨by decide, ?_⟩
  unfold ZoneOK; decide

/-! ## C322: written and read again -/

/-- The claim: a date read from its dictionary equals the date. -/
def C322_claim : Prop :=
  ∀ (s : Stamp) (a : MT), MT.mk' s false = .ok a → Inside a.ts → Day a → ∃ b, a.asDate = .ok b ∧ b.eq a = true

/-- The claim is false: the time of day is not written, but compared. -/
theorem C322_refuted : ¬ C322_claim := by
  intro h
  obtain ⟨b, hb, he⟩ := h ⟨43200000000000, .fixed 0⟩ ⟨false, ⟨43200000000000, .fixed 0⟩⟩ (by decide)
    ⟨by decide, by decide, by decide⟩ (by unfold Day; decide)
  rw [show MT.asDate ⟨false, ⟨43200000000000, .fixed 0⟩⟩ = .ok ⟨false, ⟨0, .fixed 0⟩⟩ from by decide] at hb
  injection hb with hb
  subst hb
  revert he
  decide

/-- What is read is midnight, in UTC, of the same date; it equals the date exactly if that is at midnight in UTC. -/
theorem C322_date_partial (a : MT) (hd : Day a) :
    ∃ b, a.asDate = .ok b ∧ b.isodate = a.isodate ∧ b.ts.tod = 0 ∧ b.ts.zone = .fixed 0 ∧
      (b.eq a = true ↔ a.ts.zone = .fixed 0 ∧ a.ts.value % nsDay = 0) := by
  refine ⟨_, asDate_eq a hd.1 hd.2, ?_, ?_, rfl, ?_⟩
  · unfold MT.isodate Stamp.date Stamp.wall
    simp only [offsetOf]
    congr 1
    unfold nsDay; omega
  · unfold Stamp.tod
    show (a.ts.wall / nsDay * nsDay + 0 * 1000000000) % nsDay = 0
    unfold nsDay; omega
  · simp only [MT.eq, Bool.and_eq_true, beq_iff_eq]
    constructor
    · rintro ⟨h1, h2⟩
      have hw : a.ts.wall = a.ts.value := by unfold Stamp.wall; rw [← h2]; simp [offsetOf]
      rw [hw] at h1
      refine ⟨h2.symm, ?_⟩
      unfold nsDay at *; omega
    · rintro ⟨h1, h2⟩
      have hw : a.ts.wall = a.ts.value := by unfold Stamp.wall; rw [h1]; simp [offsetOf]
      rw [hw]
      refine ⟨?_, h1.symm⟩
      unfold nsDay at *; omega

example : Day ⟨false, defaultStamp⟩ := by
  unfold Day; decide

end Verif.MTime
