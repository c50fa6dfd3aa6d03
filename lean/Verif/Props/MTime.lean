import Verif.Lemmas.MTime

/-!
Properties C15-C21 and C75-C77: time stamps (mt_metadata/common/mttime.py).
-/

namespace Verif.MTime

/-! ### C15 leap seconds -/

/-- The supported range of the table: 1980-01-01 (included) to 2026-07-01 (excluded). -/
def InRange (g : Date) : Prop := ¬ g.lt ⟨1980, 1, 1⟩ ∧ g.lt ⟨2026, 7, 1⟩

/-- The days from which one more leap second applies (the documented date ranges,
mttime.py docstring L94-L117). -/
def leapStarts : List Date := [
  ⟨1981, 7, 1⟩, ⟨1982, 7, 1⟩, ⟨1983, 7, 1⟩, ⟨1985, 7, 1⟩, ⟨1988, 1, 1⟩, ⟨1990, 1, 1⟩,
  ⟨1991, 1, 1⟩, ⟨1992, 7, 1⟩, ⟨1993, 7, 1⟩, ⟨1994, 7, 1⟩, ⟨1996, 1, 1⟩, ⟨1997, 7, 1⟩,
  ⟨1999, 1, 1⟩, ⟨2006, 1, 1⟩, ⟨2009, 1, 1⟩, ⟨2012, 7, 1⟩, ⟨2015, 7, 1⟩, ⟨2017, 1, 1⟩]

/-- Documented leap seconds at a date: how many of those days have been reached. -/
def documentedLeap (g : Date) : Nat := leapStarts.countP (fun s => decide (¬ g.lt s))

/-- C15, full statement: defined on every date of the range, never decreasing. -/
def C15_claim : Prop :=
  (∀ g : Date, g.Valid → InRange g → ∃ k, calculateLeapSeconds g = .ok k) ∧
  (∀ g h : Date, ∀ k l, g.Valid → h.Valid → g.lt h → calculateLeapSeconds g = .ok k →
    calculateLeapSeconds h = .ok l → k ≤ l)

/-- C15 is false of the code: 2012-06-30 lies in the range and raises ValueError. -/
theorem C15_refuted : ¬ C15_claim := by
  intro h
  obtain ⟨k, hk⟩ := h.1 ⟨2012, 6, 30⟩ (by simp [Date.Valid, daysInMonth]) (by simp [InRange, Date.lt])
  have : calculateLeapSeconds ⟨2012, 6, 30⟩ = .error .valueError := by decide
  rw [this] at hk
  cases hk

/-- C15, exactly the dates with a value: the range without the two gap days. Everything
else raises ValueError. -/
theorem C15_defined_partial (g : Date) (hg : g.Valid) :
    ((∃ k, calculateLeapSeconds g = .ok k) ↔
      InRange g ∧ g ≠ ⟨2012, 6, 30⟩ ∧ g ≠ ⟨2016, 12, 31⟩) ∧
    ((¬ ∃ k, calculateLeapSeconds g = .ok k) → calculateLeapSeconds g = .error .valueError) := by
  constructor
  · have v1 : (⟨1980, 1, 1⟩ : Date).Valid := by simp [Date.Valid, daysInMonth]
    have v2 : (⟨2026, 7, 1⟩ : Date).Valid := by simp [Date.Valid, daysInMonth]
    have v3 : (⟨2012, 6, 30⟩ : Date).Valid := by simp [Date.Valid, daysInMonth]
    have v4 : (⟨2016, 12, 31⟩ : Date).Valid := by simp [Date.Valid, daysInMonth]
    have e1 : (⟨1980, 1, 1⟩ : Date).ordinal = 722815 := by decide
    have e2 : (⟨2026, 7, 1⟩ : Date).ordinal = 739798 := by decide
    have e3 : (⟨2012, 6, 30⟩ : Date).ordinal = 734684 := by decide
    have e4 : (⟨2016, 12, 31⟩ : Date).ordinal = 736329 := by decide
    have n3 : g = ⟨2012, 6, 30⟩ ↔ g.ordinal = 734684 :=
      ⟨fun h => by rw [h, e3], fun h => ordinal_inj hg v3 (by rw [h, e3])⟩
    have n4 : g = ⟨2016, 12, 31⟩ ↔ g.ordinal = 736329 :=
      ⟨fun h => by rw [h, e4], fun h => ordinal_inj hg v4 (by rw [h, e4])⟩
    unfold InRange
    rw [lt_iff_ordinal hg v1, lt_iff_ordinal hg v2, e1, e2, ne_eq, n3, ne_eq, n4]
    constructor
    · rintro ⟨k, hk⟩
      have := (leap_ok_iff hg k).1 hk
      unfold LeapAt at this
      omega
    · intro h
      have : ∃ k, LeapAt k g.ordinal := by
        unfold LeapAt
        simp only [exists_or, exists_eq_left]
        omega
      obtain ⟨k, hk⟩ := this
      exact ⟨k, (leap_ok_iff hg k).2 hk⟩
  · intro h
    cases hc : calculateLeapSeconds g with
    | ok k => exact absurd ⟨k, hc⟩ h
    | error e => rw [leap_error hc]

example : (⟨2016, 12, 30⟩ : Date).Valid ∧ InRange ⟨2016, 12, 30⟩ ∧
    calculateLeapSeconds ⟨2016, 12, 30⟩ = .ok 17 := by
  refine ⟨by simp [Date.Valid, daysInMonth], by simp [InRange, Date.lt], by decide⟩

/-- C15: whenever a value is returned it is the documented one. -/
theorem C15_documented (g : Date) (hg : g.Valid) (k : Int) (h : calculateLeapSeconds g = .ok k) :
    k = documentedLeap g := by
  have hk := (leap_ok_iff hg k).1 h
  have hs : ∀ s ∈ leapStarts, s.Valid := by
    simp [leapStarts, Date.Valid, daysInMonth]
  have hd : documentedLeap g = (leapStarts.map Date.ordinal).countP (fun s => decide (s ≤ g.ordinal)) := by
    unfold documentedLeap
    rw [List.countP_map]
    apply List.countP_congr
    intro s hs'
    simp only [Function.comp, decide_eq_true_eq]
    rw [lt_iff_ordinal hg (hs s hs')]
    omega
  have hl : leapStarts.map Date.ordinal = [723362, 723727, 724092, 724823, 725737, 726468, 726833,
      727380, 727745, 728110, 728659, 729206, 729755, 732312, 733408, 734685, 735780, 736330] := by
    decide
  rw [hd, hl]
  unfold LeapAt at hk
  generalize g.ordinal = n at hk
  rcases hk with ⟨rfl, h⟩ | ⟨rfl, h⟩ | ⟨rfl, h⟩ | ⟨rfl, h⟩ | ⟨rfl, h⟩ | ⟨rfl, h⟩ | ⟨rfl, h⟩ | ⟨rfl, h⟩ |
    ⟨rfl, h⟩ | ⟨rfl, h⟩ | ⟨rfl, h⟩ | ⟨rfl, h⟩ | ⟨rfl, h⟩ | ⟨rfl, h⟩ | ⟨rfl, h⟩ | ⟨rfl, h⟩ | ⟨rfl, h⟩ |
    ⟨rfl, h⟩ | ⟨rfl, h⟩ <;>
  · repeat (first
      | rw [List.countP_cons_of_pos (by simp only [decide_eq_true_eq]; omega)]
      | rw [List.countP_cons_of_neg (by simp only [decide_eq_true_eq]; omega)])
    rfl

/-- C15: never decreasing with the date. -/
theorem C15_monotone (g h : Date) (hg : g.Valid) (hh : h.Valid) (k l : Int) (hlt : ¬ h.lt g)
    (h1 : calculateLeapSeconds g = .ok k) (h2 : calculateLeapSeconds h = .ok l) : k ≤ l := by
  have a := (leap_ok_iff hg k).1 h1
  have b := (leap_ok_iff hh l).1 h2
  rw [lt_iff_ordinal hh hg] at hlt
  exact (leapAt_mono a b (by omega)).1

/-! ### C16 comparisons -/

/-- C16, full statement: exactly one of `<`, `==`, `>`, and `<=`, `>=` are the weak orders. -/
def C16_claim : Prop :=
  ∀ a b : MT, a.ts.zone ≠ .naive → b.ts.zone ≠ .naive →
    ((a.lt b = true ∧ a.eq b = false ∧ a.gt b = false) ∨
     (a.lt b = false ∧ a.eq b = true ∧ a.gt b = false) ∨
     (a.lt b = false ∧ a.eq b = false ∧ a.gt b = true)) ∧
    (a.le b = (a.lt b || a.eq b)) ∧ (a.ge b = (a.gt b || a.eq b))

/-- C16 is false of the code: a time stamp is greater than itself. -/
theorem C16_refuted : ¬ C16_claim := by
  intro h
  have := (h ⟨false, defaultStamp⟩ ⟨false, defaultStamp⟩ (by decide) (by decide)).1
  revert this
  decide

/-- C16 fails a second way: two stamps of one instant with different offsets are neither
`<`, nor `==`, and each is `>` the other. -/
theorem C16_offsets_refuted :
    ∃ a b : MT, a.lt b = false ∧ b.lt a = false ∧ a.eq b = false ∧ a.gt b = true ∧ b.gt a = true ∧
      a.le b = true ∧ b.le a = true :=
  ⟨⟨false, ⟨0, .fixed 0⟩⟩, ⟨false, ⟨0, .fixed 3600⟩⟩, by decide⟩

/-- C16, what holds for all stamps: `<` is a strict order, total on instants; `<=`/`>=` are
its weak orders and mirror images; `==` implies neither is smaller. `>` is only the
weak order `>=`. Missing: strictness of `>`, and `==` for equal instants with different offsets. -/
theorem C16_order_partial (a b c : MT) :
    a.lt a = false ∧
    (a.lt b = true → b.lt c = true → a.lt c = true) ∧
    (a.lt b = true ∨ a.ts.value = b.ts.value ∨ b.lt a = true) ∧
    (a.lt b = true → b.lt a = false ∧ a.eq b = false) ∧
    (a.le b = true ↔ a.lt b = true ∨ a.ts.value = b.ts.value) ∧
    (a.ge b = b.le a) ∧ (a.gt b = a.ge b) ∧
    (a.eq b = true → a.lt b = false ∧ b.lt a = false) := by
  simp only [MT.lt, MT.le, MT.ge, MT.gt, MT.eq, decide_eq_true_eq, decide_eq_false_iff_not,
    Bool.and_eq_true, beq_iff_eq]
  refine ⟨by omega, fun _ _ => by omega, by omega, fun h => ⟨by omega, ?_⟩, by omega, trivial, ?_, fun h => by omega⟩
  · rw [Bool.and_eq_false_iff]; left; simp; omega
  · rw [← decide_not]; congr 1; simp

/-- C16 for stamps kept in UTC: trichotomy of `<`, `==` and reversed `<`. -/
theorem C16_utc_partial (a b : MT) (ha : a.ts.zone = .fixed 0) (hb : b.ts.zone = .fixed 0) :
    (a.lt b = true ∧ a.eq b = false ∧ b.lt a = false) ∨
    (a.lt b = false ∧ a.eq b = true ∧ b.lt a = false) ∨
    (a.lt b = false ∧ a.eq b = false ∧ b.lt a = true) := by
  simp only [MT.lt, MT.eq, ha, hb]
  rcases Int.lt_trichotomy a.ts.value b.ts.value with h | h | h
  · left; simp; omega
  · right; left; simp; omega
  · right; right; simp; omega

example : (⟨false, defaultStamp⟩ : MT).ts.zone = .fixed 0 := rfl

/-! ### C17 clamping -/

/-- C17, full statement for the clamping: parsing delivers the limit outside, and a stamp less
than half a microsecond away inside. -/
def C17_claim : Prop :=
  ∀ s : Stamp, ∃ t, parseStamp s false = .ok t ∧ tMin ≤ t.value ∧ t.value ≤ tMax ∧
    (s.value ≤ tMin → t.value = tMin) ∧ (tMax ≤ s.value → t.value = tMax) ∧
    (tMin < s.value → s.value < tMax → t.value - s.value < 500 ∧ s.value - t.value < 500)

/-- C17 is false of the code: rounding the last 306 ns before the maximum leaves the
representable range and pandas raises. -/
theorem C17_refuted : ¬ C17_claim := by
  intro h
  obtain ⟨t, ht, _⟩ := h ⟨9223372036854775600, .fixed 0⟩
  have : parseStamp ⟨9223372036854775600, .fixed 0⟩ false = .error .valueError := by decide
  rw [this] at ht
  cases ht

/-- C17: clamping below and above, for every stamp of every zone. -/
theorem C17_clamp (s : Stamp) :
    (s.value ≤ tMin → parseStamp s false = .ok ⟨tMin, .fixed 0⟩) ∧
    (tMax ≤ s.value → parseStamp s false = .ok ⟨tMax, .fixed 0⟩) :=
  ⟨parse_low, parse_high⟩

/-- C17, partial: it raises exactly in the 306 ns window below the maximum. Otherwise the
result is within the range, its zone kept (naive read as UTC), and less than 500 ns away. -/
theorem C17_inside_partial (s : Stamp) (h1 : tMin < s.value) (h2 : s.value < tMax) :
    (9223372036854775501 ≤ s.value → parseStamp s false = .error .valueError) ∧
    (s.value < 9223372036854775501 → ∃ t, parseStamp s false = .ok t ∧
      tMin < t.value ∧ t.value < tMax ∧ s.value ≤ t.value ∧ t.value - s.value < 500 ∧
      t.zone = (match s.zone with | .naive => .fixed 0 | .fixed o => .fixed o)) := by
  rw [parse_mid h1 h2]
  unfold roundUp tMin tMax at *
  constructor
  · intro h
    rw [if_pos]
    split <;> omega
  · intro h
    refine ⟨⟨_, _⟩, if_neg ?_, ?_⟩
    · split <;> omega
    · refine ⟨?_, ?_, ?_, ?_, ?_⟩
      · simp only; split <;> omega
      · simp only; split <;> omega
      · simp only; split <;> omega
      · simp only; split <;> omega
      · unfold localizeUtc; cases s with
        | mk v z => cases z <;> rfl

example : tMin < (defaultStamp).value ∧ defaultStamp.value < 9223372036854775501 := by decide

/-- C17: a parsed stamp is a fixed point. -/
theorem C17_idempotent (s t : Stamp) (h : parseStamp s false = .ok t) : parseStamp t false = .ok t := by
  rcases parse_value h with ⟨_, rfl⟩ | ⟨_, rfl⟩ | ⟨h1, h2, h3, rfl⟩
  · exact parse_low (Int.le_refl _)
  · exact parse_high (Int.le_refl _)
  · have hz := localizeUtc_zone s
    have e1 := roundUp_roundUp s.value
    have e2 : tMin < roundUp s.value := by unfold roundUp tMin at *; split <;> omega
    have e3 : roundUp s.value < tMax := by unfold roundUp tMax at *; split at h3 <;> omega
    rw [parse_mid (s := ⟨roundUp s.value, (localizeUtc s).zone⟩) e2 e3, e1, if_neg (by omega),
      localizeUtc_of_aware (s := ⟨roundUp s.value, (localizeUtc s).zone⟩) hz]

example : parseStamp ⟨1700000000000000900, .naive⟩ false = .ok ⟨1700000000000001000, .fixed 0⟩ := by decide

/-- C17: parsing preserves the order of instants. -/
theorem C17_monotone (s s' t t' : Stamp) (h : parseStamp s false = .ok t)
    (h' : parseStamp s' false = .ok t') (hle : s.value ≤ s'.value) : t.value ≤ t'.value := by
  rcases parse_value h with ⟨a, rfl⟩ | ⟨a, rfl⟩ | ⟨a1, a2, a3, rfl⟩ <;>
    rcases parse_value h' with ⟨b, rfl⟩ | ⟨b, rfl⟩ | ⟨b1, b2, b3, rfl⟩ <;>
    simp only
  · omega
  · decide
  · have := (le_roundUp s'.value).1; omega
  · have : tMin < tMax := by decide
    omega
  · omega
  · omega
  · have := (le_roundUp s.value).2; unfold tMin tMax at *; omega
  · exact a3
  · exact roundUp_mono hle

/-! ### C18 sub-microsecond rounding -/

/-- C18: an in-range stamp moves by less than half a microsecond, only upwards and only
to a whole microsecond, and not at all when its nanosecond field is at most 500. -/
theorem C18_rounding (s t : Stamp) (h1 : tMin < s.value) (h2 : s.value < tMax)
    (h : parseStamp s false = .ok t) :
    s.value ≤ t.value ∧ t.value - s.value < 500 ∧
    (s.value % 1000 ≤ 500 → t.value = s.value) ∧
    (500 < s.value % 1000 → t.value % 1000 = 0) := by
  rcases parse_value h with ⟨a, rfl⟩ | ⟨a, rfl⟩ | ⟨a1, a2, a3, rfl⟩
  · omega
  · omega
  · simp only; unfold roundUp; split <;> omega

/-- C18: order is preserved, and stamps at least a microsecond apart stay strictly ordered. -/
theorem C18_order (s s' t t' : Stamp) (h1 : tMin < s.value) (h2 : s'.value < tMax)
    (h : parseStamp s false = .ok t) (h' : parseStamp s' false = .ok t') :
    (s.value ≤ s'.value → t.value ≤ t'.value) ∧ (s.value + 1000 ≤ s'.value → t.value < t'.value) := by
  refine ⟨C17_monotone s s' t t' h h', fun hle => ?_⟩
  rcases parse_value h with ⟨a, rfl⟩ | ⟨a, rfl⟩ | ⟨a1, a2, a3, rfl⟩ <;>
    rcases parse_value h' with ⟨b, rfl⟩ | ⟨b, rfl⟩ | ⟨b1, b2, b3, rfl⟩ <;>
    (try omega) <;> simp only <;> unfold roundUp <;> split <;> split <;> omega

example : parseStamp ⟨1700000000000000501, .fixed 0⟩ false = .ok ⟨1700000000000001000, .fixed 0⟩ ∧
    parseStamp ⟨1700000000000000500, .fixed 0⟩ false = .ok ⟨1700000000000000500, .fixed 0⟩ := by decide

/-! ### C19 GPS conversion -/

/-- Offsets Python's `datetime.timezone` accepts (strictly within a day). -/
def ZoneOK (z : Zone) : Prop := -86400 < offsetOf z ∧ offsetOf z < 86400

/-- C19, full statement: GPS to UTC preserves order. -/
def C19_claim : Prop :=
  ∀ a b u v : Stamp, a.zone = .fixed 0 → b.zone = .fixed 0 → a.value < b.value →
    parseStamp a true = .ok u → parseStamp b true = .ok v → u.value ≤ v.value

/-- C19 is false of the code: half a second before 2015-07-01 16 leap seconds are
subtracted, at midnight 17. -/
theorem C19_refuted : ¬ C19_claim := by
  intro h
  have := h ⟨1435708799500000000, .fixed 0⟩ ⟨1435708800000000000, .fixed 0⟩
    ⟨1435708783500000000, .fixed 0⟩ ⟨1435708783000000000, .fixed 0⟩ rfl rfl (by decide)
    (by decide) (by decide)
  revert this
  decide

/-- The pieces of a successful GPS parse. -/
theorem gps_parts {s u : Stamp} (hz : ZoneOK s.zone) (h : parseStamp s true = .ok u) :
    tMin < s.value ∧ s.value < tMax ∧ ∃ k,
      LeapAt k ((roundUp s.value + offsetOf s.zone * 1000000000) / nsDay + 719163) ∧
      u = ⟨roundUp s.value - k * 1000000000, (localizeUtc s).zone⟩ := by
  rw [parse_gps] at h
  cases hp : parseStamp s false with
  | error e => rw [hp] at h; cases h
  | ok t =>
    rw [hp] at h
    simp only [bind, Except.bind] at h
    cases hc : calculateLeapSeconds t.date with
    | error e => rw [hc] at h; cases h
    | ok k =>
      rw [hc] at h
      simp only [Except.ok.injEq] at h
      rcases parse_value hp with ⟨_, rfl⟩ | ⟨_, rfl⟩ | ⟨h1, h2, h3, rfl⟩
      · have : calculateLeapSeconds (Stamp.date ⟨tMin, .fixed 0⟩) = .error .valueError := by decide
        rw [this] at hc; cases hc
      · have : calculateLeapSeconds (Stamp.date ⟨tMax, .fixed 0⟩) = .error .valueError := by decide
        rw [this] at hc; cases hc
      · refine ⟨h1, h2, k, ?_, h.symm⟩
        have ho : offsetOf (localizeUtc s).zone = offsetOf s.zone := by
          cases s with
          | mk v z => cases z <;> rfl
        have hn : 1 ≤ (roundUp s.value + offsetOf s.zone * 1000000000) / nsDay + 719163 := by
          unfold ZoneOK at hz
          unfold roundUp tMin nsDay at *
          split <;> omega
        obtain ⟨hv, hord⟩ := ofOrdinal_spec _ hn
        unfold Stamp.date at hc
        rw [ho] at hc
        rw [leap_ok_iff hv, hord] at hc
        exact hc

/-- C19, partial: GPS stamps (written with the same offset) at least one second apart keep their
order. Missing: pairs closer than a second that straddle a leap second, where it is false. -/
theorem C19_order_partial (a b u v : Stamp) (hz : a.zone = b.zone) (ho : ZoneOK a.zone)
    (ha : parseStamp a true = .ok u) (hb : parseStamp b true = .ok v)
    (hlt : a.value + 1000000000 ≤ b.value) : u.value ≤ v.value := by
  obtain ⟨a1, a2, k, hk, rfl⟩ := gps_parts ho ha
  obtain ⟨b1, b2, l, hl, rfl⟩ := gps_parts (hz ▸ ho) hb
  have hr : roundUp a.value + 1000000000 ≤ roundUp b.value := by
    unfold roundUp; split <;> split <;> omega
  rw [← hz] at hl
  generalize roundUp a.value = ra at *
  generalize roundUp b.value = rb at *
  generalize offsetOf a.zone * 1000000000 = o at *
  have hday : (ra + o) / nsDay ≤ (rb + o) / nsDay := by unfold nsDay; omega
  obtain ⟨_, m1, m2, m3⟩ := leapAt_mono hk hl (by omega)
  simp only
  by_cases hd : (rb + o) / nsDay + 719163 - ((ra + o) / nsDay + 719163) ≤ 180
  · have := m1 hd; omega
  · unfold nsDay at hd; omega

/-- C19, partial: between two stamps in whole microseconds with the same number of leap
seconds the conversion preserves strict order in both directions. -/
theorem C19_same_leap_partial (a b u v : Stamp) (ha : parseStamp a true = .ok u)
    (hb : parseStamp b true = .ok v) (za : a.zone = .fixed 0) (zb : b.zone = .fixed 0)
    (ma : a.value % 1000 = 0) (mb : b.value % 1000 = 0)
    (hs : calculateLeapSeconds a.date = calculateLeapSeconds b.date) :
    u.value < v.value ↔ a.value < b.value := by
  have oka : ZoneOK a.zone := by rw [za]; simp [ZoneOK, offsetOf]
  have okb : ZoneOK b.zone := by rw [zb]; simp [ZoneOK, offsetOf]
  obtain ⟨a1, a2, k, hk, rfl⟩ := gps_parts oka ha
  obtain ⟨b1, b2, l, hl, rfl⟩ := gps_parts okb hb
  have ra : roundUp a.value = a.value := by unfold roundUp; split <;> omega
  have rb : roundUp b.value = b.value := by unfold roundUp; split <;> omega
  rw [ra] at hk ⊢; rw [rb] at hl ⊢
  have na : 1 ≤ (a.value + offsetOf a.zone * 1000000000) / nsDay + 719163 := by
    unfold ZoneOK tMin nsDay at *; omega
  have nb : 1 ≤ (b.value + offsetOf b.zone * 1000000000) / nsDay + 719163 := by
    unfold ZoneOK tMin nsDay at *; omega
  obtain ⟨va, oa⟩ := ofOrdinal_spec _ na
  obtain ⟨vb, ob⟩ := ofOrdinal_spec _ nb
  rw [← oa] at hk; rw [← ob] at hl
  have ea := (leap_ok_iff va k).2 hk
  have eb := (leap_ok_iff vb l).2 hl
  unfold Stamp.date at hs
  rw [ea, eb] at hs
  simp only [Except.ok.injEq] at hs
  simp only [hs]
  omega

example : parseStamp ⟨1435708799500000000, .fixed 0⟩ true = .ok ⟨1435708783500000000, .fixed 0⟩ ∧
    parseStamp ⟨1435708800500000000, .fixed 0⟩ true = .ok ⟨1435708783500000000, .fixed 0⟩ := by decide

/-! ### C20 equal instants -/

/-- C20, full statement. -/
def C20_claim : Prop :=
  ∀ (s t u v : Stamp) (h : Int × Int → Int), s.zone ≠ .naive → t.zone ≠ .naive → s.value = t.value →
    parseStamp s false = .ok u → parseStamp t false = .ok v →
    MT.eq ⟨false, u⟩ ⟨false, v⟩ = true ∧ MT.hash h ⟨false, u⟩ = MT.hash h ⟨false, v⟩

/-- C20 is false of the code: offsets survive parsing, so 00:00+00:00 and 01:00+01:00 differ. -/
theorem C20_refuted : ¬ C20_claim := by
  intro h
  have := (h ⟨0, .fixed 0⟩ ⟨0, .fixed 3600⟩ ⟨0, .fixed 0⟩ ⟨0, .fixed 3600⟩ (fun _ => 0)
    (by decide) (by decide) rfl (by decide) (by decide)).1
  revert this
  decide

/-- C20: equal stamps hash equal (for every hash of the ISO string), and `==` says exactly that the
ISO strings agree, for stored stamps. -/
theorem C20_hash (a b : MT) (ha : a.ts.zone ≠ .naive) (hb : b.ts.zone ≠ .naive) (h : Int × Int → Int) :
    (a.eq b = true ↔ a.iso = b.iso) ∧ (a.eq b = true → a.hash h = b.hash h) := by
  obtain ⟨ga, ⟨v, z⟩⟩ := a
  obtain ⟨gb, ⟨w, y⟩⟩ := b
  cases z with
  | naive => exact absurd rfl ha
  | fixed o =>
    cases y with
    | naive => exact absurd rfl hb
    | fixed p =>
      have : (MT.eq ⟨ga, ⟨v, .fixed o⟩⟩ ⟨gb, ⟨w, .fixed p⟩⟩ = true ↔
          MT.iso ⟨ga, ⟨v, .fixed o⟩⟩ = MT.iso ⟨gb, ⟨w, .fixed p⟩⟩) := by
        simp only [MT.eq, MT.iso, offsetOf, Bool.and_eq_true, beq_iff_eq, Zone.fixed.injEq,
          Prod.mk.injEq]
        omega
      exact ⟨this, fun e => by unfold MT.hash; rw [this.1 e]⟩

/-- C20, partial: stamps written in UTC or without a zone. They parse to equal stamps exactly when
they denote instants that parse to the same value. Missing: other offsets, where it is false. -/
theorem C20_utc_partial (s t u v : Stamp) (g : Bool) (hs : s.zone = .naive ∨ s.zone = .fixed 0)
    (ht : t.zone = .naive ∨ t.zone = .fixed 0)
    (hu : parseStamp s false = .ok u) (hv : parseStamp t false = .ok v) :
    (s.value = t.value → u = v) ∧ (MT.eq ⟨g, u⟩ ⟨g, v⟩ = true ↔ u.value = v.value) := by
  have zone : ∀ {s u : Stamp}, (s.zone = .naive ∨ s.zone = .fixed 0) → parseStamp s false = .ok u →
      u.zone = .fixed 0 := by
    intro s u hs h
    rcases parse_value h with ⟨_, rfl⟩ | ⟨_, rfl⟩ | ⟨_, _, _, rfl⟩
    · rfl
    · rfl
    · rcases hs with hs | hs <;> simp [localizeUtc, hs]
  have zu := zone hs hu
  have zv := zone ht hv
  constructor
  · intro e
    have : u.value = v.value := by
      have h1 := C17_monotone s t u v hu hv (by omega)
      have h2 := C17_monotone t s v u hv hu (by omega)
      omega
    cases u; cases v; simp_all
  · simp [MT.eq, zu, zv]

example : parseStamp ⟨0, .naive⟩ false = parseStamp ⟨0, .fixed 0⟩ false := by decide

/-! ### C21 integer epochs -/

/-- C21, full statement: seconds and nanoseconds of one instant parse alike. -/
def C21_claim : Prop :=
  ∀ s : Int, tMin ≤ s * 1000000000 → s * 1000000000 ≤ tMax →
    parseInt s false = parseInt (s * 1000000000) false

/-- C21 is false of the code: 100 s after the epoch, in ns, is read as seconds (year 5138). -/
theorem C21_refuted : ¬ C21_claim := by
  intro h
  have := h 100 (by decide) (by decide)
  revert this
  decide

/-- C21, partial: from 301 s after the epoch to the year 9999 (and from 3e8 s for GPS input)
both readings give the instant. Missing: earlier instants, where nanoseconds are read as seconds. -/
theorem C21_units_partial (s : Int) (gps : Bool) (h1 : 300 < s) (h2 : s ≤ 253402300799)
    (hg : gps = true → 300000000 ≤ s) :
    parseInt s gps = parseStamp ⟨s * 1000000000, .fixed 0⟩ gps ∧
    parseInt (s * 1000000000) gps = parseStamp ⟨s * 1000000000, .fixed 0⟩ gps := by
  have n1 : ¬ (s < 300000000 ∧ gps = true) := fun c => by have := hg c.2; omega
  have n2 : ¬ (s * 1000000000 < 300000000 ∧ gps = true) := fun c => by omega
  have n3 : ¬ 300000000000 < s := by omega
  have n4 : 300000000000 < s * 1000000000 := by omega
  have n5 : roundThousand (s * 1000000000) = s * 1000000 := by
    unfold roundThousand; rw [if_pos (by omega)]; omega
  have n6 : ¬ (s * 1000000 < -62135596800000000 ∨ 253402300799999999 < s * 1000000) := by omega
  have e : s * 1000000 * 1000 = s * 1000000000 := by omega
  constructor
  · simp only [parseInt, if_neg n1, if_neg n3, fromTimestampUs, if_neg n6, bind, Except.bind, e]
    rfl
  · simp only [parseInt, if_neg n2, if_pos n4, n5, fromTimestampUs, if_neg n6, bind, Except.bind, e]
    rfl

example : parseInt 1600000000 false = .ok ⟨1600000000000000000, .fixed 0⟩ ∧
    parseInt 1600000000000000000 false = .ok ⟨1600000000000000000, .fixed 0⟩ := by decide

/-! ### C75 serialise and read back -/

/-- C75, full statement: a stamp built by the constructor and serialised reads back unchanged. -/
def C75_claim : Prop :=
  ∀ (s : Stamp) (g : Bool) (a : MT), MT.mk' s g = .ok a → a.reload = .ok a

/-- C75 is false of the code: with `gps_time` the leap seconds are subtracted again. -/
theorem C75_refuted : ¬ C75_claim := by
  intro h
  have := h ⟨1600000000000000000, .fixed 0⟩ true ⟨true, ⟨1599999982000000000, .fixed 0⟩⟩ (by decide)
  revert this
  decide

/-- C75, partial: exact for every stamp that is not flagged as GPS time. -/
theorem C75_reload_partial (s : Stamp) (a : MT) (h : MT.mk' s false = .ok a) : a.reload = .ok a := by
  unfold MT.mk' at h
  cases hp : parseStamp s false with
  | error e => rw [hp] at h; cases h
  | ok t =>
    rw [hp] at h
    simp only [bind, Except.bind, Except.ok.injEq] at h
    subst h
    simp only [MT.reload, MT.mk', C17_idempotent s t hp, bind, Except.bind]

/-- C75, what happens with GPS stamps: every reload moves the stamp by the documented leap seconds of
its own date. -/
theorem C75_gps_shift (a b : MT) (hg : a.gps = true) (hz : ZoneOK a.ts.zone)
    (hm : a.ts.value % 1000 ≤ 500) (h : a.reload = .ok b) :
    b.ts.value = a.ts.value - documentedLeap a.ts.date * 1000000000 := by
  unfold MT.reload MT.mk' at h
  rw [hg] at h
  cases hp : parseStamp a.ts true with
  | error e => rw [hp] at h; cases h
  | ok t =>
    rw [hp] at h
    simp only [bind, Except.bind, Except.ok.injEq] at h
    subst h
    obtain ⟨h1, h2, k, hk, rfl⟩ := gps_parts hz hp
    have hr : roundUp a.ts.value = a.ts.value := by unfold roundUp; rw [if_pos hm]
    rw [hr] at hk ⊢
    have hn : 1 ≤ (a.ts.value + offsetOf a.ts.zone * 1000000000) / nsDay + 719163 := by
      unfold ZoneOK tMin nsDay at *; omega
    obtain ⟨hv, ho⟩ := ofOrdinal_spec _ hn
    rw [← ho] at hk
    have := C15_documented _ hv k ((leap_ok_iff hv k).2 hk)
    simp only [this, Stamp.date]

example : MT.reload ⟨true, ⟨1599999982000000000, .fixed 0⟩⟩ =
    .ok ⟨true, ⟨1599999964000000000, .fixed 0⟩⟩ := by decide

/-! ### C76 adding and subtracting durations -/

/-- C76, full statement. -/
def C76_claim : Prop :=
  ∀ (s : Stamp) (a b : MT) (d : Int), MT.mk' s false = .ok a → a.add d = .ok b →
    b.subDelta d = .ok a ∧ b.sub a = .ok d

/-- C76 is false of the code: adding 501 ns is rounded up to 1 µs. -/
theorem C76_refuted : ¬ C76_claim := by
  intro h
  have := (h ⟨0, .fixed 0⟩ ⟨false, ⟨0, .fixed 0⟩⟩ ⟨false, ⟨1000, .fixed 0⟩⟩ 501 (by decide) (by decide)).2
  revert this
  decide

/-- C76, partial: durations in whole microseconds between stamps strictly inside the range.
Missing: sub-microsecond durations and stamps clamped at the limits. -/
theorem C76_add_sub_partial (a : MT) (d : Int) (hz : a.ts.zone ≠ .naive)
    (hm : a.ts.value % 1000 ≤ 500) (hd : d % 1000 = 0)
    (h1 : tMin < a.ts.value) (h2 : a.ts.value < tMax)
    (h3 : tMin < a.ts.value + d) (h4 : a.ts.value + d < tMax) :
    a.add d = .ok ⟨false, ⟨a.ts.value + d, a.ts.zone⟩⟩ ∧
    MT.subDelta ⟨false, ⟨a.ts.value + d, a.ts.zone⟩⟩ d = .ok ⟨false, a.ts⟩ ∧
    MT.sub ⟨false, ⟨a.ts.value + d, a.ts.zone⟩⟩ a = .ok d := by
  have key : ∀ w : Int, w % 1000 ≤ 500 → tMin < w → w < tMax →
      parseStamp ⟨w, a.ts.zone⟩ false = .ok ⟨w, a.ts.zone⟩ := by
    intro w hw w1 w2
    have e : roundUp w = w := by unfold roundUp; rw [if_pos hw]
    rw [parse_mid (s := ⟨w, a.ts.zone⟩) w1 w2]
    simp only [e, if_neg (show ¬ tMax < w by omega)]
    rw [localizeUtc_of_aware (s := ⟨w, a.ts.zone⟩) hz]
  have k1 := key (a.ts.value + d) (by omega) h3 h4
  have k2 := key a.ts.value hm h1 h2
  have k2' : parseStamp a.ts false = .ok a.ts := k2
  refine ⟨?_, ?_, ?_⟩
  · simp only [MT.add, if_neg (show ¬ (a.ts.value + d < tMin ∨ tMax < a.ts.value + d) by omega),
      MT.mk', k1, bind, Except.bind]
  · simp only [MT.subDelta, show a.ts.value + d - d = a.ts.value by omega,
      if_neg (show ¬ (a.ts.value < tMin ∨ tMax < a.ts.value) by omega), MT.mk', k2', bind, Except.bind]
  · simp only [MT.sub, MT.mk', k2', bind, Except.bind, Except.ok.injEq]
    omega

example : MT.add ⟨false, defaultStamp⟩ 3600000000000 = .ok ⟨false, ⟨315536400000000000, .fixed 0⟩⟩ := by decide

/-! ### C77 dates -/

/-- C77, full statement: MDate values are equal exactly when they print the same date. -/
def C77_claim : Prop := ∀ a b : MT, a.ts.zone = .fixed 0 → b.ts.zone = .fixed 0 →
  (a.eq b = true ↔ a.isodate = b.isodate)

/-- C77 is false of the code: MDate keeps the time of day and compares it. -/
theorem C77_refuted : ¬ C77_claim := by
  intro h
  have := h ⟨false, ⟨0, .fixed 0⟩⟩ ⟨false, ⟨3600000000000, .fixed 0⟩⟩ rfl rfl
  revert this
  decide

/-- C77, partial: equal values print (and hash) the same; midnight values (what a date string
gives) are equal exactly when they print the same; and the printed dates order as the instants do. -/
theorem C77_dates_partial (a b : MT) (ha : a.ts.zone = .fixed 0) (hb : b.ts.zone = .fixed 0)
    (ra : tMin ≤ a.ts.value) (rb : tMin ≤ b.ts.value) (h : Date → Int) :
    (a.eq b = true → a.isodate = b.isodate ∧ a.dateHash h = b.dateHash h) ∧
    (a.ts.value % nsDay = 0 → b.ts.value % nsDay = 0 →
      (a.eq b = true ↔ a.isodate = b.isodate)) ∧
    (a.isodate.lt b.isodate → a.lt b = true) := by
  have fwd : a.eq b = true → a.isodate = b.isodate := by
    intro e
    simp only [MT.eq, Bool.and_eq_true, beq_iff_eq] at e
    unfold MT.isodate Stamp.date
    rw [e.1, ha, hb]
  have na : 1 ≤ (a.ts.value + offsetOf a.ts.zone * 1000000000) / nsDay + 719163 := by
    rw [ha]; unfold offsetOf tMin nsDay at *; simp only; omega
  have nb : 1 ≤ (b.ts.value + offsetOf b.ts.zone * 1000000000) / nsDay + 719163 := by
    rw [hb]; unfold offsetOf tMin nsDay at *; simp only; omega
  obtain ⟨va, oa⟩ := ofOrdinal_spec _ na
  obtain ⟨vb, ob⟩ := ofOrdinal_spec _ nb
  refine ⟨fun e => ⟨fwd e, by unfold MT.dateHash; rw [fwd e]⟩, fun ma mb => ⟨fwd, fun e => ?_⟩, fun hl => ?_⟩
  · have e2 := congrArg Date.ordinal e
    unfold MT.isodate Stamp.date at e2
    rw [oa, ob, ha, hb] at e2
    simp only [MT.eq, ha, hb, Bool.and_eq_true, beq_iff_eq, and_true]
    unfold offsetOf nsDay at *
    simp only at e2
    omega
  · unfold MT.isodate Stamp.date at hl
    rw [lt_iff_ordinal va vb, oa, ob, ha, hb] at hl
    simp only [MT.lt, decide_eq_true_eq]
    unfold offsetOf nsDay at *
    simp only at hl
    omega

example : (⟨false, defaultStamp⟩ : MT).isodate = ⟨1980, 1, 1⟩ ∧ defaultStamp.value % nsDay = 0 := by decide

/-! ### C78 from_dict -/

/-- C78, full statement: after `t.from_dict(value)` the stamp prints. -/
def C78_claim : Prop := ∀ old value, ∃ r, isoOf (fromDict old value) = .ok r

/-- C78 is false of the code: the string or number is stored unparsed. -/
theorem C78_refuted : ¬ C78_claim := by
  intro h
  obtain ⟨r, hr⟩ := h (.stamp defaultStamp) (.text "2020-01-01T00:00:00")
  cases hr

/-- C78, partial: exactly Timestamp values work, and then print themselves. -/
theorem C78_from_dict_partial (old value : Stored) :
    (∃ r, isoOf (fromDict old value) = .ok r) ↔ ∃ s, value = .stamp s := by
  cases value <;> simp [fromDict, isoOf]

end Verif.MTime
