import Verif.Model.TimeText
import Verif.Lemmas.MTime

/-!
Properties of times read from texts.
-/

namespace Verif.MTime

/-- The date of a text, as written. -/
def Iso.date (x : Iso) : Date := ⟨x.year, x.month, x.day⟩

/-- Minutes and seconds of a clock. -/
def Iso.Minutes (x : Iso) : Prop := 0 ≤ x.minute ∧ x.minute ≤ 59 ∧ 0 ≤ x.second ∧ x.second ≤ 59

theorem zeroMinutes {y m d h : Int} {z : Option Int} : (Iso.mk y m d h 0 0 z).Minutes :=
  show (0 : Int) ≤ 0 ∧ (0 : Int) ≤ 59 ∧ (0 : Int) ≤ 0 ∧ (0 : Int) ≤ 59 by decide

/-- The day after a date. -/
def next (a : Date) : Date := ofOrdinal (a.ordinal + 1)

theorem dateutil_ok {x : Iso} (hd : x.date.Valid) (h0 : 0 ≤ x.hour) (h1 : x.hour ≤ 23) (hm : x.Minutes) :
    dateutil false x = .ok ⟨clock x.date x.hour x.minute x.second, x.zone⟩ := by
  unfold dateutil
  obtain ⟨m0, m1, s0, s1⟩ := hm
  have hv : (⟨x.year, x.month, x.day⟩ : Date).Valid := hd
  simp only [Bool.false_eq_true, false_and, if_false]
  rw [if_neg (Classical.not_not.2 hv), if_neg (by omega), if_neg (by omega)]
  rfl

theorem dateutil_hour {x : Iso} (hd : x.date.Valid) (h1 : 23 < x.hour) : dateutil false x = .error .hour := by
  unfold dateutil
  have hv : (⟨x.year, x.month, x.day⟩ : Date).Valid := hd
  simp only [Bool.false_eq_true, false_and, if_false]
  rw [if_neg (Classical.not_not.2 hv), if_pos (by omega)]

theorem dateutil_date {x : Iso} (hd : ¬ x.date.Valid) : dateutil false x = .error .other := by
  unfold dateutil
  have hv : ¬ (⟨x.year, x.month, x.day⟩ : Date).Valid := hd
  simp only [Bool.false_eq_true, false_and, if_false]
  rw [if_pos hv]

theorem finish_whole (b : Bool) (v : Int) :
    finish b ⟨v * 1000000000, .fixed 0⟩ false = .ok ⟨v * 1000000000, .fixed 0⟩ := by
  have h : pyRoundThousandth (v * 1000000000 % 1000) ≠ 1 := by
    have : v * 1000000000 % 1000 = 0 := by omega
    rw [this]; decide
  unfold finish roundOff
  rw [if_neg fun c => h c.1]
  rfl

theorem finish_limit (v : Int) : finish true ⟨v, .fixed 0⟩ false = .ok ⟨v, .fixed 0⟩ := by
  unfold finish roundOff
  rw [if_neg fun c => by cases c.2]
  rfl

/-- What is made of a time whose hour is 24. -/
theorem parse24 {x : Iso} (hd : x.date.Valid) (h : x.hour = 24) (hm : x.Minutes) :
    parseIso x false = (fixOutOfBounds ⟨clock x.date 24 x.minute x.second, x.zone⟩).bind fun p => finish p.1 p.2 false := by
  have e1 := dateutil_hour hd (show 23 < x.hour by omega)
  have e2 : dateutil false { x with hour := 23 } = .ok ⟨clock x.date 23 x.minute x.second, x.zone⟩ :=
    dateutil_ok (x := { x with hour := 23 }) hd (Int.le_of_lt (by decide : (0:Int) < 23)) (Int.le_refl 23) hm
  have e3 : clock x.date 23 x.minute x.second + 3600 = clock x.date 24 x.minute x.second := by unfold clock; omega
  unfold parseIso pandas parseString
  rw [e1]
  simp only [h, if_true]
  rw [e2]
  simp only [e3]
  rfl

theorem year24 {a : Date} {m s : Int} (z : Option Int) (m0 : 0 ≤ m) (m1 : m ≤ 59) (s0 : 0 ≤ s) (s1 : s ≤ 59) :
    (Clock.mk (clock a 24 m s) z).year = (next a).y := by
  unfold Clock.year next
  have : clock a 24 m s / 86400 + 719163 = a.ordinal + 1 := by unfold clock; omega
  simp only [this]

/-! ### C345: hour 24 -/

/-- Hour 24 is midnight of the next day. -/
def C345_claim : Prop := ∀ (a : Date) (z : Option Int), a.Valid → a.y ≤ 9997 →
  parseIso ⟨a.y, a.m, a.d, 24, 0, 0, z⟩ false = parseIso ⟨(next a).y, (next a).m, (next a).d, 0, 0, 0, z⟩ false

theorem C345_refuted : ¬ C345_claim := fun h => by
  have := h ⟨2020, 1, 1⟩ (some 0) (by decide +kernel) (by decide)
  revert this
  decide +kernel

theorem next_valid {a : Date} (h : a.Valid) : (next a).Valid ∧ (next a).ordinal = a.ordinal + 1 := by
  have h1 : 1 ≤ a.ordinal := by
    have hb := dayOfYear_bounds h
    have : 0 ≤ daysBeforeYear a.y := by
      unfold daysBeforeYear
      have := h.1
      omega
    unfold Date.ordinal
    omega
  exact ofOrdinal_spec _ (by omega)

/-- Texts without a zone are read so, if the next day is in 1900 to 2200. -/
theorem C345_midnight_partial (a : Date) (h : a.Valid) (h0 : 1900 ≤ (next a).y) (h1 : (next a).y ≤ 2200) :
    parseIso ⟨a.y, a.m, a.d, 24, 0, 0, none⟩ false = .ok ⟨((next a).ordinal - 719163) * 86400 * 1000000000, .fixed 0⟩ := by
  rw [parse24 (x := ⟨a.y, a.m, a.d, 24, 0, 0, none⟩) h rfl zeroMinutes]
  show (fixOutOfBounds ⟨clock a 24 0 0, none⟩).bind _ = _
  unfold fixOutOfBounds
  rw [year24 none (by decide) (by decide) (by decide) (by decide), if_neg (by omega), if_neg (by omega)]
  show finish false ⟨clock a 24 0 0 * 1000000000, .fixed 0⟩ false = _
  rw [finish_whole, (next_valid h).2]
  have : clock a 24 0 0 = (a.ordinal + 1 - 719163) * 86400 := by unfold clock; omega
  rw [this]

/-- Texts with a zone are refused then. -/
theorem C345_zone_partial (a : Date) (o : Int) (h : a.Valid) (h0 : 1900 ≤ (next a).y) (h1 : (next a).y ≤ 2200) :
    parseIso ⟨a.y, a.m, a.d, 24, 0, 0, some o⟩ false = .error .valueError := by
  rw [parse24 (x := ⟨a.y, a.m, a.d, 24, 0, 0, some o⟩) h rfl zeroMinutes]
  show (fixOutOfBounds ⟨clock a 24 0 0, some o⟩).bind _ = _
  unfold fixOutOfBounds
  rw [year24 (some o) (by decide) (by decide) (by decide) (by decide), if_neg (by omega), if_neg (by omega)]
  rfl

/-- Otherwise they are the limits of times, whatever the date. -/
theorem C345_limit_partial (a : Date) (z : Option Int) (h : a.Valid) :
    (2200 < (next a).y →
      parseIso ⟨a.y, a.m, a.d, 24, 0, 0, z⟩ false = .ok ⟨9223372036854775807, .fixed 0⟩) ∧
    ((next a).y < 1900 →
      parseIso ⟨a.y, a.m, a.d, 24, 0, 0, z⟩ false = .ok ⟨-9223372036854775807, .fixed 0⟩) := by
  rw [parse24 (x := ⟨a.y, a.m, a.d, 24, 0, 0, z⟩) h rfl zeroMinutes]
  show (2200 < _ → (fixOutOfBounds ⟨clock a 24 0 0, z⟩).bind _ = _) ∧ (_ → (fixOutOfBounds ⟨clock a 24 0 0, z⟩).bind _ = _)
  unfold fixOutOfBounds
  rw [year24 z (by decide) (by decide) (by decide) (by decide)]
  constructor
  · intro hy
    rw [if_pos hy]
    exact finish_limit _
  · intro hy
    rw [if_neg (by omega), if_pos hy]
    exact finish_limit _

/-- New year, and a leap day. -/
example : parseIso ⟨2019, 12, 31, 24, 0, 0, none⟩ false = parseIso ⟨2020, 1, 1, 0, 0, 0, none⟩ false := by decide +kernel
example : parseIso ⟨2020, 2, 28, 24, 0, 0, none⟩ false = parseIso ⟨2020, 2, 29, 0, 0, 0, none⟩ false := by decide +kernel
/-- The last day of the year 2200, and a day of 1850, which can be read at other hours. -/
example : parseIso ⟨2200, 12, 31, 24, 0, 0, none⟩ false = .ok ⟨tMax, .fixed 0⟩ := by decide +kernel
example : parseIso ⟨1850, 5, 5, 24, 0, 0, none⟩ false = .ok ⟨tMin, .fixed 0⟩ ∧
    parseIso ⟨1850, 5, 6, 0, 0, 0, none⟩ false ≠ .ok ⟨tMin, .fixed 0⟩ := by decide +kernel

/-! ### C346: minutes after hour 24 -/

/-- Times after hour 24 are refused. -/
def C346_claim : Prop := ∀ x : Iso, x.hour = 24 → (x.minute ≠ 0 ∨ x.second ≠ 0) → parseIso x false = .error .valueError

theorem C346_refuted : ¬ C346_claim := fun h => by
  have := h ⟨2020, 1, 1, 24, 30, 0, none⟩ rfl (by decide)
  revert this
  decide +kernel

/-- They are times of the next day. -/
theorem C346_later_partial (x : Iso) (hd : x.date.Valid) (h : x.hour = 24) (hm : x.Minutes) (hz : x.zone = none)
    (h0 : 1900 ≤ (next x.date).y) (h1 : (next x.date).y ≤ 2200) :
    parseIso x false =
      .ok ⟨(((next x.date).ordinal - 719163) * 86400 + x.minute * 60 + x.second) * 1000000000, .fixed 0⟩ := by
  rw [parse24 hd h hm, hz]
  obtain ⟨m0, m1, s0, s1⟩ := hm
  unfold fixOutOfBounds
  rw [year24 none m0 m1 s0 s1, if_neg (by omega), if_neg (by omega)]
  show finish false ⟨clock x.date 24 x.minute x.second * 1000000000, .fixed 0⟩ false = _
  rw [finish_whole, (next_valid hd).2]
  have : clock x.date 24 x.minute x.second = (x.date.ordinal + 1 - 719163) * 86400 + x.minute * 60 + x.second := by
    unfold clock; omega
  rw [this]

/-- Hours that are larger, and minutes that are none, are refused. -/
theorem C346_refused_partial (x : Iso) (hd : x.date.Valid)
    (h : 24 < x.hour ∨ x.hour = 24 ∧ ¬ x.Minutes) : parseIso x false = .error .valueError := by
  have e1 := dateutil_hour hd (show 23 < x.hour by omega)
  unfold parseIso pandas parseString
  rw [e1]
  simp only
  rcases h with h | ⟨h, hm⟩
  · rw [if_neg (by omega), e1]
    rfl
  · rw [if_pos h]
    have : dateutil false { x with hour := 23 } = .error .other := by
      unfold dateutil
      have hv : (⟨x.year, x.month, x.day⟩ : Date).Valid := hd
      simp only [Bool.false_eq_true, false_and, if_false]
      rw [if_neg (Classical.not_not.2 hv), if_neg (by decide), if_pos]
      unfold Iso.Minutes at hm
      omega
    rw [this]
    rfl

/-! ### C347: dates that are none -/

/-- What is not a date is refused. -/
def C347_claim : Prop := ∀ x : Iso, ¬ x.date.Valid → parseIso x false = .error .valueError

theorem C347_refuted : ¬ C347_claim := fun h => by
  have := h ⟨2020, 13, 5, 0, 0, 0, none⟩ (by decide +kernel)
  revert this
  decide +kernel

theorem parse_bad {x : Iso} (hd : ¬ x.date.Valid) :
    parseIso x false = (match dateutil true x with | .ok c => Except.ok c | .error _ => .error PyErr.valueError).bind
      fun c => (fixOutOfBounds c).bind fun p => finish p.1 p.2 false := by
  unfold parseIso pandas parseString
  rw [dateutil_date hd]
  rfl

theorem dateutil_swapped {x : Iso} (h12 : x.day ≤ 12) (hs : (⟨x.year, x.day, x.month⟩ : Date).Valid) (h0 : 0 ≤ x.hour)
    (h1 : x.hour ≤ 23) (hm : x.Minutes) :
    dateutil true x = .ok ⟨clock ⟨x.year, x.day, x.month⟩ x.hour x.minute x.second, x.zone⟩ := by
  obtain ⟨m0, m1, s0, s1⟩ := hm
  unfold dateutil
  simp only [true_and, h12, if_true]
  rw [if_neg (Classical.not_not.2 hs), if_neg (by omega), if_neg (by omega)]

/-- Month and day are exchanged if that gives a date of 1900 to 2200 and there is no zone. -/
theorem C347_swapped_partial (x : Iso) (hd : ¬ x.date.Valid) (h12 : x.day ≤ 12)
    (hs : (⟨x.year, x.day, x.month⟩ : Date).Valid) (h0 : 0 ≤ x.hour) (h1 : x.hour ≤ 23) (hm : x.Minutes)
    (hz : x.zone = none) (y0 : 1900 ≤ x.year) (y1 : x.year ≤ 2200) :
    parseIso x false = parseIso ⟨x.year, x.day, x.month, x.hour, x.minute, x.second, none⟩ false ∧
    parseIso x false = .ok ⟨(((⟨x.year, x.day, x.month⟩ : Date).ordinal - 719163) * 86400 + x.hour * 3600 +
      x.minute * 60 + x.second) * 1000000000, .fixed 0⟩ := by
  have key : parseIso x false = .ok ⟨clock ⟨x.year, x.day, x.month⟩ x.hour x.minute x.second * 1000000000, .fixed 0⟩ := by
    rw [parse_bad hd, dateutil_swapped h12 hs h0 h1 hm, hz]
    show (fixOutOfBounds ⟨clock ⟨x.year, x.day, x.month⟩ x.hour x.minute x.second, none⟩).bind _ = _
    have hy : (Clock.mk (clock ⟨x.year, x.day, x.month⟩ x.hour x.minute x.second) none).year = x.year := by
      obtain ⟨m0, m1, s0, s1⟩ := hm
      unfold Clock.year
      have : clock ⟨x.year, x.day, x.month⟩ x.hour x.minute x.second / 86400 + 719163 =
          (⟨x.year, x.day, x.month⟩ : Date).ordinal := by unfold clock; omega
      simp only [this]
      rw [ofOrdinal_ordinal hs]
    unfold fixOutOfBounds
    rw [hy, if_neg (by omega), if_neg (by omega)]
    exact finish_whole _ _
  refine ⟨?_, key⟩
  rw [key]
  have e := dateutil_ok (x := ⟨x.year, x.day, x.month, x.hour, x.minute, x.second, none⟩) hs h0 h1 hm
  unfold parseIso pandas
  rw [e]
  show _ = parseStamp ⟨clock ⟨x.year, x.day, x.month⟩ x.hour x.minute x.second * 1000000000, .naive⟩ false
  have hb : -2208988800 ≤ clock ⟨x.year, x.day, x.month⟩ x.hour x.minute x.second ∧
      clock ⟨x.year, x.day, x.month⟩ x.hour x.minute x.second < 7289654400 := by
    obtain ⟨m0, m1, s0, s1⟩ := hm
    have hl := ordinal_lt_of_lt (a := ⟨1899, 12, 31⟩) (by decide +kernel) hs (Or.inl (show (1899 : Int) < x.year by omega))
    have hu := ordinal_lt_of_lt (b := ⟨2201, 1, 1⟩) hs (by decide +kernel) (Or.inl (show x.year < 2201 by omega))
    have c1 : (⟨1899, 12, 31⟩ : Date).ordinal = 693595 := by decide +kernel
    have c2 : (⟨2201, 1, 1⟩ : Date).ordinal = 803534 := by decide +kernel
    rw [c1] at hl
    rw [c2] at hu
    unfold clock
    generalize (⟨x.year, x.day, x.month⟩ : Date).ordinal = n at *
    omega
  have hv1 : tMin < clock ⟨x.year, x.day, x.month⟩ x.hour x.minute x.second * 1000000000 := by unfold tMin; omega
  have hv2 : clock ⟨x.year, x.day, x.month⟩ x.hour x.minute x.second * 1000000000 < tMax := by unfold tMax; omega
  have hr : roundUp (clock ⟨x.year, x.day, x.month⟩ x.hour x.minute x.second * 1000000000) =
      clock ⟨x.year, x.day, x.month⟩ x.hour x.minute x.second * 1000000000 := by
    unfold roundUp
    rw [if_pos (by omega)]
  rw [parse_mid (s := ⟨_, .naive⟩) hv1 hv2]
  simp only [hr]
  rw [if_neg (by omega)]
  rfl

/-- If it does not give a date, the text is refused. -/
theorem C347_refused_partial (x : Iso) (hd : ¬ x.date.Valid)
    (hs : 12 < x.day ∨ ¬ (⟨x.year, x.day, x.month⟩ : Date).Valid) : parseIso x false = .error .valueError := by
  have : dateutil true x = .error .other := by
    unfold dateutil
    have hv : ¬ (⟨x.year, x.month, x.day⟩ : Date).Valid := hd
    by_cases h12 : x.day ≤ 12
    · simp only [true_and, h12, if_true]
      rw [if_pos (hs.resolve_left (by omega))]
    · simp only [true_and, h12, if_false]
      rw [if_pos hv]
  rw [parse_bad hd, this]
  rfl

example : parseIso ⟨2020, 25, 12, 6, 0, 0, none⟩ false = parseIso ⟨2020, 12, 25, 6, 0, 0, none⟩ false := by decide +kernel
example : parseIso ⟨2021, 2, 29, 6, 0, 0, none⟩ false = .error .valueError := by decide +kernel

/-! ### C348: words -/

/-- The words that stand for nothing are read as 1980-01-01. -/
def C348_claim : Prop := ∀ s ∈ ["", "none", "None", "NONE", "null", "Null", "NULL"].map String.toList,
  parseWord s false = .ok ⟨315532800000000000, .fixed 0⟩

theorem C348_refuted : ¬ C348_claim := fun h => by
  have := h "null".toList (by decide +kernel)
  revert this
  decide +kernel

/-- Some are. -/
theorem C348_none_partial (s : Str) (h : s ∈ ["", "none", "None", "NONE", "Na", "NaT", "nat", "NAT", "nan", "NaN",
    "NAN"].map String.toList) : parseWord s false = .ok ⟨315532800000000000, .fixed 0⟩ := by
  simp only [List.map_cons, List.map_nil, List.mem_cons, List.not_mem_nil, or_false] at h
  rcases h with rfl | rfl | rfl | rfl | rfl | rfl | rfl | rfl | rfl | rfl | rfl <;> decide +kernel

/-- All others are refused, those of null too. -/
theorem C348_refused_partial (s : Str) (h : s ∉ ["", "none", "None", "NONE", "Na", "NaT", "nat", "NAT", "nan", "NaN",
    "NAN"].map String.toList) : parseWord s false = .error .valueError := by
  have h1 : s ∉ noTime := fun c => h (by
    have : ∀ t ∈ noTime, t ∈ ["", "none", "None", "NONE", "Na", "NaT", "nat", "NAT", "nan", "NaN",
      "NAN"].map String.toList := by decide +kernel
    exact this s c)
  have h2 : s ∉ nat := fun c => h (by
    have : ∀ t ∈ nat, t ∈ ["", "none", "None", "NONE", "Na", "NaT", "nat", "NAT", "nan", "NaN",
      "NAN"].map String.toList := by decide +kernel
    exact this s c)
  unfold parseWord
  rw [if_neg h1, if_neg h2]
  split
  · decide +kernel
  · rfl

/-! ### C349: times as they are written -/

/-- The instant that is written, in seconds. -/
def Iso.instant (x : Iso) : Int :=
  (x.date.ordinal - 719163) * 86400 + x.hour * 3600 + x.minute * 60 + x.second - x.zone.getD 0

/-- A time of day. -/
def Iso.Day (x : Iso) : Prop := 0 ≤ x.hour ∧ x.hour ≤ 23 ∧ x.Minutes

theorem pandas_ok {x : Iso} (hd : x.date.Valid) (ht : x.Day) :
    pandas x = .ok ⟨x.instant * 1000000000, match x.zone with | none => .naive | some o => .fixed o⟩ := by
  unfold pandas
  rw [dateutil_ok hd ht.1 ht.2.1 ht.2.2]
  cases hz : x.zone with
  | none =>
    simp only
    congr 3
    unfold Iso.instant clock
    rw [hz]
    show _ = _ - (0 : Int)
    omega
  | some o =>
    simp only
    congr 3
    unfold Iso.instant clock
    rw [hz]
    rfl

/-- Between the limits a text is the time that is written, and keeps its zone. -/
theorem C349_inside (x : Iso) (hd : x.date.Valid) (ht : x.Day) (h0 : -9223372036854775807 < x.instant * 1000000000)
    (h1 : x.instant * 1000000000 < 9223372036854775807) :
    parseIso x false = .ok ⟨x.instant * 1000000000, .fixed (x.zone.getD 0)⟩ := by
  unfold parseIso
  rw [pandas_ok hd ht]
  have hr : roundUp (x.instant * 1000000000) = x.instant * 1000000000 := by
    unfold roundUp
    rw [if_pos (by omega)]
  show parseStamp ⟨x.instant * 1000000000, _⟩ false = _
  rw [parse_mid (s := ⟨x.instant * 1000000000, _⟩) h0 h1]
  simp only [hr]
  rw [if_neg (by unfold tMax; omega)]
  cases hz : x.zone <;> rfl

/-- Beyond the limits it is the limit. -/
theorem C349_limits (x : Iso) (hd : x.date.Valid) (ht : x.Day) :
    (x.instant * 1000000000 ≤ -9223372036854775807 → parseIso x false = .ok ⟨-9223372036854775807, .fixed 0⟩) ∧
    (9223372036854775807 ≤ x.instant * 1000000000 → parseIso x false = .ok ⟨9223372036854775807, .fixed 0⟩) := by
  unfold parseIso
  rw [pandas_ok hd ht]
  exact ⟨fun h => parse_low h, fun h => parse_high h⟩

example : parseIso ⟨2020, 1, 1, 12, 30, 15, some 3600⟩ false = .ok ⟨1577878215000000000, .fixed 3600⟩ := by decide +kernel
example : parseIso ⟨3000, 1, 1, 0, 0, 0, none⟩ false = .ok ⟨tMax, .fixed 0⟩ := by decide +kernel

end Verif.MTime
