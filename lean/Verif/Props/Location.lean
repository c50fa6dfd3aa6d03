import Verif.Model.Location

/-!
C43, C44, C91: positions as degree-minute-second strings.
-/

namespace Verif.Location

/-! ### Auxiliary facts -/

theorem trunc_of_nonneg {q : ℚ} (h : 0 ≤ q) : trunc q = ⌊q⌋ := by
  unfold trunc
  rw [if_neg (by linarith)]

theorem natAbs_trunc (q : ℚ) : ((trunc q).natAbs : ℤ) = ⌊|q|⌋ := by
  unfold trunc
  split_ifs with h
  · rw [abs_of_neg h, Int.natAbs_neg]
    exact Int.natAbs_of_nonneg (Int.floor_nonneg.2 (by linarith))
  · rw [abs_of_nonneg (by linarith)]
    exact Int.natAbs_of_nonneg (Int.floor_nonneg.2 (by linarith))

theorem trunc_neg_iff (q : ℚ) : trunc q < 0 ↔ q ≤ -1 := by
  unfold trunc
  split_ifs with h
  · constructor
    · intro h1
      have h2 : 1 ≤ ⌊-q⌋ := by omega
      have := Int.le_floor.1 h2
      push_cast at this
      linarith
    · intro h1
      have : 1 ≤ ⌊-q⌋ := Int.le_floor.2 (by push_cast; linarith)
      omega
  · constructor
    · intro h1
      have := Int.floor_nonneg.2 (not_lt.1 h)
      omega
    · intro h1; linarith

/-- What is printed: whole degrees, minutes below 60, seconds below 60 with four decimals, together
the absolute value up to rounding, and a minus sign exactly when `x ≤ -1`. -/
theorem dms_spec (x : ℚ) : ∃ (D M : ℕ) (n : ℤ),
    dms x = ((if x ≤ -1 then -1 else 1) * (D : ℤ), M, (n : ℚ) / 10 ^ 4) ∧
    M < 60 ∧ 0 ≤ n ∧ n < 600000 ∧ (x ≤ -1 → 1 ≤ D) ∧
    |((D : ℚ) + (M : ℚ) / 60 + (n : ℚ) / 10 ^ 4 / 3600) - (|x| : ℚ)| ≤ 1 / 72000000 := by
  have hd := natAbs_trunc x
  have hD0 : x ≤ -1 → 1 ≤ (trunc x).natAbs := by
    intro h
    have := (trunc_neg_iff x).2 h
    omega
  have hfl1 := Int.floor_le |x|
  have hfl2 := Int.lt_floor_add_one |x|
  rw [← hd] at hfl1 hfl2
  unfold dms
  simp only [trunc_neg_iff]
  generalize hdd : (trunc x).natAbs = d at *
  rw [Int.cast_natCast] at hfl1 hfl2
  set m : ℚ := (|x| - d) * 60 with hm
  have hm0 : 0 ≤ m := by rw [hm]; nlinarith
  have hm1 : m < 60 := by rw [hm]; linarith
  rw [trunc_of_nonneg hm0]
  have hM1 := Int.floor_le m
  have hM2 := Int.lt_floor_add_one m
  have hM0 : 0 ≤ ⌊m⌋ := Int.floor_nonneg.2 hm0
  have hM60 : ⌊m⌋ < 60 := Int.floor_lt.2 (by push_cast; exact hm1)
  set s : ℚ := (m - ⌊m⌋) * 60 with hs
  have hs0 : 0 ≤ s := by rw [hs]; nlinarith
  have hs1 : s < 60 := by rw [hs]; linarith
  set n : ℤ := roundEven (s * 10 ^ 4) with hn
  have hr : roundDec 4 s = (n : ℚ) / 10 ^ 4 := rfl
  have hn0 : 0 ≤ n := roundEven_nonneg (by nlinarith)
  have hn1 : n ≤ 600000 := roundEven_le (by push_cast; linarith)
  have hnear := roundEven_near (s * 10 ^ 4)
  rw [← hn, abs_le] at hnear
  rw [hr]
  have hge : (60 : ℚ) ≤ (n : ℚ) / 10 ^ 4 ↔ n = 600000 := by
    rw [le_div_iff₀ (by norm_num)]
    constructor
    · intro h
      have : ((600000 : ℤ) : ℚ) ≤ n := by push_cast; linarith
      have := Int.cast_le.1 this
      omega
    · intro h; rw [h]; norm_num
  simp only [hge]
  have hxm : |x| = d + m / 60 := by rw [hm]; ring
  have hms : m = ⌊m⌋ + s / 60 := by rw [hs]; ring
  obtain ⟨M, hMM⟩ : ∃ M : ℕ, ⌊m⌋ = M := ⟨⌊m⌋.toNat, by omega⟩
  have hMq : ((⌊m⌋ : ℤ) : ℚ) = (M : ℚ) := by rw [hMM]; push_cast; rfl
  by_cases h6 : n = 600000
  · simp only [h6, if_true]
    have e1 : trunc (m + 1) = M + 1 := by
      rw [trunc_of_nonneg (by linarith), Int.floor_add_one, hMM]
    rw [e1]
    by_cases h59 : M = 59
    · have : ((M : ℤ) + 1 = 60) := by omega
      simp only [this, if_true]
      refine ⟨d + 1, 0, 0, ?_, by omega, le_refl _, by omega, fun _ => by omega, ?_⟩
      · simp [trunc]
      · rw [hxm, hms, hMq, h59, abs_le]
        rw [h6] at hnear
        push_cast at hnear ⊢
        constructor <;> linarith [hnear.1, hnear.2]
    · have : ¬ ((M : ℤ) + 1 = 60) := by omega
      simp only [this, if_false]
      rw [e1]
      refine ⟨d, M + 1, 0, ?_, by omega, le_refl _, by omega, hD0, ?_⟩
      · have : ((M : ℤ) + 1).natAbs = M + 1 := by omega
        rw [this]
        simp
      · rw [hxm, hms, hMq, abs_le]
        rw [h6] at hnear
        push_cast at hnear ⊢
        constructor <;> linarith [hnear.1, hnear.2]
  · simp only [h6, if_false]
    have e1 : trunc m = M := by rw [trunc_of_nonneg hm0, hMM]
    rw [e1]
    have : ¬ ((M : ℤ) = 60) := by omega
    simp only [this, if_false]
    rw [e1]
    refine ⟨d, M, n, ?_, by omega, hn0, by omega, hD0, ?_⟩
    · rfl
    · rw [hxm, hms, hMq, abs_le]
      constructor <;> linarith [hnear.1, hnear.2]

theorem colon_not_mem_showNat (n : ℕ) : ':' ∉ showNat n := fun h =>
  absurd (digit_of_mem_showNat h) (by decide)

theorem colon_not_mem_showInt (n : ℤ) : ':' ∉ showInt n := by
  unfold showInt
  split_ifs
  · intro h
    rcases List.mem_cons.1 h with h | h
    · exact absurd h (by decide)
    · exact colon_not_mem_showNat _ h
  · exact colon_not_mem_showNat _

theorem colon_not_mem_padZero (k n : ℕ) : ':' ∉ padZero k (showNat n) := fun h =>
  absurd (digit_of_mem_padZero (fun _ hc => digit_of_mem_showNat hc) h) (by decide)

theorem colon_not_mem_showFixedNat (k n : ℕ) : ':' ∉ showFixedNat k n := by
  unfold showFixedNat
  intro h
  rcases List.mem_append.1 h with h | h
  · exact colon_not_mem_showNat _ h
  · rcases List.mem_cons.1 h with h | h
    · exact absurd h (by decide)
    · exact colon_not_mem_padZero _ _ h

theorem colon_not_mem_showFixed (k : ℕ) (q : ℚ) : ':' ∉ showFixed k q := by
  unfold showFixed
  simp only
  split_ifs
  · intro h
    rcases List.mem_cons.1 h with h | h
    · exact absurd h (by decide)
    · exact colon_not_mem_showFixedNat _ _ h
  · exact colon_not_mem_showFixedNat _ _

/-- Reading a position string made of three printed numbers. -/
theorem str2float_parts (i : ℤ) (m : ℕ) (q : ℚ) (n : ℤ) (hq : q * 10 ^ 6 = n) :
    str2float (some (showInt i ++ ':' :: (padZero 2 (showNat m) ++ ':' :: showFixed 6 q))) =
      .ok (.fin (if i < 0 then -(|(i : ℚ)| + (m : ℚ) / 60 + q / 3600)
        else |(i : ℚ)| + (m : ℚ) / 60 + q / 3600)) := by
  have hsplit : splitOn ':' (showInt i ++ ':' :: (padZero 2 (showNat m) ++ ':' :: showFixed 6 q)) =
      [showInt i, padZero 2 (showNat m), showFixed 6 q] := by
    rw [splitOn_append (colon_not_mem_showInt i), splitOn_append (colon_not_mem_padZero 2 m),
      splitOn_none (colon_not_mem_showFixed 6 q)]
  have hne : showInt i ++ ':' :: (padZero 2 (showNat m) ++ ':' :: showFixed 6 q) ≠
      "None".toList := by
    intro h
    have : ':' ∈ "None".toList := by
      rw [← h]; simp
    exact absurd this (by decide)
  unfold str2float
  simp only
  rw [if_neg hne, hsplit]
  simp only [pyFloat_showInt, pyFloat_padZero, pyFloat_showFixed (by decide) n q hq]
  simp only [Fl.abs, Fl.divPos, Fl.add, Fl.isNeg, decide_eq_true_eq]
  have : ((i : ℚ) < 0) ↔ i < 0 := by exact_mod_cast Iff.rfl
  simp only [this]
  split_ifs <;> rfl

/-- What comes back from the printed position. -/
theorem back (x : ℚ) : ∃ V : ℚ, |V - (|x| : ℚ)| ≤ 1 / 72000000 ∧
    str2float (some (float2str x)) = .ok (.fin (if x ≤ -1 then -V else V)) := by
  obtain ⟨D, M, n, e, _, _, _, hD, hnear⟩ := dms_spec x
  refine ⟨_, hnear, ?_⟩
  unfold float2str
  simp only [e]
  rw [str2float_parts _ _ _ (n * 100) (by push_cast; ring)]
  congr 2
  by_cases hx : x ≤ -1
  · have := hD hx
    rw [if_pos hx, if_pos hx, if_pos (by omega)]
    push_cast
    rw [neg_one_mul, abs_neg, abs_of_nonneg (by positivity)]
  · rw [if_neg hx, if_neg hx, if_neg (by omega)]
    push_cast
    rw [one_mul, abs_of_nonneg (by positivity)]

/-! ### C43 -/

/-- The statement of C43: positions survive their string form, to half of the last printed digit
of the rounded seconds (0.0001 second). -/
def C43_claim : Prop :=
  ∀ x : ℚ, |x| ≤ 180 → ∃ y : ℚ, str2float (some (float2str x)) = .ok (.fin y) ∧
    |y - x| ≤ 1 / 2 / 10 ^ 4 / 3600

/-- C43 is false: half a degree south or west comes back as half a degree north or east. -/
theorem C43_refuted : ¬ C43_claim := by
  intro h
  obtain ⟨y, hy, hn⟩ := h (-1 / 2) (by norm_num)
  obtain ⟨V, hV, hb⟩ := back (-1 / 2)
  rw [hb, if_neg (by norm_num)] at hy
  cases hy
  rw [abs_le] at hV hn
  norm_num at hV hn
  linarith [hV.1, hn.2]

/-- C43 holds outside `-1 < x < 0`. -/
theorem C43_roundtrip_partial (x : ℚ) (h : x ≤ -1 ∨ 0 ≤ x) :
    ∃ y : ℚ, str2float (some (float2str x)) = .ok (.fin y) ∧ |y - x| ≤ 1 / 2 / 10 ^ 4 / 3600 := by
  obtain ⟨V, hV, hb⟩ := back x
  refine ⟨_, hb, ?_⟩
  rw [abs_le] at hV
  rcases h with h | h
  · rw [if_pos h]
    rw [abs_of_neg (by linarith : x < 0)] at hV
    rw [abs_le]
    constructor <;> linarith [hV.1, hV.2]
  · rw [if_neg (by linarith)]
    rw [abs_of_nonneg h] at hV
    rw [abs_le]
    constructor <;> linarith [hV.1, hV.2]

/-- C43, the exception in full: for `-1 < x < 0` what comes back is `-x`. -/
theorem C43_sign_lost_partial (x : ℚ) (h1 : -1 < x) (h2 : x < 0) :
    ∃ y : ℚ, str2float (some (float2str x)) = .ok (.fin y) ∧ |y - (-x)| ≤ 1 / 2 / 10 ^ 4 / 3600 := by
  obtain ⟨V, hV, hb⟩ := back x
  refine ⟨_, hb, ?_⟩
  rw [abs_of_neg h2, abs_le] at hV
  rw [if_neg (by linarith), abs_le]
  constructor <;> linarith [hV.1, hV.2]

/-- C43: minutes and seconds are printed below 60, so the string is a well-formed position. -/
theorem C43_wellformed (x : ℚ) : ∃ (i : ℤ) (M : ℕ) (sec : ℚ),
    float2str x = showInt i ++ ':' :: (padZero 2 (showNat M) ++ ':' :: showFixed 6 sec) ∧
      M < 60 ∧ 0 ≤ sec ∧ sec < 60 := by
  obtain ⟨D, M, n, e, hM, h0, h1, _, _⟩ := dms_spec x
  have h0 : (0 : ℚ) ≤ n := by exact_mod_cast h0
  refine ⟨(if x ≤ -1 then -1 else 1) * (D : ℤ), M, (n : ℚ) / 10 ^ 4,
    by unfold float2str; simp only [e], hM, by positivity, ?_⟩
  have : (n : ℚ) < 600000 := by exact_mod_cast h1
  rw [div_lt_iff₀ (by norm_num)]
  linarith

example : float2str (-45 - 1 / 2) = "-45:30:0.000000".toList := by decide +kernel
example : float2str (-1 / 2) = "0:30:0.000000".toList := by decide +kernel
example : float2str (40 - 1 / 10 ^ 9) = "40:00:0.000000".toList := by decide +kernel

/-! ### C44 -/

/-- The bound for a kind of position. -/
def bound (kind : Str) : ℚ := if kind = "latitude".toList then 90 else 180

/-- C44: whatever is returned is a number within the range of its kind. -/
theorem C44_range (v : Value) (kind : Str) (r : Fl) (h : validate v kind = .ok r) :
    (kind = "latitude".toList ∨ kind = "longitude".toList) ∧
      ∃ q : ℚ, r = .fin q ∧ |q| ≤ bound kind := by
  unfold validate at h
  split_ifs at h with hk
  refine ⟨hk, ?_⟩
  cases hc : convert v with
  | error e => rw [hc] at h; cases h
  | ok x =>
    rw [hc] at h
    simp only at h
    split_ifs at h with h1 h2
    cases h
    have key : r.abs.leQ (bound kind) = true := by
      unfold bound
      rcases hk with hk | hk
      · rw [if_pos hk]
        cases hh : r.abs.leQ 90 with
        | true => rfl
        | false => exact absurd ⟨hh, hk⟩ h1
      · rw [if_neg (by rw [hk]; decide)]
        cases hh : r.abs.leQ 180 with
        | true => rfl
        | false => exact absurd ⟨hh, hk⟩ h2
    cases r with
    | fin q => exact ⟨q, rfl, by simpa [Fl.abs, Fl.leQ] using key⟩
    | inf b => simp [Fl.abs, Fl.leQ] at key
    | nan => simp [Fl.abs, Fl.leQ] at key

/-- C44: numbers in range are returned unchanged, all other numbers are rejected. -/
theorem C44_numbers (x : Fl) (kind : Str)
    (hk : kind = "latitude".toList ∨ kind = "longitude".toList) :
    ((∃ q : ℚ, x = .fin q ∧ |q| ≤ bound kind) → validate (.num x) kind = .ok x) ∧
    (¬ (∃ q : ℚ, x = .fin q ∧ |q| ≤ bound kind) →
      validate (.num x) kind = .error .valueError) := by
  have hle : x.abs.leQ (bound kind) = true ↔ ∃ q : ℚ, x = .fin q ∧ |q| ≤ bound kind := by
    cases x with
    | fin q => simp [Fl.abs, Fl.leQ]
    | inf b => simp [Fl.abs, Fl.leQ]
    | nan => simp [Fl.abs, Fl.leQ]
  rw [← hle]
  have e : validate (.num x) kind =
      if x.abs.leQ 90 = false ∧ kind = "latitude".toList then .error .valueError
      else if x.abs.leQ 180 = false ∧ kind = "longitude".toList then .error .valueError
      else .ok x := by
    unfold validate convert
    rw [if_neg (not_not.2 hk)]
  rw [e]
  rcases hk with hk | hk
  · have hl : ¬ kind = "longitude".toList := by rw [hk]; decide
    have hb : bound kind = 90 := by unfold bound; rw [if_pos hk]
    rw [hb]
    constructor
    · intro h
      rw [if_neg (fun hh => by rw [h] at hh; exact absurd hh.1 (by decide)),
        if_neg (fun hh => hl hh.2)]
    · intro h
      rw [if_pos ⟨by simpa using h, hk⟩]
  · have hl : ¬ kind = "latitude".toList := by rw [hk]; decide
    have hb : bound kind = 180 := by unfold bound; rw [if_neg hl]
    rw [hb, if_neg (fun hh => hl hh.2)]
    constructor
    · intro h
      rw [if_neg (fun hh => by rw [h] at hh; exact absurd hh.1 (by decide))]
    · intro h
      rw [if_pos ⟨by simpa using h, hk⟩]

theorem pyFloat_error {s : Str} {e : PyErr} (h : pyFloat s = .error e) : e = .valueError := by
  unfold pyFloat at h
  split at h <;> split at h <;> cases h <;> rfl

theorem str2float_error {s : Option Str} {e : PyErr} (h : str2float s = .error e) :
    e = .valueError := by
  unfold str2float at h
  split at h
  · cases h
  · split at h
    · cases h
    · split at h
      · split at h
        · cases h
        · next h1 => cases h; exact pyFloat_error h1
        · next h1 _ => cases h; exact pyFloat_error (by assumption)
        · next h1 _ => cases h; exact pyFloat_error (by assumption)
      · cases h; rfl

/-- C44: for numbers and strings the only exception is `ValueError`. -/
theorem C44_error (v : Value) (kind : Str) (e : PyErr) (hv : v ≠ .other)
    (h : validate v kind = .error e) : e = .valueError := by
  unfold validate at h
  split_ifs at h
  · cases hc : convert v with
    | error e' =>
      rw [hc] at h
      cases h
      unfold convert at hc
      split at hc
      · cases hc
      · cases hc
      · split_ifs at hc
        · exact str2float_error hc
        · exact pyFloat_error hc
      · exact absurd rfl hv
    | ok x =>
      rw [hc] at h
      simp only at h
      split_ifs at h
      · cases h; rfl
      · cases h; rfl
  · cases h; rfl

example : validate (.str "45:30:00".toList) "latitude".toList = .ok (.fin (91 / 2)) := by
  decide +kernel
example : validate (.str "95:30:00".toList) "latitude".toList = .error .valueError := by
  decide +kernel
example : validate (.str "nan".toList) "longitude".toList = .error .valueError := by
  decide +kernel

/-! ### C91 -/

/-- C91: the value of a position string with a minus sign is not positive. -/
def C91_claim : Prop :=
  ∀ (s : Str) (y : ℚ), str2float (some ('-' :: s)) = .ok (.fin y) → y ≤ 0

/-- C91 is false: `-0:30:00` is read as plus half a degree. -/
theorem C91_refuted : ¬ C91_claim := by
  intro h
  have := h "0:30:00".toList (1 / 2) (by decide +kernel)
  norm_num at this

/-- C91: with at least one whole degree, and minutes and seconds not negative, it holds, and the
magnitudes of the parts add up. -/
theorem C91_sign_partial (d m : ℕ) (n : ℕ) (hd : 1 ≤ d) :
    str2float (some ('-' :: (showNat d ++ ':' :: (padZero 2 (showNat m) ++ ':' ::
      showFixed 6 ((n : ℚ) / 10 ^ 6))))) =
        .ok (.fin (-((d : ℚ) + (m : ℚ) / 60 + (n : ℚ) / 10 ^ 6 / 3600))) := by
  have e : '-' :: (showNat d ++ ':' :: (padZero 2 (showNat m) ++ ':' ::
      showFixed 6 ((n : ℚ) / 10 ^ 6))) = showInt (-(d : ℤ)) ++ ':' :: (padZero 2 (showNat m) ++ ':' ::
      showFixed 6 ((n : ℚ) / 10 ^ 6)) := by
    unfold showInt
    rw [if_pos (by omega)]
    simp
  rw [e, str2float_parts _ _ _ n (by push_cast; field_simp), if_pos (by omega)]
  push_cast
  rw [abs_neg, abs_of_nonneg (by positivity)]

end Verif.Location
