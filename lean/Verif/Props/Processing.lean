import Verif.Model.Processing
import Verif.Props.Band
import Verif.Props.Metadata
import Verif.Lemmas.Sorted
import Mathlib.Tactic.Linarith
import Mathlib.Tactic.NormNum
import Mathlib.Tactic.FieldSimp
import Mathlib.Tactic.Ring
import Mathlib.Algebra.BigOperators.Group.List.Basic

/-!
Properties C54-C60 and C101: decimation levels, harmonics, tapers, window counts.
-/

namespace Verif.Processing
open Verif.FreqBand

/-! ### C58 -/

/-- C58: the harmonics of a window of `n ≥ 1` samples are `k * rate / n` for `k < n // 2`. -/
theorem C58_harmonics (n : Nat) (rate : ℚ) (hn : 1 ≤ n) (hr : rate ≠ 0) :
    fftHarmonics n rate = .ok ((List.range (n / 2)).map (fun k : Nat => (k : ℚ) * rate / n)) := by
  have h1 : ¬ (n : Int) = 0 := by omega
  have h2 : ¬ (n : Int) < 0 := by omega
  simp only [fftHarmonics, if_neg hr, if_neg h1, if_neg h2, Int.toNat_natCast]
  congr 1
  have hle : n / 2 ≤ (n - 1) / 2 + 1 := by omega
  unfold fftfreq
  rw [List.map_append, List.take_append_of_le_length (by simpa using hle)]
  rw [List.map_map, ← List.map_take, List.take_range, Nat.min_eq_left hle]
  apply List.map_congr_left
  intro k _
  have hn' : (n : ℚ) ≠ 0 := by exact_mod_cast (by omega : n ≠ 0)
  simp only [Function.comp_apply]
  field_simp

/-- C58: `n // 2` harmonics, starting at 0, strictly increasing, below the Nyquist frequency. -/
theorem C58_range (n : Nat) (rate : ℚ) (hr : 0 < rate) (l : List ℚ)
    (h : fftHarmonics n rate = .ok l) :
    l.length = n / 2 ∧ (∀ f ∈ l, 0 ≤ f ∧ f < rate / 2) ∧ l.Pairwise (· < ·) ∧
      (∀ i a b, l[i]? = some a → l[i + 1]? = some b → b - a = rate / n) ∧
      (2 ≤ n → l.head? = some 0) := by
  by_cases hn : n = 0
  · subst hn
    simp [fftHarmonics, hr.ne'] at h
  have hn1 : 1 ≤ n := by omega
  rw [C58_harmonics n rate hn1 hr.ne', Except.ok.injEq] at h
  subst h
  have hnq : (0 : ℚ) < n := by exact_mod_cast hn1
  refine ⟨by simp, ?_, ?_, ?_, ?_⟩
  · intro f hf
    obtain ⟨k, hk, rfl⟩ := List.mem_map.1 hf
    have hk' : k < n / 2 := List.mem_range.1 hk
    have hk2 : 2 * k + 2 ≤ n := by omega
    have hkq : 2 * (k : ℚ) + 2 ≤ n := by exact_mod_cast hk2
    refine ⟨by positivity, ?_⟩
    rw [div_lt_div_iff₀ hnq (by norm_num)]
    nlinarith
  · rw [List.pairwise_map]
    refine List.Pairwise.imp ?_ (List.pairwise_lt_range)
    intro a b hab
    have hab' : (a : ℚ) < b := by exact_mod_cast hab
    rw [div_lt_div_iff_of_pos_right hnq]
    nlinarith
  · intro i a b ha hb
    simp only [List.getElem?_map, Option.map_eq_some_iff] at ha hb
    obtain ⟨x, hx, rfl⟩ := ha
    obtain ⟨y, hy, rfl⟩ := hb
    rw [List.getElem?_eq_some_iff] at hx hy
    obtain ⟨_, hx⟩ := hx
    obtain ⟨_, hy⟩ := hy
    simp only [List.getElem_range] at hx hy
    subst hx hy
    push_cast
    field_simp
    ring
  · intro h2
    have : n / 2 = (n / 2 - 1) + 1 := by omega
    rw [this, List.range_succ_eq_map]
    simp

example : fftHarmonics 8 16 = .ok [0, 2, 4, 6] := by decide +kernel
example : fftHarmonics 7 14 = .ok [0, 2, 4] := by decide +kernel
example : fftHarmonics 1 5 = .ok [] := by decide +kernel

/-! ### C59 -/

/-- C59 as a claim: whatever was called before, `taper()` belongs to the current settings. -/
def C59_claim : Prop :=
  ∀ (getWindow : String → List ℚ → Nat → List ℚ) (s : WinSettings) (ops : List WinOp),
    (taper getWindow (winRun getWindow ⟨s, none⟩ ops)).1 =
      computeTaper getWindow (winRun getWindow ⟨s, none⟩ ops).settings

/-- The boxcar window. -/
def boxcar (_ : String) (_ : List ℚ) (n : Nat) : List ℚ := List.replicate n 1

def settings4 : WinSettings := ⟨4, "boxcar", true, []⟩
def settings8 : WinSettings := ⟨8, "boxcar", true, []⟩

/-- C59 is false of the code: a window of 4 samples whose taper was asked for still has 4 coefficients
after `num_samples = 8`. -/
theorem C59_refuted : ¬ C59_claim := by
  intro h
  have := congrArg List.length (h boxcar settings4 [.taper, .set settings8])
  revert this
  decide +kernel

/-- The settings after some calls: those assigned last. -/
def lastSettings (s : WinSettings) : List WinOp → WinSettings
  | [] => s
  | .set t :: ops => lastSettings t ops
  | .taper :: ops => lastSettings s ops

theorem settings_run (gw : String → List ℚ → Nat → List ℚ) (ops : List WinOp) :
    ∀ w : Win, (winRun gw w ops).settings = lastSettings w.settings ops := by
  induction ops with
  | nil => intro w; rfl
  | cons o ops ih =>
    intro w
    rw [winRun, List.foldl_cons, ← winRun, ih]
    cases o with
    | set s => rfl
    | taper =>
      simp only [winStep, lastSettings]
      congr 1
      unfold taper
      split <;> rfl

/-- The settings in force when `taper()` was first called, if it was. -/
def firstTaper (s : WinSettings) : List WinOp → Option WinSettings
  | [] => none
  | .set t :: ops => firstTaper t ops
  | .taper :: _ => some s

theorem cache_run_some (gw : String → List ℚ → Nat → List ℚ) (ops : List WinOp) :
    ∀ (w : Win) (t : List ℚ), w.cache = some t → (winRun gw w ops).cache = some t := by
  induction ops with
  | nil => intro w t h; exact h
  | cons o ops ih =>
    intro w t h
    rw [winRun, List.foldl_cons, ← winRun]
    apply ih
    cases o with
    | set s => exact h
    | taper => simp only [winStep, taper, h]

/-- C59, what the code does: `taper()` answers for the settings in force at the first `taper()` call,
or for the current ones if there was none. -/
theorem C59_taper_partial (gw : String → List ℚ → Nat → List ℚ) (s : WinSettings)
    (ops : List WinOp) :
    (taper gw (winRun gw ⟨s, none⟩ ops)).1 =
      computeTaper gw ((firstTaper s ops).getD (lastSettings s ops)) := by
  induction ops generalizing s with
  | nil => rfl
  | cons o ops ih =>
    cases o with
    | set t =>
      have := ih t
      rw [winRun, List.foldl_cons, ← winRun]
      simpa only [winStep, firstTaper, lastSettings] using this
    | taper =>
      rw [winRun, List.foldl_cons, ← winRun]
      simp only [firstTaper, Option.getD_some]
      have hc := cache_run_some gw ops (winStep gw ⟨s, none⟩ .taper) (computeTaper gw s) rfl
      rw [taper, hc]

/-- C59: settings that are not changed after the first `taper()` are the ones it answers for. -/
theorem C59_current_partial (gw : String → List ℚ → Nat → List ℚ) (s : WinSettings)
    (ops : List WinOp) (h : ∀ t, firstTaper s ops = some t → t = lastSettings s ops) :
    (taper gw (winRun gw ⟨s, none⟩ ops)).1 =
      computeTaper gw (winRun gw ⟨s, none⟩ ops).settings := by
  rw [C59_taper_partial, settings_run]
  cases hf : firstTaper s ops with
  | none => rfl
  | some t => rw [h t hf]; rfl

example : firstTaper settings4 [.set settings8, .taper, .taper] = some settings8 ∧
    lastSettings settings4 [.set settings8, .taper, .taper] = settings8 := ⟨rfl, rfl⟩

/-- C59: a normalised taper sums to 1 (unless the window sums to 0) and has as many coefficients as
the window function returns. -/
theorem C59_normalized (gw : String → List ℚ → Nat → List ℚ) (s : WinSettings)
    (hs : s.normalized = true) (h0 : (gw s.type s.args s.numSamples).sum ≠ 0) :
    (computeTaper gw s).sum = 1 ∧
      (computeTaper gw s).length = (gw s.type s.args s.numSamples).length := by
  have key : ∀ (l : List ℚ) (c : ℚ), (l.map (· / c)).sum = l.sum / c := by
    intro l c
    induction l with
    | nil => simp
    | cons a l ih => rw [List.map_cons, List.sum_cons, List.sum_cons, ih, add_div]
  unfold computeTaper
  simp only [hs, if_true, List.length_map, and_true]
  rw [key, div_self h0]

example : computeTaper boxcar settings4 = [1 / 4, 1 / 4, 1 / 4, 1 / 4] := by decide +kernel

/-! ### C60 -/

/-- `w` windows of `num` samples, each starting `num - overlap` after the one before, lie
within `n` samples. -/
def WindowsFit (num overlap w n : Int) : Prop :=
  ∀ k : Int, 0 ≤ k → k < w → 0 ≤ k * (num - overlap) ∧ k * (num - overlap) + num ≤ n

/-- C60 as a claim. -/
def C60_claim : Prop :=
  ∀ num overlap w n : Int, 0 < num → 0 ≤ overlap → overlap ≤ num → 0 ≤ w → 0 ≤ n →
    (validLength num overlap w n = true ↔ WindowsFit num overlap w n)

/-- C60 is false of the code for the default `min_num_stft_windows = 0`: no window is asked for, but a
series shorter than the overlap is refused. -/
theorem C60_refuted : ¬ C60_claim := by
  intro h
  have := (h 256 32 0 10 (by omega) (by omega) (by omega) (by omega) (by omega)).2
    (by intro k h0 h1; omega)
  revert this
  decide +kernel

/-- C60: right whenever at least one window is asked for and windows advance or stay. -/
theorem C60_fit_partial (num overlap w n : Int) (ho : overlap ≤ num) (hw : 1 ≤ w) :
    validLength num overlap w n = true ↔ WindowsFit num overlap w n := by
  simp only [validLength, Bool.not_eq_true', decide_eq_false_iff_not, not_lt]
  constructor
  · intro h k h0 h1
    have hp : 0 ≤ num - overlap := by omega
    refine ⟨Int.mul_nonneg h0 hp, ?_⟩
    have : k * (num - overlap) ≤ (w - 1) * (num - overlap) :=
      Int.mul_le_mul_of_nonneg_right (by omega) hp
    omega
  · intro h
    have := (h (w - 1) (by omega) (by omega)).2
    omega

/-- C60: with no window asked for, the overlap is the length required. -/
theorem C60_zero_partial (num overlap n : Int) :
    validLength num overlap 0 n = true ↔ overlap ≤ n := by
  simp only [validLength, Bool.not_eq_true', decide_eq_false_iff_not, not_lt]
  constructor <;> intro h <;> linarith

/-- C60: a longer series is never less valid, more windows never easier to fit. -/
theorem C60_monotone (num overlap w w' n n' : Int) (ho : overlap ≤ num) (hn : n ≤ n')
    (hw : w' ≤ w) (h : validLength num overlap w n = true) :
    validLength num overlap w' n' = true := by
  simp only [validLength, Bool.not_eq_true', decide_eq_false_iff_not, not_lt] at h ⊢
  have : (w' - 1) * (num - overlap) ≤ (w - 1) * (num - overlap) :=
    Int.mul_le_mul_of_nonneg_right (by omega) (by omega)
  omega

example : validLength 256 32 4 928 = true ∧ validLength 256 32 4 927 = false := by decide +kernel

/-! ### C54 -/

/-- The product of the factors 1 to `i` of a list. -/
def cumulative (fs : List ℚ) (i : Nat) : ℚ := ((fs.take (i + 1)).drop 1).prod

/-- C54 as a claim: the levels can always be created, have the factors given (or 1, 4, 4, … for
`max_levels` levels), are numbered from 0 and have the cumulative rates. -/
def C54_claim : Prop :=
  ∀ (r : ℚ) (factors : Option (List ℚ)) (m : Nat), (∀ fs, factors = some fs → ∀ f ∈ fs, f ≠ 0) →
    ∃ ls, creator r factors m = .ok ls ∧
      ls.map FcLevel.factor =
        (match factors.getD [] with
          | [] => (List.replicate m 4).set 0 1
          | f :: fs => f :: fs) ∧
      ∀ i l, ls[i]? = some l →
        l.level = i ∧ l.id = Nat.repr i ∧ l.rate = r / cumulative (ls.map FcLevel.factor) i

/-- C54 is false of the code: no levels (`max_levels=0`) raises instead of giving an empty list. -/
theorem C54_refuted : ¬ C54_claim := by
  intro h
  obtain ⟨ls, h1, _⟩ := h 1 none 0 (by simp)
  revert h1
  simp [creator]

theorem creatorLoop_spec (r : ℚ) (fs : List ℚ) : ∀ (i : Nat) (c : ℚ), 1 ≤ i → (∀ f ∈ fs, f ≠ 0) →
    ∃ ls, creatorLoop r i c fs = .ok ls ∧ ls.map FcLevel.factor = fs ∧
      ∀ j l, ls[j]? = some l → l.level = i + j ∧ l.id = Nat.repr (i + j) ∧
        l.rate = c / (fs.take (j + 1)).prod := by
  induction fs with
  | nil => intro i c _ _; exact ⟨[], rfl, rfl, by simp⟩
  | cons f fs ih =>
    intro i c hi hne
    have hf : f ≠ 0 := hne f (by simp)
    obtain ⟨ls, h1, h2, h3⟩ := ih (i + 1) (c / f) (by omega) (fun g hg => hne g (by simp [hg]))
    refine ⟨⟨i, Nat.repr i, f, c / f⟩ :: ls, ?_, ?_, ?_⟩
    · rw [creatorLoop]
      simp only [if_neg (by omega : ¬ i = 0), if_neg hf, h1]
    · simp [h2]
    · intro j l hj
      cases j with
      | zero =>
        simp only [List.getElem?_cons_zero, Option.some.injEq] at hj
        subst hj
        simp
      | succ j =>
        simp only [List.getElem?_cons_succ] at hj
        obtain ⟨a, b, d⟩ := h3 j l hj
        refine ⟨by omega, by rw [b]; congr 1; omega, ?_⟩
        rw [d, List.take_succ_cons (i := j + 1), List.prod_cons, div_div]

/-- C54: with factors, or with at least one level, the levels are as claimed. -/
theorem C54_levels_partial (r : ℚ) (factors : Option (List ℚ)) (m : Int) (fs : List ℚ)
    (hfs : fs = match factors.getD [] with
      | [] => (List.replicate m.toNat 4).set 0 1
      | f :: fs => f :: fs)
    (hm : factors.getD [] = [] → 1 ≤ m) (hne : ∀ f ∈ fs.tail, f ≠ 0) :
    ∃ ls, creator r factors m = .ok ls ∧ ls.map FcLevel.factor = fs ∧
      ∀ i l, ls[i]? = some l →
        l.level = i ∧ l.id = Nat.repr i ∧ l.rate = r / cumulative fs i := by
  have main : ∀ (f : ℚ) (gs : List ℚ), (∀ g ∈ gs, g ≠ 0) →
      ∃ ls, creatorLoop r 0 0 (f :: gs) = .ok ls ∧ ls.map FcLevel.factor = f :: gs ∧
        ∀ i l, ls[i]? = some l →
          l.level = i ∧ l.id = Nat.repr i ∧ l.rate = r / cumulative (f :: gs) i := by
    intro f gs hg
    obtain ⟨ls, h1, h2, h3⟩ := creatorLoop_spec r gs 1 r (by omega) hg
    refine ⟨⟨0, Nat.repr 0, f, r⟩ :: ls, ?_, by simp [h2], ?_⟩
    · rw [creatorLoop]; simp only [if_true, Nat.zero_add, h1]
    · intro i l hi
      cases i with
      | zero =>
        simp only [List.getElem?_cons_zero, Option.some.injEq] at hi
        subst hi
        simp [cumulative]
      | succ i =>
        simp only [List.getElem?_cons_succ] at hi
        obtain ⟨a, b, d⟩ := h3 i l hi
        refine ⟨by omega, by rw [b]; congr 1; omega, ?_⟩
        rw [d]
        simp [cumulative]
  unfold creator
  cases hf : factors.getD [] with
  | nil =>
    rw [hf] at hfs hm
    have hm1 := hm rfl
    simp only [if_neg (by omega : ¬ m ≤ 0)]
    obtain ⟨k, hk⟩ : ∃ k, m.toNat = k + 1 := ⟨m.toNat - 1, by omega⟩
    rw [hk] at hfs ⊢
    simp only [List.replicate_succ, List.set_cons_zero] at hfs
    subst hfs
    simp only [Nat.add_sub_cancel]
    exact main 1 _ (by simpa using hne)
  | cons f gs =>
    rw [hf] at hfs
    subst hfs
    exact main f gs (by simpa using hne)

/-- C54: without factors, level `i` has the rate `r / 4^i`, for any number of levels. -/
theorem C54_default_partial (r : ℚ) (m : Nat) (hm : 1 ≤ m) :
    ∃ ls, creator r none m = .ok ls ∧ ls.length = m ∧
      ∀ i l, ls[i]? = some l → l.level = i ∧ l.rate = r / 4 ^ i := by
  obtain ⟨k, rfl⟩ : ∃ k, m = k + 1 := ⟨m - 1, by omega⟩
  obtain ⟨ls, h1, h2, h3⟩ := C54_levels_partial r none (k + 1 : Nat) (1 :: List.replicate k 4)
    (by simp [List.replicate_succ]) (by intro _; omega)
    (by intro f hf; simp only [List.tail_cons, List.mem_replicate] at hf; rw [hf.2]; norm_num)
  have hlen : ls.length = k + 1 := by
    have := congrArg List.length h2
    simpa using this
  refine ⟨ls, h1, hlen, ?_⟩
  intro i l hi
  obtain ⟨a, _, c⟩ := h3 i l hi
  refine ⟨a, ?_⟩
  rw [c]
  have hik : i ≤ k := by
    have := (List.getElem?_eq_some_iff.1 hi).1
    omega
  simp [cumulative, List.take_replicate, hik]

/-- C54: a factor 0 after the first raises. -/
theorem C54_zero_factor (r f : ℚ) (fs : List ℚ) (m : Int) (h : (0 : ℚ) ∈ fs) :
    creator r (some (f :: fs)) m = .error .zeroDivisionError := by
  have key : ∀ (fs : List ℚ) (i : Nat) (c : ℚ), 1 ≤ i → (0 : ℚ) ∈ fs →
      creatorLoop r i c fs = .error .zeroDivisionError := by
    intro fs
    induction fs with
    | nil => intro i c _ h; simp at h
    | cons g fs ih =>
      intro i c hi h
      rw [creatorLoop]
      simp only [if_neg (by omega : ¬ i = 0)]
      by_cases hg : g = 0
      · simp [hg]
      · have : (0 : ℚ) ∈ fs := by
          rcases List.mem_cons.1 h with h | h
          · exact absurd h.symm hg
          · exact h
        simp only [if_neg hg, ih (i + 1) (c / g) (by omega) this]
  simp only [creator, Option.getD_some]
  rw [creatorLoop]
  simp only [if_true, Nat.zero_add, key fs 1 r (by omega) h]

example : (match creator 64 (some [1, 4, 2]) 6 with
    | .ok ls => ls.map FcLevel.rate
    | .error _ => []) = [64, 16, 8] := by decide +kernel

/-! ### C55 -/

/-- The product of the factors of the levels 1 to `k`. -/
def product (factors : OD Nat ℚ) : Nat → ℚ
  | 0 => 1
  | k + 1 => product factors k * (OD.get? factors (k + 1)).getD 1

/-- C55 as a claim: each level `assign_bands` adds has the base rate divided by the factors
of all levels down to it. -/
def C55_claim : Prop :=
  ∀ (edges : OD Nat (List (ℚ × ℚ))) (rate : ℚ) (factors : OD Nat ℚ) (w : WinLen)
    (ls : List Level), 0 < rate → (∀ p ∈ factors, 0 < p.2) →
    assignBands [] edges rate factors w = .ok ls →
      ∀ l ∈ ls, l.rate = rate / product factors l.level

/-- C55 is false of the code: with factors 1, 4, 2 level 2 gets 64 / 2² = 16 instead of 64 / 8 = 8. -/
theorem C55_refuted : ¬ C55_claim := by
  intro h
  have := h [(0, []), (1, []), (2, [])] 64 [(0, 1), (1, 4), (2, 2)] (.all 256)
    [⟨0, 1, 64, 256, []⟩, ⟨1, 4, 16, 256, []⟩, ⟨2, 2, 16, 256, []⟩] (by norm_num)
    (by decide +kernel) (by decide +kernel) ⟨2, 2, 16, 256, []⟩ (by simp)
  revert this
  decide +kernel

theorem makeLevel_ok {rate : ℚ} {factors : OD Nat ℚ} {w : WinLen} {count i : Nat}
    {edges : List (ℚ × ℚ)} {l : Level} (h : makeLevel rate factors w count i edges = .ok l) :
    l.level = i ∧ OD.get? factors i = some l.factor ∧ w.get count i = .ok l.samples ∧
      l.rate = rate / l.factor ^ i * (if i = 0 then l.factor ^ i else 1) ∧
      ∃ freqs, fftHarmonics l.samples l.rate = .ok freqs ∧
        makeBands freqs edges = .ok l.bands := by
  unfold makeLevel at h
  cases hd : OD.get? factors i with
  | none => simp only [hd] at h; cases h
  | some d =>
    simp only [hd] at h
    cases hs : levelRate rate d i with
    | error e => simp only [hs] at h; cases h
    | ok sr =>
      simp only [hs] at h
      cases hw : w.get count i with
      | error e => simp only [hw] at h; cases h
      | ok n =>
        simp only [hw] at h
        cases hf : fftHarmonics n sr with
        | error e => simp only [hf] at h; cases h
        | ok freqs =>
          simp only [hf] at h
          cases hb : makeBands freqs edges with
          | error e => simp only [hb] at h; cases h
          | ok bs =>
            simp only [hb, Except.ok.injEq] at h
            subst h
            refine ⟨rfl, rfl, rfl, ?_, freqs, hf, hb⟩
            unfold levelRate at hs
            by_cases h0 : i = 0
            · subst h0
              simp only [if_true, Except.ok.injEq] at hs
              simp [hs]
            · rw [if_neg h0] at hs
              split at hs
              · cases hs
              · simp only [Except.ok.injEq] at hs
                simp [h0, hs]

theorem forall₂_right {α β : Type} {R : α → β → Prop} {as : List α} {bs : List β}
    (h : List.Forall₂ R as bs) : ∀ b ∈ bs, ∃ a, a ∈ as ∧ R a b := by
  induction h with
  | nil => intro b hb; simp at hb
  | cons h1 _ ih =>
    intro b hb
    rcases List.mem_cons.1 hb with rfl | hb
    · exact ⟨_, by simp, h1⟩
    · obtain ⟨a, ha, hr⟩ := ih b hb
      exact ⟨a, by simp [ha], hr⟩

theorem makeLevels_ok {rate : ℚ} {factors : OD Nat ℚ} {w : WinLen} {count : Nat}
    {ps : List (Nat × List (ℚ × ℚ))} : ∀ {ls : List Level},
    makeLevels rate factors w count ps = .ok ls →
      List.Forall₂ (fun p l => makeLevel rate factors w count p.1 p.2 = .ok l) ps ls := by
  induction ps with
  | nil =>
    intro ls h
    simp only [makeLevels, Except.ok.injEq] at h
    subst h
    exact .nil
  | cons p ps ih =>
    intro ls h
    rw [makeLevels] at h
    cases h1 : makeLevel rate factors w count p.1 p.2 with
    | error e => simp only [h1] at h; cases h
    | ok l =>
      cases h2 : makeLevels rate factors w count ps with
      | error e => simp only [h1, h2] at h; cases h
      | ok ls' =>
        simp only [h1, h2, Except.ok.injEq] at h
        subst h
        exact .cons h1 (ih h2)

/-- The band edges in the order of the levels. -/
def sortedEdges (edges : OD Nat (List (ℚ × ℚ))) : List (Nat × List (ℚ × ℚ)) :=
  pySorted (fun a b => decide (a.1 ≤ b.1)) edges

/-- C55: the new levels come in the order of their numbers, one per entry of the band edges. -/
theorem C55_order (edges : OD Nat (List (ℚ × ℚ))) :
    (sortedEdges edges).Perm edges ∧ (sortedEdges edges).Pairwise (fun a b => a.1 ≤ b.1) := by
  refine ⟨pySorted_perm _ _, ?_⟩
  have := pySorted_pairwise (le := fun (a b : Nat × List (ℚ × ℚ)) => decide (a.1 ≤ b.1))
    (by intro a b c h1 h2; simp only [decide_eq_true_eq] at *; omega)
    (by intro a b; simp only [Bool.or_eq_true, decide_eq_true_eq]; omega) edges
  exact this.imp (fun h => by simpa using h)

/-- C55: which level gets which rate: the base rate over the own factor to the power of the level. -/
theorem C55_rate_partial (old : List Level) (edges : OD Nat (List (ℚ × ℚ))) (rate : ℚ)
    (factors : OD Nat ℚ) (w : WinLen) (ls : List Level)
    (h : assignBands old edges rate factors w = .ok ls) :
    ∃ new, ls = old ++ new ∧ new.map Level.level = (sortedEdges edges).map Prod.fst ∧
      ∀ l ∈ new, OD.get? factors l.level = some l.factor ∧
        (l.level = 0 → l.rate = rate) ∧ (l.level ≠ 0 → l.rate = rate / l.factor ^ l.level) := by
  unfold assignBands at h
  cases hm : makeLevels rate factors w edges.length
      (pySorted (fun a b => decide (a.1 ≤ b.1)) edges) with
  | error e => simp only [hm] at h; cases h
  | ok new =>
    simp only [hm, Except.ok.injEq] at h
    have hf := makeLevels_ok hm
    refine ⟨new, h.symm, ?_, ?_⟩
    · have : ∀ (ps : List (Nat × List (ℚ × ℚ))) (qs : List Level),
          List.Forall₂ (fun p l => makeLevel rate factors w edges.length p.1 p.2 = .ok l) ps qs →
          qs.map Level.level = ps.map Prod.fst := by
        intro ps qs hpq
        induction hpq with
        | nil => rfl
        | cons h1 _ ih => simp only [List.map_cons, ih, (makeLevel_ok h1).1]
      exact this _ _ hf
    · intro l hl
      obtain ⟨p, _, hp⟩ : ∃ p, p ∈ pySorted (fun (a b : Nat × List (ℚ × ℚ)) => decide (a.1 ≤ b.1)) edges ∧
          makeLevel rate factors w edges.length p.1 p.2 = .ok l := by
        exact forall₂_right hf l hl
      obtain ⟨a, b, _, d, _⟩ := makeLevel_ok hp
      rw [a]
      refine ⟨b, ?_, ?_⟩
      · intro h0; rw [d, h0]; simp
      · intro h0; rw [d, if_neg h0, mul_one]

/-- C55: right when all factors from level 1 on are equal. -/
theorem C55_uniform_partial (old : List Level) (edges : OD Nat (List (ℚ × ℚ))) (rate d : ℚ)
    (factors : OD Nat ℚ) (w : WinLen) (ls new : List Level) (hnew : ls = old ++ new)
    (hd : ∀ l ∈ new, ∀ k, 1 ≤ k → k ≤ l.level → OD.get? factors k = some d)
    (h : assignBands old edges rate factors w = .ok ls) :
    ∀ l ∈ new, l.rate = rate / product factors l.level := by
  obtain ⟨new', h1, _, h3⟩ := C55_rate_partial old edges rate factors w ls h
  have : new' = new := by rw [hnew] at h1; exact (List.append_cancel_left h1).symm
  subst this
  intro l hl
  obtain ⟨a, b, c⟩ := h3 l hl
  have hp : ∀ k, k ≤ l.level → product factors k = d ^ k := by
    intro k hk
    induction k with
    | zero => simp [product]
    | succ k ih => rw [product, ih (by omega), hd l hl (k + 1) (by omega) hk, pow_succ]; rfl
  by_cases h0 : l.level = 0
  · rw [b h0, h0]; simp [product]
  · rw [c h0, hp _ le_rfl]
    have := hd l hl l.level (by omega) le_rfl
    rw [this] at a
    rw [Option.some.inj a]

/-- C55: the bands of a level are the given ones, in order, and the indices they store are the first
and the last frequency within the band. -/
theorem C55_bands (freqs : List ℚ) (edges : List (ℚ × ℚ)) (bs : List (Band ℚ))
    (h : makeBands freqs edges = .ok bs) :
    bs.map (fun b => (b.fmin, b.fmax)) = edges ∧
      ∀ b ∈ bs, ∃ lo hi : Nat, b.imin = some (lo : Int) ∧ b.imax = some (hi : Int) ∧
        (∃ f, freqs[lo]? = some f ∧ b.fmin ≤ f ∧ f < b.fmax) ∧
        (∃ f, freqs[hi]? = some f ∧ b.fmin ≤ f ∧ f < b.fmax) ∧
        ∀ (k : Nat) (f : ℚ), freqs[k]? = some f → b.fmin ≤ f → f < b.fmax → lo ≤ k ∧ k ≤ hi := by
  induction edges generalizing bs with
  | nil =>
    simp only [makeBands, Except.ok.injEq] at h
    subst h
    simp
  | cons e es ih =>
    rw [makeBands] at h
    cases h1 : setIndices { fmin := e.1, fmax := e.2, closed := .left } freqs with
    | error x => simp only [h1] at h; cases h
    | ok b =>
      cases h2 : makeBands freqs es with
      | error x => simp only [h1, h2] at h; cases h
      | ok bs' =>
        simp only [h1, h2, Except.ok.injEq] at h
        subst h
        obtain ⟨i1, i2⟩ := ih bs' h2
        let b0 : Band ℚ := { fmin := e.1, fmax := e.2, closed := .left }
        have hle : b0.fmin ≤ b0.fmax := by
          by_contra hc
          have := (C26_total b0 freqs).2 (not_le.1 hc)
          simp only [setIndices, b0] at h1 this
          rw [this] at h1
          cases h1
        obtain ⟨s1, s2⟩ := C26_set_indices b0 freqs hle
        by_cases hex : ∃ f ∈ freqs, Mem b0 f
        · obtain ⟨lo, hi, e1, e2, e3, e4⟩ := s2 hex
          have hb : b = { b0 with imin := some lo, imax := some hi } := by
            have : (Except.ok b : Except PyErr (Band ℚ)) = _ := h1.symm.trans e1
            exact Except.ok.inj this
          subst hb
          refine ⟨by simp [i1, b0], ?_⟩
          intro c hc
          rcases List.mem_cons.1 hc with rfl | hc
          · exact ⟨lo, hi, rfl, rfl, e2, e3, fun k f hk ha hb => e4 k f hk ⟨ha, hb⟩⟩
          · exact i2 c hc
        · have : setIndices b0 freqs = .error .indexError := by
            apply s1
            intro f hf hm
            exact hex ⟨f, hf, hm⟩
          rw [show setIndices b0 freqs = .ok b from h1] at this
          cases this

/-- C55: every level added carries the bands given for it, each pointing to the first and the last
harmonic `k * l.rate / l.samples` of the level's own grid within the band. -/
theorem C55_level_bands (old : List Level) (edges : OD Nat (List (ℚ × ℚ))) (rate : ℚ)
    (factors : OD Nat ℚ) (w : WinLen) (ls : List Level) (hrate : 0 < rate)
    (hfac : ∀ i d, OD.get? factors i = some d → 0 < d)
    (h : assignBands old edges rate factors w = .ok ls) :
    ∃ new, ls = old ++ new ∧
      new.map (fun l => (l.level, l.bands.map (fun b => (b.fmin, b.fmax)))) = sortedEdges edges ∧
      ∀ l ∈ new, ∃ n : Nat, l.samples = n ∧ 1 ≤ n ∧
        ∀ b ∈ l.bands, ∃ lo hi : Nat, b.imin = some (lo : Int) ∧ b.imax = some (hi : Int) ∧
          lo ≤ hi ∧ hi < n / 2 ∧
          ∀ k : Nat, k < n / 2 →
            ((b.fmin ≤ k * l.rate / n ∧ k * l.rate / n < b.fmax) ↔
              (lo ≤ k ∧ k ≤ hi)) := by
  unfold assignBands at h
  cases hm : makeLevels rate factors w edges.length
      (pySorted (fun a b => decide (a.1 ≤ b.1)) edges) with
  | error e => simp only [hm] at h; cases h
  | ok new =>
    simp only [hm, Except.ok.injEq] at h
    have hf := makeLevels_ok hm
    refine ⟨new, h.symm, ?_, ?_⟩
    · have : ∀ (ps : List (Nat × List (ℚ × ℚ))) (qs : List Level),
          List.Forall₂ (fun p l => makeLevel rate factors w edges.length p.1 p.2 = .ok l) ps qs →
          qs.map (fun l => (l.level, l.bands.map (fun b => (b.fmin, b.fmax)))) = ps := by
        intro ps qs hpq
        induction hpq with
        | nil => rfl
        | cons h1 _ ih =>
          obtain ⟨a, _, _, _, fr, _, hb⟩ := makeLevel_ok h1
          rw [List.map_cons, ih, a, (C55_bands fr _ _ hb).1]
      exact this _ _ hf
    · intro l hl
      obtain ⟨p, _, hp⟩ := forall₂_right hf l hl
      obtain ⟨_, hfac', _, hd', fr, hfr, hb⟩ := makeLevel_ok hp
      have hn : ¬ l.samples < 0 ∧ ¬ l.samples = 0 ∧ l.rate ≠ 0 := by
        unfold fftHarmonics at hfr
        refine ⟨?_, ?_, ?_⟩ <;> intro hc <;> revert hfr
        · simp only [hc, if_true]
          split
          · simp
          · split <;> simp
        · simp only [hc, if_true]
          split <;> simp
        · simp [hc]
      obtain ⟨n, hn'⟩ : ∃ n : Nat, l.samples = n := ⟨l.samples.toNat, by omega⟩
      have h1 : 1 ≤ n := by omega
      refine ⟨n, hn', h1, ?_⟩
      intro b hbm
      obtain ⟨lo, hi, e1, e2, ⟨f1, g1, g2, g3⟩, ⟨f2, g4, g5, g6⟩, e5⟩ := (C55_bands fr _ _ hb).2 b hbm
      rw [hn', C58_harmonics n l.rate h1 hn.2.2, Except.ok.injEq] at hfr
      subst hfr
      have get : ∀ k : Nat, k < n / 2 →
          ((List.range (n / 2)).map (fun k : Nat => (k : ℚ) * l.rate / n))[k]? =
            some (k * l.rate / n) := by
        intro k hk
        rw [List.getElem?_map, List.getElem?_range hk]
        rfl
      have lt : ∀ (k : Nat) (f : ℚ),
          ((List.range (n / 2)).map (fun k : Nat => (k : ℚ) * l.rate / n))[k]? = some f →
            k < n / 2 ∧ f = k * l.rate / n := by
        intro k f hk
        have hlt : k < n / 2 := by
          have := (List.getElem?_eq_some_iff.1 hk).1
          simpa using this
        refine ⟨hlt, ?_⟩
        rw [get k hlt] at hk
        exact (Option.some.inj hk).symm
      obtain ⟨l1, l2⟩ := lt lo f1 g1
      obtain ⟨l3, l4⟩ := lt hi f2 g4
      refine ⟨lo, hi, e1, e2, (e5 lo f1 g1 g2 g3).2, l3, ?_⟩
      intro k hk
      have hr' : 0 ≤ l.rate := by
        rw [hd']
        have := hfac _ _ hfac'
        split <;> positivity
      have mono : ∀ a c : Nat, a ≤ c → (a : ℚ) * l.rate / n ≤ c * l.rate / n := by
        intro a c hac
        have hac' : (a : ℚ) ≤ c := by exact_mod_cast hac
        have hnq : (0 : ℚ) < n := by exact_mod_cast h1
        apply (div_le_div_iff_of_pos_right hnq).2
        exact mul_le_mul_of_nonneg_right hac' hr'
      constructor
      · intro hk2
        exact e5 k _ (get k hk) hk2.1 hk2.2
      · intro hk2
        refine ⟨?_, ?_⟩
        · rw [l2] at g2
          exact g2.trans (mono lo k hk2.1)
        · rw [l4] at g6
          exact lt_of_le_of_lt (mono k hi hk2.2) g6

/-- C55: one window length for all levels is looked up by position: a level number beyond the number of
levels raises. -/
theorem C55_gap (rate d : ℚ) (factors : OD Nat ℚ) (n : Int) (count i : Nat)
    (edges : List (ℚ × ℚ)) (hd : OD.get? factors i = some d) (h0 : d ≠ 0) (h : count ≤ i) :
    makeLevel rate factors (.all n) count i edges = .error .indexError := by
  have hs : ∃ sr, levelRate rate d i = .ok sr := by
    unfold levelRate
    split
    · exact ⟨_, rfl⟩
    · rw [if_neg (pow_ne_zero i h0)]; exact ⟨_, rfl⟩
  obtain ⟨sr, hs⟩ := hs
  simp only [makeLevel, hd, hs, WinLen.get, if_neg (not_lt.2 h)]

example : assignBands [] [(1, [(1, 3)]), (0, [(4, 9)])] 16 [(0, 1), (1, 4)] (.all 8) =
    .ok [⟨0, 1, 16, 8, [⟨4, 9, .left, some 2, some 3⟩]⟩,
      ⟨1, 4, 4, 8, [⟨1, 3, .left, some 2, some 3⟩]⟩] := by decide +kernel

/-! ### C56 -/

variable {L : Type}

/-- The level an entry of a list stands for. -/
def Item.level? : Item L → Option L
  | .obj l => some l
  | .dict l => some l
  | .other => none

/-- C56 as a claim. -/
def C56_claim : Prop :=
  ∀ (items : List (Item Nat)) (ls : List Nat), items.map Item.level? = ls.map some →
    validateDecimations (.list items) = .ok ls

/-- C56 is false of the code: a list with one level object stores it twice. -/
theorem C56_refuted : ¬ C56_claim := by
  intro h
  have := h [.obj 0] [0] rfl
  revert this
  decide +kernel

theorem readList_ok (items : List (Item L)) : ∀ ls : List L,
    readList items = .ok ls ↔ items.map Item.level? = ls.map some := by
  induction items with
  | nil => intro ls; cases ls <;> simp [readList]
  | cons x rest ih =>
    intro ls
    cases hr : readList rest with
    | error e =>
      have hno : ∀ ls' : List L, rest.map Item.level? ≠ ls'.map some := by
        intro ls' hc
        rw [← ih] at hc
        rw [hr] at hc
        cases hc
      cases x with
      | other => cases ls <;> simp [readList, Item.level?]
      | obj l | dict l =>
        cases ls with
        | nil => simp [readList, hr]
        | cons a ls' => simpa [readList, hr, Item.level?] using fun _ => hno ls'
    | ok rs =>
      cases x with
      | other => cases ls <;> simp [readList, Item.level?]
      | obj l | dict l =>
        cases ls with
        | nil => simp [readList, hr]
        | cons a ls' =>
          have := ih ls'
          rw [hr, Except.ok.injEq] at this
          simp [readList, hr, Item.level?, this]

theorem readList_error (items : List (Item L)) (h : ∀ ls, readList items ≠ .ok ls) :
    readList items = .error .typeError := by
  induction items with
  | nil => exact absurd rfl (h [])
  | cons x rest ih =>
    cases x with
    | other => rfl
    | obj l | dict l =>
      cases hr : readList rest with
      | ok ls => exact absurd (by simp [readList, hr]) (h (l :: ls))
      | error e =>
        have := ih (by intro ls hc; rw [hr] at hc; cases hc)
        rw [hr] at this
        simp [readList, hr, this]

/-- The level objects of a list, dicts left out. -/
def Item.obj? : Item L → Option L
  | .obj l => some l
  | _ => none

/-- C56, what the code stores: the level objects of the list, then every entry of it. -/
theorem C56_list_partial (items : List (Item L)) (ls : List L)
    (h : items.map Item.level? = ls.map some) :
    validateDecimations (.list items) = .ok (items.filterMap Item.obj? ++ ls) := by
  have h1 := (readList_ok items ls).2 h
  have h2 : objects items = items.filterMap Item.obj? := by
    unfold objects
    congr 1
  simp only [validateDecimations, h1, h2]

/-- C56: a list of dicts is stored as given. -/
theorem C56_dicts_partial (ls : List L) :
    validateDecimations (.list (ls.map Item.dict)) = .ok ls := by
  rw [C56_list_partial (ls.map Item.dict) ls (by simp [Item.level?])]
  congr 1
  have : (ls.map Item.dict).filterMap (Item.obj? (L := L)) = [] := by
    rw [List.filterMap_map, List.filterMap_eq_nil_iff]
    intro a _
    rfl
  rw [this, List.nil_append]

/-- C56: a list is stored as given exactly if it has no level object in it. -/
theorem C56_iff (items : List (Item L)) (ls : List L) (h : items.map Item.level? = ls.map some) :
    validateDecimations (.list items) = .ok ls ↔ ∀ x ∈ items, ∀ l, x ≠ .obj l := by
  rw [C56_list_partial items ls h, Except.ok.injEq, List.append_left_eq_self,
    List.filterMap_eq_nil_iff]
  constructor
  · intro h x hx l hc
    have := h x hx
    rw [hc] at this
    cases this
  · intro h x hx
    cases x with
    | obj l => exact absurd rfl (h _ hx l)
    | dict l => rfl
    | other => rfl

/-- C56: any other entry raises TypeError. -/
theorem C56_other (items : List (Item L)) (h : Item.other ∈ items) :
    validateDecimations (.list items) = .error .typeError := by
  have : readList items = .error .typeError := by
    apply readList_error
    intro ls hc
    rw [readList_ok] at hc
    have hm : (none : Option L) ∈ items.map Item.level? := List.mem_map.2 ⟨_, h, rfl⟩
    rw [hc] at hm
    simp at hm
  simp only [validateDecimations, this]

/-- C56: a dict of level objects and a single level object are stored as given. -/
theorem C56_mapping (ls : List L) (l : L) :
    validateDecimations (.mapping (ls.map Item.obj)) = .ok ls ∧
      validateDecimations (.single l) = .ok [l] := by
  refine ⟨?_, rfl⟩
  simp only [validateDecimations]
  induction ls with
  | nil => rfl
  | cons a ls ih => simp only [List.map_cons, readMapping, ih]

example : validateDecimations (.list [.dict 1, .obj 2, .dict 3]) = .ok [2, 1, 2, 3] := by
  decide +kernel

/-! ### Looking levels up -/

/-- C56: `get_decimation_level(i)` is the last stored level numbered `i`; KeyError without one. -/
theorem C56_get (pre post : List Level) (l : Level) (h : ∀ x ∈ post, x.level ≠ l.level) :
    getLevel (pre ++ l :: post) l.level = .ok l := by
  have key : ∀ (post : List Level) (d : OD Nat Level), (∀ x ∈ post, x.level ≠ l.level) →
      OD.get? ((post.map (fun x => (x.level, x))).foldl (fun d p => OD.set d p.1 p.2) d) l.level =
        OD.get? d l.level := by
    intro post
    induction post with
    | nil => intro d _; rfl
    | cons a post ih =>
      intro d hp
      rw [List.map_cons, List.foldl_cons, ih _ (fun x hx => hp x (by simp [hx])),
        OD.get?_set_ne _ _ (Ne.symm (hp a (by simp)))]
  simp only [getLevel, levelDict, OD.ofPairs, List.map_append, List.map_cons, List.foldl_append,
    List.foldl_cons]
  rw [key post _ h, OD.get?_set_self]

/-- C56: a level number that is not stored raises KeyError. -/
theorem C56_get_missing (ls : List Level) (i : Nat) (h : ∀ x ∈ ls, x.level ≠ i) :
    getLevel ls i = .error .keyError := by
  have key : ∀ (post : List Level) (d : OD Nat Level), (∀ x ∈ post, x.level ≠ i) →
      OD.get? ((post.map (fun x => (x.level, x))).foldl (fun d p => OD.set d p.1 p.2) d) i =
        OD.get? d i := by
    intro post
    induction post with
    | nil => intro d _; rfl
    | cons a post ih =>
      intro d hp
      rw [List.map_cons, List.foldl_cons, ih _ (fun x hx => hp x (by simp [hx])),
        OD.get?_set_ne _ _ (Ne.symm (hp a (by simp)))]
  simp only [getLevel, levelDict, OD.ofPairs, key ls [] h, OD.get?]

/-! ### C101 -/

/-- C101 as a claim: every level gets factor 1 (level 0) or 4 and the rate `r / 4^level`. -/
def C101_claim : Prop :=
  ∀ (r : ℚ) (ls : List Level), (assignEmtf r ls).map Level.level = ls.map Level.level ∧
    ∀ l ∈ assignEmtf r ls, l.rate = r / 4 ^ l.level ∧
      l.factor = if l.level = 0 then 1 else 4

def dupLevel : Level := ⟨1, 2, 7, 256, []⟩

/-- C101 is false of the code: of two levels numbered 1 only the second is changed. -/
theorem C101_refuted : ¬ C101_claim := by
  intro h
  have := (h 16 [dupLevel, dupLevel]).2 dupLevel (by decide +kernel)
  revert this
  decide +kernel

/-- C101: right for levels with distinct numbers; nothing else changes. -/
theorem C101_distinct_partial (r : ℚ) (ls : List Level) (h : (ls.map Level.level).Nodup) :
    assignEmtf r ls = ls.map (fun l => ⟨l.level, if l.level = 0 then 1 else 4, r / 4 ^ l.level,
      l.samples, l.bands⟩) := by
  induction ls with
  | nil => rfl
  | cons l ls ih =>
    rw [List.map_cons, List.nodup_cons] at h
    have hn : ¬ (ls.any (fun x => x.level = l.level)) = true := by
      intro hc
      obtain ⟨x, hx, he⟩ := List.any_eq_true.1 hc
      exact h.1 (List.mem_map.2 ⟨x, hx, by simpa using he⟩)
    rw [assignEmtf, if_neg hn, ih h.2, List.map_cons]
    congr 1
    by_cases h0 : l.level = 0
    · simp [h0]
    · simp [h0]

/-- C101: in general it is the level `get_decimation_level` returns that is changed. -/
theorem C101_last (r : ℚ) (pre post : List Level) (l : Level)
    (h : ∀ x ∈ post, x.level ≠ l.level) :
    getLevel (assignEmtf r (pre ++ l :: post)) l.level =
      .ok ⟨l.level, if l.level = 0 then 1 else 4, r / 4 ^ l.level, l.samples, l.bands⟩ := by
  have split : ∀ (pre : List Level) (post : List Level), ∃ pre',
      assignEmtf r (pre ++ post) = pre' ++ assignEmtf r post := by
    intro pre post
    induction pre with
    | nil => exact ⟨[], rfl⟩
    | cons a pre ih =>
      obtain ⟨p, hp⟩ := ih
      rw [List.cons_append, assignEmtf, hp]
      exact ⟨_ :: p, rfl⟩
  have levels : ∀ ls : List Level, (assignEmtf r ls).map Level.level = ls.map Level.level := by
    intro ls
    induction ls with
    | nil => rfl
    | cons a ls ih =>
      rw [assignEmtf, List.map_cons, ih, List.map_cons]
      congr 1
      split
      · rfl
      · split <;> rfl
  obtain ⟨pre', hp⟩ := split pre (l :: post)
  have hn : ¬ (post.any (fun x => x.level = l.level)) = true := by
    intro hc
    obtain ⟨x, hx, he⟩ := List.any_eq_true.1 hc
    exact h x hx (by simpa using he)
  have hl : (if l.level = 0 then ({ l with factor := 1, rate := r } : Level)
      else { l with factor := 4, rate := r / 4 ^ l.level }) =
      ⟨l.level, if l.level = 0 then 1 else 4, r / 4 ^ l.level, l.samples, l.bands⟩ := by
    by_cases h0 : l.level = 0
    · simp [h0]
    · simp [h0]
  rw [hp, assignEmtf, if_neg hn, hl]
  apply C56_get pre' (assignEmtf r post) ⟨l.level, _, _, _, _⟩
  intro x hx
  have : x.level ∈ (assignEmtf r post).map Level.level := List.mem_map.2 ⟨x, hx, rfl⟩
  rw [levels] at this
  obtain ⟨y, hy, he⟩ := List.mem_map.1 this
  rw [← he]
  exact h y hy

example : (assignEmtf 16 [⟨0, 9, 9, 256, []⟩, ⟨2, 9, 9, 256, []⟩]).map Level.rate = [16, 1] := by
  decide +kernel

/-! ### C57 -/

/-- C57 as a claim, first half: a level agrees with the archive made from it. -/
def C57_claim : Prop :=
  ∀ (p : ProcLevel) (remote ignoreHarmonics : Bool) (fc : FcDec), OD.WF p.par.window →
    toFc p remote ignoreHarmonics = .ok fc → isConsistent p fc remote = .ok true

def levelTwoWindows : ProcLevel := ⟨{ minWindows := 2 }, [], [], [], []⟩

/-- C57 is false of the code: `min_num_stft_windows` is compared but not copied. -/
theorem C57_refuted : ¬ C57_claim := by
  intro h
  have := h levelTwoWindows false true ⟨{ minWindows := 0 }, [], .none⟩ (by decide +kernel) rfl
  revert this
  decide +kernel

/-- The harmonics needed are archived: nothing recorded, all recorded (-1), or the indices of every band. -/
def HarmonicsOk (bands : List (Band ℚ)) : Harmonics → Prop
  | .none => True
  | .one _ => False
  | .many l => -1 ∈ l ∨ ∀ b ∈ bands, ∃ lo hi, b.imin = some lo ∧ b.imax = some hi ∧
      ∀ k : Int, lo ≤ k → k ≤ hi → k ∈ l

theorem harmonicIndices_ok (b : Band ℚ) (l : List Int) (h : harmonicIndices b = .ok l) :
    ∃ lo hi, b.imin = some lo ∧ b.imax = some hi ∧ ∀ k, k ∈ l ↔ lo ≤ k ∧ k ≤ hi := by
  unfold harmonicIndices at h
  split at h
  · rename_i lo hi h1 h2
    simp only [Except.ok.injEq] at h
    subst h
    refine ⟨lo, hi, h1, h2, ?_⟩
    intro k
    rw [List.mem_map]
    constructor
    · rintro ⟨j, hj, rfl⟩
      have := List.mem_range.1 hj
      omega
    · intro hk
      exact ⟨(k - lo).toNat, List.mem_range.2 (by omega), by omega⟩
  · cases h

theorem bandIndices_ok (bs : List (Band ℚ)) : ∀ l, bandIndices bs = .ok l →
    (∀ b ∈ bs, ∃ m, harmonicIndices b = .ok m ∧ ∀ k ∈ m, k ∈ l) ∧
      ∀ k ∈ l, ∃ b ∈ bs, ∃ m, harmonicIndices b = .ok m ∧ k ∈ m := by
  induction bs with
  | nil =>
    intro l h
    simp only [bandIndices, Except.ok.injEq] at h
    subst h
    simp
  | cons b bs ih =>
    intro l h
    rw [bandIndices] at h
    cases h1 : harmonicIndices b with
    | error e => simp only [h1] at h; cases h
    | ok m =>
      cases h2 : bandIndices bs with
      | error e => simp only [h1, h2] at h; cases h
      | ok ls =>
        simp only [h1, h2, Except.ok.injEq] at h
        subst h
        obtain ⟨i1, i2⟩ := ih ls h2
        refine ⟨?_, ?_⟩
        · intro c hc
          rcases List.mem_cons.1 hc with rfl | hc
          · exact ⟨m, h1, fun k hk => by simp [hk]⟩
          · obtain ⟨m', a, c⟩ := i1 c hc
            exact ⟨m', a, fun k hk => by simp [c k hk]⟩
        · intro k hk
          rcases List.mem_append.1 hk with hk | hk
          · exact ⟨b, by simp, m, h1, hk⟩
          · obtain ⟨c, hc, r⟩ := i2 k hk
            exact ⟨c, by simp [hc], r⟩

theorem bandIndices_total (bs : List (Band ℚ))
    (h : ∀ b ∈ bs, ∃ m, harmonicIndices b = .ok m) : ∃ l, bandIndices bs = .ok l := by
  induction bs with
  | nil => exact ⟨[], rfl⟩
  | cons b bs ih =>
    obtain ⟨m, hm⟩ := h b (by simp)
    obtain ⟨l, hl⟩ := ih (fun c hc => h c (by simp [hc]))
    exact ⟨m ++ l, by simp only [bandIndices, hm, hl]⟩

theorem checkHarmonics_iff (p : ProcLevel) (fc : FcDec) :
    checkHarmonics p fc = .ok true ↔ HarmonicsOk p.bands fc.harmonics := by
  unfold checkHarmonics
  cases hh : fc.harmonics with
  | none => simp [HarmonicsOk]
  | one i => simp [HarmonicsOk]
  | many l =>
    simp only [HarmonicsOk]
    by_cases h1 : -1 ∈ l
    · simp [h1]
    · rw [if_neg h1]
      simp only [h1, false_or, levelHarmonics]
      cases hb : bandIndices p.bands with
      | error e =>
        simp only [reduceCtorEq, false_iff]
        intro hc
        obtain ⟨m, hm⟩ := bandIndices_total p.bands (by
          intro b hbm
          obtain ⟨lo, hi, e1, e2, _⟩ := hc b hbm
          unfold harmonicIndices
          rw [e1, e2]
          exact ⟨_, rfl⟩)
        rw [hm] at hb
        cases hb
      | ok ks =>
        simp only [Except.ok.injEq, List.all_eq_true, List.contains_iff_mem,
          (pySorted_perm _ ks).mem_iff]
        obtain ⟨i1, i2⟩ := bandIndices_ok p.bands ks hb
        constructor
        · intro hall b hbm
          obtain ⟨m, hm, hsub⟩ := i1 b hbm
          obtain ⟨lo, hi, e1, e2, e3⟩ := harmonicIndices_ok b m hm
          exact ⟨lo, hi, e1, e2, fun k h1 h2 => hall k (hsub k ((e3 k).2 ⟨h1, h2⟩))⟩
        · intro hall k hk
          obtain ⟨b, hbm, m, hm, hkm⟩ := i2 k hk
          obtain ⟨lo, hi, e1, e2, e3⟩ := harmonicIndices_ok b m hm
          obtain ⟨lo', hi', f1, f2, f3⟩ := hall b hbm
          rw [e1] at f1; rw [e2] at f2
          obtain rfl := Option.some.inj f1
          obtain rfl := Option.some.inj f2
          exact f3 k ((e3 k).1 hkm).1 ((e3 k).1 hkm).2

/-- C57: exactly when the check succeeds. Any differing parameter, a wanted channel or a harmonic that
is not archived makes it fail. -/
theorem C57_iff (p : ProcLevel) (fc : FcDec) (remote : Bool) :
    isConsistent p fc remote = .ok true ↔
      ((∀ c, (if remote then c ∈ p.refs else c ∈ p.inputs ∨ c ∈ p.outputs) → c ∈ fc.channels) ∧
      (fc.par.antiAlias = p.par.antiAlias ∨
        (p.par.antiAlias = some "default" ∧ fc.par.antiAlias = none)) ∧
      fc.par.rate = p.par.rate ∧ fc.par.method = p.par.method ∧
      fc.par.prewhitening = p.par.prewhitening ∧ fc.par.recoloring = p.par.recoloring ∧
      fc.par.preDetrend = p.par.preDetrend ∧ fc.par.minWindows = p.par.minWindows ∧
      Metadata.objEq fc.par.window p.par.window = .ok true ∧
      HarmonicsOk p.bands fc.harmonics) := by
  have hw : (wanted p remote).all (fun c => fc.channels.contains c) = true ↔
      ∀ c, (if remote then c ∈ p.refs else c ∈ p.inputs ∨ c ∈ p.outputs) → c ∈ fc.channels := by
    simp only [List.all_eq_true, List.contains_iff_mem, wanted]
    cases remote <;> simp
  have ha : aliasOk p fc = true ↔ (fc.par.antiAlias = p.par.antiAlias ∨
        (p.par.antiAlias = some "default" ∧ fc.par.antiAlias = none)) := by
    simp [aliasOk]
  rw [← hw, ← ha, ← checkHarmonics_iff]
  unfold isConsistent
  by_cases h1 : (wanted p remote).all (fun c => fc.channels.contains c) = true
  swap
  · simp only [h1, Bool.not_false, if_true]; simp
  by_cases h2 : aliasOk p fc = true
  swap
  · simp only [h1, h2, Bool.not_false, Bool.not_true, if_true]; simp
  simp only [h1, h2, Bool.not_true, Bool.false_eq_true, if_false, true_and]
  by_cases h3 : fc.par.rate = p.par.rate
  swap
  · simp [h3]
  by_cases h4 : fc.par.method = p.par.method
  swap
  · simp [h3, h4]
  by_cases h5 : fc.par.prewhitening = p.par.prewhitening
  swap
  · simp [h3, h4, h5]
  by_cases h6 : fc.par.recoloring = p.par.recoloring
  swap
  · simp [h3, h4, h5, h6]
  by_cases h7 : fc.par.preDetrend = p.par.preDetrend
  swap
  · simp [h3, h4, h5, h6, h7]
  by_cases h8 : fc.par.minWindows = p.par.minWindows
  swap
  · simp [h3, h4, h5, h6, h7, h8]
  simp only [h3, h4, h5, h6, h7, h8, ne_eq, not_true_eq_false, if_false, true_and]
  cases h9 : Metadata.objEq fc.par.window p.par.window with
  | error e => simp
  | ok b => cases b <;> simp

/-- C57: a level with `min_num_stft_windows = 0` agrees with the archive made from it, with or without
the harmonics, for local and for remote channels. -/
theorem C57_archive_partial (p : ProcLevel) (remote ignoreHarmonics : Bool) (fc : FcDec)
    (hw : OD.WF p.par.window) (hm : p.par.minWindows = 0)
    (h : toFc p remote ignoreHarmonics = .ok fc) : isConsistent p fc remote = .ok true := by
  rw [C57_iff]
  have key : fc.par = p.par ∧ fc.channels = wanted p remote ∧
      (fc.harmonics = .none ∨ ∃ hs, levelHarmonics p.bands = .ok hs ∧ fc.harmonics = .many hs) := by
    have hpar : { p.par with minWindows := 0 } = p.par := by rw [← hm]
    unfold toFc at h
    simp only [hpar] at h
    cases ignoreHarmonics with
    | true =>
      simp only [if_true, Except.ok.injEq] at h
      subst h
      exact ⟨rfl, rfl, Or.inl rfl⟩
    | false =>
      simp only [Bool.false_eq_true, if_false] at h
      cases hl : levelHarmonics p.bands with
      | error e => simp only [hl] at h; cases h
      | ok hs =>
        simp only [hl, Except.ok.injEq] at h
        subst h
        exact ⟨rfl, rfl, Or.inr ⟨hs, rfl, rfl⟩⟩
  obtain ⟨k1, k2, k3⟩ := key
  rw [k1]
  refine ⟨?_, Or.inl rfl, rfl, rfl, rfl, rfl, rfl, rfl, Metadata.C23_reflexive _ hw, ?_⟩
  · intro c hc
    rw [k2]
    unfold wanted
    cases remote <;> simpa using hc
  · rcases k3 with k3 | ⟨hs, e1, e2⟩
    · rw [k3]; trivial
    · rw [← checkHarmonics_iff]
      unfold checkHarmonics
      rw [e2]
      simp only [e1]
      split
      · rfl
      · simp

/-- C57: `to_fc_decimation` works whenever every band has its indices. -/
theorem C57_total (p : ProcLevel) (remote ignoreHarmonics : Bool)
    (h : ∀ b ∈ p.bands, b.imin.isSome ∧ b.imax.isSome) :
    ∃ fc, toFc p remote ignoreHarmonics = .ok fc := by
  cases ignoreHarmonics with
  | true => exact ⟨_, rfl⟩
  | false =>
    obtain ⟨l, hl⟩ := bandIndices_total p.bands (by
      intro b hb
      obtain ⟨h1, h2⟩ := h b hb
      obtain ⟨lo, h1⟩ := Option.isSome_iff_exists.1 h1
      obtain ⟨hi, h2⟩ := Option.isSome_iff_exists.1 h2
      unfold harmonicIndices
      rw [h1, h2]
      exact ⟨_, rfl⟩)
    simp only [toFc, levelHarmonics, hl, Bool.false_eq_true, if_false]
    exact ⟨_, rfl⟩

/-- C57: the archived harmonics are the indices of all bands, in ascending order; the archived channels
those wanted. -/
theorem C57_harmonics (p : ProcLevel) (remote : Bool) (fc : FcDec)
    (h : toFc p remote false = .ok fc) :
    ∃ hs, fc.harmonics = .many hs ∧ hs.Pairwise (· ≤ ·) ∧
      (∀ k, k ∈ hs ↔ ∃ b ∈ p.bands, ∃ lo hi, b.imin = some lo ∧ b.imax = some hi ∧ lo ≤ k ∧ k ≤ hi) ∧
      (∀ c, c ∈ fc.channels ↔ if remote then c ∈ p.refs else c ∈ p.inputs ∨ c ∈ p.outputs) := by
  simp only [toFc, levelHarmonics, Bool.false_eq_true, if_false] at h
  cases hb : bandIndices p.bands with
  | error e => simp only [hb] at h; cases h
  | ok l =>
    simp only [hb, Except.ok.injEq] at h
    subst h
    obtain ⟨i1, i2⟩ := bandIndices_ok p.bands l hb
    refine ⟨_, rfl, ?_, ?_, ?_⟩
    · have := pySorted_pairwise (le := fun a b : Int => decide (a ≤ b))
        (fun a b c => by simp only [decide_eq_true_eq]; omega)
        (fun a b => by simpa using Int.le_total a b) l
      exact this.imp (fun h => of_decide_eq_true h)
    · intro k
      rw [(pySorted_perm _ l).mem_iff]
      constructor
      · intro hk
        obtain ⟨b, hbm, m, hm, hkm⟩ := i2 k hk
        obtain ⟨lo, hi, e1, e2, e3⟩ := harmonicIndices_ok b m hm
        exact ⟨b, hbm, lo, hi, e1, e2, (e3 k).1 hkm⟩
      · rintro ⟨b, hbm, lo, hi, e1, e2, h12⟩
        obtain ⟨m, hm, hsub⟩ := i1 b hbm
        obtain ⟨lo', hi', f1, f2, f3⟩ := harmonicIndices_ok b m hm
        rw [e1] at f1; rw [e2] at f2
        obtain rfl := Option.some.inj f1
        obtain rfl := Option.some.inj f2
        exact hsub k ((f3 k).2 h12)
    · intro c
      unfold wanted
      cases remote <;> simp

/-- C57: a different anti alias filter raises, unless it is "default" against None. -/
theorem C57_alias (p : ProcLevel) (fc : FcDec) (remote : Bool)
    (hc : ∀ c ∈ wanted p remote, c ∈ fc.channels)
    (h1 : fc.par.antiAlias ≠ p.par.antiAlias)
    (h2 : ¬ (p.par.antiAlias = some "default" ∧ fc.par.antiAlias = none)) :
    isConsistent p fc remote = .error .notImplementedError := by
  have hw : (wanted p remote).all (fun c => fc.channels.contains c) = true := by
    simpa using hc
  have ha : aliasOk p fc = false := by
    simp only [aliasOk, h1, decide_false, Bool.false_or, Bool.and_eq_false_imp,
      decide_eq_true_eq, decide_eq_false_iff_not]
    intro a b
    exact h2 ⟨a, b⟩
  unfold isConsistent
  rw [hw, ha]
  rfl

def exLevel : ProcLevel :=
  ⟨{ rate := 4 }, ["hx", "hy"], ["ex"], ["rx"], [⟨1, 2, .left, some 3, some 5⟩]⟩

example : ∃ fc, toFc exLevel false false = .ok fc ∧ fc.harmonics = .many [3, 4, 5] ∧
    isConsistent exLevel fc false = .ok true ∧ isConsistent exLevel fc true = .ok false :=
  ⟨⟨{ rate := 4 }, ["hx", "hy", "ex"], .many [3, 4, 5]⟩, by decide +kernel⟩

end Verif.Processing
