import Mathlib.Tactic.Linarith
import Mathlib.Tactic.NormNum
import Mathlib.Tactic.FieldSimp
import Mathlib.Tactic.Ring
import Mathlib.Analysis.SpecialFunctions.Trigonometric.DerivHyp
import Verif.Model.Weights

/-!
Properties C67-C69, C104-C108: weight kernels and their combination.
-/

namespace Verif.Weights

/-! ### C67 -/

theorem clip01_mem (x : ℝ) : 0 ≤ clip01 x ∧ clip01 x ≤ 1 :=
  ⟨le_min (le_max_right _ _) zero_le_one, min_le_right _ _⟩

theorem clip01_mono {x y : ℝ} (h : x ≤ y) : clip01 x ≤ clip01 y :=
  min_le_min_right _ (max_le_max_right _ h)

theorem clip01_zero {x : ℝ} (h : x ≤ 0) : clip01 x = 0 := by
  rw [clip01, max_eq_right h, min_eq_left zero_le_one]

theorem clip01_one {x : ℝ} (h : 1 ≤ x) : clip01 x = 1 := by
  rw [clip01, max_eq_left (by linarith), min_eq_right h]

theorem cos_pi_anti {x y : ℝ} (hx : 0 ≤ x) (hxy : x ≤ y) (hy : y ≤ 1) :
    Real.cos (Real.pi * y) ≤ Real.cos (Real.pi * x) := by
  apply Real.cos_le_cos_of_nonneg_of_le_pi
  · exact mul_nonneg Real.pi_pos.le hx
  · nlinarith [Real.pi_pos]
  · exact mul_le_mul_of_nonneg_left hxy Real.pi_pos.le

theorem window_blackman (x : ℝ) : window .blackman x =
    34 / 100 - 1 / 2 * Real.cos (Real.pi * x) + 16 / 100 * Real.cos (Real.pi * x) ^ 2 := by
  simp only [window]
  rw [show 2 * Real.pi * x = 2 * (Real.pi * x) by ring, Real.cos_two_mul]
  ring

theorem window_mono (w : HalfWin) {x y : ℝ} (hx : 0 ≤ x) (hxy : x ≤ y) (hy : y ≤ 1) :
    window w x ≤ window w y := by
  have h := cos_pi_anti hx hxy hy
  cases w with
  | hann => simp only [window]; linarith
  | hamming => simp only [window]; linarith
  | rectangle => simp [window]
  | blackman =>
    rw [window_blackman, window_blackman]
    have h1 := Real.cos_le_one (Real.pi * x)
    have h2 := Real.cos_le_one (Real.pi * y)
    nlinarith [mul_nonneg (sub_nonneg.2 h) (show (0:ℝ) ≤ 2 - Real.cos (Real.pi * x) - Real.cos (Real.pi * y) by linarith)]

theorem window_zero (w : HalfWin) (h : w = .hann ∨ w = .blackman) : window w 0 = 0 := by
  rcases h with rfl | rfl
  · simp [window]
  · rw [window_blackman]; simp; norm_num

theorem window_hamming_zero : window .hamming 0 = 8 / 100 := by simp [window]; norm_num

theorem window_one (w : HalfWin) : window w 1 = 1 := by
  cases w with
  | hann => simp [window]; norm_num
  | hamming => simp [window]; norm_num
  | rectangle => rfl
  | blackman => rw [window_blackman]; simp; norm_num

theorem window_mem (w : HalfWin) {x : ℝ} (hx : 0 ≤ x) (hx1 : x ≤ 1) : 0 ≤ window w x ∧ window w x ≤ 1 := by
  refine ⟨?_, (window_mono w hx hx1 le_rfl).trans_eq (window_one w)⟩
  refine le_trans ?_ (window_mono w le_rfl hx hx1)
  cases w with
  | hann => rw [window_zero _ (.inl rfl)]
  | blackman => rw [window_zero _ (.inr rfl)]
  | hamming => rw [window_hamming_zero]; norm_num
  | rectangle => exact zero_le_one

theorem normalize_mem (k : Taper) (v : ℝ) : 0 ≤ k.normalize v ∧ k.normalize v ≤ 1 := by
  unfold Taper.normalize
  have := clip01_mem ((v - k.lb) / (k.ub - k.lb))
  split
  · split <;> split <;> norm_num
  · split
    · exact this
    · exact ⟨by linarith, by linarith⟩

/-- The weight that a taper kernel gives to a number. -/
noncomputable def weightOf (k : Taper) (v : ℝ) : ℝ := (k.eval (some v)).getD 0

theorem eval_some (k : Taper) (v : ℝ) : k.eval (some v) = some (weightOf k v) := by
  unfold weightOf
  have : ∃ y, k.eval (some v) = some y := by
    unfold Taper.eval
    split
    · unfold rectangle
      simp only
      split <;> split <;> exact ⟨_, rfl⟩
    · exact ⟨_, rfl⟩
  obtain ⟨y, hy⟩ := this
  rw [hy]; rfl

theorem weightOf_rect (k : Taper) (h : k.win = .rectangle) (v : ℝ) : weightOf k v =
    match k.dir with
    | .low => if v < k.lb then 0 else 1
    | .high => if v > k.ub then 0 else 1 := by
  unfold weightOf Taper.eval
  rw [h]
  simp only [rectangle]
  cases k.dir <;> simp only <;> split <;> rfl

theorem weightOf_win (k : Taper) (h : k.win ≠ .rectangle) (v : ℝ) :
    weightOf k v = window k.win (k.normalize v) := by
  unfold weightOf Taper.eval
  cases hw : k.win <;> simp_all [Taper.normalizeV]

/-- C67: every weight is between 0 and 1, for every number, all bounds (in any order), directions and
windows. -/
theorem C67_range (k : Taper) (v : ℝ) : ∃ y, k.eval (some v) = some y ∧ 0 ≤ y ∧ y ≤ 1 := by
  refine ⟨_, eval_some k v, ?_⟩
  by_cases h : k.win = .rectangle
  · rw [weightOf_rect k h]
    split <;> split <;> norm_num
  · rw [weightOf_win k h]
    exact window_mem _ (normalize_mem k v).1 (normalize_mem k v).2

/-- C67: a low-cut kernel never decreases as the value grows, a high-cut kernel never increases
(bounds in order, equal bounds included). -/
theorem C67_monotone (k : Taper) (hb : k.lb ≤ k.ub) {v w : ℝ} (h : v ≤ w) :
    (k.dir = .low → weightOf k v ≤ weightOf k w) ∧ (k.dir = .high → weightOf k w ≤ weightOf k v) := by
  by_cases hw : k.win = .rectangle
  · rw [weightOf_rect k hw, weightOf_rect k hw]
    refine ⟨fun hd => ?_, fun hd => ?_⟩ <;> rw [hd] <;> simp only
    · split <;> split <;> first | (exfalso; linarith) | norm_num
    · split <;> split <;> first | (exfalso; linarith) | norm_num
  · rw [weightOf_win k hw, weightOf_win k hw]
    have hq : (v - k.lb) / (k.ub - k.lb) ≤ (w - k.lb) / (k.ub - k.lb) :=
      div_le_div_of_nonneg_right (by linarith) (by linarith)
    have hc := clip01_mono hq
    refine ⟨fun hd => window_mono _ (normalize_mem k v).1 ?_ (normalize_mem k w).2,
      fun hd => window_mono _ (normalize_mem k w).1 ?_ (normalize_mem k v).2⟩
    · unfold Taper.normalize
      rw [hd]
      simp only
      split
      · split <;> split <;> first | (exfalso; linarith) | norm_num
      · exact hc
    · unfold Taper.normalize
      rw [hd]
      simp only
      split
      · split <;> split <;> first | (exfalso; linarith) | norm_num
      · linarith

/-- C67, the last part, as a claim: outside the transition region the weight is 0 or 1. -/
def C67_claim : Prop :=
  ∀ k : Taper, k.lb < k.ub → ∀ v : ℝ,
    (v < k.lb → k.eval (some v) = some (if k.dir = .low then 0 else 1)) ∧
    (v > k.ub → k.eval (some v) = some (if k.dir = .low then 1 else 0))

/-- A Hamming taper keeps 8 percent of what it should cut. -/
theorem C67_refuted : ¬ C67_claim := by
  intro h
  have := (h ⟨.low, 0, 1, .hamming⟩ (by norm_num) (-1)).1 (by norm_num)
  rw [eval_some, weightOf_win _ (by simp)] at this
  simp only [Taper.normalize] at this
  rw [if_neg (by norm_num), clip01_zero (by norm_num), window_hamming_zero] at this
  norm_num at this

/-- C67 outside the transition region for all other windows. -/
theorem C67_outside_partial (k : Taper) (hb : k.lb < k.ub) (hw : k.win ≠ .hamming) (v : ℝ) :
    (v < k.lb → k.eval (some v) = some (if k.dir = .low then 0 else 1)) ∧
    (v > k.ub → k.eval (some v) = some (if k.dir = .low then 1 else 0)) := by
  have hne : k.ub - k.lb ≠ 0 := by linarith
  have hpos : 0 < k.ub - k.lb := by linarith
  have h0 : k.win ≠ .rectangle → window k.win 0 = 0 := by
    intro hr; apply window_zero
    cases h : k.win <;> simp_all
  constructor <;> intro hv <;> rw [eval_some] <;> congr 1 <;> by_cases hr : k.win = .rectangle
  · rw [weightOf_rect k hr]
    cases k.dir with
    | low => simp [hv]
    | high => simp; linarith
  · rw [weightOf_win k hr, Taper.normalize, if_neg hne]
    have : clip01 ((v - k.lb) / (k.ub - k.lb)) = 0 :=
      clip01_zero (div_nonpos_of_nonpos_of_nonneg (by linarith) hpos.le)
    cases k.dir with
    | low => simp [this, h0 hr]
    | high => simp [this, window_one]
  · rw [weightOf_rect k hr]
    cases k.dir with
    | low => simp; linarith
    | high => simp [hv]
  · rw [weightOf_win k hr, Taper.normalize, if_neg hne]
    have : clip01 ((v - k.lb) / (k.ub - k.lb)) = 1 :=
      clip01_one (by rw [le_div_iff₀ hpos]; linarith)
    cases k.dir with
    | low => simp [this, window_one]
    | high => simp [this, h0 hr]

/-- C67: a Hamming taper has weight 0.08 where it cuts and 1 where it passes. -/
theorem C67_outside_hamming (k : Taper) (hb : k.lb < k.ub) (hw : k.win = .hamming) (v : ℝ) :
    (v < k.lb → k.eval (some v) = some (if k.dir = .low then 8 / 100 else 1)) ∧
    (v > k.ub → k.eval (some v) = some (if k.dir = .low then 1 else 8 / 100)) := by
  have hne : k.ub - k.lb ≠ 0 := by linarith
  have hpos : 0 < k.ub - k.lb := by linarith
  have hr : k.win ≠ .rectangle := by rw [hw]; decide
  constructor <;> intro hv <;> rw [eval_some, weightOf_win k hr, Taper.normalize, if_neg hne, hw]
  · have : clip01 ((v - k.lb) / (k.ub - k.lb)) = 0 :=
      clip01_zero (div_nonpos_of_nonpos_of_nonneg (by linarith) hpos.le)
    cases k.dir with
    | low => simp [this, window_hamming_zero]
    | high => simp [this, window_one]
  · have : clip01 ((v - k.lb) / (k.ub - k.lb)) = 1 :=
      clip01_one (by rw [le_div_iff₀ hpos]; linarith)
    cases k.dir with
    | low => simp [this, window_one]
    | high => simp [this, window_hamming_zero]

/-- C67: half way between the bounds a Hann taper gives one half, and the two directions of a Hann taper
add up to one everywhere. -/
theorem C67_hann_complement (lb ub : ℝ) (hb : lb < ub) (v : ℝ) :
    weightOf ⟨.low, lb, ub, .hann⟩ v + weightOf ⟨.high, lb, ub, .hann⟩ v = 1 := by
  have hne : ub - lb ≠ 0 := by linarith
  rw [weightOf_win _ (by simp), weightOf_win _ (by simp)]
  simp only [Taper.normalize, if_neg hne, window]
  rw [mul_sub Real.pi 1, mul_one, Real.cos_pi_sub]
  ring

/-- C67: NaN values get NaN weights, except that a rectangle gives them full weight and a taper with
equal bounds the cut weight. -/
theorem C67_nan (k : Taper) : k.eval none =
    if k.win = .rectangle then some 1
    else if k.ub - k.lb = 0 then some (window k.win 0) else none := by
  unfold Taper.eval
  cases hw : k.win <;> simp only [rectangle, Taper.normalizeV] <;> split <;> simp_all

/-- A case: in the middle of the transition. -/
example : weightOf ⟨.low, 0, 1, .hann⟩ (1 / 2) = 1 / 2 := by
  rw [weightOf_win _ (by simp)]
  simp only [Taper.normalize, clip01, window]
  norm_num
  rw [show Real.pi * (1 / 2) = Real.pi / 2 by ring, Real.cos_pi_div_two]

/-! ### C69 -/

/-- C69 as a claim: a threshold kernel gives 1 on the kept side and 0 on the other. -/
def C69_claim : Prop :=
  ∀ (k : Taper) (v : ℝ), k.lb = k.ub → ∃ y, Kernel.eval ⟨.threshold k, none⟩ (.scalar (some v)) = .ok (.scalar (some y)) ∧
    (k.dir = .low → (v > k.lb → y = 1) ∧ (v < k.lb → y = 0)) ∧
    (k.dir = .high → (v < k.ub → y = 1) ∧ (v > k.ub → y = 0))

/-- A threshold kernel cannot be evaluated. -/
theorem C69_refuted : ¬ C69_claim := by
  intro h
  obtain ⟨y, hy, -⟩ := h ⟨.low, 0, 0, .rectangle⟩ 1 rfl
  cases hy

/-- C69, what the code does: every evaluation of a threshold kernel raises. A taper kernel with equal bounds
does what the threshold kernel should: it separates the values at the bound, which itself is kept (a Hamming
taper leaves 8 percent). -/
theorem C69_taper_partial (k : Taper) (h : k.lb = k.ub) (hw : k.win ≠ .hamming) (v : ℝ) :
    (∀ x, Kernel.eval ⟨.threshold k, none⟩ x = .error .notImplementedError) ∧
    k.eval (some v) = some (match k.dir with
      | .low => if v < k.lb then 0 else 1
      | .high => if v > k.lb then 0 else 1) := by
  refine ⟨fun _ => rfl, ?_⟩
  rw [eval_some]
  congr 1
  by_cases hr : k.win = .rectangle
  · rw [weightOf_rect k hr, h]
  · rw [weightOf_win k hr, Taper.normalize, if_pos (by linarith)]
    have h0 : window k.win 0 = 0 := by
      apply window_zero
      cases hk : k.win <;> simp_all
    cases k.dir with
    | low =>
      simp only
      by_cases hv : v < k.lb
      · rw [if_pos hv, if_neg (by linarith), h0]
      · rw [if_neg hv, if_pos (by linarith), window_one]
    | high =>
      simp only
      by_cases hv : v > k.lb
      · rw [if_pos hv, if_neg (by linarith), h0]
      · rw [if_neg hv, if_pos (by linarith), window_one]

/-! ### C106: activation kernels -/

theorem activation_mem (s : ActStyle) (a x : ℝ) : 0 ≤ activation s a x ∧ activation s a x ≤ 1 := by
  cases s with
  | sigmoid =>
    have := Real.exp_pos (-a * (x - 1 / 2))
    simp only [activation]
    constructor
    · positivity
    · rw [div_le_one (by linarith)]; linarith
  | hardSigmoid => exact clip01_mem _
  | hardTanh => exact clip01_mem _
  | tanh =>
    simp only [activation]
    have h1 := Real.tanh_lt_one (a * (x - 1 / 2))
    have h2 := Real.neg_one_lt_tanh (a * (x - 1 / 2))
    constructor <;> linarith

theorem act_normalize_mem (k : Activation) (v y : ℝ) (h : k.normalize v = some y) : 0 ≤ y ∧ y ≤ 1 := by
  unfold Activation.normalize at h
  split at h
  · split at h
    · cases h
    · split at h <;> cases h <;> split <;> norm_num
  · split at h <;> cases h <;> exact clip01_mem _

/-- C106: every weight of an activation kernel is between 0 and 1, whatever the steepness; only NaN values
and a value at two equal bounds give NaN. -/
theorem C106_range (k : Activation) (v : ℝ) :
    (k.eval (some v) = none ↔ k.lb = k.ub ∧ v = k.lb) ∧
    ∀ y, k.eval (some v) = some y → 0 ≤ y ∧ y ≤ 1 := by
  constructor
  · simp only [Activation.eval, Option.bind_some, Option.map_eq_none_iff]
    unfold Activation.normalize
    constructor
    · intro h
      split at h
      · rename_i h1
        split at h
        · rename_i h2; exact ⟨by linarith, h2⟩
        · split at h <;> cases h
      · split at h <;> cases h
    · rintro ⟨h1, h2⟩
      rw [if_pos (by linarith), if_pos h2]
  · intro y hy
    simp only [Activation.eval, Option.bind_some, Option.map_eq_some_iff] at hy
    obtain ⟨x, -, rfl⟩ := hy
    exact activation_mem ..

theorem tanh_mono {x y : ℝ} (h : x ≤ y) : Real.tanh x ≤ Real.tanh y := by
  rw [Real.tanh_eq_sinh_div_cosh, Real.tanh_eq_sinh_div_cosh,
    div_le_div_iff₀ (Real.cosh_pos x) (Real.cosh_pos y)]
  have h1 : 0 ≤ Real.sinh (y - x) := Real.sinh_nonneg_iff.2 (by linarith)
  rw [Real.sinh_sub] at h1
  linarith

theorem activation_mono (s : ActStyle) {a x y : ℝ} (ha : 0 ≤ a) (h : x ≤ y) :
    activation s a x ≤ activation s a y := by
  cases s with
  | sigmoid =>
    simp only [activation]
    apply one_div_le_one_div_of_le
    · have := Real.exp_pos (-a * (y - 1 / 2)); linarith
    · have : Real.exp (-a * (y - 1 / 2)) ≤ Real.exp (-a * (x - 1 / 2)) := by
        apply Real.exp_le_exp.2; nlinarith
      linarith
  | hardSigmoid => exact clip01_mono (by linarith)
  | hardTanh => exact clip01_mono h
  | tanh =>
    simp only [activation]
    have : Real.tanh (a * (x - 1 / 2)) ≤ Real.tanh (a * (y - 1 / 2)) := by
      apply tanh_mono
      exact mul_le_mul_of_nonneg_left (by linarith) ha
    linarith

/-- C106: with a steepness that is not negative, a low-cut activation kernel never decreases as the value
grows and a high-cut one never increases. -/
theorem C106_monotone (k : Activation) (hb : k.lb < k.ub) (hs : 0 ≤ k.steep) {v w : ℝ} (h : v ≤ w) :
    ∃ a b, k.eval (some v) = some a ∧ k.eval (some w) = some b ∧
      (k.dir = .low → a ≤ b) ∧ (k.dir = .high → b ≤ a) := by
  have hne : k.ub - k.lb ≠ 0 := by linarith
  have hq : (v - k.lb) / (k.ub - k.lb) ≤ (w - k.lb) / (k.ub - k.lb) :=
    div_le_div_of_nonneg_right (by linarith) (by linarith)
  have he : ∀ x y, k.normalize x = some y → k.eval (some x) = some (activation k.style k.steep y) := by
    intro x y hy
    simp only [Activation.eval, Option.bind_some, hy, Option.map_some]
  cases hd : k.dir with
  | low =>
    refine ⟨_, _, he v (clip01 ((v - k.lb) / (k.ub - k.lb))) (by simp only [Activation.normalize, if_neg hne, hd]),
      he w (clip01 ((w - k.lb) / (k.ub - k.lb))) (by simp only [Activation.normalize, if_neg hne, hd]),
      fun _ => ?_, fun h => by cases h⟩
    exact activation_mono _ hs (clip01_mono hq)
  | high =>
    refine ⟨_, _, he v (clip01 (1 - (v - k.lb) / (k.ub - k.lb))) (by simp only [Activation.normalize, if_neg hne, hd]),
      he w (clip01 (1 - (w - k.lb) / (k.ub - k.lb))) (by simp only [Activation.normalize, if_neg hne, hd]),
      fun h => (by cases h), fun _ => ?_⟩
    exact activation_mono _ hs (clip01_mono (by linarith))

/-- C106 as a claim: like a taper, an activation kernel cuts what lies outside its bounds: the weight is
below one tenth on the cut side. -/
def C106_claim : Prop :=
  ∀ (k : Activation) (v : ℝ), k.lb < k.ub → k.dir = .low → 0 < k.steep → v < k.lb →
    ∀ y, k.eval (some v) = some y → y < 1 / 10

/-- A hard sigmoid never goes below 0.4: it hardly cuts at all. -/
theorem C106_refuted : ¬ C106_claim := by
  intro h
  have := h ⟨.low, 0, 1, .hardSigmoid, 1⟩ (-1) (by norm_num) rfl (by norm_num) (by norm_num) (4 / 10) (by
    simp only [Activation.eval, Option.bind_some, Activation.normalize]
    rw [if_neg (by norm_num)]
    simp only [Option.map_some, activation]
    rw [clip01_zero (x := ((-1 : ℝ) - 0) / (1 - 0)) (by norm_num), clip01]
    norm_num)
  norm_num at this

/-- C106, what holds on the cut side: the weight is exactly that of the lower end of each style. -/
theorem C106_cut_partial (k : Activation) (hb : k.lb < k.ub) (v : ℝ)
    (hv : (k.dir = .low ∧ v ≤ k.lb) ∨ (k.dir = .high ∧ v ≥ k.ub)) :
    k.eval (some v) = some (match k.style with
      | .sigmoid => 1 / (1 + Real.exp (k.steep / 2))
      | .hardSigmoid => 4 / 10
      | .tanh => 1 / 2 * (1 - Real.tanh (k.steep / 2))
      | .hardTanh => 0) := by
  have hne : k.ub - k.lb ≠ 0 := by linarith
  have hpos : 0 < k.ub - k.lb := by linarith
  have hn : k.normalize v = some 0 := by
    unfold Activation.normalize
    rw [if_neg hne]
    rcases hv with ⟨hd, hv⟩ | ⟨hd, hv⟩ <;> rw [hd] <;> simp only
    · rw [clip01_zero (div_nonpos_of_nonpos_of_nonneg (by linarith) hpos.le)]
    · rw [clip01_zero]
      have : 1 ≤ (v - k.lb) / (k.ub - k.lb) := by rw [le_div_iff₀ hpos]; linarith
      linarith
  simp only [Activation.eval, Option.bind_some, hn, Option.map_some]
  congr 1
  cases k.style with
  | sigmoid => simp only [activation]; congr 3; ring
  | hardSigmoid => simp only [activation, clip01]; norm_num
  | tanh =>
    simp only [activation]
    rw [show k.steep * (0 - 1 / 2) = -(k.steep / 2) by ring, Real.tanh_neg]; ring
  | hardTanh => exact clip01_zero le_rfl

/-! ### C107: the composite taper -/

/-- C107: the composite weight is between 0 and 1. -/
theorem C107_range (c : Composite) (v : ℝ) (r : V) (h : c.eval (some v) = .ok r) :
    ∃ y, r = some y ∧ 0 ≤ y ∧ y ≤ 1 := by
  unfold Composite.eval at h
  split at h
  · cases h
  · rename_i w hw
    obtain ⟨a, ha, ha0, ha1⟩ := C67_range ⟨.low, c.lowCut.1, c.lowCut.2, w⟩ v
    obtain ⟨b, hb, hb0, hb1⟩ := C67_range ⟨.high, c.highCut.1, c.highCut.2, w⟩ v
    simp only [ha, hb, Option.bind_some, Option.map_some, Except.ok.injEq] at h
    exact ⟨a * b, h.symm, mul_nonneg ha0 hb0, mul_le_one₀ ha1 hb0 hb1⟩

/-- C107: with Hann or Blackman style and ordered bounds, everything below the low cut and above the high
cut gets weight 0 and everything between the two transitions weight 1. -/
theorem C107_band (c : Composite) (w : HalfWin) (hs : c.style = some w) (hw : w ≠ .hamming)
    (h1 : c.lowCut.1 < c.lowCut.2) (h2 : c.highCut.1 < c.highCut.2) (v : ℝ) :
    (v < c.lowCut.1 ∨ v > c.highCut.2 → c.eval (some v) = .ok (some 0)) ∧
    (v > c.lowCut.2 ∧ v < c.highCut.1 → c.eval (some v) = .ok (some 1)) := by
  have L := C67_outside_partial ⟨.low, c.lowCut.1, c.lowCut.2, w⟩ h1 hw v
  have H := C67_outside_partial ⟨.high, c.highCut.1, c.highCut.2, w⟩ h2 hw v
  obtain ⟨a, ha, -⟩ := C67_range ⟨.low, c.lowCut.1, c.lowCut.2, w⟩ v
  obtain ⟨b, hb, -⟩ := C67_range ⟨.high, c.highCut.1, c.highCut.2, w⟩ v
  simp only [Composite.eval, hs]
  constructor
  · rintro (h | h)
    · rw [L.1 h, hb]; simp
    · rw [H.2 h, ha]; simp
  · rintro ⟨h3, h4⟩
    rw [L.2 h3, H.1 h4]; simp

/-- C107: a window type without a half window is refused when the kernel is used. -/
theorem C107_refused (c : Composite) (v : V) (h : c.style = none) : c.eval v = .error .valueError := by
  simp [Composite.eval, h]

/-! ### C68 -/

/-- A float in [0, 1] or NaN. -/
def Unit01 : V → Prop
  | none => True
  | some y => 0 ≤ y ∧ y ≤ 1

/-- Every entry of a result. -/
def Arr.All (P : V → Prop) : Arr → Prop
  | .scalar v => P v
  | .arr l => ∀ v ∈ l, P v

theorem Arr.all_map (f : V → V) (P : V → Prop) (h : ∀ v, P (f v)) (x : Arr) : (x.map f).All P := by
  cases x with
  | scalar v => exact h v
  | arr l =>
    intro v hv
    obtain ⟨u, -, rfl⟩ := List.mem_map.1 hv
    exact h u

theorem taper_unit (t : Taper) (v : V) : Unit01 (t.eval v) := by
  cases v with
  | some v => obtain ⟨y, hy, h⟩ := C67_range t v; rw [hy]; exact h
  | none =>
    rw [C67_nan]
    split
    · exact ⟨zero_le_one, le_rfl⟩
    · split
      · exact window_mem _ le_rfl zero_le_one
      · trivial

theorem act_unit (k : Activation) (v : V) : Unit01 (k.eval v) := by
  cases v with
  | none => trivial
  | some v =>
    cases h : k.eval (some v) with
    | none => trivial
    | some y => exact (C106_range k v).2 y h

theorem kernel_unit (k : Kernel) (x w : Arr) (h : k.eval x = .ok w) : w.All Unit01 := by
  obtain ⟨b, a⟩ := k
  cases b with
  | base => cases h
  | threshold t => cases h
  | taper t => cases h; exact Arr.all_map _ _ (taper_unit t) x
  | activation t => cases h; exact Arr.all_map _ _ (act_unit t) x

theorem prodV_unit (l : List V) (h : ∀ v ∈ l, Unit01 v) : Unit01 (prodV l) := by
  induction l with
  | nil => exact ⟨zero_le_one, le_rfl⟩
  | cons v l ih =>
    have h1 := h v List.mem_cons_self
    have h2 := ih fun u hu => h u (List.mem_cons_of_mem _ hu)
    simp only [prodV]
    cases v with
    | none => trivial
    | some a =>
      cases hp : prodV l with
      | none => trivial
      | some b =>
        rw [hp] at h2
        exact ⟨mul_nonneg h1.1 h2.1, mul_le_one₀ h1.2 h2.1 h2.2⟩

theorem sumV_bounds (l : List V) (h : ∀ v ∈ l, Unit01 v) (s : ℝ) (hs : sumV l = some s) :
    0 ≤ s ∧ s ≤ l.length := by
  induction l generalizing s with
  | nil => cases hs; simp
  | cons v l ih =>
    have h1 := h v List.mem_cons_self
    simp only [sumV] at hs
    cases v with
    | none => cases hs
    | some a =>
      cases hp : sumV l with
      | none => rw [hp] at hs; cases hs
      | some b =>
        rw [hp] at hs
        cases hs
        have h2 := ih (fun u hu => h u (List.mem_cons_of_mem _ hu)) b hp
        rw [List.length_cons]
        push_cast
        exact ⟨by linarith [h1.1], by linarith [h1.2]⟩

theorem meanV_unit (l : List V) (h : ∀ v ∈ l, Unit01 v) : Unit01 (meanV l) := by
  unfold meanV
  cases hs : sumV l with
  | none => trivial
  | some s =>
    obtain ⟨h1, h2⟩ := sumV_bounds l h s hs
    refine ⟨div_nonneg h1 (Nat.cast_nonneg _), ?_⟩
    exact div_le_one_of_le₀ h2 (Nat.cast_nonneg _)

theorem minV_cons (v : V) (u : V) (l : List V) : minV (v :: u :: l) =
    v.bind fun a => (minV (u :: l)).map fun b => min a b := rfl

theorem maxV_cons (v : V) (u : V) (l : List V) : maxV (v :: u :: l) =
    v.bind fun a => (maxV (u :: l)).map fun b => max a b := rfl

theorem minV_unit (l : List V) (h : ∀ v ∈ l, Unit01 v) : Unit01 (minV l) := by
  induction l with
  | nil => trivial
  | cons v l ih =>
    have h1 := h v List.mem_cons_self
    have h2 := ih fun u hu => h u (List.mem_cons_of_mem _ hu)
    cases l with
    | nil => exact h1
    | cons u l =>
      rw [minV_cons]
      cases v with
      | none => trivial
      | some a =>
        cases hp : minV (u :: l) with
        | none => trivial
        | some b =>
          rw [hp] at h2
          exact ⟨le_min h1.1 h2.1, (min_le_left _ _).trans h1.2⟩

theorem maxV_unit (l : List V) (h : ∀ v ∈ l, Unit01 v) : Unit01 (maxV l) := by
  induction l with
  | nil => trivial
  | cons v l ih =>
    have h1 := h v List.mem_cons_self
    have h2 := ih fun u hu => h u (List.mem_cons_of_mem _ hu)
    cases l with
    | nil => exact h1
    | cons u l =>
      rw [maxV_cons]
      cases v with
      | none => trivial
      | some a =>
        cases hp : maxV (u :: l) with
        | none => trivial
        | some b =>
          rw [hp] at h2
          exact ⟨h1.1.trans (le_max_left _ _), max_le h1.2 h2.2⟩

theorem combo_unit (c : Combo) (l : List V) (h : ∀ v ∈ l, Unit01 v) : Unit01 (c.f l) := by
  cases c with
  | multiplication => exact prodV_unit l h
  | mean => exact meanV_unit l h
  | minimum => exact minV_unit l h
  | maximum => exact maxV_unit l h

theorem scalars_spec {xs : List Arr} {vs : List V} (h : scalars xs = some vs) : xs = vs.map Arr.scalar := by
  induction xs generalizing vs with
  | nil => cases h; rfl
  | cons x xs ih =>
    cases x with
    | arr l => cases h
    | scalar v =>
      simp only [scalars, Option.map_eq_some_iff] at h
      obtain ⟨ws, h1, rfl⟩ := h
      rw [ih h1]; rfl

theorem rows_spec {n : Nat} {xs : List Arr} {rs : List (List V)} (h : rows n xs = some rs) :
    xs = rs.map Arr.arr ∧ ∀ r ∈ rs, r.length = n := by
  induction xs generalizing rs with
  | nil => cases h; simp
  | cons x xs ih =>
    cases x with
    | scalar v => cases h
    | arr l =>
      simp only [rows] at h
      split at h
      · rename_i hl
        rw [Option.map_eq_some_iff] at h
        obtain ⟨ws, h1, rfl⟩ := h
        obtain ⟨h2, h3⟩ := ih h1
        refine ⟨by rw [h2]; rfl, ?_⟩
        intro r hr
        rcases List.mem_cons.1 hr with rfl | hr
        · exact hl
        · exact h3 r hr
      · cases h

theorem reduce_all (f : List V → V) (P : V → Prop) (hf : ∀ l, (∀ v ∈ l, P v) → P (f l)) (xs : List Arr)
    (hx : ∀ x ∈ xs, x.All P) (r : Arr) (h : reduce f xs = .ok r) : r.All P := by
  unfold reduce at h
  split at h
  · rename_i vs hvs
    cases h
    apply hf
    intro v hv
    exact hx (.scalar v) (by rw [scalars_spec hvs]; exact List.mem_map_of_mem hv)
  · split at h
    · rename_i l xs' hxs
      split at h
      · rename_i rs hrs
        cases h
        intro v hv
        obtain ⟨i, -, rfl⟩ := List.mem_map.1 hv
        apply hf
        intro u hu
        obtain ⟨row, hrow, hi⟩ := List.mem_filterMap.1 hu
        have : (Arr.arr row) ∈ Arr.arr l :: xs' := by
          rw [(rows_spec hrs).1]; exact List.mem_map_of_mem hrow
        exact hx _ this u (List.mem_of_getElem? hi)
      · cases h
    · cases h

theorem evalKernels_all (x : Arr) (ks : List Kernel) (ws : List Arr) (h : evalKernels x ks = .ok ws) :
    ∀ w ∈ ws, w.All Unit01 := by
  induction ks generalizing ws with
  | nil => cases h; intro w hw; cases hw
  | cons k ks ih =>
    simp only [evalKernels] at h
    split at h
    · cases h
    · rename_i w hw
      split at h
      · cases h
      · rename_i ws' hws
        cases h
        intro u hu
        rcases List.mem_cons.1 hu with rfl | hu
        · exact kernel_unit k x u hw
        · exact ih ws' hws u hu

theorem feature_unit (s : FeatureSpec) (x r : Arr) (h : s.eval x = .ok r) : r.All Unit01 := by
  unfold FeatureSpec.eval at h
  split at h
  · cases h
  · cases h; exact ⟨zero_le_one, le_rfl⟩
  · rename_i ws hws _
    exact reduce_all prodV Unit01 prodV_unit ws (evalKernels_all x _ ws ‹_›) r h

theorem evalFeatures_all (d : OD String Arr) (ss : List FeatureSpec) (ws : List Arr)
    (h : evalFeatures d ss = .ok ws) : ∀ w ∈ ws, w.All Unit01 := by
  induction ss generalizing ws with
  | nil => cases h; intro w hw; cases hw
  | cons s ss ih =>
    simp only [evalFeatures] at h
    split at h
    · cases h
    · split at h
      · cases h
      · rename_i w hw
        split at h
        · cases h
        · rename_i ws' hws
          cases h
          intro u hu
          rcases List.mem_cons.1 hu with rfl | hu
          · exact feature_unit s _ u hw
          · exact ih ws' hws u hu

/-- C68: feature weights and channel weights lie in [0, 1] (or are NaN), for every combination style, all kernels
and all feature values. -/
theorem C68_range (c : Combo) (specs : List FeatureSpec) (d : OD String Arr) (r : Arr)
    (h : channelEval c specs d = .ok r) : r.All Unit01 := by
  unfold channelEval at h
  split at h
  · cases h
  · cases h; exact ⟨zero_le_one, le_rfl⟩
  · exact reduce_all c.f Unit01 (combo_unit c) _ (evalFeatures_all d specs _ ‹_›) r h

theorem C68_range_feature (s : FeatureSpec) (x r : Arr) (h : s.eval x = .ok r) : r.All Unit01 :=
  feature_unit s x r h

/-- C68: no features, or no kernels, give weight 1. -/
theorem C68_no_features (c : Combo) (d : OD String Arr) (name : String) (x : Arr) :
    channelEval c [] d = .ok (.scalar (some 1)) ∧ FeatureSpec.eval ⟨name, []⟩ x = .ok (.scalar (some 1)) :=
  ⟨rfl, rfl⟩

/-- C68: a feature whose values are missing is a `KeyError`, unless an earlier feature already failed. -/
theorem C68_missing (c : Combo) (pre post : List FeatureSpec) (s : FeatureSpec) (d : OD String Arr)
    (ws : List Arr) (hpre : evalFeatures d pre = .ok ws) (hs : OD.get? d s.name = none) :
    channelEval c (pre ++ s :: post) d = .error .keyError := by
  have : evalFeatures d (pre ++ s :: post) = .error .keyError := by
    induction pre generalizing ws with
    | nil => simp [evalFeatures, hs]
    | cons p pre ih =>
      simp only [List.cons_append, evalFeatures] at hpre ⊢
      split at hpre
      · cases hpre
      · split at hpre
        · cases hpre
        · rename_i w hw
          split at hpre
          · cases hpre
          · rename_i ws' hws
            rw [ih ws' hws]
  unfold channelEval
  rw [this]

theorem prodV_le_minV (l : List V) (h : ∀ v ∈ l, Unit01 v) (hl : l ≠ []) (p m : ℝ) (hp : prodV l = some p)
    (hm : minV l = some m) : p ≤ m := by
  induction l generalizing p m with
  | nil => exact absurd rfl hl
  | cons v l ih =>
    have h1 := h v List.mem_cons_self
    have h' : ∀ u ∈ l, Unit01 u := fun u hu => h u (List.mem_cons_of_mem _ hu)
    cases v with
    | none => simp [prodV] at hp
    | some a =>
      simp only [prodV, Option.bind_some, Option.map_eq_some_iff] at hp
      obtain ⟨b, hb, rfl⟩ := hp
      have hb01 := prodV_unit l h'
      rw [hb] at hb01
      cases l with
      | nil =>
        cases hm
        exact mul_le_of_le_one_right h1.1 hb01.2
      | cons u l =>
        rw [minV_cons, Option.bind_some, Option.map_eq_some_iff] at hm
        obtain ⟨q, hq, rfl⟩ := hm
        have := ih h' (by simp) b q hb hq
        exact le_min (mul_le_of_le_one_right h1.1 hb01.2)
          ((mul_le_of_le_one_left hb01.1 h1.2).trans this)

theorem minV_le_sum (l : List V) (hl : l ≠ []) (m s : ℝ) (hm : minV l = some m) (hs : sumV l = some s) :
    m * l.length ≤ s := by
  induction l generalizing m s with
  | nil => exact absurd rfl hl
  | cons v l ih =>
    cases v with
    | none => simp [sumV] at hs
    | some a =>
      simp only [sumV, Option.bind_some, Option.map_eq_some_iff] at hs
      obtain ⟨b, hb, rfl⟩ := hs
      cases l with
      | nil => cases hm; cases hb; simp
      | cons u l =>
        rw [minV_cons, Option.bind_some, Option.map_eq_some_iff] at hm
        obtain ⟨q, hq, rfl⟩ := hm
        have := ih (by simp) q b hq hb
        have h1 := min_le_left a q
        have h2 := min_le_right a q
        rw [List.length_cons]
        push_cast at this ⊢
        have h3 : (0:ℝ) ≤ ((l.length : ℝ) + 1) := by positivity
        nlinarith [mul_le_mul_of_nonneg_right h2 h3]

theorem sum_le_maxV (l : List V) (hl : l ≠ []) (m s : ℝ) (hm : maxV l = some m) (hs : sumV l = some s) :
    s ≤ m * l.length := by
  induction l generalizing m s with
  | nil => exact absurd rfl hl
  | cons v l ih =>
    cases v with
    | none => simp [sumV] at hs
    | some a =>
      simp only [sumV, Option.bind_some, Option.map_eq_some_iff] at hs
      obtain ⟨b, hb, rfl⟩ := hs
      cases l with
      | nil => cases hm; cases hb; simp
      | cons u l =>
        rw [maxV_cons, Option.bind_some, Option.map_eq_some_iff] at hm
        obtain ⟨q, hq, rfl⟩ := hm
        have := ih (by simp) q b hq hb
        have h1 := le_max_left a q
        have h2 := le_max_right a q
        rw [List.length_cons]
        push_cast at this ⊢
        have h3 : (0:ℝ) ≤ ((l.length : ℝ) + 1) := by positivity
        nlinarith [mul_le_mul_of_nonneg_right h2 h3]

/-- C68: of the same feature weights in [0, 1], the product is at most the minimum, the minimum at most the
mean, the mean at most the maximum. -/
theorem C68_order (l : List V) (hl : l ≠ []) (h : ∀ v ∈ l, Unit01 v) (p n m x : ℝ)
    (hp : Combo.multiplication.f l = some p) (hn : Combo.minimum.f l = some n)
    (hm : Combo.mean.f l = some m) (hx : Combo.maximum.f l = some x) : p ≤ n ∧ n ≤ m ∧ m ≤ x := by
  simp only [Combo.f] at *
  refine ⟨prodV_le_minV l h hl p n hp hn, ?_⟩
  simp only [meanV, Option.map_eq_some_iff] at hm
  obtain ⟨s, hs, rfl⟩ := hm
  have hpos : (0:ℝ) < l.length := by
    have := List.length_pos_iff.2 hl
    exact_mod_cast this
  exact ⟨by rw [le_div_iff₀ hpos]; exact minV_le_sum l hl n s hn hs,
    by rw [div_le_iff₀ hpos]; exact sum_le_maxV l hl x s hx hs⟩

theorem scalars_arr (l : List V) (rs : List (List V)) : scalars ((l :: rs).map Arr.arr) = none := rfl

theorem rows_arr (n : Nat) (rs : List (List V)) (h : ∀ r ∈ rs, r.length = n) :
    rows n (rs.map Arr.arr) = some rs := by
  induction rs with
  | nil => rfl
  | cons r rs ih =>
    simp only [List.map_cons, rows, h r List.mem_cons_self, if_true,
      ih fun q hq => h q (List.mem_cons_of_mem _ hq), Option.map_some]

theorem column_eq (n i : Nat) (hi : i < n) (rs : List (List V)) (h : ∀ r ∈ rs, r.length = n) :
    column rs i = rs.map fun r => r.getD i none := by
  induction rs with
  | nil => rfl
  | cons r rs ih =>
    have hr : i < r.length := by rw [h r List.mem_cons_self]; exact hi
    simp only [column] at ih ⊢
    rw [List.filterMap_cons, List.getElem?_eq_getElem hr, List.map_cons,
      ih fun q hq => h q (List.mem_cons_of_mem _ hq)]
    simp [List.getD, List.getElem?_eq_getElem hr]

theorem reduce_arr (f : List V → V) (n : Nat) (rs : List (List V)) (hne : rs ≠ [])
    (h : ∀ r ∈ rs, r.length = n) :
    ∃ out : List V, reduce f (rs.map Arr.arr) = .ok (.arr out) ∧ out.length = n ∧
      ∀ i < n, out[i]? = some (f (rs.map fun r => r.getD i none)) := by
  cases rs with
  | nil => exact absurd rfl hne
  | cons r rs =>
    have hr := h r List.mem_cons_self
    refine ⟨(List.range n).map fun i => f (column (r :: rs) i), ?_, by simp, ?_⟩
    · have := rows_arr n (r :: rs) h
      simp only [List.map_cons] at this ⊢
      simp only [reduce, scalars, hr, this]
    · intro i hi
      rw [List.getElem?_map, List.getElem?_range hi, Option.map_some, column_eq n i hi _ h]

/-- C68: the weights of a channel are combined entry by entry: if the features' weights are the arrays `rs`, all of
one length, the `i`-th channel weight is the combination of their `i`-th entries. -/
theorem C68_elementwise (c : Combo) (specs : List FeatureSpec) (d : OD String Arr) (n : Nat) (rs : List (List V))
    (hne : rs ≠ []) (hlen : ∀ r ∈ rs, r.length = n)
    (hw : List.Forall₂ (fun s r => ∃ x, OD.get? d s.name = some x ∧ s.eval x = .ok (.arr r)) specs rs) :
    ∃ out : List V, channelEval c specs d = .ok (.arr out) ∧ out.length = n ∧
      ∀ i < n, out[i]? = some (c.f (rs.map fun r => r.getD i none)) := by
  have he : evalFeatures d specs = .ok (rs.map Arr.arr) := by
    clear hne hlen
    induction hw with
    | nil => rfl
    | cons h _ ih =>
      obtain ⟨x, h1, h2⟩ := h
      simp only [evalFeatures, h1, h2, ih, List.map_cons]
  obtain ⟨out, h1, h2, h3⟩ := reduce_arr c.f n rs hne hlen
  refine ⟨out, ?_, h2, h3⟩
  unfold channelEval
  rw [he]
  cases rs with
  | nil => exact absurd rfl hne
  | cons r rs => exact h1

/-- The weight that a kernel with an `evaluate` of its own gives to a float. -/
noncomputable def Kernel.weight (k : Kernel) (v : V) : V :=
  match k.body with
  | .taper t => t.eval v
  | .activation a => a.eval v
  | _ => none

/-- C68: the weight of a feature value is the product of what its kernels give to that value. -/
theorem C68_feature (s : FeatureSpec) (l : List V) (hne : s.kernels ≠ [])
    (hk : ∀ k ∈ s.kernels, (∃ t, k.body = .taper t) ∨ ∃ a, k.body = .activation a) :
    s.eval (.arr l) = .ok (.arr (l.map fun v => prodV (s.kernels.map fun k => k.weight v))) := by
  have he : evalKernels (.arr l) s.kernels = .ok ((s.kernels.map fun k => l.map k.weight).map Arr.arr) := by
    clear hne
    generalize s.kernels = ks at hk
    induction ks with
    | nil => rfl
    | cons k ks ih =>
      have h1 : k.eval (.arr l) = .ok (.arr (l.map k.weight)) := by
        obtain ⟨b, a⟩ := k
        rcases hk ⟨b, a⟩ List.mem_cons_self with ⟨t, ht⟩ | ⟨t, ht⟩ <;> cases ht <;> rfl
      simp only [evalKernels, h1, ih fun q hq => hk q (List.mem_cons_of_mem _ hq), List.map_cons]
  have hlen : ∀ r ∈ s.kernels.map fun k => l.map k.weight, r.length = l.length := by
    intro r hr
    obtain ⟨k, -, rfl⟩ := List.mem_map.1 hr
    simp
  obtain ⟨out, h1, h2, h3⟩ := reduce_arr prodV l.length (s.kernels.map fun k => l.map k.weight)
    (by simpa using hne) hlen
  have : out = l.map fun v => prodV (s.kernels.map fun k => k.weight v) := by
    apply List.ext_getElem?
    intro i
    by_cases hi : i < l.length
    · rw [h3 i hi, List.getElem?_map, List.getElem?_eq_getElem hi, Option.map_some, List.map_map]
      congr 2
      apply List.map_congr_left
      intro k _
      simp [List.getD, List.getElem?_eq_getElem hi]
    · rw [List.getElem?_eq_none (by omega), List.getElem?_eq_none (by simpa using hi)]
  unfold FeatureSpec.eval
  rw [he]
  cases hks : s.kernels with
  | nil => exact absurd hks hne
  | cons k ks =>
    rw [hks] at h1
    simp only [List.map_cons] at h1 ⊢
    rw [h1, this, hks]
    simp

theorem bind_none_iff (v : V) (o : V) (f : ℝ → ℝ → ℝ) :
    (v.bind fun a => o.map fun b => f a b) = none ↔ v = none ∨ o = none := by
  cases v <;> cases o <;> simp

/-- C68: a weight is NaN exactly if one of the combined weights is NaN, for every style. -/
theorem C68_nan (c : Combo) (l : List V) (hl : l ≠ []) : c.f l = none ↔ none ∈ l := by
  have hp : ∀ l : List V, prodV l = none ↔ none ∈ l := by
    intro l
    induction l with
    | nil => simp [prodV]
    | cons v l ih => rw [prodV, bind_none_iff, ih, List.mem_cons]; tauto
  have hs : ∀ l : List V, sumV l = none ↔ none ∈ l := by
    intro l
    induction l with
    | nil => simp [sumV]
    | cons v l ih => rw [sumV, bind_none_iff, ih, List.mem_cons]; tauto
  cases c with
  | multiplication => exact hp l
  | mean => simp only [Combo.f, meanV, Option.map_eq_none_iff]; exact hs l
  | minimum =>
    simp only [Combo.f]
    induction l with
    | nil => exact absurd rfl hl
    | cons v l ih =>
      cases l with
      | nil => simp [minV, eq_comm]
      | cons u l => 
        have := ih (by simp)
        rw [minV_cons, bind_none_iff, List.mem_cons (l := u :: l), eq_comm]
        exact or_congr Iff.rfl this
  | maximum =>
    simp only [Combo.f]
    induction l with
    | nil => exact absurd rfl hl
    | cons v l ih =>
      cases l with
      | nil => simp [maxV, eq_comm]
      | cons u l => 
        have := ih (by simp)
        rw [maxV_cons, bind_none_iff, List.mem_cons (l := u :: l), eq_comm]
        exact or_congr Iff.rfl this

/-- C68, neutrality, as a claim: a feature without kernels does not change a product of weights. -/
def C68_claim : Prop :=
  ∀ (s : FeatureSpec) (name : String) (d : OD String Arr) (r : Arr),
    OD.get? d name ≠ none → channelEval .multiplication [s] d = .ok r →
    channelEval .multiplication [s, ⟨name, []⟩] d = .ok r

/-- A feature without kernels has the scalar weight 1, which cannot be combined with an array of weights. -/
theorem C68_refuted : ¬ C68_claim := by
  intro h
  have := h ⟨"a", [⟨.taper ⟨.low, 0, 1, .rectangle⟩, none⟩]⟩ "b"
    [("a", .arr [some 2]), ("b", .arr [some 2])] (.arr [some 1]) (by simp [OD.get?]) (by
      simp [channelEval, evalFeatures, OD.get?, FeatureSpec.eval, evalKernels, Kernel.eval, Arr.map, Taper.eval,
        rectangle, reduce, scalars, rows, column, Combo.f, prodV])
  simp [channelEval, evalFeatures, OD.get?, FeatureSpec.eval, evalKernels, Kernel.eval, Arr.map,
    reduce, scalars, rows] at this

/-- C68, neutrality where it holds: for scalar weights. -/
theorem C68_neutral_partial (s : FeatureSpec) (name : String) (d : OD String Arr) (y : V)
    (hn : OD.get? d name ≠ none) (h : channelEval .multiplication [s] d = .ok (.scalar y)) :
    channelEval .multiplication [s, ⟨name, []⟩] d = .ok (.scalar y) := by
  obtain ⟨x, hx⟩ := Option.ne_none_iff_exists'.1 hn
  simp only [channelEval, evalFeatures] at h ⊢
  cases hd : OD.get? d s.name with
  | none => rw [hd] at h; cases h
  | some z =>
    rw [hd] at h
    simp only at h ⊢
    cases hs : s.eval z with
    | error e => rw [hs] at h; cases h
    | ok w =>
      rw [hs] at h
      simp only at h ⊢
      rw [hx]
      simp only [FeatureSpec.eval, evalKernels]
      cases w with
      | arr l =>
        simp only [reduce, scalars] at h
        split at h <;> cases h
      | scalar v =>
        simp only [reduce, scalars, Option.map_some, Combo.f, prodV] at h ⊢
        rw [← h]
        simp

/-! ### C104: inactive kernels -/

/-- C104 as a claim: a kernel whose `active` flag is false is skipped, as its description says. -/
def C104_claim : Prop :=
  ∀ (name : String) (ks : List Kernel) (x : Arr),
    FeatureSpec.eval ⟨name, ks⟩ x = FeatureSpec.eval ⟨name, ks.filter fun k => k.active != some false⟩ x

/-- The flag is never looked at. -/
theorem C104_refuted : ¬ C104_claim := by
  intro h
  have := h "a" [⟨.taper ⟨.low, 0, 1, .rectangle⟩, some false⟩] (.scalar (some (-1)))
  simp [FeatureSpec.eval, evalKernels, Kernel.eval, Arr.map, Taper.eval, rectangle, reduce, scalars, prodV] at this

/-- C104, what holds: specs without a flag that says false are evaluated as claimed, and the flag never changes
a weight. -/
theorem C104_flag_partial (name : String) (ks : List Kernel) (g : Kernel → Option Bool) (x : Arr) :
    FeatureSpec.eval ⟨name, ks.map fun k => { k with active := g k }⟩ x = FeatureSpec.eval ⟨name, ks⟩ x := by
  have : evalKernels x (ks.map fun k => { k with active := g k }) = evalKernels x ks := by
    induction ks with
    | nil => rfl
    | cons k ks ih => simp only [List.map_cons, evalKernels, ih]; rfl
  simp only [FeatureSpec.eval, this]

/-! ### C105: kernels given as dictionaries -/

/-- C105 as a claim: every kernel given is used. -/
def C105_claim : Prop := ∀ l : List KernelIn, (takeKernels l).length = l.length

/-- An unknown style is dropped with a log entry, so that its feature gets full weight. -/
theorem C105_refuted : ¬ C105_claim := by
  intro h
  have := h [.dict "Taper" "" fun _ => none]
  simp [takeKernels, takeKernel, weightClasses] at this

/-- What a known dictionary or an object stands for. -/
def meant : KernelIn → Option Kernel
  | .obj k => some k
  | .dict style weightType build =>
    if style ∈ ["monotonic", "taper", "activation"] then build style
    else if weightType ∈ ["monotonic", "taper", "activation"] then build weightType
    else none

/-- C105, what holds: the kernels are used in the given order, none twice, and none is lost if each is an
object or a dictionary of which the class named by its style (else by its type) can be made. -/
theorem C105_kept_partial (l : List KernelIn) :
    takeKernels l = l.filterMap meant ∧ ((∀ i ∈ l, (meant i).isSome) → (takeKernels l).length = l.length) := by
  have h : takeKernels l = l.filterMap meant := by
    induction l with
    | nil => rfl
    | cons i l ih =>
      simp only [takeKernels, List.flatMap_cons] at ih ⊢
      rw [ih]
      have : takeKernel i = (meant i).toList := by
        cases i with
        | obj k => rfl
        | dict s w b => 
          simp only [takeKernel, meant]
          by_cases h1 : s ∈ ["monotonic", "taper", "activation"]
          · rw [if_pos h1, if_pos (show s ∈ weightClasses from h1)]
          · rw [if_neg h1, if_neg (show s ∉ weightClasses from h1)]
            by_cases h2 : w ∈ ["monotonic", "taper", "activation"]
            · rw [if_pos h2, if_pos (show w ∈ weightClasses from h2)]
            · rw [if_neg h2, if_neg (show w ∉ weightClasses from h2)]; rfl
      rw [this, List.filterMap_cons]
      cases meant i <;> rfl
  refine ⟨h, fun hs => ?_⟩
  rw [h]
  clear h
  induction l with
  | nil => rfl
  | cons i l ih =>
    obtain ⟨k, hk⟩ := Option.isSome_iff_exists.1 (hs i List.mem_cons_self)
    rw [List.filterMap_cons, hk]
    simp only [List.length_cons]
    rw [ih fun j hj => hs j (List.mem_cons_of_mem _ hj)]

/-! ### C108: weights of a band -/

theorem argmin_spec (l : List ℝ) (hl : l ≠ []) :
    ∃ m, l[argmin l]? = some m ∧ (∀ x ∈ l, m ≤ x) ∧ ∀ j < argmin l, ∀ x, l[j]? = some x → m < x := by
  induction l with
  | nil => exact absurd rfl hl
  | cons a l ih =>
    cases l with
    | nil => exact ⟨a, rfl, by simp, by simp [argmin]⟩
    | cons b l =>
      obtain ⟨m, h1, h2, h3⟩ := ih (by simp)
      simp only [argmin]
      rw [h1]
      simp only [Option.getD_some]
      by_cases ha : a ≤ m
      · rw [if_pos ha]
        refine ⟨a, rfl, ?_, by simp⟩
        intro x hx
        rcases List.mem_cons.1 hx with rfl | hx
        · exact le_rfl
        · exact ha.trans (h2 x hx)
      · rw [if_neg ha]
        refine ⟨m, by simpa using h1, ?_, ?_⟩
        · intro x hx
          rcases List.mem_cons.1 hx with rfl | hx
          · exact (not_le.1 ha).le
          · exact h2 x hx
        · intro j hj x hx
          cases j with
          | zero => cases hx; exact not_le.1 ha
          | succ j => exact h3 j (by omega) x (by simpa using hx)

/-- C108: the weights of a band are those of the frequency closest to its center, the first one of several. -/
theorem C108_closest (freqs : List ℝ) (w : List V) (center : ℝ) (hw : w.length = freqs.length)
    (hf : freqs ≠ []) :
    ∃ (i : Nat) (f : ℝ) (v : V), freqs[i]? = some f ∧ w[i]? = some v ∧ weightsForBand freqs w center = .ok v ∧
      (∀ g ∈ freqs, |f - center| ≤ |g - center|) ∧
      ∀ j < i, ∀ g, freqs[j]? = some g → |f - center| < |g - center| := by
  obtain ⟨m, h1, h2, h3⟩ := argmin_spec (freqs.map fun f => |f - center|) (by simpa using hf)
  rw [List.getElem?_map, Option.map_eq_some_iff] at h1
  obtain ⟨f, hi, rfl⟩ := h1
  have hlt : argmin (freqs.map fun f => |f - center|) < w.length := by
    rw [hw]; exact (List.getElem?_eq_some_iff.1 hi).1
  refine ⟨_, f, w[argmin (freqs.map fun f => |f - center|)], hi, List.getElem?_eq_getElem hlt, ?_, ?_, ?_⟩
  · simp only [weightsForBand, if_neg hf, List.getElem?_eq_getElem hlt]
  · intro g hg; exact h2 _ (List.mem_map_of_mem hg)
  · intro j hj g hg
    exact h3 j hj _ (by rw [List.getElem?_map, hg]; rfl)

/-- C108: weights without frequencies are refused. -/
theorem C108_empty (w : List V) (center : ℝ) : weightsForBand [] w center = .error .valueError := by
  simp [weightsForBand]

end Verif.Weights
