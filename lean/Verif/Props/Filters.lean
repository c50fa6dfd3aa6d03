import Verif.Model.Filters
import Mathlib.Tactic.Linarith
import Mathlib.Tactic.Ring
import Mathlib.Tactic.FieldSimp

/-!
C49, C50, C52, C97, C98, C99: filter responses.
-/

namespace Verif.Filters

/-! ### C49 -/

theorem checkLoop_ok (u : Str) (l : List Filter) :
    checkLoop u l = .ok () ↔ ∀ (i : ℕ) (g : Filter), l[i]? = some g →
      g.unitsIn = (if i = 0 then u else ((l[i - 1]?).map (·.unitsOut)).getD u) := by
  induction l generalizing u with
  | nil => simp [checkLoop]
  | cons f t ih =>
    rw [checkLoop]
    by_cases hf : f.unitsIn = u
    · rw [if_neg (by simpa using hf), ih]
      constructor
      · intro h i g hg
        cases i with
        | zero => simp at hg; subst hg; simpa using hf
        | succ i =>
          simp only [List.getElem?_cons_succ] at hg
          rw [h i g hg]
          cases i with
          | zero => simp
          | succ i =>
            have : i < t.length := by
              have := (List.getElem?_eq_some_iff.1 hg).1; omega
            simp [List.getElem?_eq_getElem this]
      · intro h i g hg
        have := h (i + 1) g (by simpa using hg)
        rw [this]
        cases i with
        | zero => simp
        | succ i =>
          have : i < t.length := by
            have := (List.getElem?_eq_some_iff.1 hg).1; omega
          simp [List.getElem?_eq_getElem this]
    · rw [if_pos (by simpa using hf)]
      constructor
      · intro h; cases h
      · intro h
        exact absurd (by simpa using h 0 f (by simp)) hf

/-- C49: a filter list is accepted exactly when the output units of every stage are the input units of
the next one. -/
theorem C49_accepted (ch : Channel) (l : List Filter) :
    (∃ ch', setFilters ch l = .ok ch') ↔
      ∀ (i : ℕ) (f g : Filter), l[i]? = some f → l[i + 1]? = some g → f.unitsOut = g.unitsIn := by
  have key : (∃ m, checkUnits l = .ok m) ↔
      ∀ (i : ℕ) (f g : Filter), l[i]? = some f → l[i + 1]? = some g → f.unitsOut = g.unitsIn := by
    cases l with
    | nil => simp [checkUnits]
    | cons a t =>
      cases t with
      | nil =>
        constructor
        · intro _ i f g _ h2; simp at h2
        · intro _; exact ⟨[a], rfl⟩
      | cons b t =>
        have e : (∃ m, checkUnits (a :: b :: t) = .ok m) ↔ checkLoop a.unitsOut (b :: t) = .ok () := by
          simp only [checkUnits]
          cases checkLoop a.unitsOut (b :: t) <;> simp
        rw [e, checkLoop_ok]
        constructor
        · intro h i f g hf hg
          rw [List.getElem?_cons_succ] at hg
          rw [h i g hg]
          cases i with
          | zero => simp at hf; subst hf; simp
          | succ i =>
            rw [List.getElem?_cons_succ] at hf
            simp [hf]
        · intro h i g hg
          cases i with
          | zero => simp; exact (h 0 a g (by simp) (by simpa using hg)).symm
          | succ i =>
            have hi : i < (b :: t).length := by
              have := (List.getElem?_eq_some_iff.1 hg).1; omega
            have := h (i + 1) (b :: t)[i] g (by simp [hi]) (by simpa using hg)
            rw [if_neg (by omega), ← this, Nat.add_sub_cancel, List.getElem?_eq_getElem hi]
            simp
  rw [← key]
  unfold setFilters
  constructor
  · rintro ⟨c, hc⟩
    cases hm : checkUnits l with
    | error e => rw [hm] at hc; cases hc
    | ok m => exact ⟨m, rfl⟩
  · rintro ⟨m, hm⟩
    rw [hm]
    cases m with
    | nil => exact ⟨_, rfl⟩
    | cons f t => exact ⟨_, rfl⟩

theorem checkUnits_id {l m : List Filter} (h : checkUnits l = .ok m) : m = l := by
  match l with
  | [] => simp only [checkUnits, Except.ok.injEq] at h; exact h.symm
  | [f] => simp only [checkUnits, Except.ok.injEq] at h; exact h.symm
  | f :: g :: t =>
    simp only [checkUnits] at h
    cases hc : checkLoop f.unitsOut (g :: t) with
    | error e => rw [hc] at h; cases h
    | ok u => rw [hc] at h; simp only [Except.ok.injEq] at h; exact h.symm

/-- C49: an accepted list that is not empty is stored as given and its ends determine the units. -/
theorem C49_units (ch ch' : Channel) (l : List Filter) (hl : l ≠ []) (h : setFilters ch l = .ok ch') :
    ch'.filters = l ∧ ch'.unitsIn = (l.head hl).unitsIn ∧ ch'.unitsOut = (l.getLast hl).unitsOut := by
  unfold setFilters at h
  cases hm : checkUnits l with
  | error e => rw [hm] at h; cases h
  | ok m =>
    have := checkUnits_id hm
    subst this
    rw [hm] at h
    cases m with
    | nil => exact absurd rfl hl
    | cons f t =>
      simp only [Except.ok.injEq] at h
      subst h
      simp

/-! ### C50 -/

theorem foldl_zip (t : List Filter) (xs : List ℝ) (g : ℝ → ℂ) :
    t.foldl (fun acc f => List.zipWith (· * ·) acc (resp f xs)) (xs.map g) =
      xs.map (fun x => g x * (t.map (fun f => respAt f x)).prod) := by
  induction t generalizing g with
  | nil => simp
  | cons f t ih =>
    rw [List.foldl_cons]
    have e : List.zipWith (· * ·) (xs.map g) (resp f xs) = xs.map (fun x => g x * respAt f x) := by
      unfold resp
      rw [List.zipWith_map]
      induction xs with
      | nil => rfl
      | cons y ys ihy => simp [ihy]
    rw [e, ih]
    simp [mul_assoc]

/-- C50: the response over all filters is, frequency by frequency, the product of their responses. -/
theorem C50_product (l : List Filter) (xs : List ℝ) :
    channelResp l xs true true = xs.map (fun x => (l.map (fun f => respAt f x)).prod) := by
  unfold channelResp selected
  simp only [if_true]
  cases l with
  | nil => simp
  | cons f t =>
    simp only
    unfold resp
    rw [← List.map_id (List.map (respAt f) xs), List.map_id]
    have := foldl_zip t xs (respAt f)
    unfold resp at this
    rw [this]
    simp

/-- C50: which filters take part in general. -/
theorem C50_selected (l : List Filter) (xs : List ℝ) (decimation delay : Bool) :
    channelResp l xs decimation delay = xs.map (fun x =>
      ((l.filter (fun f => (delay || !isDelay f) && (decimation || !decimates f))).map
        (fun f => respAt f x)).prod) := by
  have hs : selected l decimation delay =
      l.filter (fun f => (delay || !isDelay f) && (decimation || !decimates f)) := by
    unfold selected
    cases decimation <;> cases delay <;> simp [List.filter_filter, Bool.and_comm]
  have h2 : selected (selected l decimation delay) true true = selected l decimation delay := by
    simp [selected]
  have := C50_product (selected l decimation delay) xs
  rw [← hs, ← this]
  unfold channelResp
  rw [h2]

/-- C50: independent of the order. -/
theorem C50_perm (l m : List Filter) (h : l.Perm m) (xs : List ℝ) (decimation delay : Bool) :
    channelResp l xs decimation delay = channelResp m xs decimation delay := by
  rw [C50_selected, C50_selected]
  apply List.map_congr_left
  intro x _
  exact ((h.filter _).map _).prod_eq

/-- C50: multiplicative under concatenation. -/
theorem C50_append (l m : List Filter) (xs : List ℝ) (decimation delay : Bool) :
    channelResp (l ++ m) xs decimation delay =
      List.zipWith (· * ·) (channelResp l xs decimation delay) (channelResp m xs decimation delay) := by
  rw [C50_selected, C50_selected, C50_selected, List.zipWith_map]
  induction xs with
  | nil => rfl
  | cons x t ih => simp [ih]

theorem totalDelay_cons (f : Filter) (l : List Filter) :
    totalDelay (f :: l) = delayOf f + totalDelay l := by
  unfold totalDelay
  have hadd : ∀ (m : List Filter) (a : ℝ),
      m.foldl (fun acc f => acc + delayOf f) a = a + m.foldl (fun acc f => acc + delayOf f) 0 := by
    intro m
    induction m with
    | nil => intro a; simp
    | cons g t ih =>
      intro a
      simp only [List.foldl_cons]
      rw [ih (a + _), ih (0 + _)]
      ring
  by_cases h : isDelay f = true
  · rw [List.filter_cons_of_pos h, List.foldl_cons, hadd]
    ring
  · rw [List.filter_cons_of_neg h]
    have : delayOf f = 0 := by
      unfold isDelay at h
      unfold delayOf
      split at h <;> simp_all
    rw [this, zero_add]

/-- C50: the total delay is additive. -/
theorem C50_total_delay (l m : List Filter) : totalDelay (l ++ m) = totalDelay l + totalDelay m := by
  induction l with
  | nil => simp [totalDelay]
  | cons f t ih => rw [List.cons_append, totalDelay_cons, totalDelay_cons, ih]; ring

/-- C50: the factors. A coefficient filter multiplies by its gain at every frequency, a delay by d seconds turns
the phase at frequency x by -2πxd and keeps the amplitude, a pole-zero filter is its gain times the rational function with these zeros and poles. -/
theorem C50_factor (f : Filter) (x : ℝ) :
    (f.kind = .coefficient → respAt f x = f.gain) ∧
    (∀ d, f.kind = .delay d → ‖respAt f x‖ = 1 ∧
      respAt f x = Real.cos (2 * Real.pi * x * d) - Complex.I * Real.sin (2 * Real.pi * x * d)) ∧
    (∀ z p k, f.kind = .zpk z p k → (∀ q ∈ p, Complex.I * (2 * Real.pi * x : ℝ) ≠ q) →
      respAt f x * (p.map (fun q => Complex.I * (2 * Real.pi * x : ℝ) - q)).prod =
        f.gain * k * (z.map (fun q => Complex.I * (2 * Real.pi * x : ℝ) - q)).prod) := by
  refine ⟨?_, ?_, ?_⟩
  · intro h; unfold respAt; rw [h]
  · intro d h
    unfold respAt
    rw [h]
    simp only
    generalize 2 * Real.pi * x * d = t
    have e : -(Complex.I * ((t : ℝ) : ℂ)) = ((-t : ℝ) : ℂ) * Complex.I := by push_cast; ring
    rw [e]
    refine ⟨Complex.norm_exp_ofReal_mul_I _, ?_⟩
    rw [Complex.exp_mul_I, ← Complex.ofReal_cos, ← Complex.ofReal_sin, Real.cos_neg, Real.sin_neg]
    push_cast
    ring
  · intro z p k h hq
    unfold respAt zpkAt
    rw [h]
    simp only
    have hp : (p.map (fun q => Complex.I * (2 * Real.pi * x : ℝ) - q)).prod ≠ 0 := by
      rw [Ne, List.prod_eq_zero_iff, List.mem_map]
      rintro ⟨q, hm, h0⟩
      exact hq q hm (sub_eq_zero.1 h0)
    rw [div_mul_cancel₀ _ hp]
    push_cast
    ring

/-- C50: leaving out the delays divides out exactly a shift by the total delay. -/
theorem C50_delay (l : List Filter) (xs : List ℝ) :
    channelResp l xs true true = List.zipWith (· * ·) (channelResp l xs true false)
      (xs.map (fun x => Complex.exp (-(Complex.I * ((2 * Real.pi * x * totalDelay l : ℝ) : ℂ))))) := by
  rw [C50_selected, C50_selected, List.zipWith_map, List.zipWith_self]
  apply List.map_congr_left
  intro x _
  simp only [Bool.true_or, Bool.and_self, List.filter_true, Bool.false_or, Bool.and_true]
  induction l with
  | nil => simp [totalDelay]
  | cons f t ih =>
    rw [totalDelay_cons, List.map_cons, List.prod_cons, ih]
    cases hk : f.kind with
    | delay d =>
      have h1 : isDelay f = true := by simp [isDelay, hk]
      have h0 : delayOf f = d := by simp [delayOf, hk]
      rw [h0]
      rw [List.filter_cons_of_neg (by simp [h1])]
      have h2 : respAt f x = Complex.exp (-(Complex.I * ((2 * Real.pi * x * d : ℝ) : ℂ))) := by
        simp [respAt, hk]
      rw [h2, mul_left_comm, ← Complex.exp_add]
      congr 2
      push_cast
      ring
    | _ =>
      have h1 : isDelay f = false := by simp [isDelay, hk]
      have h0 : delayOf f = 0 := by simp [delayOf, hk]
      rw [List.filter_cons_of_pos (by simp [h1]), List.map_cons, List.prod_cons, h0, zero_add, mul_assoc (respAt f x)]

theorem foldr_max_ge (l : List ℝ) : ∀ a ∈ l, a ≤ l.foldr max 0 := by
  induction l with
  | nil => simp
  | cons b t ih =>
    intro a ha
    rw [List.mem_cons] at ha
    rw [List.foldr_cons]
    rcases ha with rfl | ha
    · exact le_max_left _ _
    · exact le_trans (ih a ha) (le_max_right _ _)

theorem foldr_max_mem (l : List ℝ) (h : 0 < l.foldr max 0) : l.foldr max 0 ∈ l := by
  induction l with
  | nil => simp at h
  | cons b t ih =>
    rw [List.foldr_cons] at h ⊢
    rcases max_choice b (t.foldr max 0) with e | e
    · rw [e]; exact List.mem_cons_self
    · rw [e]; rw [e] at h; exact List.mem_cons_of_mem _ (ih h)

/-- C50: a normalised response that is not zero everywhere has largest amplitude one. -/
theorem C50_normalized (l : List ℂ) (h : ∃ z ∈ l, z ≠ 0) :
    (∀ z ∈ normalized l, ‖z‖ ≤ 1) ∧ ∃ z ∈ normalized l, ‖z‖ = 1 := by
  obtain ⟨z, hz, hz0⟩ := h
  have hpos : 0 < (l.map (fun z => ‖z‖)).foldr max 0 :=
    lt_of_lt_of_le (norm_pos_iff.2 hz0) (foldr_max_ge _ _ (List.mem_map_of_mem hz))
  unfold normalized
  constructor
  · intro w hw
    obtain ⟨v, hv, rfl⟩ := List.mem_map.1 hw
    rw [norm_div, Complex.norm_real, Real.norm_of_nonneg hpos.le, div_le_one hpos]
    exact foldr_max_ge _ _ (List.mem_map_of_mem hv)
  · obtain ⟨v, hv, he⟩ := List.mem_map.1 (foldr_max_mem _ hpos)
    refine ⟨_, List.mem_map_of_mem hv, ?_⟩
    rw [norm_div, Complex.norm_real, Real.norm_of_nonneg hpos.le, he]
    exact div_self hpos.ne'

/-! ### C52 -/

/-- The statement of C52. -/
def C52_claim : Prop :=
  ∀ c : List ℝ, c ≠ [] →
    ((corrected .even c).length = 2 * c.length ∧ c <+: corrected .even c ∧
      (corrected .even c).reverse = corrected .even c) ∧
    ((corrected .odd c).length = 2 * c.length - 1 ∧ c <+: corrected .odd c ∧
      (corrected .odd c).reverse = corrected .odd c) ∧
    corrected .none c = c

/-- C52 is false: an odd filter with two different coefficients is not symmetric. -/
theorem C52_refuted : ¬ C52_claim := by
  intro h
  have := (h [1, 2] (by simp)).2.1.2.2
  simp [corrected] at this

/-- C52: everything but the symmetry of odd filters. -/
theorem C52_expansion_partial (c : List ℝ) (hc : c ≠ []) :
    ((corrected .even c).length = 2 * c.length ∧ c <+: corrected .even c ∧
      (corrected .even c).reverse = corrected .even c) ∧
    ((corrected .odd c).length = 2 * c.length - 1 ∧ c <+: corrected .odd c) ∧
    corrected .none c = c := by
  have hl : 0 < c.length := List.length_pos_iff.2 hc
  refine ⟨⟨?_, ⟨_, rfl⟩, ?_⟩, ⟨?_, ⟨_, rfl⟩⟩, rfl⟩
  · simp [corrected]; omega
  · simp [corrected]
  · simp [corrected]; omega

/-- C52: an odd filter is symmetric exactly if all its coefficients are equal. -/
theorem C52_odd_partial (a : ℝ) (c : List ℝ) :
    (corrected .odd (a :: c)).reverse = corrected .odd (a :: c) ↔ ∀ b ∈ c, b = a := by
  simp only [corrected, List.drop_succ_cons, List.drop_zero, List.reverse_append, List.reverse_reverse,
    List.reverse_cons]
  constructor
  · intro h
    have : ∀ (a : ℝ) (c t : List ℝ), c ++ t = a :: c ++ t.tail → t ≠ [] → ∀ b ∈ c, b = a := by
      intro a c
      induction c generalizing a with
      | nil => intro t _ _ b hb; cases hb
      | cons d c ih =>
        intro t ht hne b hb
        simp only [List.cons_append, List.cons.injEq] at ht
        obtain ⟨e, ht⟩ := ht
        subst e
        rcases List.mem_cons.1 hb with rfl | hb
        · rfl
        · exact ih d t (by simpa using ht) hne b hb
    have h2 : c ++ (c.reverse ++ [a]) = a :: c ++ c.reverse := h
    intro b hb
    have hlen : ∀ (a : ℝ) (c s t : List ℝ), c ++ s = a :: c ++ t → ∀ b ∈ c, b = a := by
      intro a c
      induction c generalizing a with
      | nil => intro s t _ b hb; cases hb
      | cons d c ih =>
        intro s t ht b hb
        simp only [List.cons_append, List.cons.injEq] at ht
        obtain ⟨e, ht⟩ := ht
        subst e
        rcases List.mem_cons.1 hb with rfl | hb
        · rfl
        · exact ih d s t (by simpa using ht) b hb
    exact hlen a c _ _ h2 b hb
  · intro h
    have e : c = List.replicate c.length a := List.eq_replicate_iff.2 ⟨rfl, h⟩
    rw [e]
    simp only [List.reverse_replicate, List.length_replicate]
    rw [← List.append_assoc, List.replicate_append_replicate]
    have : [a] = List.replicate 1 a := rfl
    rw [this, List.replicate_append_replicate, ← List.replicate_succ, List.replicate_append_replicate]
    congr 1
    omega

/-! ### C97 -/

theorem freqz_zero (rate : ℝ) (k : ℕ) (c : List ℝ) : freqz rate 0 k c = (c.sum : ℂ) := by
  induction c generalizing k with
  | nil => simp [freqz]
  | cons a t ih => rw [freqz, ih]; simp

theorem freqz_shift (rate x : ℝ) (k : ℕ) (c : List ℝ) :
    freqz rate x k c = ∑ j : Fin c.length,
      (c[j] : ℂ) * Complex.exp (-(Complex.I * ((2 * Real.pi * x / rate * (k + j : ℕ) : ℝ) : ℂ))) := by
  induction c generalizing k with
  | nil => simp [freqz]
  | cons a t ih =>
    rw [freqz, ih]
    simp only [List.length_cons]
    rw [Fin.sum_univ_succ]
    congr 1
    apply Finset.sum_congr rfl
    intro j _
    have e : k + 1 + (j : ℕ) = k + ((Fin.succ j : Fin (t.length + 1)) : ℕ) := by
      rw [Fin.val_succ]; omega
    rw [e]
    rfl

/-- C97: up to a real factor the response of a FIR filter is the discrete Fourier transform of its taps: tap
number j delays by j samples. -/
theorem C97_fir_response (f : Filter) (c : List ℝ) (s : Symmetry) (g r d x : ℝ)
    (hk : f.kind = .fir c s g r d) :
    respAt f x = (∑ j : Fin (corrected s c).length, ((corrected s c)[j] : ℂ) *
        Complex.exp (-(Complex.I * ((2 * Real.pi * x * (j / r) : ℝ) : ℂ)))) /
      (correctiveScalar (corrected s c) g r f.gain : ℂ) := by
  unfold respAt
  rw [hk]
  simp only
  rw [freqz_shift]
  congr 1
  apply Finset.sum_congr rfl
  intro j _
  rw [show 2 * Real.pi * x / r * ((0 + (j : ℕ) : ℕ) : ℝ) = 2 * Real.pi * x * ((j : ℕ) / r) by
    rw [Nat.zero_add]; ring]

/-- C97: at its reference frequency a FIR filter has exactly the stated gain in amplitude. -/
theorem C97_fir_gain (f : Filter) (c : List ℝ) (s : Symmetry) (g r d : ℝ) (hk : f.kind = .fir c s g r d)
    (hg : f.gain ≠ 0) (hc : coefficientGain (corrected s c) g r ≠ 0) :
    ‖respAt f g‖ = (|f.gain| : ℝ) := by
  have hn : ‖freqz r g 0 (corrected s c)‖ = |coefficientGain (corrected s c) g r| := by
    unfold coefficientGain
    split
    · next h => rw [h, freqz_zero, Complex.norm_real, Real.norm_eq_abs]
    · exact (abs_of_nonneg (norm_nonneg _)).symm
  simp only [respAt, hk]
  rw [norm_div, Complex.norm_real, hn, Real.norm_eq_abs]
  unfold correctiveScalar
  split
  · next h =>
    rw [abs_div]
    have h1 : |coefficientGain (corrected s c) g r| ≠ 0 := abs_ne_zero.2 hc
    have h2 : |f.gain| ≠ 0 := abs_ne_zero.2 hg
    field_simp
  · next h =>
    have h' : coefficientGain (corrected s c) g r = f.gain := by simpa using h
    rw [h']
    simp

/-! ### C98 -/

theorem interp_table (l : List (ℝ × ℝ)) (hl : 2 ≤ l.length) (hs : l.Pairwise (fun a b => a.1 < b.1))
    (p : ℝ × ℝ) (hp : p ∈ l) : interp l p.1 = p.2 := by
  match l with
  | [] => simp at hl
  | [_] => simp at hl
  | [a, b] =>
    have hab : a.1 < b.1 := by
      rw [List.pairwise_cons] at hs; exact hs.1 b (by simp)
    have hne : b.1 - a.1 ≠ 0 := by linarith
    rw [interp, line]
    rcases List.mem_cons.1 hp with rfl | hp
    · simp
    · simp only [List.mem_cons, List.not_mem_nil, or_false] at hp
      subst hp
      field_simp
      ring
  | a :: b :: c :: t =>
    have hs' := hs
    rw [List.pairwise_cons] at hs
    have hab : a.1 < b.1 := hs.1 b (by simp)
    have hne : b.1 - a.1 ≠ 0 := by linarith
    have hbt : ∀ q ∈ (c :: t), b.1 < q.1 := (List.pairwise_cons.1 hs.2).1
    rw [interp]
    rcases List.mem_cons.1 hp with rfl | hp
    · rw [if_pos hab.le, line]; simp
    · rcases List.mem_cons.1 hp with rfl | hp'
      · rw [if_pos le_rfl, line]
        field_simp
        ring
      · rw [if_neg (not_le.2 (hbt p hp'))]
        exact interp_table (b :: c :: t) (by simp) hs.2 p hp
    · simp

/-- C98: at a tabulated frequency a response table returns the tabulated amplitude, times the gain, and
phase. -/
theorem C98_table (f : Filter) (t : List (ℝ × ℝ × ℝ)) (hk : f.kind = .fap t) (hl : 2 ≤ t.length)
    (hs : t.Pairwise (fun a b => a.1 < b.1)) (x a p : ℝ) (h : (x, a, p) ∈ t) :
    respAt f x = f.gain * (a * Complex.exp (Complex.I * (p : ℂ))) := by
  have h1 := interp_table (t.map (fun r => (r.1, r.2.1))) (by simpa using hl)
    (by rw [List.pairwise_map]; exact hs) (x, a) (List.mem_map.2 ⟨_, h, rfl⟩)
  have h2 := interp_table (t.map (fun r => (r.1, r.2.2))) (by simpa using hl)
    (by rw [List.pairwise_map]; exact hs) (x, p) (List.mem_map.2 ⟨_, h, rfl⟩)
  simp only [respAt, hk, fapAt]
  simp only at h1 h2
  rw [h1, h2]

/-! ### C99 -/

/-- Filters whose response to a real signal is real: poles and zeros come in conjugate pairs. Response tables are
left out since their frequencies are positive. -/
def RealFilter (f : Filter) : Prop :=
  match f.kind with
  | .zpk z p _ => (z.map (starRingEnd ℂ)).Perm z ∧ (p.map (starRingEnd ℂ)).Perm p
  | .fap _ => False
  | _ => True

theorem conj_prod (l : List ℂ) (hl : (l.map (starRingEnd ℂ)).Perm l) (x : ℝ) :
    (l.map (fun z => Complex.I * (2 * Real.pi * (-x) : ℝ) - z)).prod =
      starRingEnd ℂ (l.map (fun z => Complex.I * (2 * Real.pi * x : ℝ) - z)).prod := by
  rw [map_list_prod, List.map_map]
  have e : (l.map (fun z => Complex.I * (2 * Real.pi * (-x) : ℝ) - z)).prod =
      ((l.map (starRingEnd ℂ)).map (fun z => Complex.I * (2 * Real.pi * (-x) : ℝ) - z)).prod :=
    ((hl.map _).prod_eq).symm
  rw [e, List.map_map]
  congr 1
  apply List.map_congr_left
  intro z _
  simp only [Function.comp, map_sub, map_mul, Complex.conj_I, Complex.conj_ofReal]
  push_cast
  ring

theorem conj_freqz (rate x : ℝ) (k : ℕ) (c : List ℝ) :
    freqz rate (-x) k c = starRingEnd ℂ (freqz rate x k c) := by
  induction c generalizing k with
  | nil => simp [freqz]
  | cons a t ih =>
    rw [freqz, freqz, ih, map_add, map_mul, ← Complex.exp_conj]
    congr 1
    simp only [Complex.conj_ofReal, map_neg, map_mul, Complex.conj_I]
    congr 2
    push_cast
    ring

theorem conj_respAt (f : Filter) (h : RealFilter f) (x : ℝ) :
    respAt f (-x) = starRingEnd ℂ (respAt f x) := by
  unfold RealFilter at h
  unfold respAt
  cases hk : f.kind with
  | zpk z p k =>
    rw [hk] at h
    simp only [zpkAt]
    rw [conj_prod z h.1, conj_prod p h.2, map_div₀, map_mul, Complex.conj_ofReal]
  | coefficient => simp [Complex.conj_ofReal]
  | delay d =>
    simp only
    rw [← Complex.exp_conj]
    congr 1
    simp only [Complex.conj_ofReal, map_neg, map_mul, Complex.conj_I]
    push_cast
    ring
  | fap t => rw [hk] at h; exact absurd h id
  | fir c s g r d =>
    simp only
    rw [conj_freqz, map_div₀, Complex.conj_ofReal]

/-- C99: the response at a negative frequency is the conjugate of the one at the positive frequency. -/
theorem C99_hermitian (l : List Filter) (hl : ∀ f ∈ l, RealFilter f) (xs : List ℝ)
    (decimation delay : Bool) :
    channelResp l (xs.map (fun x => -x)) decimation delay =
      (channelResp l xs decimation delay).map (starRingEnd ℂ) := by
  rw [C50_selected, C50_selected, List.map_map, List.map_map]
  apply List.map_congr_left
  intro x _
  simp only [Function.comp]
  rw [map_list_prod, List.map_map]
  congr 1
  apply List.map_congr_left
  intro f hf
  exact conj_respAt f (hl f (List.mem_of_mem_filter hf)) x

/-! ### examples -/

def adc : Filter where
  name := "adc".toList
  unitsIn := "Volt".toList
  unitsOut := "digital counts".toList
  gain := 2
  kind := .coefficient

noncomputable def shift : Filter where
  name := "shift".toList
  unitsIn := "digital counts".toList
  unitsOut := "digital counts".toList
  gain := 1
  kind := .delay (1 / 2)

def coil : Filter where
  name := "coil".toList
  unitsIn := "nanoTesla".toList
  unitsOut := "Volt".toList
  gain := 1
  kind := .zpk [0] [Complex.I - 1, -Complex.I - 1] 3

example : ∃ ch', setFilters ⟨[], [], []⟩ [coil, adc, shift] = .ok ch' := by
  rw [C49_accepted]
  intro i f g h1 h2
  match i with
  | 0 => simp at h1 h2; subst h1 h2; rfl
  | 1 => simp at h1 h2; subst h1 h2; rfl
  | 2 => simp at h2
  | n + 3 => simp at h2
example : ¬ ∃ ch', setFilters ⟨[], [], []⟩ [adc, coil] = .ok ch' := by
  rw [C49_accepted]
  intro h
  have := h 0 adc coil rfl rfl
  revert this
  decide
example : totalDelay [adc, shift, shift] = 1 := by
  rw [totalDelay_cons, totalDelay_cons, totalDelay_cons]
  simp only [delayOf, adc, shift, totalDelay, List.filter_nil, List.foldl_nil]
  norm_num
example : RealFilter coil ∧ RealFilter adc ∧ RealFilter shift := by
  refine ⟨⟨by simp, ?_⟩, trivial, trivial⟩
  simp
  exact List.Perm.swap _ _ _

end Verif.Filters
