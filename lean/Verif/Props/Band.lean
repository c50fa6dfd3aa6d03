import Verif.Model.Band
import Mathlib.Tactic.Linarith
import Mathlib.Tactic.NormNum
import Mathlib.Tactic.Push

/-!
Properties C26-C29 and C79: frequency bands (mt_metadata/common/band.py).
-/

namespace Verif.FreqBand

variable {α : Type} [LinearOrder α]

/-- A frequency lies in the band (interval between the bounds, end points per `closed`). -/
def Mem (b : Band α) (f : α) : Prop :=
  match b.closed with
  | .left => b.fmin ≤ f ∧ f < b.fmax
  | .right => b.fmin < f ∧ f ≤ b.fmax
  | .both => b.fmin ≤ f ∧ f ≤ b.fmax

instance (b : Band α) (f : α) : Decidable (Mem b f) := by
  unfold Mem; cases b.closed <;> infer_instance

theorem inMask_iff (b : Band α) (f : α) : inMask b f = true ↔ Mem b f := by
  unfold inMask Mem closedLeft closedRight
  cases b.closed <;> simp

theorem ivlContains_iff (b : Band α) (f : α) : ivlContains b.fmin b.fmax b.closed f = true ↔ Mem b f :=
  inMask_iff b f

theorem mem_bounds {b : Band α} {f : α} (h : Mem b f) : b.fmin ≤ f ∧ f ≤ b.fmax := by
  unfold Mem at h
  cases hc : b.closed <;> rw [hc] at h
  · exact ⟨h.1, h.2.le⟩
  · exact ⟨h.1.le, h.2⟩
  · exact h

/-- Membership is convex. -/
theorem mem_convex {b : Band α} {f g x : α} (hf : Mem b f) (hg : Mem b g) (h1 : f ≤ x) (h2 : x ≤ g) :
    Mem b x := by
  unfold Mem at *
  cases hc : b.closed <;> rw [hc] at hf hg <;> simp only at *
  · exact ⟨hf.1.trans h1, h2.trans_lt hg.2⟩
  · exact ⟨hf.1.trans_le h1, h2.trans hg.2⟩
  · exact ⟨hf.1.trans h1, h2.trans hg.2⟩

omit [LinearOrder α] in
theorem mem_whereFrom (p : α → Bool) (fs : List α) : ∀ (i j : Nat),
    j ∈ whereFrom p i fs ↔ i ≤ j ∧ ∃ f, fs[j - i]? = some f ∧ p f = true := by
  induction fs with
  | nil => simp [whereFrom]
  | cons f fs ih =>
    intro i j
    have aux : (i + 1 ≤ j ∧ ∃ g, fs[j - (i + 1)]? = some g ∧ p g = true) ↔
        (i < j ∧ ∃ g, (f :: fs)[j - i]? = some g ∧ p g = true) := by
      constructor
      · rintro ⟨h, g, h1, h2⟩
        refine ⟨h, g, ?_, h2⟩
        rw [show j - i = (j - (i + 1)) + 1 by omega, List.getElem?_cons_succ, h1]
      · rintro ⟨h, g, h1, h2⟩
        refine ⟨h, g, ?_, h2⟩
        rw [show j - i = (j - (i + 1)) + 1 by omega, List.getElem?_cons_succ] at h1
        exact h1
    unfold whereFrom
    split
    · rename_i hp
      rw [List.mem_cons, ih, aux]
      constructor
      · rintro (rfl | ⟨h, r⟩)
        · exact ⟨le_refl _, f, by simp, hp⟩
        · exact ⟨h.le, r⟩
      · rintro ⟨h, r⟩
        rcases h.eq_or_lt with rfl | h
        · exact Or.inl rfl
        · exact Or.inr ⟨h, r⟩
    · rename_i hp
      rw [ih, aux]
      constructor
      · rintro ⟨h, r⟩; exact ⟨h.le, r⟩
      · rintro ⟨h, g, h1, h2⟩
        rcases h.eq_or_lt with rfl | h
        · simp at h1; subst h1; exact absurd h2 hp
        · exact ⟨h, g, h1, h2⟩

omit [LinearOrder α] in
theorem whereFrom_sorted (p : α → Bool) (fs : List α) : ∀ i : Nat,
    (whereFrom p i fs).Pairwise (· < ·) := by
  induction fs with
  | nil => intro i; exact List.Pairwise.nil
  | cons f fs ih =>
    intro i
    unfold whereFrom
    split
    · refine List.Pairwise.cons ?_ (ih (i + 1))
      intro j hj
      have := (mem_whereFrom p fs (i + 1) j).1 hj
      omega
    · exact ih (i + 1)

/-! ### C26 -/

/-- C26: the reported indices are exactly the positions of in-band frequencies, increasing. -/
theorem C26_indices (b : Band α) (fs : List α) (idx : List Nat)
    (h : indicesFromFrequencies b fs = .ok idx) :
    (∀ i : Nat, i ∈ idx ↔ ∃ f, fs[i]? = some f ∧ Mem b f) ∧ idx.Pairwise (· < ·) := by
  unfold indicesFromFrequencies toInterval at h
  split at h
  · cases h
  · simp only [bind, Except.bind, Except.ok.injEq] at h
    subst h
    refine ⟨fun i => ?_, whereFrom_sorted _ _ _⟩
    rw [mem_whereFrom]
    simp only [Nat.zero_le, true_and, Nat.sub_zero, inMask_iff]

/-- C26: it works for every band that is not inverted, and raises ValueError for an inverted one. -/
theorem C26_total (b : Band α) (fs : List α) :
    (b.fmin ≤ b.fmax → ∃ idx, indicesFromFrequencies b fs = .ok idx) ∧
    (b.fmax < b.fmin → indicesFromFrequencies b fs = .error .valueError) := by
  unfold indicesFromFrequencies toInterval
  constructor
  · intro h; simp [not_lt.2 h, bind, Except.bind]
  · intro h; simp [h, bind, Except.bind]

/-- C26: `set_indices_from_frequencies` stores the first and the last in-band position; when no
frequency is in the band it raises IndexError. -/
theorem C26_set_indices (b : Band α) (fs : List α) (hb : b.fmin ≤ b.fmax) :
    ((∀ f ∈ fs, ¬ Mem b f) → setIndices b fs = .error .indexError) ∧
    ((∃ f ∈ fs, Mem b f) → ∃ lo hi : Nat, setIndices b fs = .ok { b with imin := some lo, imax := some hi } ∧
      (∃ f, fs[lo]? = some f ∧ Mem b f) ∧ (∃ f, fs[hi]? = some f ∧ Mem b f) ∧
      (∀ (i : Nat) (f : α), fs[i]? = some f → Mem b f → lo ≤ i ∧ i ≤ hi)) := by
  obtain ⟨idx, hidx⟩ := (C26_total b fs).1 hb
  obtain ⟨hmem, hsort⟩ := C26_indices b fs idx hidx
  constructor
  · intro h
    have : idx = [] := by
      rw [List.eq_nil_iff_forall_not_mem]
      intro i hi
      obtain ⟨f, hf, hm⟩ := (hmem i).1 hi
      exact h f (List.mem_of_getElem? hf) hm
    simp [setIndices, hidx, this, bind, Except.bind]
  · rintro ⟨f, hf, hm⟩
    obtain ⟨i, hi⟩ := List.mem_iff_getElem?.1 hf
    have hi' : i ∈ idx := (hmem i).2 ⟨f, hi, hm⟩
    have hne : idx ≠ [] := List.ne_nil_of_mem hi'
    refine ⟨idx.head hne, idx.getLast hne, ?_, (hmem _).1 (List.head_mem hne), (hmem _).1 (List.getLast_mem hne), ?_⟩
    · simp [setIndices, hidx, bind, Except.bind, List.head?_eq_some_head hne, List.getLast?_eq_some_getLast hne]
    · intro j g hj hg
      have hj' : j ∈ idx := (hmem j).2 ⟨g, hj, hg⟩
      constructor
      · cases idx with
        | nil => simp at hj'
        | cons a l =>
          rcases List.mem_cons.1 hj' with rfl | h
          · exact le_refl _
          · exact ((List.pairwise_cons.1 hsort).1 j h).le
      · rw [← List.dropLast_concat_getLast hne] at hj' hsort
        rcases List.mem_append.1 hj' with h | h
        · exact ((List.pairwise_append.1 hsort).2.2 j h _ (by simp)).le
        · simp at h; omega

/-- C26: on a sorted frequency axis the stored range `harmonic_indices` is exactly the list of in-band
positions. -/
theorem C26_harmonics (b b' : Band α) (fs : List α) (idx : List Nat) (hs : fs.Pairwise (· ≤ ·))
    (hi : indicesFromFrequencies b fs = .ok idx) (h : setIndices b fs = .ok b') :
    harmonicIndices b' = .ok (idx.map Int.ofNat) := by
  have hb : b.fmin ≤ b.fmax := by
    by_contra hc
    rw [(C26_total b fs).2 (not_le.1 hc)] at hi
    cases hi
  obtain ⟨hmem, hsort⟩ := C26_indices b fs idx hi
  have hne : idx ≠ [] := by
    rintro rfl
    rw [setIndices, hi] at h
    cases h
  have hex : ∃ f ∈ fs, Mem b f := by
    obtain ⟨f, hf, hm⟩ := (hmem _).1 (List.head_mem hne)
    exact ⟨f, List.mem_of_getElem? hf, hm⟩
  obtain ⟨lo, hi', hset, ⟨fl, hfl, hml⟩, ⟨fh, hfh, hmh⟩, hall⟩ := (C26_set_indices b fs hb).2 hex
  rw [hset] at h
  simp only [Except.ok.injEq] at h
  subst h
  have hlh : lo ≤ hi' := (hall lo fl hfl hml).2
  have hrange : idx = (List.range (hi' + 1 - lo)).map (fun k => lo + k) := by
    apply List.Perm.eq_of_pairwise (le := (· < ·)) (l₁ := idx)
    · intro a c _ _ h1 h2; omega
    · exact hsort
    · rw [List.pairwise_map]
      exact List.Pairwise.imp (fun h => by omega) List.pairwise_lt_range
    · rw [List.perm_ext_iff_of_nodup (hsort.imp (fun h => by omega))]
      · intro j
        rw [hmem j]
        simp only [List.mem_map, List.mem_range]
        constructor
        · rintro ⟨g, hg, hm⟩
          have := hall j g hg hm
          exact ⟨j - lo, by omega, by omega⟩
        · rintro ⟨k, hk, rfl⟩
          have hlen : hi' < fs.length := (List.getElem?_eq_some_iff.1 hfh).1
          have hlt : lo + k < fs.length := by omega
          refine ⟨fs[lo + k], List.getElem?_eq_getElem hlt, ?_⟩
          obtain ⟨hl1, rfl⟩ := List.getElem?_eq_some_iff.1 hfl
          obtain ⟨hl2, rfl⟩ := List.getElem?_eq_some_iff.1 hfh
          apply mem_convex hml hmh
          · rcases Nat.eq_zero_or_pos k with rfl | hk0
            · exact le_refl _
            · exact (List.pairwise_iff_getElem.1 hs) lo (lo + k) hl1 hlt (by omega)
          · rcases Nat.lt_or_ge (lo + k) hi' with h | h
            · exact (List.pairwise_iff_getElem.1 hs) (lo + k) hi' hlt hl2 h
            · have : lo + k = hi' := by omega
              simp only [this]; exact le_refl _
      · apply List.Nodup.map (fun _ _ h => by simpa using h) List.nodup_range
  rw [hrange]
  simp only [harmonicIndices, List.map_map]
  congr 1
  rw [show ((hi' : Int) + 1 - (lo : Int)).toNat = hi' + 1 - lo by omega]
  apply List.map_congr_left
  intro k _
  simp

/-- C26: `in_band_harmonics` are the in-band frequencies, in axis order. -/
theorem C26_in_band_harmonics (b : Band α) (fs : List α) (hb : b.fmin ≤ b.fmax) :
    inBandHarmonics b fs = .ok (fs.filter (fun f => decide (Mem b f))) := by
  have key : ∀ (p : α → Bool) (fs pre : List α),
      (whereFrom p pre.length fs).filterMap (fun i => (pre ++ fs)[i]?) = fs.filter p := by
    intro p fs
    induction fs with
    | nil => simp [whereFrom]
    | cons f fs ih =>
      intro pre
      have := ih (pre ++ [f])
      simp only [List.length_append, List.length_singleton, List.append_assoc, List.singleton_append] at this
      unfold whereFrom
      split
      · rename_i hp
        rw [List.filterMap_cons_some (b := f) (by simp), this, List.filter_cons_of_pos hp]
      · rename_i hp
        rw [this, List.filter_cons_of_neg hp]
  have := key (inMask b) fs []
  simp only [List.length_nil, List.nil_append] at this
  simp [inBandHarmonics, indicesFromFrequencies, toInterval, not_lt.2 hb, bind, Except.bind, this]
  apply List.filter_congr
  intro f _
  rw [Bool.eq_iff_iff, inMask_iff, decide_eq_true_iff]

example : setIndices (⟨2, 4, .left, none, none⟩ : Band ℤ) [0, 1, 2, 3, 4, 5] =
    .ok ⟨2, 4, .left, some 2, some 3⟩ := by decide

/-! ### C27 -/

/-- C27, full statement. -/
def C27_claim : Prop :=
  ∀ b o : Band ℚ, b.fmin ≤ b.fmax → o.fmin ≤ o.fmax →
    (contains b o = .ok true ↔ ∀ f, Mem o f → Mem b f)

/-- C27 is false of the code: a half-open band does not contain itself. -/
theorem C27_refuted : ¬ C27_claim := by
  intro h
  have := (h ⟨1, 2, .left, none, none⟩ ⟨1, 2, .left, none, none⟩ (by norm_num) (by norm_num)).2 (fun _ h => h)
  revert this
  decide +kernel

/-- C27, partial, exact meaning: `contains` holds iff the whole closed range of the other band
(both bounds included) lies in this band. Missing: half-open others, for which it is too strict. -/
theorem C27_contains_partial (b o : Band α) (hb : b.fmin ≤ b.fmax) (ho : o.fmin ≤ o.fmax) :
    contains b o = .ok true ↔ ∀ f, o.fmin ≤ f → f ≤ o.fmax → Mem b f := by
  have : contains b o = .ok true ↔ Mem b o.fmin ∧ Mem b o.fmax := by
    simp [contains, toInterval, not_lt.2 hb, bind, Except.bind, ivlContains_iff]
  rw [this]
  exact ⟨fun ⟨h1, h2⟩ f l r => mem_convex h1 h2 l r, fun h => ⟨h _ le_rfl ho, h _ ho le_rfl⟩⟩

/-- C27: for another band closed on both sides `contains` is exactly containment of frequencies. -/
theorem C27_both_partial (b o : Band α) (hb : b.fmin ≤ b.fmax) (ho : o.fmin ≤ o.fmax)
    (hc : o.closed = .both) : contains b o = .ok true ↔ ∀ f, Mem o f → Mem b f := by
  rw [C27_contains_partial b o hb ho]
  unfold Mem
  rw [hc]
  simp only [and_imp]

/-- C27: it is sound for every `closed` setting, and transitive; reflexive exactly when closed on both
sides. -/
theorem C27_sound_transitive (a b c : Band α) (ha : a.fmin ≤ a.fmax) (hb : b.fmin ≤ b.fmax)
    (hc : c.fmin ≤ c.fmax) :
    (contains a b = .ok true → ∀ f, Mem b f → Mem a f) ∧
    (contains a b = .ok true → contains b c = .ok true → contains a c = .ok true) ∧
    (contains a a = .ok true ↔ a.closed = .both) := by
  refine ⟨?_, ?_, ?_⟩
  · rw [C27_contains_partial a b ha hb]
    exact fun h f hf => h f (mem_bounds hf).1 (mem_bounds hf).2
  · rw [C27_contains_partial a b ha hb, C27_contains_partial b c hb hc, C27_contains_partial a c ha hc]
    intro h1 h2 f l r
    have := mem_bounds (h2 f l r)
    exact h1 f this.1 this.2
  · rw [C27_contains_partial a a ha ha]
    constructor
    · intro h
      have h1 := h _ le_rfl ha
      have h2 := h _ ha le_rfl
      unfold Mem at h1 h2
      cases hcl : a.closed <;> rw [hcl] at h1 h2 <;> simp at h1 h2 ⊢
    · intro h f l r
      unfold Mem; rw [h]; exact ⟨l, r⟩

example : contains (⟨1, 4, .left, none, none⟩ : Band ℤ) ⟨1, 3, .left, none, none⟩ = .ok true := by decide

/-! ### C28 -/

/-- C28: overlap is symmetric. -/
theorem C28_symmetric (b o : Band α) (hb : b.fmin ≤ b.fmax) (ho : o.fmin ≤ o.fmax) :
    overlaps b o = overlaps o b := by
  simp [overlaps, toInterval, not_lt.2 hb, not_lt.2 ho, bind, Except.bind, ivlOverlaps, Bool.and_comm]

/-- C28: for bands of positive width over a dense axis, overlap means a shared frequency. -/
theorem C28_shared [DenselyOrdered α] (b o : Band α) (hb : b.fmin < b.fmax) (ho : o.fmin < o.fmax) :
    overlaps b o = .ok true ↔ ∃ f, Mem b f ∧ Mem o f := by
  have h1 : overlaps b o = .ok true ↔
      ((if closedLeft b.closed && closedRight o.closed then b.fmin ≤ o.fmax else b.fmin < o.fmax) ∧
       (if closedLeft o.closed && closedRight b.closed then o.fmin ≤ b.fmax else o.fmin < b.fmax)) := by
    simp [overlaps, toInterval, not_lt.2 hb.le, not_lt.2 ho.le, bind, Except.bind, ivlOverlaps]
  rw [h1]
  constructor
  · rintro ⟨p, q⟩
    by_cases hlt : max b.fmin o.fmin < min b.fmax o.fmax
    · obtain ⟨f, f1, f2⟩ := exists_between hlt
      rw [max_lt_iff] at f1
      rw [lt_min_iff] at f2
      refine ⟨f, ?_, ?_⟩
      · unfold Mem; cases b.closed
        · exact ⟨f1.1.le, f2.1⟩
        · exact ⟨f1.1, f2.1.le⟩
        · exact ⟨f1.1.le, f2.1.le⟩
      · unfold Mem; cases o.closed
        · exact ⟨f1.2.le, f2.2⟩
        · exact ⟨f1.2, f2.2.le⟩
        · exact ⟨f1.2.le, f2.2.le⟩
    · -- the intervals touch in one point, closed on both sides there
      rw [max_lt_iff, lt_min_iff, lt_min_iff] at hlt
      by_cases e1 : b.fmin < o.fmax
      · have e2 : ¬ o.fmin < b.fmax := fun c => hlt ⟨⟨hb, e1⟩, c, ho⟩
        split at q
        · rename_i hc
          rw [Bool.and_eq_true] at hc
          have e : o.fmin = b.fmax := le_antisymm q (not_lt.1 e2)
          refine ⟨b.fmax, ?_, ?_⟩
          · unfold Mem; cases hcl : b.closed <;> rw [hcl] at hc <;> simp [closedRight] at hc ⊢
            · exact hb
            · exact hb.le
          · unfold Mem; rw [← e]; cases hcl : o.closed <;> rw [hcl] at hc <;> simp [closedLeft] at hc ⊢
            · exact ho
            · exact ho.le
        · exact absurd q e2
      · split at p
        · rename_i hc
          rw [Bool.and_eq_true] at hc
          have e : b.fmin = o.fmax := le_antisymm p (not_lt.1 e1)
          refine ⟨b.fmin, ?_, ?_⟩
          · unfold Mem; cases hcl : b.closed <;> rw [hcl] at hc <;> simp [closedLeft] at hc ⊢
            · exact hb
            · exact hb.le
          · unfold Mem; rw [e]; cases hcl : o.closed <;> rw [hcl] at hc <;> simp [closedRight] at hc ⊢
            · exact ho
            · exact ho.le
        · exact absurd p e1
  · rintro ⟨f, hf, hg⟩
    unfold Mem at hf hg
    cases hc : b.closed <;> cases hd : o.closed <;> rw [hc] at hf <;> rw [hd] at hg <;>
      simp only [closedLeft, closedRight, Bool.and_self, Bool.and_true, Bool.and_false,
        Bool.true_and, Bool.false_and, if_true, Bool.false_eq_true, if_false] <;>
      constructor <;>
      first
      | exact hf.1.trans hg.2
      | exact hg.1.trans hf.2
      | exact hf.1.trans_lt hg.2
      | exact hg.1.trans_lt hf.2
      | exact hf.1.trans_le hg.2
      | exact hg.1.trans_le hf.2

example : overlaps (⟨1, 2, .left, none, none⟩ : Band ℤ) ⟨2, 3, .left, none, none⟩ = .ok false ∧
    overlaps (⟨1, 2, .both, none, none⟩ : Band ℤ) ⟨2, 3, .left, none, none⟩ = .ok true := by decide

/-! ### C29 -/

/-- C29: both centers lie in the band and geometric <= arithmetic, for 0 < fmin <= fmax; the center
period is the reciprocal and lies between the reciprocal bounds. -/
theorem C29_center (lo hi : ℝ) (h0 : 0 < lo) (h : lo ≤ hi) :
    (∀ a, lo ≤ centerFrequency lo hi a ∧ centerFrequency lo hi a ≤ hi) ∧
    centerFrequency lo hi .geometric ≤ centerFrequency lo hi .arithmetic ∧
    (∀ a, 1 / hi ≤ centerPeriod lo hi a ∧ centerPeriod lo hi a ≤ 1 / lo) := by
  have hb : ∀ a, lo ≤ centerFrequency lo hi a ∧ centerFrequency lo hi a ≤ hi := by
    intro a
    cases a with
    | arithmetic => simp only [centerFrequency]; constructor <;> linarith
    | geometric =>
      simp only [centerFrequency]
      constructor
      · apply Real.le_sqrt_of_sq_le; nlinarith
      · apply Real.sqrt_le_iff.2; constructor <;> nlinarith
  refine ⟨hb, ?_, fun a => ?_⟩
  · simp only [centerFrequency]
    apply Real.sqrt_le_iff.2
    constructor
    · linarith
    · nlinarith [sq_nonneg (lo - hi)]
  · obtain ⟨h1, h2⟩ := hb a
    unfold centerPeriod
    exact ⟨one_div_le_one_div_of_le (by linarith) h2, one_div_le_one_div_of_le h0 h1⟩

example : (0 : ℝ) < 1 ∧ (1 : ℝ) ≤ 4 ∧ centerFrequency 1 4 .geometric = 2 := by
  refine ⟨by norm_num, by norm_num, ?_⟩
  simp only [centerFrequency]
  rw [show (1 : ℝ) * 4 = 2 ^ 2 by norm_num, Real.sqrt_sq (by norm_num)]

/-! ### C79 automatic name -/

/-- C79, full statement: a band that was never given a name is named after its current
frequencies, whatever frequency assignments were made. -/
def C79_claim (fmt : ℚ → String) : Prop :=
  ∀ lo hi x : ℚ, lo ≠ 0 → hi ≠ 0 → x ≠ 0 →
    (setMax fmt (newBand fmt lo hi) x).name = fmt ((lo + x) / 2)

/-- C79 is false of the code for every number format that tells two of the means apart and
never prints the placeholder: the first automatic name sticks. -/
theorem C79_refuted (fmt : ℚ → String) (h0 : ∀ q, fmt q ≠ "" ∧ fmt q ≠ "empty_band")
    (h : fmt 2 ≠ fmt 3) : ¬ C79_claim fmt := by
  intro hc
  have h1 := hc 1 3 5 (by norm_num) (by norm_num) (by norm_num)
  have e2 : ((1 : ℚ) + 3) / 2 = 2 := by norm_num
  have e3 : ((1 : ℚ) + 5) / 2 = 3 := by norm_num
  simp [setMax, newBand, checkName, e2, e3, h0] at h1
  exact h h1

/-- C79, partial: the name is right at construction, and for a band created empty right after both
frequencies are first set (in either order). Missing: later changes, where it goes stale. -/
theorem C79_name_partial (fmt : ℚ → String) (lo hi : ℚ) (h1 : lo ≠ 0) (h2 : hi ≠ 0) :
    (newBand fmt lo hi).name = fmt ((lo + hi) / 2) ∧
    (setMax fmt (setMin fmt (newBand fmt 0 0) lo) hi).name = fmt ((lo + hi) / 2) ∧
    (setMin fmt (setMax fmt (newBand fmt 0 0) hi) lo).name = fmt ((lo + hi) / 2) := by
  refine ⟨?_, ?_, ?_⟩ <;> simp [newBand, setMax, setMin, checkName, h1, h2]

end Verif.FreqBand
