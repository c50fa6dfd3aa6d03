import Verif.Model.PzNorm
import Verif.Props.PassBand

/-!
C414: the normalisation frequency of a pole zero filter.
-/

namespace Verif.PzNorm
open Verif.Filters

/-- What a pass band looks like: one frequency, the whole range, or the frequencies of two positions. -/
theorem band_shape (rnd : ℝ → ℤ) (w : ℕ) (tol : ℝ) (f amp : List ℝ) (hl : amp.length = f.length) (hf : f ≠ []) :
    ∃ b, band rnd w tol f amp = some b ∧
      ((∃ x ∈ f, b = [x]) ∨ ∃ x ∈ f, ∃ y ∈ f, b = [x, y]) := by
  match f with
  | [] => exact absurd rfl hf
  | [x] => exact ⟨[x], by simp [band], .inl ⟨x, by simp, rfl⟩⟩
  | x :: y :: t =>
    have hrange : ∃ b, some [listMin (x :: y :: t), listMax (x :: y :: t)] = some b ∧
        ((∃ u ∈ x :: y :: t, b = [u]) ∨ ∃ u ∈ x :: y :: t, ∃ v ∈ x :: y :: t, b = [u, v]) :=
      ⟨_, rfl, .inr ⟨_, listMin_mem (by simp), _, listMax_mem (by simp), rfl⟩⟩
    simp only [band]
    set f := x :: y :: t with hfd
    set dec := max 1 (f.length / 1000) with hdec
    have hd : 0 < dec := by omega
    have h2 : 2 ≤ f.length := by simp [hfd]
    split
    · exact hrange
    · split
      · exact hrange
      · split
        · exact hrange
        · next i u hp =>
          have hlen := length_every hd amp
          have hi : i < (every dec amp).length - w := by
            have : i ∈ passing tol w ((every dec amp).length - w) (every dec amp) := by rw [hp]; simp
            exact List.mem_range.1 (List.mem_of_mem_filter this)
          have hi2 : i * dec < f.length := by
            rw [hlen, hl] at hi
            have : i < (f.length + dec - 1) / dec := by omega
            rw [Nat.lt_div_iff_mul_lt hd] at this
            omega
          have g : ∀ k, k < f.length → f.getD k 0 ∈ f := fun k hk => by
            rw [getD_getElem hk]; exact List.getElem_mem hk
          exact ⟨_, rfl, .inr ⟨_, g _ hi2, _, g _ (by omega), rfl⟩⟩

/-- C414: a call gives a number exactly for frequencies that are not empty and the four names of estimates. -/
theorem C414_value (rnd : ℝ → ℤ) (w : ℕ) (tol : ℝ) (estimate : String) (f amp : List ℝ)
    (hl : amp.length = f.length) :
    (∃ v, normFreq rnd w tol estimate f amp = .value v) ↔
      f ≠ [] ∧ (estimate = "mean" ∨ estimate = "median" ∨ estimate = "min" ∨ estimate = "max") := by
  by_cases hf : f = []
  · subst hf; simp [normFreq, band]
  · obtain ⟨b, hb, h⟩ := band_shape rnd w tol f amp hl hf
    have hne : b.length ≠ 0 := by
      rcases h with ⟨x, _, rfl⟩ | ⟨x, _, y, _, rfl⟩ <;> simp
    simp only [normFreq, hb, hne, if_false]
    split_ifs <;> simp_all

/-- C414: no frequencies give `np.NAN`, other names of estimates give `None`. -/
theorem C414_none (rnd : ℝ → ℤ) (w : ℕ) (tol : ℝ) (estimate : String) (f amp : List ℝ)
    (hl : amp.length = f.length) :
    (normFreq rnd w tol estimate f amp = .undefined ↔ f = []) ∧
      (normFreq rnd w tol estimate f amp = .nothing ↔
        f ≠ [] ∧ estimate ∉ ["mean", "median", "min", "max"]) := by
  by_cases hf : f = []
  · subst hf; simp [normFreq, band]
  · obtain ⟨b, hb, h⟩ := band_shape rnd w tol f amp hl hf
    have hne : b.length ≠ 0 := by
      rcases h with ⟨x, _, rfl⟩ | ⟨x, _, y, _, rfl⟩ <;> simp
    simp only [normFreq, hb, hne, if_false]
    split_ifs <;> simp_all

/-- C414: the smallest and the largest estimate are given frequencies, the mean and the median are the same number,
halfway between them, whatever window and tolerance. -/
theorem C414_between (rnd : ℝ → ℤ) (w : ℕ) (tol : ℝ) (f amp : List ℝ) (hl : amp.length = f.length) (hf : f ≠ []) :
    ∃ lo ∈ f, ∃ hi ∈ f, lo ≤ hi ∧
      normFreq rnd w tol "min" f amp = .value lo ∧ normFreq rnd w tol "max" f amp = .value hi ∧
      normFreq rnd w tol "mean" f amp = .value ((lo + hi) / 2) ∧
      normFreq rnd w tol "median" f amp = .value ((lo + hi) / 2) := by
  obtain ⟨b, hb, h⟩ := band_shape rnd w tol f amp hl hf
  rcases h with ⟨x, hx, rfl⟩ | ⟨x, hx, y, hy, rfl⟩
  · refine ⟨x, hx, x, hx, le_refl x, ?_⟩
    simp [normFreq, hb, listMin, listMax, median]
  · refine ⟨min x y, ?_, max x y, ?_, min_le_max, ?_⟩
    · rcases min_choice x y with e | e <;> rw [e] <;> assumption
    · rcases max_choice x y with e | e <;> rw [e] <;> assumption
    · simp [normFreq, hb, listMin, listMax, median, min_add_max]

/-- The window of `w` amplitudes from position `i` on is flat: the logarithms of its smallest and its largest
amplitude differ by at most `tol` times the latter. -/
def FlatAt (tol : ℝ) (w : ℕ) (amp : List ℝ) (i : ℕ) : Prop :=
  ∃ mn mx, IsLeast {a | ∃ k < w, amp[i + k]? = some a} mn ∧ IsGreatest {a | ∃ k < w, amp[i + k]? = some a} mx ∧
    0 < mn ∧ mx ≠ 1 ∧ |1 - Real.logb 10 mn / Real.logb 10 mx| ≤ tol

theorem mem_window {amp : List ℝ} {i w : ℕ} {a : ℝ} :
    a ∈ (amp.drop i).take w ↔ ∃ k < w, amp[i + k]? = some a := by
  rw [List.mem_iff_getElem?]
  constructor
  · rintro ⟨k, hk⟩
    rw [List.getElem?_take] at hk
    split at hk
    · next h => exact ⟨k, h, by rwa [List.getElem?_drop] at hk⟩
    · cases hk
  · rintro ⟨k, h, hk⟩
    exact ⟨k, by rw [List.getElem?_take, if_pos h, List.getElem?_drop]; exact hk⟩

theorem flat_iff {tol : ℝ} {w : ℕ} {amp : List ℝ} {i : ℕ} (hw : 0 < w) (hi : i < amp.length) :
    flat tol (listMin ((amp.drop i).take w)) (listMax ((amp.drop i).take w)) = true ↔ FlatAt tol w amp i := by
  have hne : (amp.drop i).take w ≠ [] := by
    intro e
    have := congrArg List.length e
    simp at this
    omega
  have hset : {a | ∃ k < w, amp[i + k]? = some a} = {a | a ∈ (amp.drop i).take w} := by
    ext a; simp only [Set.mem_ofPred_eq, mem_window]
  have hmin : IsLeast {a | ∃ k < w, amp[i + k]? = some a} (listMin ((amp.drop i).take w)) := by
    rw [hset]
    exact ⟨listMin_mem hne, fun a ha => (le_listMin hne _).1 (le_refl _) a ha⟩
  have hmax : IsGreatest {a | ∃ k < w, amp[i + k]? = some a} (listMax ((amp.drop i).take w)) := by
    rw [hset]
    exact ⟨listMax_mem hne, fun a ha => (listMax_le hne _).1 (le_refl _) a ha⟩
  unfold flat FlatAt
  rw [decide_eq_true_iff]
  constructor
  · intro h; exact ⟨_, _, hmin, hmax, h⟩
  · rintro ⟨mn, mx, h1, h2, h⟩
    rw [hmin.unique h1, hmax.unique h2]; exact h

theorem every_one (l : List ℝ) : every 1 l = l := by
  unfold every
  apply List.ext_getElem?
  intro n
  have : (List.range ((l.length + 1 - 1) / 1)).filterMap (fun i => l[i * 1]?) = l := by
    simp only [Nat.add_sub_cancel, Nat.div_one, Nat.mul_one]
    induction l with
    | nil => rfl
    | cons a t ih =>
      rw [List.length_cons, List.range_succ_eq_map, List.filterMap_cons_some (b := a) (by simp),
        List.filterMap_map]
      congr 1
  rw [this]

/-- C414: below 2000 increasing frequencies, with amplitudes whose rounded mean is neither 0 nor 1, the band begins
where the first flat window begins and ends one window length after the beginning of the last flat window. -/
theorem C414_flat (rnd : ℝ → ℤ) (w : ℕ) (tol : ℝ) (f amp : List ℝ) (hl : amp.length = f.length)
    (hw : 0 < w) (hn : f.length < 2000) (hs : f.Pairwise (· < ·))
    (h0 : rnd (amp.sum / amp.length * 10 ^ 6) ≠ 0) (h1 : rnd (amp.sum / amp.length * 10 ^ 6) ≠ 10 ^ 6)
    (i j : ℕ) (hj : j + w < f.length) (hi : FlatAt tol w amp i) (hij : FlatAt tol w amp j)
    (hb : ∀ k, k + w < f.length → FlatAt tol w amp k → i ≤ k ∧ k ≤ j) (hle : i ≤ j) :
    ∃ lo hi, f[i]? = some lo ∧ f[j + w]? = some hi ∧
      normFreq rnd w tol "min" f amp = .value lo ∧ normFreq rnd w tol "max" f amp = .value hi := by
  have hmem : ∀ k, k ∈ passing tol w (amp.length - w) amp ↔ k + w < f.length ∧ FlatAt tol w amp k := by
    intro k
    unfold passing
    rw [List.mem_filter, List.mem_range]
    constructor
    · rintro ⟨h, h'⟩
      exact ⟨by omega, (flat_iff hw (by omega)).1 h'⟩
    · rintro ⟨h, h'⟩
      exact ⟨by omega, (flat_iff hw (by omega)).2 h'⟩
  have hlf : looksFlat rnd amp = false := by
    unfold looksFlat
    have e0 : (rnd (amp.sum / amp.length * 10 ^ 6) : ℝ) / 10 ^ 6 ≠ 0 := by
      rw [div_ne_zero_iff]; exact ⟨by exact_mod_cast h0, by norm_num⟩
    have e1 : (rnd (amp.sum / amp.length * 10 ^ 6) : ℝ) / 10 ^ 6 ≠ 1 := by
      rw [Ne, div_eq_one_iff_eq (by norm_num)]
      exact_mod_cast h1
    simp only [e0, e1, decide_false, ite_self]
  have hpw : (passing tol w (amp.length - w) amp).Pairwise (· < ·) := List.pairwise_lt_range.filter _
  have hband : band rnd w tol f amp = some [f[i]'(by omega), f[j + w]'hj] := by
    match f, hl, hn, hs, hj, hb, hmem with
    | [], _, _, _, hj, _, _ => simp at hj
    | [x], _, _, _, hj, _, _ => simp at hj; omega
    | x :: y :: t, hl, hn, hs, hj, hb, hmem =>
      have hdec : max 1 ((x :: y :: t).length / 1000) = 1 := by omega
      simp only [band, hlf, hdec, every_one]
      rw [if_neg (by simp), if_neg (by omega)]
      have hii := (hmem i).2 ⟨by omega, hi⟩
      have hjj := (hmem j).2 ⟨hj, hij⟩
      split
      · next e => rw [e] at hii; cases hii
      · next a u e =>
        rw [e] at hpw hii hjj
        have ha : a = i := by
          have := hb a ((hmem a).1 (by rw [e]; simp)).1 ((hmem a).1 (by rw [e]; simp)).2
          rcases List.mem_cons.1 hii with h | h
          · exact h.symm
          · have := (List.pairwise_cons.1 hpw).1 _ h; omega
        have hlast : (a :: u).getLast (by simp) = j := by
          set c := (a :: u).getLast (by simp) with hc
          have hcm : c ∈ a :: u := List.getLast_mem _
          have h1 := hb c ((hmem c).1 (by rw [e]; exact hcm)).1 ((hmem c).1 (by rw [e]; exact hcm)).2
          have h2 : j ≤ c := by
            rw [← List.dropLast_concat_getLast (l := a :: u) (by simp)] at hpw hjj
            rw [List.pairwise_append] at hpw
            rcases List.mem_append.1 hjj with h | h
            · exact (hpw.2.2 j h c (by simp [hc])).le
            · rw [List.mem_singleton] at h; rw [h]
          omega
        rw [hlast, ha]
        have hmin : min ((j + w) * 1) ((x :: y :: t).length - 1) = j + w := by omega
        rw [hmin, Nat.mul_one, getD_getElem (by omega), getD_getElem hj]
  have hlt : f[i]'(by omega) ≤ f[j + w]'hj := by
    exact (List.pairwise_iff_getElem.1 hs i (j + w) (by omega) hj (by omega)).le
  refine ⟨f[i]'(by omega), f[j + w]'hj, List.getElem?_eq_getElem _, List.getElem?_eq_getElem _, ?_, ?_⟩
  · simp [normFreq, hband, listMin, hlt]
  · simp [normFreq, hband, listMax, hlt]

/-- Case: of the windows of one amplitude the second and the third are flat, the first is not. -/
example : ∃ lo hi, ([1, 2, 4, 8] : List ℝ)[1]? = some lo ∧ ([1, 2, 4, 8] : List ℝ)[3]? = some hi ∧
    normFreq round 1 (1 / 2) "min" [1, 2, 4, 8] [1, 10, 10, 1] = .value lo ∧
    normFreq round 1 (1 / 2) "max" [1, 2, 4, 8] [1, 10, 10, 1] = .value hi := by
  have e : ([1, 10, 10, 1] : List ℝ).sum / (([1, 10, 10, 1] : List ℝ).length : ℝ) * 10 ^ 6 = ((5500000 : ℤ) : ℝ) := by
    norm_num
  have hset : ∀ k : ℕ, {a | ∃ m < 1, ([1, 10, 10, 1] : List ℝ)[k + m]? = some a} =
      {a | ([1, 10, 10, 1] : List ℝ)[k]? = some a} := by
    intro k; ext a; simp
  have hten : ∀ k : ℕ, ([1, 10, 10, 1] : List ℝ)[k]? = some 10 → FlatAt (1 / 2) 1 [1, 10, 10, 1] k := by
    intro k hk
    refine ⟨10, 10, ?_, ?_, by norm_num, by norm_num, by norm_num⟩
    · rw [hset, hk]; simp
    · rw [hset, hk]; simp
  refine C414_flat round 1 (1 / 2) [1, 2, 4, 8] [1, 10, 10, 1] rfl (by omega) (by simp) (by norm_num) ?_ ?_ 1 2 (by simp)
    (hten 1 (by simp)) (hten 2 (by simp)) ?_ (by omega)
  · rw [e, round_intCast]; norm_num
  · rw [e, round_intCast]; norm_num
  · intro k hk h
    simp only [List.length_cons, List.length_nil] at hk
    obtain ⟨mn, mx, _, hmx, _, hne, _⟩ := h
    have : k ≠ 0 := by
      rintro rfl
      rw [hset] at hmx
      have := hmx.1
      simp at this
      exact hne this
    omega

theorem whole_of_band {rnd : ℝ → ℤ} {w : ℕ} {tol : ℝ} {f amp : List ℝ} (hf : f ≠ [])
    (h : band rnd w tol f amp = some [listMin f, listMax f] ∨ ∃ x, f = [x]) :
    ∃ lo hi, IsLeast {x | x ∈ f} lo ∧ IsGreatest {x | x ∈ f} hi ∧
      normFreq rnd w tol "min" f amp = .value lo ∧ normFreq rnd w tol "max" f amp = .value hi := by
  have hmin : IsLeast {x | x ∈ f} (listMin f) := ⟨listMin_mem hf, fun a ha => (le_listMin hf _).1 (le_refl _) a ha⟩
  have hmax : IsGreatest {x | x ∈ f} (listMax f) := ⟨listMax_mem hf, fun a ha => (listMax_le hf _).1 (le_refl _) a ha⟩
  refine ⟨_, _, hmin, hmax, ?_⟩
  rcases h with h | ⟨x, rfl⟩
  · have hle : listMin f ≤ listMax f := hmin.2 hmax.1
    simp [normFreq, h, listMin, listMax, hle]
  · simp [normFreq, band, listMin, listMax]

/-- C414: below 2000 frequencies, the band is the whole range if no window is flat or if windows are empty. -/
theorem C414_whole (rnd : ℝ → ℤ) (w : ℕ) (tol : ℝ) (f amp : List ℝ) (hl : amp.length = f.length) (hf : f ≠ [])
    (hn : f.length < 2000) (hb : w = 0 ∨ ∀ k, k + w < f.length → ¬ FlatAt tol w amp k) :
    ∃ lo hi, IsLeast {x | x ∈ f} lo ∧ IsGreatest {x | x ∈ f} hi ∧
      normFreq rnd w tol "min" f amp = .value lo ∧ normFreq rnd w tol "max" f amp = .value hi := by
  apply whole_of_band hf
  match f, hl, hn, hb with
  | [], _, _, _ => exact absurd rfl hf
  | [x], _, _, _ => exact .inr ⟨x, rfl⟩
  | x :: y :: t, hl, hn, hb =>
    left
    have hdec : max 1 ((x :: y :: t).length / 1000) = 1 := by omega
    simp only [band, hdec, every_one]
    split
    · rfl
    · split
      · rfl
      · next hne =>
        split
        · rfl
        · next a u e =>
          exfalso
          have ha : a ∈ passing tol w (amp.length - w) amp := by rw [e]; simp
          unfold passing at ha
          rw [List.mem_filter, List.mem_range] at ha
          rcases hb with hb | hb
          · omega
          · exact hb a (by omega) ((flat_iff (by omega) (by omega)).1 ha.2)

/-- C414: amplitudes that are 1 on average (rounded to six digits), none of them 0, give the whole range, however
many frequencies and whatever the windows. -/
theorem C414_one (rnd : ℝ → ℤ) (w : ℕ) (tol : ℝ) (f amp : List ℝ) (hf : f ≠ [])
    (h0 : ∀ a ∈ amp, rnd (a * 10 ^ 6) ≠ 0) (h1 : rnd (amp.sum / amp.length * 10 ^ 6) = 10 ^ 6) :
    ∃ lo hi, IsLeast {x | x ∈ f} lo ∧ IsGreatest {x | x ∈ f} hi ∧
      normFreq rnd w tol "min" f amp = .value lo ∧ normFreq rnd w tol "max" f amp = .value hi := by
  apply whole_of_band hf
  match f with
  | [] => exact absurd rfl hf
  | [x] => exact .inr ⟨x, rfl⟩
  | x :: y :: t =>
    left
    have hlf : looksFlat rnd amp = true := by
      unfold looksFlat
      simp only [h1]
      rw [if_pos h0]
      norm_num
    simp only [band, hlf, if_true]

/-- Cases: two frequencies and windows of three amplitudes; amplitudes 1/2 and 3/2. -/
example : ∃ lo hi, IsLeast {x | x ∈ ([4, 2] : List ℝ)} lo ∧ IsGreatest {x | x ∈ ([4, 2] : List ℝ)} hi ∧
    normFreq round 3 (1 / 2) "min" [4, 2] [10, 1000] = .value lo ∧
    normFreq round 3 (1 / 2) "max" [4, 2] [10, 1000] = .value hi :=
  C414_whole round 3 (1 / 2) [4, 2] [10, 1000] rfl (by simp) (by simp) (.inr (by
    intro k hk
    simp only [List.length_cons, List.length_nil] at hk
    omega))

example : ∃ lo hi, IsLeast {x | x ∈ ([4, 2] : List ℝ)} lo ∧ IsGreatest {x | x ∈ ([4, 2] : List ℝ)} hi ∧
    normFreq round 3 (1 / 2) "min" [4, 2] [1 / 2, 3 / 2] = .value lo ∧
    normFreq round 3 (1 / 2) "max" [4, 2] [1 / 2, 3 / 2] = .value hi := by
  refine C414_one round 3 (1 / 2) [4, 2] [1 / 2, 3 / 2] (by simp) ?_ ?_
  · intro a ha
    simp only [List.mem_cons, List.not_mem_nil, or_false] at ha
    rcases ha with rfl | rfl
    · rw [show (1 / 2 : ℝ) * 10 ^ 6 = ((500000 : ℤ) : ℝ) by norm_num, round_intCast]; norm_num
    · rw [show (3 / 2 : ℝ) * 10 ^ 6 = ((1500000 : ℤ) : ℝ) by norm_num, round_intCast]; norm_num
  · rw [show ([1 / 2, 3 / 2] : List ℝ).sum / (([1 / 2, 3 / 2] : List ℝ).length : ℝ) * 10 ^ 6 = ((1000000 : ℤ) : ℝ) by
      norm_num, round_intCast]
    norm_num

end Verif.PzNorm
