import Verif.Model.Filters
import Mathlib.Analysis.Real.Pi.Bounds
import Mathlib.Tactic.Linarith
import Mathlib.Tactic.Ring
import Mathlib.Tactic.FieldSimp
import Mathlib.Tactic.NormNum

/-!
C51, C53, C96: pass bands and phases.
-/

namespace Verif.Filters

theorem le_listMin {l : List ℝ} (hl : l ≠ []) (x : ℝ) : x ≤ listMin l ↔ ∀ a ∈ l, x ≤ a := by
  match l with
  | [] => exact absurd rfl hl
  | [a] => simp [listMin]
  | a :: b :: t =>
    rw [listMin, le_min_iff, le_listMin (by simp) x]
    · simp
    · simp

theorem listMax_le {l : List ℝ} (hl : l ≠ []) (x : ℝ) : listMax l ≤ x ↔ ∀ a ∈ l, a ≤ x := by
  match l with
  | [] => exact absurd rfl hl
  | [a] => simp [listMax]
  | a :: b :: t =>
    rw [listMax, max_le_iff, listMax_le (by simp) x]
    · simp
    · simp

theorem listMin_mem {l : List ℝ} (hl : l ≠ []) : listMin l ∈ l := by
  match l with
  | [] => exact absurd rfl hl
  | [a] => simp [listMin]
  | a :: b :: t =>
    rw [listMin]
    · rcases min_choice a (listMin (b :: t)) with e | e
      · rw [e]; simp
      · rw [e]; exact List.mem_cons_of_mem _ (listMin_mem (by simp))
    · simp

theorem listMax_mem {l : List ℝ} (hl : l ≠ []) : listMax l ∈ l := by
  match l with
  | [] => exact absurd rfl hl
  | [a] => simp [listMax]
  | a :: b :: t =>
    rw [listMax]
    · rcases max_choice a (listMax (b :: t)) with e | e
      · rw [e]; simp
      · rw [e]; exact List.mem_cons_of_mem _ (listMax_mem (by simp))
    · simp

theorem getD_getElem {l : List ℝ} {i : ℕ} (h : i < l.length) : l.getD i 0 = l[i] := by
  rw [List.getD_eq_getElem?_getD, List.getElem?_eq_getElem h, Option.getD_some]

/-- The pass band of one filter of a channel, over the frequencies of the channel. -/
noncomputable def bandOf (rnd : ℝ → ℤ) (f : Filter) (xs : List ℝ) : Option (List ℝ) :=
  passBand rnd xs ((resp f xs).map (fun z => ‖z‖))

/-! ### shape of a single pass band -/

theorem passBand_some (rnd : ℝ → ℤ) (f amp : List ℝ) (hf : f ≠ []) : ∃ b, passBand rnd f amp = some b := by
  match f with
  | [] => exact absurd rfl hf
  | [x] => exact ⟨_, rfl⟩
  | x :: y :: t =>
    simp only [passBand]
    repeat' split
    all_goals exact ⟨_, rfl⟩

theorem length_every {α : Type} {k : ℕ} (hk : 0 < k) (l : List α) :
    (every k l).length = (l.length + k - 1) / k := by
  unfold every
  have : ∀ i ∈ List.range ((l.length + k - 1) / k), (l[i * k]?).isSome := by
    intro i hi
    rw [List.mem_range, Nat.lt_div_iff_mul_lt hk] at hi
    simp only [isSome_getElem?]
    omega
  have h2 : ∀ m : List ℕ, (∀ i ∈ m, (l[i * k]?).isSome) → (m.filterMap (fun i => l[i * k]?)).length = m.length := by
    intro m
    induction m with
    | nil => intro _; rfl
    | cons a t ih =>
      intro h
      obtain ⟨v, hv⟩ := Option.isSome_iff_exists.1 (h a (by simp))
      rw [List.filterMap_cons_some (f := fun i => l[i * k]?) hv]
      simp [ih (fun i hi => h i (List.mem_cons_of_mem _ hi))]
  rw [h2 _ this, List.length_range]

/-- What a pass band looks like: the whole range, or the frequencies of two positions in order. -/
theorem passBand_shape (rnd : ℝ → ℤ) (f amp : List ℝ) (hl : amp.length = f.length) (h2 : 2 ≤ f.length)
    (b : List ℝ) (h : passBand rnd f amp = some b) :
    b = [listMin f, listMax f] ∨
      ∃ i j : ℕ, i ≤ j ∧ j < f.length ∧ b = [f.getD i 0, f.getD j 0] := by
  match f with
  | [] => simp at h2
  | [x] => simp at h2
  | x :: y :: t =>
    simp only [passBand] at h
    set f := x :: y :: t with hfd
    set dec := max 1 (f.length / 1000) with hdec
    have hd : 0 < dec := by omega
    split at h
    · left; simpa using h.symm
    · split at h
      · left; simpa using h.symm
      · next hn =>
        split at h
        · left; simpa using h.symm
        · next i u hp =>
          right
          have hlen := length_every hd amp
          have hi : i < (every dec amp).length - 5 := by
            have : i ∈ (List.range ((every dec amp).length - 5)).filter (fun i =>
                flatWindow (listMin (((every dec amp).drop i).take 5))
                  (listMax (((every dec amp).drop i).take 5))) := by rw [hp]; simp
            exact List.mem_range.1 (List.mem_of_mem_filter this)
          have hij : i ≤ (i :: u).getLast (by simp) := by
            have hs : (i :: u).Pairwise (· < ·) := by
              rw [← hp]
              exact List.pairwise_lt_range.filter _
            rcases List.mem_cons.1 (List.getLast_mem (l := i :: u) (by simp)) with e | e
            · omega
            · exact ((List.pairwise_cons.1 hs).1 _ e).le
          have hi2 : i * dec < f.length := by
            rw [hlen, hl] at hi
            have : i < (f.length + dec - 1) / dec := by omega
            rw [Nat.lt_div_iff_mul_lt hd] at this
            omega
          refine ⟨i * dec, _, ?_, ?_, (by simpa using h.symm)⟩
          · refine le_min ?_ (by omega)
            exact Nat.mul_le_mul_right dec (by omega)
          · have := min_le_right (((i :: u).getLast (by simp) + 5) * dec) (f.length - 1)
            omega

/-- C96: the ends of a pass band are among the given frequencies. -/
theorem C96_from_given_partial (rnd : ℝ → ℤ) (f amp : List ℝ) (hl : amp.length = f.length) (b : List ℝ)
    (h : passBand rnd f amp = some b) : ∀ x ∈ b, x ∈ f := by
  match f, hl with
  | [], _ => simp [passBand] at h
  | [y], _ => simp only [passBand, Option.some.injEq] at h; subst h; simp
  | y :: z :: t, hl =>
    rcases passBand_shape rnd _ amp hl (by simp) b h with rfl | ⟨i, j, hij, hj, rfl⟩
    · intro x hx
      simp only [List.mem_cons, List.not_mem_nil, or_false] at hx
      rcases hx with rfl | rfl
      · exact listMin_mem (by simp)
      · exact listMax_mem (by simp)
    · intro x hx
      simp only [List.mem_cons, List.not_mem_nil, or_false] at hx
      have g : ∀ k, k < (y :: z :: t).length → (y :: z :: t).getD k 0 ∈ y :: z :: t := by
        intro k hk
        rw [getD_getElem hk]
        exact List.getElem_mem hk
      rcases hx with rfl | rfl
      · exact g i (by omega)
      · exact g j hj

/-- C96: for increasing frequencies the band is an interval `lower ≤ upper`. -/
theorem C96_ordered_partial (rnd : ℝ → ℤ) (f amp : List ℝ) (hl : amp.length = f.length)
    (hs : f.Pairwise (· ≤ ·)) (h2 : 2 ≤ f.length) : ∃ a b, passBand rnd f amp = some [a, b] ∧ a ≤ b := by
  have hne : f ≠ [] := by intro e; rw [e] at h2; simp at h2
  obtain ⟨b, hb⟩ := passBand_some rnd f amp hne
  rcases passBand_shape rnd f amp hl h2 b hb with rfl | ⟨i, j, hij, hj, rfl⟩
  · exact ⟨_, _, hb, (le_listMin hne _).1 le_rfl _ (listMax_mem hne)⟩
  · refine ⟨_, _, hb, ?_⟩
    rw [getD_getElem hj, getD_getElem (by omega)]
    rcases hij.lt_or_eq with h | h
    · exact List.pairwise_iff_getElem.1 hs i j _ _ h
    · subst h; exact le_rfl

/-- Rounding to a nearest integer, with any rule for ties. -/
def Nearest (rnd : ℝ → ℤ) : Prop := ∀ x, |(rnd x : ℝ) - x| ≤ 1 / 2

theorem Nearest.int {rnd : ℝ → ℤ} (h : Nearest rnd) (n : ℤ) : rnd (n : ℝ) = n := by
  have h1 := h n
  have h2 : |((rnd n - n : ℤ) : ℝ)| ≤ 1 / 2 := by push_cast; exact h1
  have h3 : |rnd (n : ℝ) - n| < 1 := by
    have h4 : ((|rnd (n : ℝ) - n| : ℤ) : ℝ) ≤ 1 / 2 := by rw [Int.cast_abs]; exact h2
    have h5 : ((|rnd (n : ℝ) - n| : ℤ) : ℝ) < ((1 : ℤ) : ℝ) := by push_cast at h4 ⊢; linarith
    exact_mod_cast h5
  have := Int.abs_lt_one_iff.1 h3
  omega

/-- The statement of C96: a filter with the same amplitude at all frequencies passes all of them. -/
def C96_claim : Prop :=
  ∀ (rnd : ℝ → ℤ) (f : List ℝ) (a : ℝ), Nearest rnd → 0 ≤ a → 2 ≤ f.length → f.Pairwise (· < ·) →
    passBand rnd f (f.map (fun _ => a)) = some [listMin f, listMax f]

theorem listMin_const {l : List ℝ} {a : ℝ} (hl : l ≠ []) (h : ∀ x ∈ l, x = a) : listMin l = a :=
  h _ (listMin_mem hl)

theorem listMax_const {l : List ℝ} {a : ℝ} (hl : l ≠ []) (h : ∀ x ∈ l, x = a) : listMax l = a :=
  h _ (listMax_mem hl)

theorem mem_every {α : Type} {k : ℕ} {l : List α} {x : α} (h : x ∈ every k l) : x ∈ l := by
  unfold every at h
  obtain ⟨i, _, hi⟩ := List.mem_filterMap.1 h
  exact List.mem_of_getElem? hi

theorem flatWindow_const {a : ℝ} (h0 : 0 < a) (h1 : a ≠ 1) : flatWindow a a = true := by
  unfold flatWindow
  rw [decide_eq_true_eq]
  refine ⟨h0, h1, ?_⟩
  have : Real.logb 10 a ≠ 0 := by
    rw [Ne, Real.logb_eq_zero]
    push Not
    exact ⟨by norm_num, by norm_num, by norm_num, h0.ne', h1, by linarith⟩
  rw [div_self this]
  norm_num

/-- The band of a constant amplitude that the first test does not recognise. -/
theorem passBand_const (rnd : ℝ → ℤ) (f : List ℝ) (a : ℝ) (h0 : 0 < a) (h1 : a ≠ 1) (h2 : 2 ≤ f.length)
    (hw : looksFlat rnd (f.map (fun _ => a)) = false)
    (hn : 5 < (f.length + max 1 (f.length / 1000) - 1) / max 1 (f.length / 1000)) :
    passBand rnd f (f.map (fun _ => a)) = some [f.getD 0 0,
      f.getD (min (((f.length + max 1 (f.length / 1000) - 1) / max 1 (f.length / 1000) - 1) *
        max 1 (f.length / 1000)) (f.length - 1)) 0] := by
  have hlen : (every (max 1 (f.length / 1000)) (f.map (fun _ => a))).length =
      (f.length + max 1 (f.length / 1000) - 1) / max 1 (f.length / 1000) := by
    rw [length_every (by omega), List.length_map]
  match f, h2 with
  | x :: y :: t, _ =>
    simp only [passBand]
    generalize hF : x :: y :: t = f at *
    rw [hw]
    simp only [Bool.false_eq_true, if_false]
    generalize hE : every (max 1 (f.length / 1000)) (f.map (fun _ => a)) = e at *
    rw [if_neg (by omega)]
    have hall : ∀ z ∈ e, z = a := by
      intro z hz
      rw [← hE] at hz
      have := mem_every hz
      simp only [List.mem_map] at this
      obtain ⟨_, _, h⟩ := this
      exact h.symm
    have hfil : (List.range (e.length - 5)).filter (fun i =>
        flatWindow (listMin ((e.drop i).take 5)) (listMax ((e.drop i).take 5))) =
          List.range (e.length - 5) := by
      rw [List.filter_eq_self]
      intro i hi
      rw [List.mem_range] at hi
      have hne : (e.drop i).take 5 ≠ [] := by
        intro hc
        have := congrArg List.length hc
        simp at this
        omega
      have hm : ∀ z ∈ (e.drop i).take 5, z = a := fun z hz =>
        hall z (List.mem_of_mem_drop (List.mem_of_mem_take hz))
      rw [listMin_const hne hm, listMax_const hne hm]
      exact flatWindow_const h0 h1
    rw [hfil]
    have hr : List.range (e.length - 5) = 0 :: (List.range (e.length - 5 - 1)).map (· + 1) := by
      have : e.length - 5 = (e.length - 5 - 1) + 1 := by omega
      rw [this, List.range_succ_eq_map]
      simp
    have hlast : ∀ h, (List.range (e.length - 5)).getLast h = e.length - 5 - 1 := by
      intro h
      simp
    split
    · next hc => rw [hr] at hc; cases hc
    · next i u hc =>
      have hi : i = 0 := by rw [hr] at hc; injection hc with h _; exact h.symm
      have hl2 : (i :: u).getLast (by simp) = e.length - 5 - 1 := by
        have := hlast (by rw [hc]; simp)
        simp only [hc] at this
        exact this
      rw [hl2, hi]
      have e1 : e.length - 5 - 1 + 5 = e.length - 1 := by omega
      rw [e1, hlen, Nat.zero_mul]

theorem listMin_sorted {f : List ℝ} (hs : f.Pairwise (· < ·)) (hf : 0 < f.length) :
    listMin f = f.getD 0 0 := by
  have hne : f ≠ [] := List.length_pos_iff.1 hf
  rw [getD_getElem hf]
  apply le_antisymm
  · exact (le_listMin hne _).1 le_rfl _ (List.getElem_mem hf)
  · rw [le_listMin hne]
    intro x hx
    obtain ⟨i, hi, rfl⟩ := List.getElem_of_mem hx
    rcases Nat.eq_zero_or_pos i with h | h
    · subst h; exact le_rfl
    · exact (List.pairwise_iff_getElem.1 hs 0 i _ _ h).le

theorem listMax_sorted {f : List ℝ} (hs : f.Pairwise (· < ·)) (hf : 0 < f.length) :
    listMax f = f.getD (f.length - 1) 0 := by
  have hne : f ≠ [] := List.length_pos_iff.1 hf
  have hl : f.length - 1 < f.length := by omega
  rw [getD_getElem hl]
  apply le_antisymm
  · rw [listMax_le hne]
    intro x hx
    obtain ⟨i, hi, rfl⟩ := List.getElem_of_mem hx
    rcases Nat.lt_or_ge i (f.length - 1) with h | h
    · exact (List.pairwise_iff_getElem.1 hs i (f.length - 1) _ _ h).le
    · have : i = f.length - 1 := by omega
      subst this; exact le_rfl
  · exact (listMax_le hne _).1 le_rfl _ (List.getElem_mem hl)

theorem looksFlat_const (rnd : ℝ → ℤ) (h : Nearest rnd) (f : List ℝ) (hf : 0 < f.length) :
    looksFlat rnd (f.map (fun _ => (0 : ℝ))) = true ∧ looksFlat rnd (f.map (fun _ => (1 : ℝ))) = true := by
  have hz : rnd 0 = 0 := by have := h.int 0; simpa using this
  have ho : rnd (10 ^ 6) = 10 ^ 6 := by
    have := h.int (10 ^ 6)
    rw [Int.cast_pow] at this
    exact_mod_cast this
  have hl : (f.length : ℝ) ≠ 0 := by
    have : 0 < (f.length : ℝ) := by exact_mod_cast hf
    exact this.ne'
  constructor
  · unfold looksFlat
    simp only
    rw [if_neg]
    · simp [hz]
    · intro hc
      obtain ⟨x, hx⟩ := List.exists_mem_of_length_pos hf
      exact hc 0 (List.mem_map.2 ⟨x, hx, rfl⟩) (by simp [hz])
  · unfold looksFlat
    simp only
    rw [if_pos]
    · have : (f.map (fun _ => (1 : ℝ))).sum / ((f.map (fun _ => (1 : ℝ))).length : ℝ) * 10 ^ 6 = 10 ^ 6 := by
        simp [hl]
      rw [this, ho]
      push_cast
      norm_num
    · intro b hb
      simp only [List.mem_map] at hb
      obtain ⟨_, _, rfl⟩ := hb
      rw [one_mul, ho]
      norm_num

/-- C96: a filter with constant amplitude passes all given frequencies, if there are fewer than 2000. -/
theorem C96_constant_partial (rnd : ℝ → ℤ) (f : List ℝ) (a : ℝ) (hr : Nearest rnd) (h0 : 0 ≤ a)
    (h2 : 2 ≤ f.length) (hb : f.length < 2000) (hs : f.Pairwise (· < ·)) :
    passBand rnd f (f.map (fun _ => a)) = some [listMin f, listMax f] := by
  have hdec : max 1 (f.length / 1000) = 1 := by omega
  by_cases hw : looksFlat rnd (f.map (fun _ => a)) = true
  · match f, h2 with
    | x :: y :: t, _ =>
      simp only [passBand]
      rw [if_pos hw]
  · have hw' : looksFlat rnd (f.map (fun _ => a)) = false := by simpa using hw
    have ha0 : a ≠ 0 := by
      intro e; subst e; exact hw (looksFlat_const rnd hr f (by omega)).1
    have ha1 : a ≠ 1 := by
      intro e; subst e; exact hw (looksFlat_const rnd hr f (by omega)).2
    by_cases hn : 5 < f.length
    · rw [passBand_const rnd f a (lt_of_le_of_ne h0 ha0.symm) ha1 h2 hw' (by rw [hdec]; simpa using hn)]
      rw [hdec]
      simp only [Nat.add_sub_cancel, Nat.div_one, Nat.mul_one, min_self]
      rw [listMin_sorted hs (by omega), listMax_sorted hs (by omega)]
    · match f, h2 with
      | x :: y :: t, _ =>
        simp only [passBand]
        rw [hw', hdec]
        have : (every 1 ((x :: y :: t).map (fun _ => a))).length - 5 = 0 := by
          rw [length_every (by omega), List.length_map]
          simp only [Nat.add_sub_cancel, Nat.div_one]
          omega
        rw [if_pos this]
        rfl

/-- The frequencies 0, 1, …, n-1. -/
def ramp (n : ℕ) : List ℝ := List.map (fun k : ℕ => (k : ℝ)) (List.range n)

theorem length_ramp (n : ℕ) : (ramp n).length = n := by simp [ramp]

theorem ramp_increasing (n : ℕ) : (ramp n).Pairwise (· < ·) := by
  unfold ramp
  rw [List.pairwise_map]
  exact List.pairwise_lt_range.imp (by intro a b hab; exact_mod_cast hab)

theorem getElem_ramp {n i : ℕ} (h : i < (ramp n).length) : (ramp n)[i] = i := by simp [ramp]

/-- C96 is false for long lists: of 2000 frequencies the last one is left out. -/
theorem C96_refuted : ¬ C96_claim := by
  intro h
  obtain ⟨n, hn⟩ : ∃ n : ℕ, n = 2000 := ⟨_, rfl⟩
  have hlen : (ramp n).length = n := length_ramp n
  have hs := ramp_increasing n
  have hr : Nearest (round : ℝ → ℤ) := by
    intro x
    rw [abs_sub_comm]
    exact abs_sub_round x
  have h2 : round ((2 : ℝ) * 10 ^ 6) = 2 * 10 ^ 6 := by
    have := hr.int (2 * 10 ^ 6)
    rw [Int.cast_mul, Int.cast_pow] at this
    exact_mod_cast this
  have hw : looksFlat round ((ramp n).map (fun _ => (2 : ℝ))) = false := by
    unfold looksFlat
    simp only
    rw [if_pos]
    · have : ((ramp n).map (fun _ => (2 : ℝ))).sum / (((ramp n).map (fun _ => (2 : ℝ))).length : ℝ) * 10 ^ 6 =
          2 * 10 ^ 6 := by
        have hn0 : (n : ℝ) ≠ 0 := by rw [hn]; norm_num
        simp only [List.map_const', List.sum_replicate, List.length_replicate, hlen, nsmul_eq_mul]
        field_simp
      rw [this]
      apply decide_eq_false
      rw [h2]
      norm_num
    · intro b hb
      simp only [List.mem_map] at hb
      obtain ⟨_, _, rfl⟩ := hb
      rw [h2]
      norm_num
  have e1 := h round (ramp n) 2 hr (by norm_num) (by omega) hs
  have e2 := passBand_const round (ramp n) 2 (by norm_num) (by norm_num) (by omega) hw
    (by rw [hlen, hn]; decide)
  rw [e1, hlen, listMax_sorted hs (by omega), hlen] at e2
  simp only [Option.some.injEq, List.cons.injEq, and_true] at e2
  have h3 := e2.2
  have e3 : min (((n + max 1 (n / 1000) - 1) / max 1 (n / 1000) - 1) * max 1 (n / 1000)) (n - 1) = 1998 := by
    rw [hn]; decide
  rw [e3, getD_getElem (by omega), getD_getElem (by omega), getElem_ramp, getElem_ramp] at h3
  have h4 : n - 1 = 1998 := by exact_mod_cast h3
  omega

/-! ### C51 -/

/-- C51: the band of a channel is the intersection of the bands of its filters. -/
theorem C51_intersection (rnd : ℝ → ℤ) (l : List Filter) (xs : List ℝ) (lo hi : ℝ)
    (h : channelBand rnd l xs = some (lo, hi)) (x : ℝ) :
    (lo ≤ x ∧ x ≤ hi) ↔ ∀ f ∈ l, ∃ b, bandOf rnd f xs = some b ∧ listMin b ≤ x ∧ x ≤ listMax b := by
  unfold channelBand at h
  by_cases hx : xs = []
  · rw [if_pos hx] at h; cases h
  rw [if_neg hx] at h
  split at h
  · cases h
  · next hne =>
    revert hne h
    generalize hbs : l.filterMap (fun f => passBand rnd xs ((resp f xs).map (fun z => ‖z‖))) = bs
    intro hne h
    simp only [Option.some.injEq, Prod.mk.injEq] at h
    obtain ⟨rfl, rfl⟩ := h
    have hne' : bs.map listMin ≠ [] := by
      intro hc; exact hne (List.map_eq_nil_iff.1 hc)
    have hne'' : bs.map listMax ≠ [] := by
      intro hc; exact hne (List.map_eq_nil_iff.1 hc)
    rw [listMax_le hne', le_listMin hne'']
    have hmem : ∀ b, b ∈ l.filterMap (fun f => passBand rnd xs ((resp f xs).map (fun z => ‖z‖))) ↔
        ∃ f ∈ l, bandOf rnd f xs = some b := by
      intro b
      rw [List.mem_filterMap]
      rfl
    rw [hbs] at hmem
    constructor
    · rintro ⟨h1, h2⟩ f hf
      obtain ⟨b, hb⟩ := passBand_some rnd xs ((resp f xs).map (fun z => ‖z‖)) hx
      have hb' : b ∈ bs :=
        (hmem b).2 ⟨f, hf, hb⟩
      exact ⟨b, hb, h1 _ (List.mem_map_of_mem hb'), h2 _ (List.mem_map_of_mem hb')⟩
    · intro h
      constructor
      · intro a ha
        obtain ⟨b, hb, rfl⟩ := List.mem_map.1 ha
        obtain ⟨f, hf, hfb⟩ := (hmem b).1 hb
        obtain ⟨b', hb', h1, _⟩ := h f hf
        rw [hfb] at hb'
        cases hb'
        exact h1
      · intro a ha
        obtain ⟨b, hb, rfl⟩ := List.mem_map.1 ha
        obtain ⟨f, hf, hfb⟩ := (hmem b).1 hb
        obtain ⟨b', hb', _, h2⟩ := h f hf
        rw [hfb] at hb'
        cases hb'
        exact h2

/-- C51: there is a band exactly if there are filters and frequencies. -/
theorem C51_exists (rnd : ℝ → ℤ) (l : List Filter) (xs : List ℝ) :
    (∃ b, channelBand rnd l xs = some b) ↔ l ≠ [] ∧ xs ≠ [] := by
  unfold channelBand
  by_cases hx : xs = []
  · rw [if_pos hx]; simp [hx]
  · rw [if_neg hx]
    cases l with
    | nil => simp
    | cons f t =>
      obtain ⟨b, hb⟩ := passBand_some rnd xs ((resp f xs).map (fun z => ‖z‖)) hx
      rw [List.filterMap_cons_some (f := fun f => passBand rnd xs ((resp f xs).map (fun z => ‖z‖))) hb]
      simp [hx]

/-! ### C53 -/

/-- The statement of C53: phases of at most one turn, given in milliradians, degrees or radians, are
stored in radians, and storing them again changes nothing. -/
def C53_claim : Prop :=
  ∀ v : List ℝ, v ≠ [] → (∀ x ∈ v, |x| ≤ 2 * Real.pi) →
    validatePhases (v.map (· * 1000)) = v ∧
    validatePhases (v.map (fun x => x * (180 / Real.pi))) = v ∧
    validatePhases v = v

/-- C53 is false: a table of one degree is taken for radians. -/
theorem C53_refuted : ¬ C53_claim := by
  intro h
  have hpi := Real.pi_pos
  have h3 := Real.pi_gt_three
  have := (h [Real.pi / 180] (by simp) (by
    intro x hx
    simp only [List.mem_cons, List.not_mem_nil, or_false] at hx
    subst hx
    rw [abs_of_pos (by positivity)]
    linarith)).2.1
  have e : Real.pi / 180 * (180 / Real.pi) = 1 := by field_simp
  simp only [List.map_cons, List.map_nil, e, validatePhases, listMax] at this
  rw [if_neg (by linarith), if_neg (by rw [abs_one]; linarith)] at this
  simp only [List.cons.injEq, and_true] at this
  have h4 := Real.pi_lt_four
  linarith

/-- C53: radians of at most three turns are kept. -/
theorem C53_radians_partial (v : List ℝ) (h : ∀ x ∈ v, |x| ≤ 6 * Real.pi) : validatePhases v = v := by
  have hpi := Real.pi_pos
  match v with
  | [] => rfl
  | a :: t =>
    rw [validatePhases]
    · rw [if_neg, if_neg]
      · rw [not_lt, listMax_le (by simp)]
        intro x hx
        obtain ⟨y, hy, rfl⟩ := List.mem_map.1 hx
        exact h y hy
      · rw [not_lt, listMax_le (by simp)]
        intro x hx
        have := le_trans (le_abs_self x) (h x hx)
        linarith
    · simp

/-- C53: milliradians are recognised if some phase exceeds a quarter turn. -/
theorem C53_milliradians_partial (v : List ℝ) (h : ∃ x ∈ v, Real.pi / 2 < x) :
    validatePhases (v.map (· * 1000)) = v := by
  obtain ⟨x, hx, hlt⟩ := h
  match v with
  | [] => cases hx
  | a :: t =>
    rw [List.map_cons, validatePhases]
    · rw [if_pos]
      · rw [← List.map_cons (f := (· * 1000)), List.map_map]
        conv_rhs => rw [← List.map_id (a :: t)]
        apply List.map_congr_left
        intro y _
        simp
      · rw [← List.map_cons (f := (· * 1000)), ← not_le, listMax_le (by simp)]
        intro hc
        have := hc (x * 1000) (List.mem_map.2 ⟨x, hx, rfl⟩)
        linarith
    · simp

/-- C53: degrees are recognised if some phase exceeds six times pi (18.85) degrees either way; the
phases must be below 500 pi degrees, which holds within one turn. -/
theorem C53_degrees_partial (v : List ℝ) (h : ∀ x ∈ v, |x| ≤ 360) (hx : ∃ x ∈ v, 6 * Real.pi < |x|) :
    validatePhases v = v.map (fun x => x * (Real.pi / 180)) := by
  have h3 := Real.pi_gt_three
  obtain ⟨x, hx, hlt⟩ := hx
  match v with
  | [] => cases hx
  | a :: t =>
    rw [validatePhases]
    · rw [if_neg, if_pos]
      · rw [← not_le, listMax_le (by simp)]
        intro hc
        exact absurd (hc _ (List.mem_map_of_mem hx)) (not_le.2 hlt)
      · rw [not_lt, listMax_le (by simp)]
        intro y hy
        have := le_trans (le_abs_self y) (h y hy)
        linarith
    · simp

/-- C53: what is stored is at most three turns, hence stored again unchanged, if the input was within one
turn in any of the three units. -/
theorem C53_idempotent_partial (v : List ℝ) (h : ∀ x ∈ v, |x| ≤ 2000 * Real.pi)
    (h2 : (∃ x ∈ v, 500 * Real.pi < x) ∨ ∀ x ∈ v, |x| ≤ 360) :
    validatePhases (validatePhases v) = validatePhases v := by
  have hpi := Real.pi_pos
  match v with
  | [] => rfl
  | a :: t =>
    apply C53_radians_partial
    rw [validatePhases]
    · split
      · intro y hy
        obtain ⟨x, hx, rfl⟩ := List.mem_map.1 hy
        rw [abs_div, abs_of_pos (by norm_num : (0 : ℝ) < 1000), div_le_iff₀ (by norm_num)]
        have := h x hx
        linarith
      · next hn =>
        rw [not_lt, listMax_le (by simp)] at hn
        split
        · intro y hy
          obtain ⟨x, hx, rfl⟩ := List.mem_map.1 hy
          rcases h2 with ⟨z, hz, hlt⟩ | h2
          · have := hn z hz
            linarith
          · rw [abs_mul, abs_of_pos (by positivity : 0 < Real.pi / 180)]
            calc |x| * (Real.pi / 180) ≤ 360 * (Real.pi / 180) :=
                  mul_le_mul_of_nonneg_right (h2 x hx) (by positivity)
              _ ≤ 6 * Real.pi := by linarith
        · next hm =>
          rw [not_lt, listMax_le (by simp)] at hm
          intro x hx
          exact hm _ (List.mem_map_of_mem hx)
    · simp

example : validatePhases [-90, 45, 10] = [-90, 45, 10].map (fun x => x * (Real.pi / 180)) := by
  apply C53_degrees_partial
  · intro x hx
    simp only [List.mem_cons, List.not_mem_nil, or_false] at hx
    rcases hx with rfl | rfl | rfl <;> norm_num [abs_le]
  · refine ⟨-90, by simp, ?_⟩
    have := Real.pi_lt_four
    norm_num
    linarith

end Verif.Filters
