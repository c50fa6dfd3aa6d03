import Mathlib.Data.List.Perm.Basic
import Mathlib.Data.List.Sort
import Mathlib.Tactic.Linarith
import Verif.Model.ZmmUse
import Verif.Lemmas.OD
import Verif.Lemmas.Sorted

/-! # C381-C383: one `ZMM` object for several files -/

namespace Verif.ZmmUse
variable {P K : Type} [DecidableEq K]

/-! ### C381: channels -/

/-- C381: the channels after reading a file are those of the file, whatever was read before. -/
def C381_claim : Prop := ∀ (P K : Type) (_ : DecidableEq K) (key : P → K) (l : List (File P)) (f : File P),
  recorded (read key (readAll key {} l) f).chan = recorded (read key {} f).chan

theorem foldl_chan (num : Nat) (l : List (Comp × Nat)) (s t : Comp → Option Nat) (c : Comp) (h : s c = t c ∨ ∃ n, (c, n) ∈ l) :
    l.foldl (setChan num) s c = l.foldl (setChan num) t c := by
  induction l generalizing s t with
  | nil =>
    rcases h with h | ⟨n, h⟩
    · exact h
    · cases h
  | cons x l ih =>
    rw [List.foldl_cons, List.foldl_cons]
    apply ih
    unfold setChan
    by_cases hx : c = x.1
    · exact .inl (by rw [if_pos hx, if_pos hx])
    · rcases h with h | ⟨n, h⟩
      · exact .inl (by rw [if_neg hx, if_neg hx, h])
      · rcases List.mem_cons.1 h with h | h
        · exact absurd (by rw [← h]) hx
        · exact .inr ⟨n, h⟩

theorem foldl_keep (num : Nat) (l : List (Comp × Nat)) (s : Comp → Option Nat) (c : Comp) (h : ∀ n, (c, n) ∉ l) :
    l.foldl (setChan num) s c = s c := by
  induction l generalizing s with
  | nil => rfl
  | cons x l ih =>
    rw [List.foldl_cons, ih _ (fun n m => h n (List.mem_cons_of_mem _ m))]
    unfold setChan
    rw [if_neg (fun e => h x.2 (by rw [e]; simp))]

theorem readAll_none (key : P → K) (l : List (File P)) (o : Obj K) (c : Comp) (ho : o.chan c = none) (h : ∀ g ∈ l, ∀ n, (c, n) ∉ g.chans) :
    (readAll key o l).chan c = none := by
  induction l generalizing o with
  | nil => exact ho
  | cons g l ih =>
    refine ih (read key o g) ?_ (fun g' m => h g' (List.mem_cons_of_mem _ m))
    show g.chans.foldl (setChan g.num) o.chan c = none
    rw [foldl_keep _ _ _ _ (h g (by simp)), ho]

/-- C381 (part): so it is if the file has all channels that the files before had. -/
theorem C381_all_partial (key : P → K) (l : List (File P)) (f : File P) (h : ∀ g ∈ l, ∀ c n, (c, n) ∈ g.chans → ∃ m, (c, m) ∈ f.chans) :
    (read key (readAll key {} l) f).chan = (read key {} f).chan := by
  funext c
  apply foldl_chan
  by_cases hc : ∃ m, (c, m) ∈ f.chans
  · exact .inr hc
  · exact .inl (readAll_none key l {} c rfl (fun g hg n hn => hc (h g hg c n hn)))

/-- C381 (part): channels that the file does not have stay as they were. -/
theorem C381_stay_partial (key : P → K) (o : Obj K) (f : File P) (c : Comp) (h : ∀ n, (c, n) ∉ f.chans) : (read key o f).chan c = o.chan c :=
  foldl_keep _ _ _ _ h

theorem get_byNumber (s : Comp → Option Nat) (l : List Comp) (d : OD Nat Comp) (n : Nat) :
    OD.get? (l.foldl (fun d c => match s c with
      | some n => OD.set d n c
      | none => d) d) n = match (l.reverse.find? (fun c => decide (s c = some n))) with
      | some c => some c
      | none => OD.get? d n := by
  induction l generalizing d with
  | nil => rfl
  | cons c l ih =>
    rw [List.foldl_cons, ih, List.reverse_cons, List.find?_append]
    cases hf : l.reverse.find? (fun c => decide (s c = some n)) with
    | some x => rfl
    | none =>
      simp only [Option.none_or]
      cases hs : s c with
      | none =>
        rw [List.find?_cons_of_neg (by simp [hs])]
        rfl
      | some m =>
        by_cases hm : m = n
        · subst hm
          rw [List.find?_cons_of_pos (by simp [hs])]
          exact OD.get?_set_self _ _ _
        · rw [List.find?_cons_of_neg (by simp [hs, hm])]
          exact OD.get?_set_ne _ _ (Ne.symm hm)

theorem wf_byNumber (s : Comp → Option Nat) (l : List Comp) (d : OD Nat Comp) (h : OD.WF d) : OD.WF (l.foldl (fun d c => match s c with
      | some n => OD.set d n c
      | none => d) d) := by
  induction l generalizing d with
  | nil => exact h
  | cons c l ih =>
    rw [List.foldl_cons]
    apply ih
    split
    · exact h.set _ _
    · exact h

/-- Later in the order ex, ey, hx, hy, hz. -/
def rank : Comp → Nat
  | .ex => 0
  | .ey => 1
  | .hx => 2
  | .hy => 3
  | .hz => 4

theorem find_rev (q : Comp → Bool) (c : Comp) : comps.reverse.find? q = some c ↔ q c = true ∧ ∀ e, rank c < rank e → q e = false := by
  show [Comp.hz, .hy, .hx, .ey, .ex].find? q = some c ↔ _
  simp only [List.find?_cons, List.find?_nil]
  constructor
  · intro h
    cases h5 : q .hz with
    | true =>
      rw [h5] at h
      cases h
      exact ⟨h5, fun e he => by cases e <;> simp [rank] at he⟩
    | false =>
      rw [h5] at h
      cases h4 : q .hy with
      | true =>
        rw [h4] at h
        cases h
        exact ⟨h4, fun e he => by cases e <;> first | assumption | simp [rank] at he⟩
      | false =>
        rw [h4] at h
        cases h3 : q .hx with
        | true =>
          rw [h3] at h
          cases h
          exact ⟨h3, fun e he => by cases e <;> first | assumption | simp [rank] at he⟩
        | false =>
          rw [h3] at h
          cases h2 : q .ey with
          | true =>
            rw [h2] at h
            cases h
            exact ⟨h2, fun e he => by cases e <;> first | assumption | simp [rank] at he⟩
          | false =>
            rw [h2] at h
            cases h1 : q .ex with
            | true =>
              rw [h1] at h
              cases h
              exact ⟨h1, fun e he => by cases e <;> first | assumption | simp [rank] at he⟩
            | false =>
              rw [h1] at h
              cases h
  · rintro ⟨h1, h2⟩
    cases c with
    | hz => rw [h1]
    | hy => rw [h2 .hz (by decide), h1]
    | hx => rw [h2 .hz (by decide), h2 .hy (by decide), h1]
    | ey => rw [h2 .hz (by decide), h2 .hy (by decide), h2 .hx (by decide), h1]
    | ex => rw [h2 .hz (by decide), h2 .hy (by decide), h2 .hx (by decide), h2 .ey (by decide), h1]

/-- C381 (part): a channel is recorded if and only if it has a number that no channel after it (ex, ey, hx, hy, hz) has too. -/
theorem C381_which_partial (s : Comp → Option Nat) (c : Comp) :
    c ∈ recorded s ↔ ∃ n, s c = some n ∧ ∀ e, rank c < rank e → s e ≠ some n := by
  have wf : OD.WF (byNumber s) := wf_byNumber s comps [] OD.WF_nil
  have hg : ∀ n, OD.get? (byNumber s) n = comps.reverse.find? (fun c => decide (s c = some n)) := by
    intro n
    refine (get_byNumber s comps [] n).trans ?_
    cases comps.reverse.find? (fun c => decide (s c = some n)) <;> rfl
  unfold recorded
  rw [List.mem_map]
  constructor
  · rintro ⟨⟨n, x⟩, hp, rfl⟩
    have hm := OD.get?_of_mem wf ((pySorted_perm _ (byNumber s)).mem_iff.1 hp)
    rw [hg, find_rev] at hm
    exact ⟨n, by simpa using hm.1, fun e he => by simpa using hm.2 e he⟩
  · rintro ⟨n, h1, h2⟩
    refine ⟨(n, c), (pySorted_perm _ (byNumber s)).mem_iff.2 (OD.mem_of_get? ?_), rfl⟩
    rw [hg, find_rev]
    exact ⟨by simpa using h1, fun e he => by simpa using h2 e he⟩

/-- C381 (part): the recorded channels are in the order of their numbers, and no two have the same. -/
theorem C381_order_partial (s : Comp → Option Nat) :
    (recorded s).Pairwise (fun a b => ∃ m n, s a = some m ∧ s b = some n ∧ m < n) := by
  have wf : OD.WF (byNumber s) := wf_byNumber s comps [] OD.WF_nil
  have hg : ∀ n, OD.get? (byNumber s) n = comps.reverse.find? (fun c => decide (s c = some n)) := by
    intro n
    refine (get_byNumber s comps [] n).trans ?_
    cases comps.reverse.find? (fun c => decide (s c = some n)) <;> rfl
  have hs : ∀ p ∈ pySorted (fun a b : Nat × Comp => decide (a.1 ≤ b.1)) (byNumber s), s p.2 = some p.1 := by
    rintro ⟨n, x⟩ hp
    have hm := OD.get?_of_mem wf ((pySorted_perm _ (byNumber s)).mem_iff.1 hp)
    rw [hg, find_rev] at hm
    simpa using hm.1
  have hk : (pySorted (fun a b : Nat × Comp => decide (a.1 ≤ b.1)) (byNumber s)).Pairwise (fun a b => a.1 ≠ b.1) := by
    have : ((pySorted (fun a b : Nat × Comp => decide (a.1 ≤ b.1)) (byNumber s)).map Prod.fst).Nodup :=
      ((pySorted_perm _ (byNumber s)).map Prod.fst).nodup_iff.2 wf
    exact List.pairwise_map.1 this
  have hle := pySorted_pairwise (le := fun a b : Nat × Comp => decide (a.1 ≤ b.1))
    (by intro a b c h1 h2; simp only [decide_eq_true_eq] at *; omega)
    (by intro a b; simp only [Bool.or_eq_true, decide_eq_true_eq]; omega) (byNumber s)
  unfold recorded
  rw [List.pairwise_map]
  refine List.Pairwise.imp_of_mem ?_ (hk.and hle)
  rintro a b ha hb ⟨h1, h2⟩
  simp only [decide_eq_true_eq] at h2
  exact ⟨a.1, b.1, hs a ha, hs b hb, by omega⟩

/-- C381 (part): there is a tipper if and only if there is a vertical channel, of this file or one before. -/
theorem C381_tipper_partial (s : Comp → Option Nat) : hasTipper s = true ↔ s .hz ≠ none := by
  unfold hasTipper
  rw [List.contains_iff_mem, C381_which_partial]
  constructor
  · rintro ⟨n, h, _⟩
    rw [h]
    exact fun e => nomatch e
  · intro h
    cases hz : s .hz with
    | none => exact absurd hz h
    | some n => exact ⟨n, rfl, fun e he => by cases e <;> simp [rank] at he⟩

/-- C381 (part): there is an impedance if and only if both electric channels have numbers that no other channel has. -/
theorem C381_impedance_partial (s : Comp → Option Nat) : hasImpedance s = true ↔
    ∃ m n, s .ex = some m ∧ s .ey = some n ∧ m ≠ n ∧ ∀ c, c = .hx ∨ c = .hy ∨ c = .hz → s c ≠ some m ∧ s c ≠ some n := by
  unfold hasImpedance
  rw [Bool.and_eq_true, List.contains_iff_mem, List.contains_iff_mem, C381_which_partial, C381_which_partial]
  constructor
  · rintro ⟨⟨m, h1, h2⟩, n, h3, h4⟩
    refine ⟨m, n, h1, h3, fun e => h2 .ey (by decide) (by rw [h3, e]), ?_⟩
    rintro c (rfl | rfl | rfl)
    · exact ⟨h2 _ (by decide), h4 _ (by decide)⟩
    · exact ⟨h2 _ (by decide), h4 _ (by decide)⟩
    · exact ⟨h2 _ (by decide), h4 _ (by decide)⟩
  · rintro ⟨m, n, h1, h2, h3, h4⟩
    refine ⟨⟨m, h1, ?_⟩, n, h2, ?_⟩
    · intro e he
      cases e with
      | ex => simp [rank] at he
      | ey => rw [h2]; exact fun e => h3 (Option.some.inj e).symm
      | hx => exact (h4 _ (.inl rfl)).1
      | hy => exact (h4 _ (.inr (.inl rfl))).1
      | hz => exact (h4 _ (.inr (.inr rfl))).1
    · intro e he
      cases e with
      | ex => simp [rank] at he
      | ey => simp [rank] at he
      | hx => exact (h4 _ (.inl rfl)).2
      | hy => exact (h4 _ (.inr (.inl rfl))).2
      | hz => exact (h4 _ (.inr (.inr rfl))).2

/-- C381 (part): the number of a channel is that of its last line; zero is the number of channels. -/
theorem C381_number_partial (key : P → K) (o : Obj K) (f : File P) (a b : List (Comp × Nat)) (c : Comp) (n : Nat) (h : f.chans = a ++ (c, n) :: b)
    (hb : ∀ m, (c, m) ∉ b) : (read key o f).chan c = some (if n = 0 then f.num else n) := by
  show f.chans.foldl (setChan f.num) o.chan c = _
  rw [h, List.foldl_append, List.foldl_cons, foldl_keep _ _ _ _ hb]
  unfold setChan
  rw [if_pos rfl]

/-- A file with five channels. -/
def exFive : File Nat := ⟨5, [(.hx, 1), (.hy, 2), (.hz, 3), (.ex, 4), (.ey, 5)], [(1, ⟨1, 5, 8, 100, 1⟩)]⟩
/-- A file without a vertical channel. -/
def exFour : File Nat := ⟨4, [(.hx, 1), (.hy, 2), (.ex, 3), (.ey, 4)], [(2, ⟨1, 5, 8, 100, 8⟩)]⟩

/-- C381 is false: after a file with five channels, one with four has no `ex`. -/
theorem C381_refuted : ¬ C381_claim := by
  intro h
  have := h Nat Nat inferInstance id [exFive] exFour
  revert this
  decide

example : recorded (read id (readAll id {} [exFive]) exFour).chan = [.hx, .hy, .hz, .ey] ∧ recorded (read id {} exFour).chan = [.hx, .hy, .ex, .ey] ∧
    hasImpedance (read id (readAll id {} [exFive]) exFour).chan = false := by decide

/-! ### C382: the sample rate -/

/-- C382: the sample rate after reading a file is the median of those of its periods, whatever was read before. -/
def C382_claim : Prop := ∀ (P K : Type) (_ : DecidableEq K) (key : P → K) (l : List (File P)) (f : File P), (f.periods.map (fun p => key p.1)).Nodup →
  (read key (readAll key {} l) f).rate = median (f.periods.map (fun p => p.2.rate))

theorem wf_fold (key : P → K) (ps : List (P × Dec)) (d : OD K Dec) (h : OD.WF d) : OD.WF (ps.foldl (fun d p => OD.set d (key p.1) p.2) d) := by
  induction ps generalizing d with
  | nil => exact h
  | cons p ps ih => exact ih _ (h.set _ _)

theorem get_fold_other (key : P → K) (ps : List (P × Dec)) (d : OD K Dec) (k : K) (h : k ∉ ps.map (fun p => key p.1)) :
    OD.get? (ps.foldl (fun d p => OD.set d (key p.1) p.2) d) k = OD.get? d k := by
  induction ps generalizing d with
  | nil => rfl
  | cons p ps ih =>
    rw [List.map_cons, List.mem_cons, not_or] at h
    rw [List.foldl_cons, ih _ h.2, OD.get?_set_ne _ _ h.1]

theorem get_fold_mem (key : P → K) (ps : List (P × Dec)) (d : OD K Dec) (hn : (ps.map (fun p => key p.1)).Nodup) (p : P) (x : Dec) (h : (p, x) ∈ ps) :
    OD.get? (ps.foldl (fun d p => OD.set d (key p.1) p.2) d) (key p) = some x := by
  induction ps generalizing d with
  | nil => cases h
  | cons q ps ih =>
    rw [List.map_cons, List.nodup_cons] at hn
    rw [List.foldl_cons]
    rcases List.mem_cons.1 h with h | h
    · subst h
      rw [get_fold_other key ps _ _ hn.1, OD.get?_set_self]
    · exact ih _ hn.2 h

theorem readAll_wf (key : P → K) (l : List (File P)) (o : Obj K) (h : OD.WF o.dec) : OD.WF (readAll key o l).dec := by
  induction l generalizing o with
  | nil => exact h
  | cons f l ih => exact ih (read key o f) (wf_fold key f.periods o.dec h)

theorem readAll_keys (key : P → K) (l : List (File P)) (o : Obj K) (k : K) (hk : k ∈ OD.keys (readAll key o l).dec) :
    k ∈ OD.keys o.dec ∨ ∃ g ∈ l, k ∈ g.periods.map (fun p => key p.1) := by
  induction l generalizing o with
  | nil => exact .inl hk
  | cons f l ih =>
    rcases ih (read key o f) hk with h | ⟨g, hg, h⟩
    · by_cases hf : k ∈ f.periods.map (fun p => key p.1)
      · exact .inr ⟨f, by simp, hf⟩
      · left
        by_contra c
        have := get_fold_other key f.periods o.dec k hf
        rw [(OD.get?_eq_none_iff o.dec k).2 c] at this
        exact (OD.get?_eq_none_iff _ k).1 this h
    · exact .inr ⟨g, List.mem_cons_of_mem _ hg, h⟩

theorem median_perm {a b : List ℚ} (h : a.Perm b) : median a = median b := by
  have e : pySorted (fun a b : ℚ => decide (a ≤ b)) a = pySorted (fun a b : ℚ => decide (a ≤ b)) b := by
    have tr : ∀ a b c : ℚ, decide (a ≤ b) = true → decide (b ≤ c) = true → decide (a ≤ c) = true := by
      intro a b c h1 h2
      simp only [decide_eq_true_eq] at *
      exact le_trans h1 h2
    have tot : ∀ a b : ℚ, (decide (a ≤ b) || decide (b ≤ a)) = true := by
      intro a b
      simp only [Bool.or_eq_true, decide_eq_true_eq]
      exact le_total a b
    refine ((pySorted_perm _ a).trans (h.trans (pySorted_perm _ b).symm)).eq_of_pairwise ?_ (pySorted_pairwise tr tot a) (pySorted_pairwise tr tot b)
    intro x y _ _ h1 h2
    simp only [decide_eq_true_eq] at h1 h2
    exact le_antisymm h1 h2
  unfold median
  rw [e, h.length_eq]

theorem count_low (s : List ℚ) (m : ℚ) (k : Nat) (h : ∀ i (hi : i < s.length), k ≤ i → m ≤ s[i]) : s.countP (fun x => decide (x < m)) ≤ k := by
  rw [← List.take_append_drop k s, List.countP_append]
  have h0 : (s.drop k).countP (fun x => decide (x < m)) = 0 := by
    rw [List.countP_eq_zero]
    intro x hx
    obtain ⟨i, hi, rfl⟩ := List.mem_iff_getElem.1 hx
    rw [List.getElem_drop]
    simp only [decide_eq_true_eq, not_lt]
    exact h _ _ (Nat.le_add_right _ _)
  have h1 : (s.take k).countP (fun x => decide (x < m)) ≤ (s.take k).length := List.countP_le_length
  rw [List.length_take] at h1
  omega

theorem count_high (s : List ℚ) (m : ℚ) (k : Nat) (h : ∀ i (hi : i < s.length), i < k → s[i] ≤ m) :
    s.countP (fun x => decide (m < x)) ≤ s.length - k := by
  have e : s.countP (fun x => decide (m < x)) = (s.take k).countP (fun x => decide (m < x)) + (s.drop k).countP (fun x => decide (m < x)) := by
    rw [← List.countP_append, List.take_append_drop]
  have h0 : (s.take k).countP (fun x => decide (m < x)) = 0 := by
    rw [List.countP_eq_zero]
    intro x hx
    obtain ⟨i, hi, rfl⟩ := List.mem_iff_getElem.1 hx
    rw [List.length_take] at hi
    rw [List.getElem_take]
    simp only [decide_eq_true_eq, not_lt]
    exact h _ _ (by omega)
  have h1 : (s.drop k).countP (fun x => decide (m < x)) ≤ (s.drop k).length := List.countP_le_length
  rw [List.length_drop] at h1
  omega

/-- C382: the median has at most half of the rates below and at most half above. -/
theorem C382_half (l : List ℚ) (m : ℚ) (h : median l = some m) :
    l.countP (fun x => decide (x < m)) ≤ l.length / 2 ∧ l.countP (fun x => decide (m < x)) ≤ l.length / 2 := by
  have hp := pySorted_perm (fun a b : ℚ => decide (a ≤ b)) l
  have hs := pySorted_pairwise (le := fun a b : ℚ => decide (a ≤ b))
    (by intro a b c h1 h2; simp only [decide_eq_true_eq] at *; exact le_trans h1 h2)
    (by intro a b; simp only [Bool.or_eq_true, decide_eq_true_eq]; exact le_total a b) l
  unfold median at h
  simp only at h
  rw [← hp.countP_eq, ← hp.countP_eq]
  rw [← hp.length_eq] at h ⊢
  generalize pySorted (fun a b : ℚ => decide (a ≤ b)) l = s at *
  have mono : ∀ i j (hi : i < s.length) (hj : j < s.length), i ≤ j → s[i] ≤ s[j] := by
    intro i j hi hj hij
    rcases Nat.lt_or_eq_of_le hij with hlt | rfl
    · simpa using List.pairwise_iff_getElem.1 hs i j hi hj hlt
    · exact le_refl _
  by_cases hodd : s.length % 2 = 1
  · rw [if_pos hodd] at h
    obtain ⟨hk, rfl⟩ := List.getElem?_eq_some_iff.1 h
    refine ⟨count_low _ _ _ (fun i hi hki => mono _ _ _ _ hki), ?_⟩
    have := count_high s s[s.length / 2] (s.length / 2 + 1) (fun i hi hki => mono _ _ _ _ (by omega))
    omega
  · rw [if_neg hodd] at h
    split at h
    · rename_i a b ha hb
      obtain ⟨hka, rfl⟩ := List.getElem?_eq_some_iff.1 ha
      obtain ⟨hkb, rfl⟩ := List.getElem?_eq_some_iff.1 hb
      cases h
      have hab := mono _ _ hka hkb (by omega)
      have h1 : s[s.length / 2 - 1] ≤ (s[s.length / 2 - 1] + s[s.length / 2]) / 2 := by linarith
      have h2 : (s[s.length / 2 - 1] + s[s.length / 2]) / 2 ≤ s[s.length / 2] := by linarith
      refine ⟨count_low _ _ _ (fun i hi hki => le_trans h2 (mono _ _ _ _ hki)), ?_⟩
      have := count_high s _ (s.length / 2) (fun i hi hki => le_trans (mono i _ hi hka (by omega)) h1)
      omega
    · cases h

/-- C382: of two rates the median is the mean. -/
theorem C382_two (a b : ℚ) : median [a, b] = some ((a + b) / 2) := by
  unfold median
  by_cases h : a ≤ b
  · rw [pySorted_of_pairwise (by simpa using h)]
    simp
  · have hp : [a, b].Perm [b, a] := List.Perm.swap _ _ _
    have := median_perm hp
    unfold median at this
    rw [this, pySorted_of_pairwise (by simpa using le_of_lt (lt_of_not_ge h)), add_comm a b]
    simp

/-- C382: there is a median as soon as there is a rate. -/
theorem C382_some (l : List ℚ) (h : l ≠ []) : ∃ m, median l = some m := by
  have hl : 0 < l.length := List.length_pos_iff.2 h
  have e := (pySorted_perm (fun a b : ℚ => decide (a ≤ b)) l).length_eq
  unfold median
  simp only
  by_cases hodd : l.length % 2 = 1
  · rw [if_pos hodd, List.getElem?_eq_getElem (by omega)]
    exact ⟨_, rfl⟩
  · rw [if_neg hodd, List.getElem?_eq_getElem (by omega), List.getElem?_eq_getElem (by omega)]
    exact ⟨_, rfl⟩

/-- C382 (part): so it is if the file has all periods that the files before had, and no two with the same text. -/
theorem C382_all_partial (key : P → K) (l : List (File P)) (f : File P) (hn : (f.periods.map (fun p => key p.1)).Nodup)
    (h : ∀ g ∈ l, ∀ p ∈ g.periods, key p.1 ∈ f.periods.map (fun p => key p.1)) :
    (read key (readAll key {} l) f).rate = median (f.periods.map (fun p => p.2.rate)) := by
  show median ((OD.values (f.periods.foldl (fun d p => OD.set d (key p.1) p.2) (readAll key {} l).dec)).map Dec.rate) = _
  apply median_perm
  have wf := wf_fold key f.periods _ (readAll_wf key l {} OD.WF_nil)
  have wf2 : OD.WF (f.periods.map (fun p => (key p.1, p.2))) := by
    unfold OD.WF OD.keys
    rw [List.map_map]
    exact hn
  have hp : (f.periods.foldl (fun d p => OD.set d (key p.1) p.2) (readAll key {} l).dec).Perm (f.periods.map (fun p => (key p.1, p.2))) := by
    refine (List.perm_ext_iff_of_nodup (List.Nodup.of_map _ wf) (List.Nodup.of_map _ wf2)).2 ?_
    rintro ⟨k, x⟩
    rw [← OD.get?_iff_mem wf, List.mem_map]
    constructor
    · intro hk
      by_cases hf : k ∈ f.periods.map (fun p => key p.1)
      · obtain ⟨⟨p, y⟩, hp, rfl⟩ := List.mem_map.1 hf
        rw [get_fold_mem key f.periods _ hn p y hp] at hk
        cases hk
        exact ⟨(p, x), hp, rfl⟩
      · rw [get_fold_other key f.periods _ k hf] at hk
        rcases readAll_keys key l {} k (OD.mem_keys_of_get? hk) with hk | ⟨g, hg, hk⟩
        · cases hk
        · obtain ⟨p, hp, rfl⟩ := List.mem_map.1 hk
          exact absurd (h g hg p hp) hf
    · rintro ⟨⟨p, y⟩, hp, e⟩
      cases e
      exact get_fold_mem key f.periods _ hn p y hp
  have hv := (hp.map Prod.snd).map Dec.rate
  rw [List.map_map, List.map_map] at hv
  have e : (f.periods.map (fun p => (key p.1, p.2))).map (Dec.rate ∘ Prod.snd) = f.periods.map (fun p => p.2.rate) := by
    rw [List.map_map]
    rfl
  rw [e] at hv
  unfold OD.values
  rw [List.map_map]
  exact hv

/-- C382 is false: the periods of the file before count too. -/
theorem C382_refuted : ¬ C382_claim := by
  intro h
  have := h Nat Nat inferInstance id [exFive] exFour (by decide)
  revert this
  decide +kernel

/-! ### C383: decimation levels -/

/-- C383: what is written about a period of the file that was read last is what the file says of it, whatever was read before. -/
theorem C383_levels (key : P → K) (l : List (File P)) (f : File P) (hn : (f.periods.map (fun p => key p.1)).Nodup) (p : P) (x : Dec)
    (h : (p, x) ∈ f.periods) : levelOf key (read key (readAll key {} l) f) p = x := by
  unfold levelOf
  rw [show (read key (readAll key {} l) f).dec = f.periods.foldl (fun d p => OD.set d (key p.1) p.2) (readAll key {} l).dec from rfl,
    get_fold_mem key f.periods _ hn p x h]

/-- C383: of a period that was never read nothing is known but the sample rate. -/
theorem C383_unknown (key : P → K) (l : List (File P)) (p : P) (h : ∀ g ∈ l, ∀ q ∈ g.periods, key q.1 ≠ key p) :
    levelOf key (readAll key {} l) p = ⟨0, 0, 0, 0, (readAll key {} l).rate.getD 0⟩ := by
  unfold levelOf
  cases hk : OD.get? (readAll key {} l).dec (key p) with
  | none => rfl
  | some d =>
    rcases readAll_keys key l {} (key p) (OD.mem_keys_of_get? hk) with hk | ⟨g, hg, hk⟩
    · cases hk
    · obtain ⟨q, hq, e⟩ := List.mem_map.1 hk
      exact absurd e (h g hg q hq)

example : levelOf id (read id (readAll id {} [exFive]) exFour) 2 = ⟨1, 5, 8, 100, 8⟩ ∧ levelOf id (readAll id {} [exFive]) 7 = ⟨0, 0, 0, 0, 1⟩ := by
  decide +kernel

end Verif.ZmmUse
