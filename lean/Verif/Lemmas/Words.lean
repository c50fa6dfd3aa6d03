import Verif.Lemmas.Text
import Verif.Base.Num

/-!
# Lines as sequences of words

Words of concatenated texts, of lower-cased texts, and words searched for in a text.
-/

namespace Verif.Text

theorem splitP_mid {p : Char → Bool} {x : Char} (a b : Str) (hx : p x = true) :
    splitP p (a ++ x :: b) = splitP p a ++ splitP p b := by
  induction a with
  | nil => simp [splitP, hx]
  | cons y a ih =>
    rw [List.cons_append, splitP, splitP, ih]
    have := splitP_ne_nil p a
    cases h : splitP p a with
    | nil => exact absurd h this
    | cons z l => cases p y <;> simp

theorem words_mid {x : Char} (a b : Str) (hx : ws x = true) : words (a ++ x :: b) = words a ++ words b := by
  unfold words
  rw [splitP_mid a b hx, List.filter_append]

theorem words_all_ws {s : Str} (h : ∀ c ∈ s, ws c = true) : words s = [] := by
  induction s with
  | nil => rfl
  | cons x s ih =>
    rw [words_cons_ws s (h x List.mem_cons_self)]
    exact ih fun c hc => h c (List.mem_cons_of_mem _ hc)

/-- A token between blanks. -/
theorem words_padded {pre tok post : Str} (h1 : ∀ c ∈ pre, ws c = true) (h2 : ∀ c ∈ post, ws c = true) (h3 : tok ≠ [])
    (h4 : ∀ c ∈ tok, ws c = false) : words (pre ++ (tok ++ post)) = [tok] := by
  induction pre with
  | nil =>
    rw [List.nil_append]
    cases post with
    | nil => rw [List.append_nil, words_token h4 h3]
    | cons x post =>
      rw [words_mid _ _ (h2 x List.mem_cons_self), words_token h4 h3,
        words_all_ws fun c hc => h2 c (List.mem_cons_of_mem _ hc)]
      rfl
  | cons x pre ih =>
    rw [List.cons_append, words_cons_ws _ (h1 x List.mem_cons_self)]
    exact ih fun c hc => h1 c (List.mem_cons_of_mem _ hc)

/-! ## lower case -/

theorem toLower_cases (c : Char) :
    (c.toLower = c ∧ ¬ (65 ≤ c.toNat ∧ c.toNat ≤ 90)) ∨ (65 ≤ c.toNat ∧ c.toNat ≤ 90 ∧ c.toLower.toNat = c.toNat + 32) := by
  unfold Char.toLower
  split
  · rename_i h
    have h1 : 65 ≤ c.toNat := UInt32.le_iff_toNat_le.1 h.1
    have h2 : c.toNat ≤ 90 := UInt32.le_iff_toNat_le.1 h.2
    refine .inr ⟨h1, h2, ?_⟩
    show (c.val + ('a'.val - 'A'.val)).toNat = c.val.toNat + 32
    rw [UInt32.toNat_add]
    have h3 : c.val.toNat ≤ 90 := h2
    have h4 : ('a'.val - 'A'.val).toNat = 32 := by decide
    rw [h4, Nat.mod_eq_of_lt (by omega)]
  · rename_i h
    refine .inl ⟨rfl, fun hh => h ⟨UInt32.le_iff_toNat_le.2 hh.1, UInt32.le_iff_toNat_le.2 hh.2⟩⟩

theorem ws_range {c : Char} (h : 33 ≤ c.toNat ∧ c.toNat ≤ 126) : ws c = false := by
  unfold ws
  simp only [Bool.or_eq_false_iff, Bool.and_eq_false_iff, decide_eq_false_iff_not]
  omega

theorem ws_toLower (c : Char) : ws c.toLower = ws c := by
  rcases toLower_cases c with ⟨h, _⟩ | ⟨h1, h2, h3⟩
  · rw [h]
  · rw [ws_range (c := c) ⟨by omega, by omega⟩, ws_range ⟨by omega, by omega⟩]

theorem toLower_toLower (c : Char) : c.toLower.toLower = c.toLower := by
  rcases toLower_cases c with ⟨h, _⟩ | ⟨h1, h2, h3⟩
  · rw [h, h]
  · rcases toLower_cases c.toLower with ⟨h, _⟩ | ⟨h4, h5, _⟩
    · exact h
    · omega

theorem lower_append (a b : Str) : lower (a ++ b) = lower a ++ lower b := List.map_append ..

theorem lower_cons (c : Char) (s : Str) : lower (c :: s) = c.toLower :: lower s := rfl

theorem lower_lower (s : Str) : lower (lower s) = lower s := by
  unfold lower
  rw [List.map_map]
  exact List.map_congr_left fun c _ => toLower_toLower c

theorem splitP_lower (s : Str) : splitP ws (lower s) = (splitP ws s).map lower := by
  induction s with
  | nil => rfl
  | cons x s ih =>
    rw [lower_cons, splitP, splitP, ws_toLower, ih]
    cases ws x
    · cases h : splitP ws s with
      | nil => exact absurd h (splitP_ne_nil _ _)
      | cons y l => simp [lower_cons]
    · simp [lower]

theorem words_lower (s : Str) : words (lower s) = (words s).map lower := by
  unfold words
  rw [splitP_lower, List.filter_map]
  congr 1
  apply List.filter_congr
  intro t _
  cases t <;> rfl

/-! ## searching words -/

theorem infix_mid {w : Str} {x : Char} (a b : Str) (hx : x ∉ w) (h : w <:+: a ++ x :: b) : w <:+: a ∨ w <:+: b := by
  obtain ⟨s, t, e⟩ := h
  rw [List.append_assoc] at e
  rcases List.append_eq_append_iff.1 e with ⟨c, hc1, hc2⟩ | ⟨c, hc1, hc2⟩
  · -- a = s ++ c, w ++ t = c ++ x :: b
    rcases List.append_eq_append_iff.1 hc2 with ⟨d, hd1, hd2⟩ | ⟨d, hd1, hd2⟩
    · left; exact ⟨s, d, by rw [hc1, hd1, List.append_assoc]⟩
    · cases d with
      | nil => left; exact ⟨s, [], by rw [hc1]; simp at hd1; simp [hd1]⟩
      | cons y d =>
        exfalso
        rw [List.cons_append, List.cons.injEq] at hd2
        exact hx (by rw [hd1, hd2.1]; simp)
  · -- s = a ++ c, x :: b = c ++ (w ++ t)
    cases c with
    | nil =>
      rw [List.nil_append] at hc2
      cases w with
      | nil => left; exact List.nil_infix
      | cons y w =>
        exfalso
        rw [List.cons_append, List.cons.injEq] at hc2
        exact hx (by rw [hc2.1]; simp)
    | cons y c =>
      rw [List.cons_append, List.cons.injEq] at hc2
      right; exact ⟨c, t, by rw [hc2.2, List.append_assoc]⟩

theorem infix_words {w s : Str} (hw : ∀ c ∈ w, ws c = false) (hne : w ≠ []) (h : w <:+: s) : ∃ t ∈ words s, w <:+: t := by
  -- by the first blank
  induction n : s.length using Nat.strongRecOn generalizing s with
  | ind n ih =>
    subst n
    by_cases hb : ∃ c ∈ s, ws c = true
    · obtain ⟨c, hc, hcw⟩ := hb
      obtain ⟨a, b, rfl⟩ := List.append_of_mem hc
      have hx : c ∉ w := fun hm => by rw [hw c hm] at hcw; cases hcw
      rw [words_mid a b hcw]
      rcases infix_mid a b hx h with h | h
      · obtain ⟨t, ht, h'⟩ := ih a.length (by simp) h rfl
        exact ⟨t, List.mem_append.2 (.inl ht), h'⟩
      · obtain ⟨t, ht, h'⟩ := ih b.length (by simp; omega) h rfl
        exact ⟨t, List.mem_append.2 (.inr ht), h'⟩
    · have hb' : ∀ c ∈ s, ws c = false := fun c hc => by
        cases h : ws c with
        | false => rfl
        | true => exact absurd ⟨c, hc, h⟩ hb
      have hs : s ≠ [] := by rintro rfl; exact hne (List.infix_nil.1 h)
      rw [words_token hb' hs]
      exact ⟨s, List.mem_singleton.2 rfl, h⟩

theorem words_infix (s t : Str) (ht : t ∈ words s) : t <:+: s := by
  induction n : s.length using Nat.strongRecOn generalizing s with
  | ind n ih =>
    subst n
    by_cases hb : ∃ c ∈ s, ws c = true
    · obtain ⟨c, hc, hcw⟩ := hb
      obtain ⟨a, b, rfl⟩ := List.append_of_mem hc
      rw [words_mid a b hcw, List.mem_append] at ht
      rcases ht with h | h
      · exact (ih a.length (by simp) _ h rfl).trans (List.prefix_append _ _).isInfix
      · exact ((ih b.length (by simp; omega) _ h rfl).trans (List.suffix_cons c b).isInfix).trans (List.suffix_append _ _).isInfix
    · have hb' : ∀ c ∈ s, ws c = false := fun c hc => by
        cases h : ws c with
        | false => rfl
        | true => exact absurd ⟨c, hc, h⟩ hb
      by_cases hs : s = []
      · subst hs; simp [words, splitP] at ht
      · rw [words_token hb' hs, List.mem_singleton] at ht
        rw [ht]; exact List.infix_rfl

/-- A word is found in a text exactly if it is found in one of its words. -/
theorem hasSub_words {w s : Str} (hw : ∀ c ∈ w, ws c = false) (hne : w ≠ []) :
    hasSub w s = (words s).any (hasSub w) := by
  rw [Bool.eq_iff_iff, hasSub_iff, List.any_eq_true]
  constructor
  · intro h
    obtain ⟨t, ht, h'⟩ := infix_words hw hne h
    exact ⟨t, ht, hasSub_iff.2 h'⟩
  · rintro ⟨t, ht, h⟩
    exact (hasSub_iff.1 h).trans (words_infix s t ht)

/-- What comes after text in which the separator is not found, up to a character that is not part of it. -/
theorem splitSub_cross {w a : Str} {m : Char} (b : Str) (hm : m ∉ w) (hne : w ≠ []) (h : ¬ w <:+: a) :
    splitSub w (a ++ m :: b) = (a ++ m :: (splitSub w b).headD []) :: (splitSub w b).tail := by
  unfold splitSub
  induction a with
  | nil =>
    rw [List.nil_append, splitSubAux, if_neg]
    · rfl
    · intro hp
      cases w with
      | nil => exact hne rfl
      | cons y w =>
        have := List.isPrefixOf_iff_prefix.1 hp
        rw [List.cons_prefix_cons] at this
        exact hm (by rw [← this.1]; simp)
  | cons x a ih =>
    have h2 : ¬ w <:+: a := fun hi => h (hi.trans (List.suffix_cons x a).isInfix)
    rw [List.cons_append, splitSubAux, if_neg, ih h2]
    · rfl
    · intro hp
      have hp := List.isPrefixOf_iff_prefix.1 hp
      rcases infix_mid (x :: a) b hm hp.isInfix with h3 | h3
      · exact h h3
      · -- the prefix would have to contain `m` or end before it
        obtain ⟨t, e⟩ := hp
        rw [← List.cons_append] at e
        rcases List.append_eq_append_iff.1 e with ⟨c, hc1, hc2⟩ | ⟨c, hc1, hc2⟩
        · exact h ⟨[], c, by rw [hc1]; simp⟩
        · cases c with
          | nil => exact h ⟨[], [], by rw [hc1]; simp⟩
          | cons y c =>
            rw [List.cons_append, List.cons.injEq] at hc2
            exact hm (by rw [hc1, hc2.1]; simp)

theorem first_ws {s : Str} (h : ∃ c ∈ s, ws c = true) :
    ∃ a c b, s = a ++ c :: b ∧ (∀ d ∈ a, ws d = false) ∧ ws c = true := by
  induction s with
  | nil => obtain ⟨c, hc, _⟩ := h; cases hc
  | cons x s ih =>
    cases hx : ws x with
    | true => exact ⟨[], x, s, rfl, by simp, hx⟩
    | false =>
      obtain ⟨c, hc, hcw⟩ := h
      rcases List.mem_cons.1 hc with rfl | hc
      · rw [hx] at hcw; cases hcw
      · obtain ⟨a, d, b, e, h1, h2⟩ := ih ⟨c, hc, hcw⟩
        refine ⟨x :: a, d, b, by rw [e]; rfl, ?_, h2⟩
        intro y hy
        rcases List.mem_cons.1 hy with rfl | hy
        · exact hx
        · exact h1 y hy

/-- The first word of a text. -/
theorem words_cons_form {s t : Str} {l : List Str} (h : words s = t :: l) :
    ∃ pre rest, s = pre ++ (t ++ rest) ∧ (∀ c ∈ pre, ws c = true) ∧ t ≠ [] ∧ (∀ c ∈ t, ws c = false) ∧ words rest = l ∧
      (rest = [] ∨ ∃ x r, rest = x :: r ∧ ws x = true) := by
  have ht := words_tokens s t (by rw [h]; exact List.mem_cons_self)
  induction s with
  | nil => simp [words, splitP] at h
  | cons x s ih =>
    cases hx : ws x with
    | true =>
      rw [words_cons_ws s hx] at h
      obtain ⟨pre, rest, e, h1, h2⟩ := ih h
      exact ⟨x :: pre, rest, by rw [e]; rfl, by
        intro c hc
        rcases List.mem_cons.1 hc with rfl | hc
        · exact hx
        · exact h1 c hc, h2⟩
    | false =>
      -- the word up to the first blank
      by_cases hb : ∃ c ∈ x :: s, ws c = true
      · obtain ⟨a, c, b, e, ha, hc⟩ := first_ws hb
        rw [e, words_mid a b hc] at h
        have hane : a ≠ [] := by
          rintro rfl
          rw [List.nil_append, List.cons.injEq] at e
          rw [e.1, hc] at hx; cases hx
        rw [words_token ha hane, List.cons_append, List.cons.injEq, List.nil_append] at h
        refine ⟨[], c :: b, by rw [e, h.1]; rfl, by simp, ht.1, ht.2, ?_, .inr ⟨c, b, rfl, hc⟩⟩
        rw [words_cons_ws _ hc]; exact h.2
      · have hb' : ∀ c ∈ x :: s, ws c = false := fun c hc => by
          cases h : ws c with
          | false => rfl
          | true => exact absurd ⟨c, hc, h⟩ hb
        rw [words_token hb' (by simp), List.cons.injEq] at h
        exact ⟨[], [], by rw [h.1]; simp, by simp, ht.1, ht.2, by rw [← h.2]; rfl, .inl rfl⟩

end Verif.Text
