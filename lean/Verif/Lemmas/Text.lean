import Verif.Base.Text

/-! Facts about the Python string methods of `Base/Text`. -/

namespace Verif.Text

theorem splitP_ne_nil (p : Char → Bool) (s : Str) : splitP p s ≠ [] := by
  cases s with
  | nil => simp [splitP]
  | cons x s => rw [splitP]; split <;> simp

theorem splitP_cons_eta (p : Char → Bool) (s : Str) :
    (splitP p s).headD [] :: (splitP p s).tail = splitP p s := by
  have := splitP_ne_nil p s
  cases h : splitP p s with
  | nil => exact absurd h this
  | cons a l => simp

theorem splitP_none {p : Char → Bool} {s : Str} (h : ∀ c ∈ s, p c = false) : splitP p s = [s] := by
  induction s with
  | nil => rfl
  | cons x s ih =>
    rw [splitP, if_neg (by simp [h x]), ih (fun c hc => h c (List.mem_cons_of_mem _ hc))]
    simp

theorem splitP_append {p : Char → Bool} {a : Str} {c : Char} (s : Str)
    (h : ∀ x ∈ a, p x = false) (hc : p c = true) :
    splitP p (a ++ c :: s) = a :: splitP p s := by
  induction a with
  | nil => simp [splitP, hc]
  | cons x a ih =>
    rw [List.cons_append, splitP, if_neg (by simp [h x]),
      ih (fun c hc => h c (List.mem_cons_of_mem _ hc))]
    simp

/-- No piece contains a separator. -/
theorem splitP_pieces {p : Char → Bool} (s : Str) : ∀ t ∈ splitP p s, ∀ c ∈ t, p c = false := by
  induction s with
  | nil => simp [splitP]
  | cons x s ih =>
    have hne := splitP_ne_nil p s
    rw [splitP]
    cases hs : splitP p s with
    | nil => exact absurd hs hne
    | cons a l =>
      rw [hs] at ih
      split
      · intro t ht c hc
        rcases List.mem_cons.1 ht with rfl | ht
        · simp at hc
        · exact ih t ht c hc
      · rename_i hx
        intro t ht c hc
        simp only [List.headD_cons, List.tail_cons] at ht
        rcases List.mem_cons.1 ht with rfl | ht
        · rcases List.mem_cons.1 hc with rfl | hc
          · simpa using hx
          · exact ih a List.mem_cons_self c hc
        · exact ih t (List.mem_cons_of_mem _ ht) c hc

/-- Cutting the pieces again is the same as cutting at either separator. -/
theorem splitP_flatMap (p q : Char → Bool) (s : Str) :
    (splitP p s).flatMap (splitP q) = splitP (fun c => p c || q c) s := by
  induction s with
  | nil => simp [splitP]
  | cons x s ih =>
    have hne := splitP_ne_nil p s
    by_cases hp : p x = true
    · rw [splitP, if_pos hp, splitP, if_pos (by simp [hp]), List.flatMap_cons, ih]
      simp [splitP]
    · rw [splitP, if_neg hp, List.flatMap_cons, splitP]
      cases hs : splitP p s with
      | nil => exact absurd hs hne
      | cons a l =>
        rw [hs, List.flatMap_cons] at ih
        simp only [List.headD_cons, List.tail_cons]
        rw [splitP, ← ih]
        have hq := splitP_ne_nil q a
        cases hqa : splitP q a with
        | nil => exact absurd hqa hq
        | cons b m =>
          by_cases hqx : q x = true
          · simp [hqx]
          · simp [hqx, hp]

theorem flatMap_filter {α β : Type} (f : α → List β) (r : β → Bool) (l : List α) :
    l.flatMap (fun a => (f a).filter r) = (l.flatMap f).filter r := by
  induction l with
  | nil => rfl
  | cons a l ih => simp [List.flatMap_cons, ih]

theorem splitC_none {c : Char} {s : Str} (h : c ∉ s) : splitC c s = [s] :=
  splitP_none (fun x hx => by simp only [beq_eq_false_iff_ne]; rintro rfl; exact h hx)

theorem splitC_append {c : Char} {a : Str} (s : Str) (h : c ∉ a) :
    splitC c (a ++ c :: s) = a :: splitC c s :=
  splitP_append s (fun x hx => by simp only [beq_eq_false_iff_ne]; rintro rfl; exact h hx)
    (by simp)

theorem splitC_ne_nil (c : Char) (s : Str) : splitC c s ≠ [] := splitP_ne_nil _ s

theorem splitC_pieces (c : Char) (s : Str) : ∀ t ∈ splitC c s, c ∉ t := by
  intro t ht hc
  simpa using splitP_pieces (p := (· == c)) s t ht c hc

theorem splitC_nil (c : Char) : splitC c [] = [[]] := rfl

theorem splitC_cons_self (c : Char) (s : Str) : splitC c (c :: s) = [] :: splitC c s := by
  simp [splitC, splitP]

theorem splitC_cons_ne {c x : Char} (s : Str) (h : x ≠ c) :
    splitC c (x :: s) = (x :: (splitC c s).headD []) :: (splitC c s).tail := by
  simp [splitC, splitP, h]

/-- `sep.join(s.split(sep)) == s` -/
theorem join_splitC (c : Char) (s : Str) : join [c] (splitC c s) = s := by
  induction s with
  | nil => rfl
  | cons x s ih =>
    have hne := splitC_ne_nil c s
    by_cases hx : x = c
    · subst hx
      rw [splitC_cons_self]
      cases hs : splitC x s with
      | nil => exact absurd hs hne
      | cons a l => rw [hs] at ih; simp [join, ih]
    · rw [splitC_cons_ne _ hx]
      cases hs : splitC c s with
      | nil => exact absurd hs hne
      | cons a l =>
        rw [hs] at ih
        cases l with
        | nil => simpa [join] using ih
        | cons b l => simpa [join] using ih

/-- `sep.join(parts).split(sep) == parts` for pieces without the separator. -/
theorem splitC_join {c : Char} {l : List Str} (hne : l ≠ []) (h : ∀ p ∈ l, c ∉ p) :
    splitC c (join [c] l) = l := by
  induction l with
  | nil => exact absurd rfl hne
  | cons p l ih =>
    cases l with
    | nil => simpa [join] using splitC_none (h p List.mem_cons_self)
    | cons q l =>
      rw [join, List.append_assoc, List.singleton_append,
        splitC_append _ (h p List.mem_cons_self), ih (by simp) (fun r hr => h r (List.mem_cons_of_mem _ hr))]

/-- The same with a blank (or any other text) after the separator. -/
theorem splitC_join_pad {c : Char} {pad : Str} (hpad : c ∉ pad) {p : Str} {l : List Str}
    (hp : c ∉ p) (h : ∀ q ∈ l, c ∉ q) :
    splitC c (join (c :: pad) (p :: l)) = p :: l.map (pad ++ ·) := by
  induction l generalizing p with
  | nil => simpa [join] using splitC_none hp
  | cons q l ih =>
    rw [join, List.append_assoc, List.cons_append, splitC_append _ hp]
    have hpre : ∀ (a : Str) (m : List Str), pad ++ join (c :: pad) (a :: m)
        = join (c :: pad) ((pad ++ a) :: m) := by
      intro a m; cases m <;> simp [join]
    rw [hpre]
    have := ih (p := pad ++ q) (by simp [hpad, h q]) (fun r hr => h r (List.mem_cons_of_mem _ hr))
    rw [this]; simp

/-! ## strip -/

theorem dropWhile_append_all {a s : Str} (h : ∀ c ∈ a, ws c = true) :
    (a ++ s).dropWhile ws = s.dropWhile ws := by
  induction a with
  | nil => rfl
  | cons x a ih =>
    rw [List.cons_append, List.dropWhile_cons, if_pos (h x List.mem_cons_self),
      ih (fun c hc => h c (List.mem_cons_of_mem _ hc))]

theorem dropWhile_append_of_exists {s b : Str} (h : ∃ c ∈ s, ws c = false) :
    (s ++ b).dropWhile ws = s.dropWhile ws ++ b := by
  induction s with
  | nil => simp at h
  | cons x s ih =>
    by_cases hx : ws x = true
    · rw [List.cons_append, List.dropWhile_cons, if_pos hx, List.dropWhile_cons, if_pos hx]
      apply ih
      obtain ⟨c, hc, hcw⟩ := h
      rcases List.mem_cons.1 hc with rfl | hc
      · rw [hx] at hcw; exact absurd hcw (by decide)
      · exact ⟨c, hc, hcw⟩
    · rw [List.cons_append, List.dropWhile_cons, if_neg hx, List.dropWhile_cons, if_neg hx]
      rfl

theorem dropWhile_all {s : Str} (h : ∀ c ∈ s, ws c = true) : s.dropWhile ws = [] := by
  have := dropWhile_append_all (s := []) h
  simpa using this

/-- Blanks on either side do not matter. -/
theorem strip_pad {a b : Str} (s : Str) (ha : ∀ c ∈ a, ws c = true) (hb : ∀ c ∈ b, ws c = true) :
    strip (a ++ s ++ b) = strip s := by
  unfold strip lstrip
  rw [List.append_assoc, dropWhile_append_all ha]
  by_cases h : ∃ c ∈ s, ws c = false
  · rw [dropWhile_append_of_exists h]
    unfold rstrip
    rw [List.reverse_append, dropWhile_append_all (by simpa using hb)]
  · have h' : ∀ c ∈ s, ws c = true := by
      intro c hc
      cases hw : ws c with
      | true => rfl
      | false => exact absurd ⟨c, hc, hw⟩ h
    rw [dropWhile_all h', dropWhile_all (by
      intro c hc
      rcases List.mem_append.1 hc with hc | hc
      · exact h' c hc
      · exact hb c hc)]

theorem strip_cons_ws {x : Char} (s : Str) (h : ws x = true) : strip (x :: s) = strip s := by
  simpa using strip_pad (a := [x]) (b := []) s (by simpa using h) (by simp)

theorem strip_append_ws {x : Char} (s : Str) (h : ws x = true) : strip (s ++ [x]) = strip s := by
  simpa using strip_pad (a := []) (b := [x]) s (by simp) (by simpa using h)

/-- A text with blanks at neither end is left alone. -/
theorem strip_of_ends {s : Str} (h1 : ∀ c, s.head? = some c → ws c = false)
    (h2 : ∀ c, s.getLast? = some c → ws c = false) : strip s = s := by
  unfold strip lstrip rstrip
  have hl : s.dropWhile ws = s := by
    cases s with
    | nil => rfl
    | cons x s => rw [List.dropWhile_cons, if_neg (by simp [h1 x rfl])]
  rw [hl]
  have hr : s.reverse.dropWhile ws = s.reverse := by
    cases hrev : s.reverse with
    | nil => rfl
    | cons x r =>
      have : s.getLast? = some x := by
        rw [← List.head?_reverse, hrev]; rfl
      rw [List.dropWhile_cons, if_neg (by simp [h2 x this])]
  rw [hr, List.reverse_reverse]

theorem strip_head {s : Str} {c : Char} (h : (strip s).head? = some c) : ws c = false := by
  unfold strip rstrip lstrip at h
  have hd : ∀ (l : Str) (x : Char), (l.dropWhile ws).head? = some x → ws x = false := by
    intro l x hx
    induction l with
    | nil => simp at hx
    | cons y l ih =>
      rw [List.dropWhile_cons] at hx
      split at hx
      · exact ih hx
      · rename_i hy; simp at hx; subst hx; simpa using hy
  -- the head of a list from which only trailing elements were removed
  have key : ∀ (l : Str), ((l.reverse.dropWhile ws).reverse).head? = some c → l.head? = some c := by
    intro l hl
    have : (l.reverse.dropWhile ws).reverse <+: l := by
      have hs : l.reverse.dropWhile ws <:+ l.reverse := List.dropWhile_suffix ws
      have := List.reverse_prefix.2 hs
      simpa using this
    obtain ⟨t, ht⟩ := this
    rw [← ht]
    cases hm : (l.reverse.dropWhile ws).reverse with
    | nil => rw [hm] at hl; simp at hl
    | cons y m => rw [hm] at hl; simpa using hl
  exact hd s c (key _ h)

theorem strip_last {s : Str} {c : Char} (h : (strip s).getLast? = some c) : ws c = false := by
  unfold strip rstrip at h
  rw [List.getLast?_reverse] at h
  generalize (lstrip s).reverse = l at h
  induction l with
  | nil => simp at h
  | cons y l ih =>
    rw [List.dropWhile_cons] at h
    split at h
    · exact ih h
    · rename_i hy; simp at h; subst h; simpa using hy

/-- `s.strip().strip() == s.strip()` -/
theorem strip_strip (s : Str) : strip (strip s) = strip s :=
  strip_of_ends (fun _ h => strip_head h) (fun _ h => strip_last h)

theorem strip_sublist (s : Str) : List.Sublist (strip s) s := by
  unfold strip rstrip lstrip
  have h1 : List.Sublist (((s.dropWhile ws).reverse).dropWhile ws) (s.dropWhile ws).reverse :=
    List.dropWhile_sublist ws
  have := h1.reverse
  rw [List.reverse_reverse] at this
  exact this.trans (List.dropWhile_sublist ws)

theorem mem_of_mem_strip {s : Str} {c : Char} (h : c ∈ strip s) : c ∈ s := (strip_sublist s).mem h

/-- Only blanks are removed. -/
theorem strip_eq_nil {s : Str} : strip s = [] ↔ ∀ c ∈ s, ws c = true := by
  constructor
  · intro h c hc
    cases hw : ws c with
    | true => rfl
    | false =>
      exfalso
      unfold strip rstrip lstrip at h
      rw [List.reverse_eq_nil_iff] at h
      have hd : ∀ (l : Str), l.dropWhile ws = [] → ∀ x ∈ l, ws x = true := by
        intro l hl x hx
        induction l with
        | nil => simp at hx
        | cons y l ih =>
          rw [List.dropWhile_cons] at hl
          split at hl
          · rename_i hy
            rcases List.mem_cons.1 hx with rfl | hx
            · exact hy
            · exact ih hl hx
          · simp at hl
      have hall := hd _ h
      have : s.dropWhile ws = [] := by
        cases hs : s.dropWhile ws with
        | nil => rfl
        | cons y m =>
          exfalso
          have hy : ws y = true := hall y (by rw [hs]; simp)
          have hh : ∀ (l : Str) (x : Char), (l.dropWhile ws).head? = some x → ws x = false := by
            intro l x hx
            induction l with
            | nil => simp at hx
            | cons z l ih =>
              rw [List.dropWhile_cons] at hx
              split at hx
              · exact ih hx
              · rename_i hz; simp at hx; subst hx; simpa using hz
          have := hh s y (by rw [hs]; rfl)
          rw [hy] at this; exact absurd this (by decide)
      have := hd _ this c hc
      rw [hw] at this; exact absurd this (by decide)
  · intro h
    unfold strip lstrip
    rw [dropWhile_all h]; rfl

/-! ## find -/

theorem isPrefixOf_append (sub b : Str) : sub.isPrefixOf (sub ++ b) = true := by
  rw [List.isPrefixOf_iff_prefix]; exact List.prefix_append _ _

theorem find_singleton {c : Char} {s : Str} (h : c ∉ s) : find [c] s = none := by
  induction s with
  | nil => simp [find]
  | cons x s ih =>
    rw [find, if_neg, ih (fun hm => h (List.mem_cons_of_mem _ hm))]
    · rfl
    · have : c ≠ x := by rintro rfl; exact h List.mem_cons_self
      simp [List.isPrefixOf, this]

theorem find_char_append {c : Char} {a : Str} (b : Str) (h : c ∉ a) :
    find [c] (a ++ c :: b) = some a.length := by
  induction a with
  | nil => simp [find, List.isPrefixOf]
  | cons x a ih =>
    have : c ≠ x := by rintro rfl; exact h List.mem_cons_self
    rw [List.cons_append, find, if_neg (by simp [List.isPrefixOf, this]),
      ih (fun hm => h (List.mem_cons_of_mem _ hm))]
    simp

theorem find_le {sub s : Str} {i : Nat} (h : find sub s = some i) :
    sub <+: s.drop i := by
  induction s generalizing i with
  | nil =>
    rw [find] at h
    split at h
    · rename_i he
      simp at h; subst h
      have : sub = [] := by simpa using he
      simp [this]
    · simp at h
  | cons x s ih =>
    rw [find] at h
    split at h
    · rename_i hp
      simp at h; subst h
      simpa using List.isPrefixOf_iff_prefix.1 hp
    · cases hf : find sub s with
      | none => rw [hf] at h; simp at h
      | some j =>
        rw [hf] at h; simp at h; subst h
        simpa using ih hf

theorem find_none {sub s : Str} (h : find sub s = none) : ¬ sub <:+: s := by
  induction s with
  | nil =>
    rw [find] at h
    split at h
    · simp at h
    · rename_i he
      intro hi
      have := List.eq_nil_of_infix_nil hi
      simp [this] at he
  | cons x s ih =>
    rw [find] at h
    split at h
    · simp at h
    · rename_i hp
      have hf : find sub s = none := by
        cases hf : find sub s with
        | none => rfl
        | some j => rw [hf] at h; simp at h
      intro hi
      rcases List.infix_cons_iff.1 hi with h1 | h1
      · exact hp (List.isPrefixOf_iff_prefix.2 h1)
      · exact ih hf h1

theorem hasSub_iff {sub s : Str} : hasSub sub s = true ↔ sub <:+: s := by
  constructor
  · intro h
    obtain ⟨i, hi⟩ := Option.isSome_iff_exists.1 h
    have := find_le hi
    exact this.isInfix.trans (List.drop_suffix i s).isInfix
  · intro h
    cases hf : find sub s with
    | none => exact absurd h (find_none hf)
    | some i => simp [hasSub, hf]

/-! ## split(c, 1) -/

theorem split1_none {c : Char} {s : Str} (h : c ∉ s) : split1 c s = (s, none) := by
  induction s with
  | nil => rfl
  | cons x s ih =>
    have : x ≠ c := by rintro rfl; exact h List.mem_cons_self
    rw [split1, if_neg this, ih (fun hm => h (List.mem_cons_of_mem _ hm))]

theorem split1_append {c : Char} {a : Str} (b : Str) (h : c ∉ a) :
    split1 c (a ++ c :: b) = (a, some b) := by
  induction a with
  | nil => simp [split1]
  | cons x a ih =>
    have : x ≠ c := by rintro rfl; exact h List.mem_cons_self
    rw [List.cons_append, split1, if_neg this, ih (fun hm => h (List.mem_cons_of_mem _ hm))]

/-! ## words -/

theorem words_strip (s : Str) : words (strip s) = words s := by
  have h1 : ∀ l : Str, words (l.dropWhile ws) = words l := by
    intro l
    induction l with
    | nil => rfl
    | cons x l ih =>
      rw [List.dropWhile_cons]
      split
      · rename_i hx
        rw [ih]; simp [words, splitP, hx]
      · rfl
  have h2 : ∀ (l : Str) (x : Char), ws x = true → words (l ++ [x]) = words l := by
    intro l x hx
    induction l with
    | nil => simp [words, splitP, hx]
    | cons y l ih =>
      have hne1 := splitP_ne_nil ws (l ++ [x])
      have hne2 := splitP_ne_nil ws l
      have hsp : ∀ l : Str, splitP ws (l ++ [x]) = splitP ws l ++ [[]] := by
        intro l
        induction l with
        | nil => simp [splitP, hx]
        | cons z l ih =>
          rw [List.cons_append, splitP, splitP, ih]
          have := splitP_ne_nil ws l
          cases hl : splitP ws l with
          | nil => exact absurd hl this
          | cons a m => split <;> simp
      unfold words
      rw [hsp]; simp
  have h3 : ∀ l : Str, words (rstrip l) = words l := by
    intro l
    unfold rstrip
    have : ∀ r : Str, words ((r.dropWhile ws).reverse) = words r.reverse := by
      intro r
      induction r with
      | nil => rfl
      | cons x r ih =>
        rw [List.dropWhile_cons]
        split
        · rename_i hx; rw [ih, List.reverse_cons, h2 _ _ hx]
        · rfl
    rw [this, List.reverse_reverse]
  unfold strip lstrip
  rw [h3, h1]

theorem words_append {a : Str} {x : Char} (s : Str) (h : ∀ c ∈ a, ws c = false)
    (hne : a ≠ []) (hx : ws x = true) : words (a ++ x :: s) = a :: words s := by
  unfold words
  rw [splitP_append s h hx, List.filter_cons, if_pos (by simpa using hne)]

theorem words_cons_ws {x : Char} (s : Str) (hx : ws x = true) : words (x :: s) = words s := by
  simp [words, splitP, hx]

theorem words_token {a : Str} (h : ∀ c ∈ a, ws c = false) (hne : a ≠ []) : words a = [a] := by
  unfold words
  rw [splitP_none h, List.filter_cons, if_pos (by simpa using hne)]; rfl

/-- Every word is a token. -/
theorem words_tokens (s : Str) : ∀ t ∈ words s, t ≠ [] ∧ ∀ c ∈ t, ws c = false := by
  intro t ht
  unfold words at ht
  obtain ⟨h1, h2⟩ := List.mem_filter.1 ht
  exact ⟨by simpa using h2, splitP_pieces s t h1⟩

/-! ## replace -/

theorem replaceC_none {a : Char} {b s : Str} (h : a ∉ s) : replaceC a b s = s := by
  induction s with
  | nil => rfl
  | cons x s ih =>
    have : x ≠ a := by rintro rfl; exact h List.mem_cons_self
    unfold replaceC at ih ⊢
    rw [List.flatMap_cons, if_neg this, ih (fun hm => h (List.mem_cons_of_mem _ hm))]; rfl

/-! ## separators of several characters -/

theorem splitSub_none {sub s : Str} (h : ¬ sub <:+: s) : splitSub sub s = [s] := by
  unfold splitSub
  induction s with
  | nil => rfl
  | cons x s ih =>
    have h1 : ¬ sub <+: x :: s := fun hp => h hp.isInfix
    have h2 : ¬ sub <:+: s := fun hi => h (hi.trans (List.suffix_cons x s).isInfix)
    rw [splitSubAux, if_neg (fun hp => h1 (List.isPrefixOf_iff_prefix.1 hp)), ih h2]
    rfl

theorem splitSubAux_skip (sub a s : Str) : splitSubAux sub a.length (a ++ s) = splitSubAux sub 0 s := by
  induction a with
  | nil => rfl
  | cons x a ih => rw [List.length_cons, List.cons_append, splitSubAux, ih]

theorem splitSub_start {sub : Str} (s : Str) (h : sub ≠ []) :
    splitSub sub (sub ++ s) = [] :: splitSub sub s := by
  unfold splitSub
  cases sub with
  | nil => exact absurd rfl h
  | cons x sub =>
    rw [List.cons_append, splitSubAux, if_pos]
    · simp only [List.length_cons, Nat.add_sub_cancel]
      rw [splitSubAux_skip]
    · rw [← List.cons_append]; exact isPrefixOf_append _ _

/-- A separator `w ++ [m]` whose mark `m` occurs neither in `w` nor in the text before it is
found where it was written. -/
theorem not_prefix_of_mark {w x y : Str} {m : Char} (hx : m ∉ x) (hw : m ∉ w) (hne : x ≠ []) :
    ¬ (w ++ [m]) <+: x ++ ((w ++ [m]) ++ y) := by
  intro hp
  have hlen : (w ++ [m]).length ≤ (x ++ w).length := by
    have : 0 < x.length := List.length_pos_iff.2 hne
    simp; omega
  have hp2 : x ++ w <+: x ++ ((w ++ [m]) ++ y) := ⟨m :: y, by simp⟩
  have h3 : (w ++ [m]) <+: x ++ w := List.prefix_of_prefix_length_le hp hp2 hlen
  have hm : m ∈ x ++ w := h3.subset (by simp)
  rcases List.mem_append.1 hm with h | h
  · exact hx h
  · exact hw h

theorem find_mark {w x : Str} {m : Char} (y : Str) (hx : m ∉ x) (hw : m ∉ w) :
    find (w ++ [m]) (x ++ ((w ++ [m]) ++ y)) = some x.length := by
  induction x with
  | nil =>
    have hpre : (w ++ [m]).isPrefixOf ((w ++ [m]) ++ y) = true := isPrefixOf_append _ _
    rw [List.nil_append]
    cases hl : (w ++ [m]) ++ y with
    | nil => simp at hl
    | cons z l => rw [hl] at hpre; rw [find, if_pos hpre]; rfl
  | cons z x ih =>
    have hnp := not_prefix_of_mark (y := y) hx hw (by simp)
    rw [List.cons_append] at hnp ⊢
    rw [find, if_neg (fun h => hnp (List.isPrefixOf_iff_prefix.1 h)),
      ih (fun h => hx (List.mem_cons_of_mem _ h))]
    simp

theorem splitOnce_mark {w x : Str} {m : Char} (y : Str) (hx : m ∉ x) (hw : m ∉ w) :
    splitOnce (w ++ [m]) (x ++ ((w ++ [m]) ++ y)) = (x, some y) := by
  unfold splitOnce
  rw [find_mark y hx hw]
  simp only [List.take_left', Prod.mk.injEq, true_and, Option.some.injEq]
  have e : x ++ ((w ++ [m]) ++ y) = (x ++ (w ++ [m])) ++ y := by simp
  rw [e, List.drop_left' (by simp)]

theorem splitSub_mark {w x : Str} {m : Char} (y : Str) (hx : m ∉ x) (hw : m ∉ w) :
    splitSub (w ++ [m]) (x ++ ((w ++ [m]) ++ y)) = x :: splitSub (w ++ [m]) y := by
  induction x with
  | nil => exact splitSub_start y (by simp)
  | cons z x ih =>
    have hnp := not_prefix_of_mark (y := y) hx hw (by simp)
    have ih := ih (fun h => hx (List.mem_cons_of_mem _ h))
    unfold splitSub at ih ⊢
    rw [List.cons_append] at hnp ⊢
    rw [splitSubAux, if_neg (fun h => hnp (List.isPrefixOf_iff_prefix.1 h)), ih]
    rfl

theorem not_infix_of_not_mem {c : Char} {sub s : Str} (hc : c ∈ sub) (h : c ∉ s) :
    ¬ sub <:+: s := fun hi => h (hi.subset hc)

end Verif.Text
