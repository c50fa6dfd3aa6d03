import Verif.Model.ListFields
import Verif.Lemmas.Text
import Verif.Lemmas.Words
import Mathlib.Tactic.Linarith
import Mathlib.Data.Rat.Floor
import Mathlib.Tactic.NormNum

/-! # C371-C373: values that may be given in several forms -/

namespace Verif.ListFields
open Verif.Text

/-! ### Integers as texts -/

theorem ws_digit {c : Char} (h : c.isDigit = true) : ws c = false := by
  simp only [Char.isDigit, Bool.and_eq_true, decide_eq_true_eq] at h
  obtain ⟨h1, h2⟩ := h
  have h1' : 48 ≤ c.toNat := h1
  have h2' : c.toNat ≤ 57 := h2
  exact ws_range ⟨by omega, by omega⟩

theorem showInt_chars {n : ℤ} {c : Char} (h : c ∈ showInt n) : c.isDigit = true ∨ c = '-' := by
  unfold showInt at h
  split at h
  · rcases List.mem_cons.1 h with rfl | h
    · exact Or.inr rfl
    · exact Or.inl (digit_of_mem_showNat h)
  · exact Or.inl (digit_of_mem_showNat h)

theorem showInt_ws {n : ℤ} {c : Char} (h : c ∈ showInt n) : ws c = false := by
  rcases showInt_chars h with h | rfl
  · exact ws_digit h
  · decide

theorem strip_clean {s : Str} (h : ∀ c ∈ s, ws c = false) : strip s = s :=
  strip_of_ends (fun c hc => h c (List.mem_of_mem_head? hc)) (fun c hc => h c (List.mem_of_mem_getLast? hc))

theorem parseDigits_showNat (n : ℕ) : parseDigits (showNat n) = some n := by
  unfold parseDigits
  rw [if_pos ⟨showNat_ne_nil n, List.all_eq_true.2 (fun c hc => digit_of_mem_showNat hc)⟩, digitsVal_showNat]

theorem intOf_showInt (n : ℤ) : intOf (showInt n) = .ok n := by
  unfold intOf
  rw [strip_clean (fun c => showInt_ws)]
  unfold showInt
  by_cases hn : n < 0
  · rw [if_pos hn]
    simp only [parseDigits_showNat, Option.elim]
    congr 1; omega
  · rw [if_neg hn]
    have hd : ∀ c ∈ showNat n.natAbs, c ≠ '-' ∧ c ≠ '+' := by
      intro c hc
      have := digit_of_mem_showNat hc
      constructor <;> (rintro rfl; exact absurd this (by decide))
    have hp := parseDigits_showNat n.natAbs
    generalize showNat n.natAbs = s at hd hp
    split
    · exact absurd rfl (hd '-' (by simp)).1
    · exact absurd rfl (hd '+' (by simp)).2
    · rw [hp]
      simp only [Option.elim]
      congr 1; omega

theorem intOf_pad (s : Str) : intOf (' ' :: s) = intOf s := by
  unfold intOf
  rw [strip_cons_ws s (by decide)]

/-! ### C371: ratings -/

/-- The number that is given, as a number or as the text that `str` makes of an integer. -/
def Is (v : Val) (n : ℤ) : Prop := v = .int n ∨ v = .float (.fin n) ∨ v = .text (showInt n)

/-- C371: a rating is held if it is one of 0 to 5, as given; a number that is none of these is refused. -/
def C371_claim : Prop := (∀ v n, Is v n → 0 ≤ n → n ≤ 5 → rating (some v) = .ok (some n)) ∧
  ∀ (q : ℚ) n, rating (some (.float (.fin q))) = .ok (some n) → q = n

theorem trunc_cast (n : ℤ) : trunc (n : ℚ) = n := by
  unfold trunc
  split
  · rw [← Int.cast_neg, Int.floor_intCast]; omega
  · exact Int.floor_intCast n

theorem showInt_not_null (n : ℤ) : isNull (some (.text (showInt n))) = false := by
  have hne : showInt n ≠ [] := by
    unfold showInt
    split
    · simp
    · exact showNat_ne_nil _
  have hc : ∀ c ∈ showInt n, c.isDigit = true ∨ c = '-' := fun c => showInt_chars
  show nullTexts.contains (showInt n) = false
  by_contra h
  have h : showInt n ∈ nullTexts := by simpa using h
  generalize showInt n = s at hne hc h
  have key : ∀ w ∈ nullTexts, w = [] ∨ ∃ c ∈ w, (c.isDigit || c == '-') = false := by decide +kernel
  rcases key s h with e | ⟨c, m, e⟩
  · exact hne e
  · have := hc c m
    simp only [Bool.or_eq_false_iff, beq_eq_false_iff_ne] at e
    rcases this with x | x
    · rw [x] at e; exact absurd e.1 (by decide)
    · exact e.2 x

theorem toInt_is {v : Val} {n : ℤ} (h : Is v n) : toInt v = .ok n := by
  rcases h with rfl | rfl | rfl
  · rfl
  · show Except.ok (trunc (n : ℚ)) = _; rw [trunc_cast]
  · exact intOf_showInt n

theorem rating_some {v : Val} (h : isNull (some v) = false) {n : ℤ} (hn : toInt v = .ok n) :
    rating (some v) = if n < 0 ∨ n > 5 then .error .valueError else .ok (some n) := by
  unfold rating
  rw [if_neg (by rw [h]; decide)]
  simp only [hn]

theorem null_is {v : Val} {n : ℤ} (h : Is v n) : isNull (some v) = false := by
  rcases h with rfl | rfl | rfl
  · rfl
  · rfl
  · exact showInt_not_null n

/-- C371 (part): an integer, as a number or as a text, is held if and only if it is one of 0 to 5, and refused otherwise. -/
theorem C371_int_partial (v : Val) (n : ℤ) (h : Is v n) :
    rating (some v) = if 0 ≤ n ∧ n ≤ 5 then .ok (some n) else .error .valueError := by
  rw [rating_some (null_is h) (toInt_is h)]
  by_cases c : 0 ≤ n ∧ n ≤ 5
  · rw [if_pos c, if_neg (by omega)]
  · rw [if_neg c, if_pos (by omega)]

/-- C371 (part): whatever is given, what is held is one of 0 to 5 or nothing, and nothing stands for None and texts for none only. -/
theorem C371_range_partial (v : Option Val) :
    (∀ n, rating v = .ok (some n) → 0 ≤ n ∧ n ≤ 5) ∧
    (rating v = .ok none ↔ v = none ∨ ∃ s, v = some (.text s) ∧ s ∈ ["".toList, "null".toList, "None".toList, "NONE".toList, "NULL".toList,
      "Null".toList, "none".toList, "1980-01-01T00:00:00".toList, "1980-01-01T00:00:00+00:00".toList]) := by
  cases v with
  | none => exact ⟨fun n h => (nomatch (show (Except.ok none : Except PyErr (Option ℤ)) = .ok (some n) from h)), fun _ => Or.inl rfl, fun _ => rfl⟩
  | some v =>
    by_cases hnull : isNull (some v) = true
    · have hr : rating (some v) = .ok none := if_pos hnull
      refine ⟨fun n h => ?_, fun _ => ?_, fun _ => hr⟩
      · rw [hr] at h; cases h
      · cases v with
        | int n => cases hnull
        | float x => cases hnull
        | text s => exact Or.inr ⟨s, rfl, List.contains_iff_mem.1 hnull⟩
    · have hf : isNull (some v) = false := by simpa using hnull
      cases e : toInt v with
      | error x =>
        have hr : rating (some v) = .error x := by
          unfold rating
          rw [if_neg hnull]
          simp only [e]
        rw [hr]
        refine ⟨fun n h => (nomatch h), fun h => (nomatch h), ?_⟩
        rintro (h | ⟨s, h, m⟩)
        · cases h
        · cases h; exact absurd (List.contains_iff_mem.2 m) hnull
      | ok n =>
        rw [rating_some hf e]
        refine ⟨fun m h => ?_, fun h => ?_, ?_⟩
        · split at h
          · cases h
          · cases h; omega
        · split at h <;> cases h
        · rintro (h | ⟨s, h, m⟩)
          · cases h
          · cases h; exact absurd (List.contains_iff_mem.2 m) hnull

/-- C371 (part): numbers between integers are held as the next integer towards zero: all that are above -1 and below 6 are taken. -/
theorem C371_float_partial (q : ℚ) : (-1 < q ∧ q < 6 → rating (some (.float (.fin q))) = .ok (some ⌊max q 0⌋)) ∧
    (q ≤ -1 ∨ 6 ≤ q → rating (some (.float (.fin q))) = .error .valueError) := by
  have hr := rating_some (v := .float (.fin q)) rfl (n := trunc q) rfl
  rw [hr]
  constructor
  · rintro ⟨h1, h2⟩
    have ht : trunc q = ⌊max q 0⌋ := by
      unfold trunc
      by_cases c : q < 0
      · rw [if_pos c, max_eq_right c.le]
        have : ⌊-q⌋ = 0 := Int.floor_eq_iff.2 ⟨by push_cast; linarith, by push_cast; linarith⟩
        rw [this]; simp
      · rw [if_neg c, max_eq_left (not_lt.1 c)]
    have hlo : 0 ≤ ⌊max q 0⌋ := Int.floor_nonneg.2 (le_max_right _ _)
    have hhi : ⌊max q 0⌋ < 6 := Int.floor_lt.2 (max_lt (by push_cast; exact h2) (by norm_num))
    rw [ht, if_neg (by omega)]
  · intro h
    refine if_pos ?_
    unfold trunc
    rcases h with h | h
    · left
      rw [if_pos (by linarith)]
      have : 1 ≤ ⌊-q⌋ := Int.le_floor.2 (by push_cast; linarith)
      omega
    · right
      rw [if_neg (by linarith)]
      have : 6 ≤ ⌊q⌋ := Int.le_floor.2 (by push_cast; exact h)
      omega

/-- C371 (part): values that are no numbers are refused; infinite ones with an OverflowError. -/
theorem C371_inf_partial (b : Bool) : rating (some (.float .nan)) = .error .valueError ∧ rating (some (.float (.inf b))) = .error .overflowError :=
  ⟨rfl, rfl⟩

/-- C371 is false: 5.9 is held as 5. -/
theorem C371_refuted : ¬ C371_claim := by
  intro h
  have hf := (C371_float_partial (59 / 10)).1 ⟨by norm_num, by norm_num⟩
  have := h.2 _ _ hf
  have e : ⌊max (59 / 10 : ℚ) 0⌋ = 5 := Int.floor_eq_iff.2 ⟨by norm_num, by norm_num⟩
  rw [e] at this
  norm_num at this

example : rating (some (.text "4".toList)) = .ok (some 4) := by decide +kernel

/-! ### C372: indices of blocks -/

/-- `str(list)` of integers -/
def listText (l : List ℤ) : Str := '[' :: (join ", ".toList (l.map showInt) ++ [']'])

/-- C372: indices given as the text of a list are those of the list. -/
def C372_claim : Prop := ∀ l : List ℤ, indices (.one (.text (listText l))) = .ok l

theorem join_chars {l : List Str} {sep : Str} {c : Char} (h : c ∈ join sep l) : c ∈ sep ∨ ∃ s ∈ l, c ∈ s := by
  induction l with
  | nil => cases h
  | cons a l ih =>
    cases l with
    | nil => exact Or.inr ⟨a, by simp, by simpa [join] using h⟩
    | cons b l =>
      have e : join sep (a :: b :: l) = a ++ sep ++ join sep (b :: l) := rfl
      rw [e] at h
      rcases List.mem_append.1 h with h | h
      · rcases List.mem_append.1 h with h | h
        · exact Or.inr ⟨a, by simp, h⟩
        · exact Or.inl h
      · rcases ih h with h | ⟨s, m, h⟩
        · exact Or.inl h
        · exact Or.inr ⟨s, by simp [m], h⟩

theorem dropWhile_none {p : Char → Bool} {s : Str} (h : ∀ c ∈ s, p c = false) : s.dropWhile p = s := by
  cases s with
  | nil => rfl
  | cons c s => rw [List.dropWhile_cons_of_neg (by rw [h c (by simp)]; decide)]

theorem stripBrackets_around {t : Str} (h : ∀ c ∈ t, c ≠ '[' ∧ c ≠ ']') : stripBrackets ('[' :: (t ++ [']'])) = t := by
  unfold stripBrackets
  simp only
  have hp : ∀ c ∈ t, (c == '[' || c == ']') = false := by
    intro c hc
    simp [(h c hc).1, (h c hc).2]
  rw [List.dropWhile_cons_of_pos (by decide)]
  cases t with
  | nil => decide
  | cons x t =>
    rw [List.cons_append, List.dropWhile_cons_of_neg (by rw [hp x (by simp)]; decide), ← List.cons_append, List.reverse_append]
    show (List.dropWhile _ (']' :: (x :: t).reverse)).reverse = _
    rw [List.dropWhile_cons_of_pos (by decide), dropWhile_none (fun c hc => hp c (List.mem_reverse.1 hc)), List.reverse_reverse]

/-- Which entries of the text are taken. -/
def taken (i : Str) : Bool := !(strip i).isEmpty && (strip i).all Char.isDigit

theorem taken_showInt (n : ℤ) : taken (showInt n) = decide (0 ≤ n) := by
  unfold taken
  rw [strip_clean (fun c => showInt_ws)]
  unfold showInt
  by_cases hn : n < 0
  · rw [if_pos hn]
    have : decide (0 ≤ n) = false := by simp [hn]
    rw [this, List.all_cons]
    have : Char.isDigit '-' = false := by decide
    rw [this]; simp
  · rw [if_neg hn]
    have : decide (0 ≤ n) = true := by simp; omega
    rw [this, List.all_eq_true.2 (fun c hc => digit_of_mem_showNat hc)]
    have := showNat_ne_nil n.natAbs
    simp [List.isEmpty_iff, this]

theorem taken_pad (s : Str) : taken (' ' :: s) = taken s := by
  unfold taken
  rw [strip_cons_ws s (by decide)]

theorem mapM_entries (l : List ℤ) : ((l.map (fun n => ' ' :: showInt n)).filter taken).mapM intOf = .ok (l.filter (fun n => decide (0 ≤ n))) := by
  induction l with
  | nil => rfl
  | cons n l ih =>
    rw [List.map_cons]
    by_cases h : 0 ≤ n
    · rw [List.filter_cons_of_pos (by rw [taken_pad, taken_showInt]; simpa using h), List.filter_cons_of_pos (by simpa using h), List.mapM_cons,
        intOf_pad, intOf_showInt, ih]
      rfl
    · rw [List.filter_cons_of_neg (by rw [taken_pad, taken_showInt]; simpa using h), List.filter_cons_of_neg (by simpa using h), ih]

/-- C372 (part): the indices of the list that are not negative are read, in their order; the negative ones are left out. -/
theorem C372_text_partial (l : List ℤ) : indices (.one (.text (listText l))) = .ok (l.filter (fun n => decide (0 ≤ n))) := by
  have hb : ∀ c ∈ join ", ".toList (l.map showInt), c ≠ '[' ∧ c ≠ ']' := by
    intro c hc
    rcases join_chars hc with h | ⟨s, m, h⟩
    · have : ∀ c ∈ (", ".toList : Str), c ≠ '[' ∧ c ≠ ']' := by decide
      exact this c h
    · obtain ⟨n, _, rfl⟩ := List.mem_map.1 m
      rcases showInt_chars h with h | rfl
      · constructor <;> (rintro rfl; exact absurd h (by decide))
      · decide
  show textIndices (listText l) = _
  unfold textIndices listText
  rw [stripBrackets_around hb]
  show ((splitC ',' (join ", ".toList (l.map showInt))).filter taken).mapM intOf = _
  cases l with
  | nil => decide
  | cons n l =>
    have hcm : ∀ m : ℤ, ',' ∉ showInt m := by
      intro m h
      rcases showInt_chars h with h | h
      · exact absurd h (by decide)
      · exact absurd h (by decide)
    have e := splitC_join_pad (c := ',') (pad := " ".toList) (by decide) (p := showInt n) (l := l.map showInt) (hcm n)
      (fun q hq => by obtain ⟨m, _, rfl⟩ := List.mem_map.1 hq; exact hcm m)
    have e2 : (", ".toList : Str) = ',' :: " ".toList := by decide
    rw [List.map_cons, e2, e, List.map_map]
    have e3 : (fun p => " ".toList ++ p) ∘ showInt = fun n => ' ' :: showInt n := rfl
    rw [e3]
    by_cases h : 0 ≤ n
    · rw [List.filter_cons_of_pos (by rw [taken_showInt]; simpa using h), List.filter_cons_of_pos (by simpa using h), List.mapM_cons,
        intOf_showInt, mapM_entries]
      rfl
    · rw [List.filter_cons_of_neg (by rw [taken_showInt]; simpa using h), List.filter_cons_of_neg (by simpa using h), mapM_entries]

/-- C372 (part): a list of integers is taken as it is, an integer alone as a list of one, None as no indices. -/
theorem C372_given_partial (l : List ℤ) (n : ℤ) : indices (.list (l.map .int)) = .ok l ∧ indices (.one (.int n)) = .ok [n] ∧ indices .none = .ok [] := by
  refine ⟨?_, rfl, rfl⟩
  show (l.map Val.int).mapM toInt = _
  induction l with
  | nil => rfl
  | cons n l ih => rw [List.map_cons, List.mapM_cons, ih]; rfl

/-- C372 (part): texts never raise: what is no sequence of digits is left out. -/
theorem C372_total_partial (s : Str) : ∃ l, indices (.one (.text s)) = .ok l ∧ ∀ n ∈ l, 0 ≤ n := by
  show ∃ l, textIndices s = .ok l ∧ _
  unfold textIndices
  generalize splitC ',' (stripBrackets s) = l
  show ∃ r, (l.filter taken).mapM intOf = .ok r ∧ _
  induction l with
  | nil => exact ⟨[], rfl, fun n h => nomatch h⟩
  | cons i l ih =>
    obtain ⟨r, e, hr⟩ := ih
    by_cases h : taken i = true
    · rw [List.filter_cons_of_pos h, List.mapM_cons, e]
      unfold taken at h
      simp only [Bool.and_eq_true, Bool.not_eq_true', List.isEmpty_eq_false_iff] at h
      obtain ⟨h1, h2⟩ := h
      have hi : intOf i = .ok (digitsVal (strip i) : ℤ) := by
        unfold intOf
        have hd : ∀ c ∈ strip i, c ≠ '-' ∧ c ≠ '+' := by
          intro c hc
          have := List.all_eq_true.1 h2 c hc
          constructor <;> (rintro rfl; exact absurd this (by decide))
        have hp : parseDigits (strip i) = some (digitsVal (strip i)) := if_pos ⟨h1, h2⟩
        generalize strip i = t at hd hp
        split
        · exact absurd rfl (hd '-' (by simp)).1
        · exact absurd rfl (hd '+' (by simp)).2
        · rw [hp]; rfl
      rw [hi]
      refine ⟨(digitsVal (strip i) : ℤ) :: r, rfl, ?_⟩
      intro n hn
      rcases List.mem_cons.1 hn with rfl | hn
      · exact Int.natCast_nonneg _
      · exact hr n hn
    · exact ⟨r, by rw [List.filter_cons_of_neg h, e], hr⟩

/-- C372 is false: a negative index is left out. -/
theorem C372_refuted : ¬ C372_claim := by
  intro h
  have := h [-1, 2]
  rw [C372_text_partial] at this
  exact absurd (Except.ok.inj this) (by decide)

example : indices (.one (.text "[1, 2]".toList)) = .ok [1, 2] := by decide +kernel

/-! ### C373: names of sources of money -/

/-- C373: the name of one source, given as a text without blanks at its ends, is the one name. -/
def C373_claim : Prop := ∀ s : Str, strip s = s → sourceNames (.text s) = .ok (some [s])

/-- C373 (part): so it is if and only if there is no comma in the text. -/
theorem C373_iff_partial (s : Str) (h : strip s = s) : sourceNames (.text s) = .ok (some [s]) ↔ ',' ∉ s := by
  constructor
  · intro e hc
    have e1 : (splitC ',' s).map strip = [s] := Option.some.inj (Except.ok.inj e)
    have hlen : (splitC ',' s).length = 1 := by
      have := congrArg List.length e1
      simpa using this
    obtain ⟨x, hx⟩ := List.length_eq_one_iff.1 hlen
    have hj := join_splitC ',' s
    rw [hx] at hj
    have : x = s := by simpa [join] using hj
    subst this
    exact splitC_pieces ',' x x (by rw [hx]; simp) hc
  · intro hc
    show Except.ok (some ((splitC ',' s).map strip)) = _
    rw [splitC_none hc, List.map_cons, List.map_nil, h]

/-- C373 (part): a list of names is taken as it is, names with commas too; None is no names; names without commas may be joined by
commas and blanks. -/
theorem C373_list_partial (l : List Str) : sourceNames (.list l) = .ok (some l) ∧ sourceNames .none = .ok none ∧
    sourceNames .other = .error .typeError ∧
    (l ≠ [] → (∀ n ∈ l, ',' ∉ n ∧ strip n = n) → sourceNames (.text (join ", ".toList l)) = .ok (some l)) := by
  refine ⟨rfl, rfl, rfl, fun hne h => ?_⟩
  show Except.ok (some ((splitC ',' (join ", ".toList l)).map strip)) = _
  cases l with
  | nil => exact absurd rfl hne
  | cons p l =>
    have e := splitC_join_pad (c := ',') (pad := " ".toList) (by decide) (p := p) (l := l) (h p (by simp)).1 (fun q hq => (h q (by simp [hq])).1)
    have e2 : (", ".toList : Str) = ',' :: " ".toList := by decide
    rw [e2, e, List.map_cons, (h p (by simp)).2, List.map_map]
    have : ∀ q ∈ l, (strip ∘ fun p => " ".toList ++ p) q = id q := by
      intro q hq
      have : (" ".toList ++ q : Str) = ' ' :: q := rfl
      simp only [Function.comp, this, strip_cons_ws q (by decide : ws ' ' = true), (h q (by simp [hq])).2, id]
    rw [List.map_congr_left this, List.map_id]

/-- C373 is false: a name with a comma is two. -/
theorem C373_refuted : ¬ C373_claim := by
  intro h
  exact (C373_iff_partial "Smith, J.".toList (by decide +kernel)).1 (h _ (by decide +kernel)) (by decide +kernel)

end Verif.ListFields
