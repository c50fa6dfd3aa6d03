import Verif.Model.IoTools
import Verif.Lemmas.Text
import Verif.Lemmas.OD
import Mathlib.Data.List.Perm.Basic

/-!
# C72, C73, C112: helpers of the transfer function readers
-/

namespace Verif.IoTools
open Verif.Text

/-! ## C72 — key=value lines -/

/-- A key or value: a non-empty word without `=`. -/
def Tok (t : Str) : Prop := t ≠ [] ∧ ∀ c ∈ t, ws c = false ∧ c ≠ '='

def Blank (w : Str) : Prop := ∀ c ∈ w, ws c = true

/-- `Line ps s`: the text `s` spells the pairs `ps` as `key = value`, with any blanks (or none)
around the equal signs and at least one blank between a value and the next key. -/
inductive Line : List (Str × Str) → Str → Prop
  | nil {w} : Blank w → Line [] w
  | cons {w1 w2 w3 k v ps s} : Blank w1 → Blank w2 → Blank w3 → Tok k → Tok v →
      (s = [] ∨ ∃ c s', s = c :: s' ∧ ws c = true) → Line ps s →
      Line ((k, v) :: ps) (w1 ++ (k ++ (w2 ++ '=' :: (w3 ++ (v ++ s)))))

def isSep (c : Char) : Bool := (c == '=') || ws c

theorem strip_token {t : Str} (h : ∀ c ∈ t, ws c = false) : strip t = t :=
  strip_of_ends (fun c hc => h c (List.mem_of_mem_head? hc))
    (fun c hc => h c (List.mem_of_mem_getLast? hc))

/-- The words are the maximal runs without blank or equal sign. -/
theorem tokens_eq (s : Str) :
    tokens s = (splitP isSep s).filter (fun w => !w.isEmpty) := by
  have h1 : ∀ s, (splitC '=' s).flatMap (fun line => (words (strip line)).map strip)
      = (splitP isSep s).filter (fun w => !w.isEmpty) := by
    intro s
    have : (fun line => (words (strip line)).map strip)
        = (fun line : Str => (splitP ws line).filter (fun w => !w.isEmpty)) := by
      funext line
      rw [words_strip]
      have : (words line).map strip = (words line).map id :=
        List.map_congr_left (fun t ht => strip_token (words_tokens line t ht).2)
      rw [this, List.map_id]; rfl
    rw [this, flatMap_filter, splitC, splitP_flatMap]
    rfl
  have h2 : ∀ l : Str, (splitP isSep (l.dropWhile ws)).filter (fun w => !w.isEmpty)
      = (splitP isSep l).filter (fun w => !w.isEmpty) := by
    intro l
    induction l with
    | nil => rfl
    | cons x l ih =>
      rw [List.dropWhile_cons]
      split
      · rename_i hx; rw [ih]; simp [splitP, isSep, hx]
      · rfl
  have h3 : ∀ (l : Str) (x : Char), ws x = true →
      (splitP isSep (l ++ [x])).filter (fun w => !w.isEmpty)
      = (splitP isSep l).filter (fun w => !w.isEmpty) := by
    intro l x hx
    have hsp : ∀ l : Str, splitP isSep (l ++ [x]) = splitP isSep l ++ [[]] := by
      intro l
      induction l with
      | nil => simp [splitP, isSep, hx]
      | cons z l ih =>
        rw [List.cons_append, splitP, splitP, ih]
        have := splitP_ne_nil isSep l
        cases hl : splitP isSep l with
        | nil => exact absurd hl this
        | cons a m => split <;> simp
    rw [hsp]; simp
  have h4 : ∀ r : Str, (splitP isSep ((r.dropWhile ws).reverse)).filter (fun w => !w.isEmpty)
      = (splitP isSep r.reverse).filter (fun w => !w.isEmpty) := by
    intro r
    induction r with
    | nil => rfl
    | cons x r ih =>
      rw [List.dropWhile_cons]
      split
      · rename_i hx; rw [ih, List.reverse_cons, h3 _ _ hx]
      · rfl
  unfold tokens
  rw [h1]
  unfold strip lstrip rstrip
  rw [h4, List.reverse_reverse, h2]

theorem toks_blank {w : Str} (s : Str) (h : ∀ c ∈ w, isSep c = true) :
    (splitP isSep (w ++ s)).filter (fun w => !w.isEmpty)
      = (splitP isSep s).filter (fun w => !w.isEmpty) := by
  induction w with
  | nil => rfl
  | cons x w ih =>
    rw [List.cons_append, splitP, if_pos (h x List.mem_cons_self)]
    simpa using ih (fun c hc => h c (List.mem_cons_of_mem _ hc))

theorem isSep_of_ws {c : Char} (h : ws c = true) : isSep c = true := by simp [isSep, h]

theorem tok_noSep {t : Str} (h : Tok t) : ∀ c ∈ t, isSep c = false := by
  intro c hc
  obtain ⟨h1, h2⟩ := h.2 c hc
  simp [isSep, h1, h2]

theorem toks_tok {t : Str} (s : Str) (ht : Tok t)
    (hs : s = [] ∨ ∃ c s', s = c :: s' ∧ isSep c = true) :
    (splitP isSep (t ++ s)).filter (fun w => !w.isEmpty)
      = t :: (splitP isSep s).filter (fun w => !w.isEmpty) := by
  rcases hs with rfl | ⟨c, s', rfl, hc⟩
  · rw [List.append_nil, splitP_none (tok_noSep ht)]
    simp [splitP, ht.1]
  · rw [splitP_append s' (tok_noSep ht) hc, splitP, if_pos hc]
    simp [ht.1]

/-- The words of a line are its keys and values in order. -/
theorem tokens_line {ps : List (Str × Str)} {s : Str} (h : Line ps s) :
    tokens s = ps.flatMap (fun p => [p.1, p.2]) := by
  rw [tokens_eq]
  induction h with
  | nil hb =>
    rename_i w
    have := toks_blank [] (fun c hc => isSep_of_ws (hb c hc))
    rw [List.append_nil] at this
    rw [this]; rfl
  | cons h1 h2 h3 hk hv hsep hl ih =>
    rename_i w1 w2 w3 k v ps s
    rw [toks_blank _ (fun c hc => isSep_of_ws (h1 c hc)), toks_tok _ hk, List.flatMap_cons]
    · rw [toks_blank _ (fun c hc => isSep_of_ws (h2 c hc))]
      have h4 := toks_blank (w := ['=']) (w3 ++ (v ++ s)) (by simp [isSep])
      simp only [List.singleton_append] at h4
      rw [h4, toks_blank _ (fun c hc => isSep_of_ws (h3 c hc)), toks_tok _ hv, ih]
      · simp
      · rcases hsep with rfl | ⟨c, s', rfl, hc⟩
        · exact .inl rfl
        · exact .inr ⟨c, s', rfl, isSep_of_ws hc⟩
    · cases w2 with
      | nil => exact .inr ⟨'=', _, rfl, by simp [isSep]⟩
      | cons c w2 => exact .inr ⟨c, _, rfl, isSep_of_ws (h2 c List.mem_cons_self)⟩

theorem pairUp_flat (ps : List (Str × Str)) :
    pairUp (ps.flatMap (fun p => [p.1, p.2])) = ps.map (fun p => p.1 ++ '=' :: p.2) := by
  induction ps with
  | nil => rfl
  | cons p ps ih => simp [pairUp, ih]

theorem flat_even (ps : List (Str × Str)) :
    (ps.flatMap (fun p => [p.1, p.2])).length % 2 = 0 := by
  induction ps with
  | nil => rfl
  | cons p ps ih => simp only [List.flatMap_cons, List.length_append, List.length_cons, List.length_nil]; omega

theorem tokens_strip (s : Str) : tokens (strip s) = tokens s := by
  unfold tokens; rw [strip_strip]

theorem validate_of_tokens {s : Str} {ps : List (Str × Str)}
    (h : tokens (dropRemark (dropHead (strip s))) = ps.flatMap (fun p => [p.1, p.2])) :
    validateEquals s = ps.map (fun p => p.1 ++ '=' :: p.2) := by
  unfold validateEquals
  simp only [h]
  rw [if_neg (by rw [flat_even]; simp), pairUp_flat]

/-- Full claim: whatever the (stripped, `=`-free) values are, a line `k=v k=v …` is cut into
its pairs. -/
def C72_claim : Prop :=
  ∀ ps : List (Str × Str), (∀ p ∈ ps, Tok p.1 ∧ strip p.2 = p.2 ∧ '=' ∉ p.2 ∧ '>' ∉ p.1 ++ p.2 ∧ '/' ∉ p.1 ++ p.2) →
    validateEquals (join [' '] (ps.map (fun p => p.1 ++ '=' :: p.2)))
      = ps.map (fun p => p.1 ++ '=' :: p.2)

/-- It fails for a value of two words (`MAXCHAN=7 NAME=Big Hill`): the line has an odd number
of words, and comes back without any equal sign. -/
theorem C72_refuted : ¬ C72_claim := by
  intro h
  have := h [("MAXCHAN".toList, "7".toList), ("NAME".toList, "Big Hill".toList)] (by
    intro p hp
    simp only [List.mem_cons, List.not_mem_nil, or_false] at hp
    rcases hp with rfl | rfl <;> exact ⟨⟨by decide, by decide +kernel⟩, by decide +kernel,
      by decide, by decide, by decide⟩)
  exact absurd this (by decide +kernel)

/-- With an empty value the words are paired across: the key of the next item becomes the
value. -/
theorem C72_empty_value_partial : validateEquals "A= B= C=1 D=2".toList ≠
    ["A=", "B=", "C=1", "D=2"].map String.toList ∧
    validateEquals "A= B= C=1 D=2".toList = ["A=B", "C=1", "D=2"].map String.toList := by
  decide +kernel

/-- A line of words and equal signs is cut into its pairs, whatever blanks surround the equal
signs. -/
theorem C72_pairs_partial (ps : List (Str × Str)) (s : Str) (h : Line ps s)
    (hgt : '>' ∉ s) (hrem : ¬ ['/', '/'] <:+: s) :
    validateEquals s = ps.map (fun p => p.1 ++ '=' :: p.2) := by
  apply validate_of_tokens
  have h1 : dropHead (strip s) = strip s := by
    unfold dropHead; rw [if_neg (fun hm => hgt (mem_of_mem_strip hm))]
  have h2 : dropRemark (strip s) = strip s := by
    unfold dropRemark
    cases hf : find ['/', '/'] (strip s) with
    | none => rfl
    | some i =>
      exfalso
      apply hrem
      have hi : ['/', '/'] <:+: strip s := hasSub_iff.1 (by simp [hasSub, hf])
      have hs : strip s <:+: s := by
        unfold strip rstrip lstrip
        have a1 : (s.dropWhile ws) <:+ s := List.dropWhile_suffix ws
        have a2 : ((s.dropWhile ws).reverse.dropWhile ws).reverse <+: s.dropWhile ws := by
          have hs : (s.dropWhile ws).reverse.dropWhile ws <:+ (s.dropWhile ws).reverse :=
            List.dropWhile_suffix ws
          have := List.reverse_prefix.2 hs
          simpa using this
        exact a2.isInfix.trans a1.isInfix
      exact hi.trans hs
  rw [h1, h2, tokens_strip, tokens_line h]

/-- So the blanks do not matter: two spellings of the same pairs give the same result. -/
theorem C72_spacing_partial (ps : List (Str × Str)) (s t : Str) (hs : Line ps s) (ht : Line ps t)
    (h1 : '>' ∉ s) (h2 : ¬ ['/', '/'] <:+: s) (h3 : '>' ∉ t) (h4 : ¬ ['/', '/'] <:+: t) :
    validateEquals s = validateEquals t := by
  rw [C72_pairs_partial ps s hs h1 h2, C72_pairs_partial ps t ht h3 h4]

/-- The section line of an EDI file (`>HMEAS ID=1 CHTYPE=HX …`): the section name is dropped
and the items after it are kept, all of them. -/
theorem C72_section_partial (ps : List (Str × Str)) (name s : Str) (h : Line ps s)
    (hname : ' ' ∉ name) (hrem : ¬ ['/', '/'] <:+: ' ' :: s) (hne : ps ≠ []) :
    validateEquals ('>' :: (name ++ ' ' :: s)) = ps.map (fun p => p.1 ++ '=' :: p.2) := by
  apply validate_of_tokens
  -- the stripped line still starts with the section name and one blank
  have hlast : ∃ s1 w, s = s1 ++ w ∧ Blank w ∧ s1 ≠ [] ∧ (∀ c, s1.getLast? = some c → ws c = false) := by
    have hns : strip s ≠ [] := by
      intro he
      have h0 := tokens_line h
      have : tokens s = [] := by rw [← tokens_strip, he]; rfl
      rw [this] at h0
      cases ps with
      | nil => exact hne rfl
      | cons p ps => simp at h0
    have hr : s = rstrip s ++ (s.reverse.takeWhile ws).reverse := by
      have := List.takeWhile_append_dropWhile (p := ws) (l := s.reverse)
      have := congrArg List.reverse this
      simp only [List.reverse_append, List.reverse_reverse] at this
      exact this.symm
    refine ⟨rstrip s, (s.reverse.takeWhile ws).reverse, hr, ?_, ?_, ?_⟩
    · intro c hc
      rw [List.mem_reverse] at hc
      have : ∀ (l : Str), ∀ x ∈ l.takeWhile ws, ws x = true := by
        intro l x hx
        induction l with
        | nil => simp at hx
        | cons y l ih =>
          rw [List.takeWhile_cons] at hx
          split at hx
          · rename_i hy
            rcases List.mem_cons.1 hx with rfl | hx
            · exact hy
            · exact ih hx
          · simp at hx
      exact this _ c hc
    · intro he
      apply hns
      rw [strip_eq_nil]
      rw [he, List.nil_append] at hr
      intro c hc
      rw [hr, List.mem_reverse] at hc
      have : ∀ (l : Str), ∀ x ∈ l.takeWhile ws, ws x = true := by
        intro l x hx
        induction l with
        | nil => simp at hx
        | cons y l ih =>
          rw [List.takeWhile_cons] at hx
          split at hx
          · rename_i hy
            rcases List.mem_cons.1 hx with rfl | hx
            · exact hy
            · exact ih hx
          · simp at hx
      exact this _ c hc
    · intro c hc
      unfold rstrip at hc
      rw [List.getLast?_reverse] at hc
      have hd : ∀ (l : Str) (x : Char), (l.dropWhile ws).head? = some x → ws x = false := by
        intro l x hx
        induction l with
        | nil => simp at hx
        | cons y l ih =>
          rw [List.dropWhile_cons] at hx
          split at hx
          · exact ih hx
          · rename_i hy; simp at hx; subst hx; simpa using hy
      exact hd _ _ hc
  obtain ⟨s1, w, hsw, hw, hs1, hs1l⟩ := hlast
  have hstrip : strip ('>' :: (name ++ ' ' :: s)) = '>' :: (name ++ ' ' :: s1) := by
    have e1 : '>' :: (name ++ ' ' :: s) = [] ++ ('>' :: (name ++ ' ' :: s1)) ++ w := by
      rw [hsw]; simp
    rw [e1, strip_pad _ (by simp) hw]
    apply strip_of_ends
    · intro c hc; simp at hc; subst hc; decide +kernel
    · intro c hc
      apply hs1l
      have e2 : '>' :: (name ++ ' ' :: s1) = ('>' :: (name ++ [' '])) ++ s1 := by simp
      rw [e2, List.getLast?_append] at hc
      cases hg : s1.getLast? with
      | none => rw [List.getLast?_eq_none_iff] at hg; exact absurd hg hs1
      | some d => rw [hg] at hc; simpa using hc
  have hhead : dropHead (strip ('>' :: (name ++ ' ' :: s))) = ' ' :: s1 := by
    rw [hstrip]
    unfold dropHead
    rw [if_pos (by simp)]
    have e3 : '>' :: (name ++ ' ' :: s1) = ('>' :: name) ++ ' ' :: s1 := by simp
    rw [e3, find_char_append s1 (by simp [hname])]
    simp
  have hremark : dropRemark (' ' :: s1) = ' ' :: s1 := by
    unfold dropRemark
    cases hf : find ['/', '/'] (' ' :: s1) with
    | none => rfl
    | some i =>
      exfalso
      apply hrem
      have hi : ['/', '/'] <:+: ' ' :: s1 := hasSub_iff.1 (by simp [hasSub, hf])
      have : ' ' :: s1 <:+: ' ' :: s := by
        rw [hsw]; exact ⟨[], w, by simp⟩
      exact hi.trans this
  rw [hhead, hremark]
  have e4 : tokens (' ' :: s1) = tokens s := by
    rw [tokens_eq, tokens_eq]
    have := toks_blank (w := [' ']) s1 (by decide +kernel)
    simp only [List.singleton_append] at this
    rw [this, hsw]
    -- trailing blanks add no word
    have hb : ∀ (w a : Str), Blank w → (splitP isSep (a ++ w)).filter (fun w => !w.isEmpty)
        = (splitP isSep a).filter (fun w => !w.isEmpty) := by
      intro w a hw
      rw [← tokens_eq, ← tokens_eq]
      have := strip_pad (a := []) (b := w) a (by simp) hw
      rw [List.nil_append] at this
      rw [← tokens_strip, this, tokens_strip]
    exact (hb w s1 hw).symm
  rw [e4, tokens_line h]

/-- A remark after `//` is cut off. -/
theorem C72_remark_partial (ps : List (Str × Str)) (s r : Str) (h : Line ps s)
    (hhead : ∃ c s', s = c :: s' ∧ ws c = false) (hgt : '>' ∉ s ++ '/' :: '/' :: r)
    (hr : r ≠ [] → ∃ c, r.getLast? = some c ∧ ws c = false) (hslash : '/' ∉ s) :
    validateEquals (s ++ '/' :: '/' :: r) = ps.map (fun p => p.1 ++ '=' :: p.2) := by
  apply validate_of_tokens
  obtain ⟨c, s', rfl, hc⟩ := hhead
  have h0 : strip ((c :: s') ++ '/' :: '/' :: r) = (c :: s') ++ '/' :: '/' :: r := by
    apply strip_of_ends
    · intro d hd; simp at hd; subst hd; exact hc
    · intro d hd
      cases r with
      | nil =>
        have e2 : (c :: s') ++ ['/', '/'] = ((c :: s') ++ ['/']) ++ ['/'] := by simp
        rw [e2, List.getLast?_append] at hd
        simp at hd; subst hd; decide +kernel
      | cons x r =>
        obtain ⟨e, he, hew⟩ := hr (by simp)
        have e2 : (c :: s') ++ '/' :: '/' :: x :: r = ((c :: s') ++ ['/', '/']) ++ (x :: r) := by simp
        rw [e2, List.getLast?_append, he] at hd
        simp at hd; subst hd; exact hew
  rw [h0]
  have h1 : dropHead ((c :: s') ++ '/' :: '/' :: r) = (c :: s') ++ '/' :: '/' :: r := by
    unfold dropHead; rw [if_neg hgt]
  have hfind : ∀ a : Str, '/' ∉ a → find ['/', '/'] (a ++ '/' :: '/' :: r) = some a.length := by
    intro a ha
    induction a with
    | nil => simp [find, List.isPrefixOf]
    | cons x a ih =>
      have : '/' ≠ x := by rintro rfl; exact ha List.mem_cons_self
      rw [List.cons_append, find, if_neg (by simp [List.isPrefixOf, this]),
        ih (fun hm => ha (List.mem_cons_of_mem _ hm))]
      simp
  have h2 : dropRemark ((c :: s') ++ '/' :: '/' :: r) = c :: s' := by
    unfold dropRemark
    rw [hfind _ hslash]
    simp
  rw [h1, h2, tokens_line h]

/-- No word is ever lost or invented: for every line without section sign or remark, the
output with its pairing signs removed is the line with blanks and equal signs removed. -/
theorem C72_words_partial (s : Str) (hgt : '>' ∉ s) (hrem : ¬ ['/', '/'] <:+: s) :
    (validateEquals s).flatten.filter (fun c => !isSep c) = s.filter (fun c => !isSep c) := by
  have hflat : ∀ s : Str, (tokens s).flatten = s.filter (fun c => !isSep c) := by
    intro s
    rw [tokens_eq]
    have hfl : ∀ l : List Str, (l.filter (fun w => !w.isEmpty)).flatten = l.flatten := by
      intro l
      induction l with
      | nil => rfl
      | cons a l ih =>
        rw [List.filter_cons]
        cases a with
        | nil => simpa using ih
        | cons x a => simp [ih]
    rw [hfl]
    induction s with
    | nil => rfl
    | cons x s ih =>
      rw [splitP]
      have hne := splitP_ne_nil isSep s
      split
      · rename_i hx; simp [hx, ih]
      · rename_i hx
        cases hs : splitP isSep s with
        | nil => exact absurd hs hne
        | cons a l => rw [hs] at ih; simp at ih; simp [hx, ih]
  have hpair : ∀ n, ∀ l : List Str, l.length = 2 * n →
      (pairUp l).flatten.filter (fun c => !isSep c) = l.flatten.filter (fun c => !isSep c) := by
    intro n
    induction n with
    | zero => intro l hl; have : l = [] := by simpa using hl
              subst this; rfl
    | succ n ih =>
      intro l hl
      match l, hl with
      | a :: b :: l, hl =>
        have := ih l (by simp at hl; omega)
        simp only [pairUp, List.flatten_cons, List.filter_append, this]
        simp [isSep]
  have h1 : dropHead (strip s) = strip s := by
    unfold dropHead; rw [if_neg (fun hm => hgt (mem_of_mem_strip hm))]
  have h2 : dropRemark (strip s) = strip s := by
    unfold dropRemark
    cases hf : find ['/', '/'] (strip s) with
    | none => rfl
    | some i =>
      exfalso
      apply hrem
      have hi : ['/', '/'] <:+: strip s := hasSub_iff.1 (by simp [hasSub, hf])
      have hs : strip s <:+: s := by
        unfold strip rstrip lstrip
        have a1 : (s.dropWhile ws) <:+ s := List.dropWhile_suffix ws
        have a2 : ((s.dropWhile ws).reverse.dropWhile ws).reverse <+: s.dropWhile ws := by
          have hs : (s.dropWhile ws).reverse.dropWhile ws <:+ (s.dropWhile ws).reverse :=
            List.dropWhile_suffix ws
          have := List.reverse_prefix.2 hs
          simpa using this
        exact a2.isInfix.trans a1.isInfix
      exact hi.trans hs
  have h3 : ((tokens s).flatten).filter (fun c => !isSep c) = s.filter (fun c => !isSep c) := by
    rw [hflat, List.filter_filter]; simp
  unfold validateEquals
  simp only [h1, h2, tokens_strip]
  split
  · exact h3
  · rename_i he
    rw [hpair ((tokens s).length / 2) _ (by omega), h3]

/-- A spelled-out line for the examples. -/
theorem line_ex : Line [("ID".toList, "1.1".toList), ("CHTYPE".toList, "HX".toList)]
    "ID= 1.1  CHTYPE =HX".toList := by
  have h : "ID= 1.1  CHTYPE =HX".toList =
      [] ++ ("ID".toList ++ ([] ++ '=' :: (" ".toList ++ ("1.1".toList ++
        ("  ".toList ++ ("CHTYPE".toList ++ (" ".toList ++ '=' :: ([] ++ ("HX".toList ++ []))))))))) := by
    decide +kernel
  rw [h]
  refine .cons (by simp [Blank]) (by simp [Blank]) ?_ ?_ ?_ (.inr ⟨' ', _, rfl, by decide +kernel⟩)
    (.cons ?_ ?_ (by simp [Blank]) ?_ ?_ (.inl rfl) (.nil (by simp [Blank])))
  · unfold Blank; decide +kernel
  · exact ⟨by decide, by decide +kernel⟩
  · exact ⟨by decide, by decide +kernel⟩
  · unfold Blank; decide +kernel
  · unfold Blank; decide +kernel
  · exact ⟨by decide, by decide +kernel⟩
  · exact ⟨by decide, by decide +kernel⟩

example : validateEquals "ID= 1.1  CHTYPE =HX".toList = ["ID=1.1".toList, "CHTYPE=HX".toList] :=
  C72_pairs_partial _ _ line_ex (by decide +kernel)
    (fun h => absurd (hasSub_iff.2 h) (by decide +kernel))

example : validateEquals ('>' :: ("HMEAS".toList ++ ' ' :: "ID= 1.1  CHTYPE =HX".toList))
    = ["ID=1.1".toList, "CHTYPE=HX".toList] :=
  C72_section_partial _ "HMEAS".toList _ line_ex (by decide +kernel)
    (fun h => absurd (hasSub_iff.2 h) (by decide +kernel)) (by simp)

example : validateEquals ("ID= 1.1  CHTYPE =HX".toList ++ '/' :: '/' :: " remark".toList)
    = ["ID=1.1".toList, "CHTYPE=HX".toList] :=
  C72_remark_partial _ _ " remark".toList line_ex ⟨'I', _, rfl, by decide +kernel⟩
    (by decide +kernel) (fun _ => ⟨'k', by decide +kernel, by decide +kernel⟩) (by decide +kernel)

/-! ## C73 — channel positions -/

theorem setAll_get {d e : Idx} {n : Nat} {cs : List String} (h : setAll d n cs = .ok e) (k : String) :
    (k ∉ cs → OD.get? e k = OD.get? d k) ∧
    (k ∈ cs → ∃ i, OD.get? e k = some (some (n + i)) ∧ cs[i]? = some k ∧
      ∀ j, i < j → cs[j]? ≠ some k) := by
  induction cs generalizing d n with
  | nil => simp only [setAll, Except.ok.injEq] at h; subst h; simp
  | cons c cs ih =>
    rw [setAll] at h
    split at h
    · cases h
    · obtain ⟨ih1, ih2⟩ := ih h
      constructor
      · intro hk
        simp only [List.mem_cons, not_or] at hk
        rw [ih1 hk.2, OD.get?_set_ne _ _ hk.1]
      · intro hk
        by_cases hm : k ∈ cs
        · obtain ⟨i, h1, h2, h3⟩ := ih2 hm
          refine ⟨i + 1, by rw [h1]; congr 2; omega, by simpa using h2, ?_⟩
          intro j hj
          cases j with
          | zero => omega
          | succ j => simpa using h3 j (by omega)
        · have hkc : k = c := by
            rcases List.mem_cons.1 hk with h | h
            · exact h
            · exact absurd h hm
          subst hkc
          refine ⟨0, by rw [ih1 hm, OD.get?_set_self]; rfl, rfl, ?_⟩
          intro j hj hc
          cases j with
          | zero => omega
          | succ j => exact hm (List.mem_of_getElem? (by simpa using hc))

theorem setAll_wf {d e : Idx} {n : Nat} {cs : List String} (h : setAll d n cs = .ok e)
    (hd : OD.WF d) : OD.WF e := by
  induction cs generalizing d n with
  | nil => simp only [setAll, Except.ok.injEq] at h; subst h; exact hd
  | cons c cs ih =>
    rw [setAll] at h
    split at h
    · cases h
    · exact ih h (hd.set _ _)

theorem fillRemote_get {d : Idx} {k : String} (h1 : k ≠ "rhx") (h2 : k ≠ "rhy") :
    OD.get? (fillRemote d) k = OD.get? d k := by
  unfold fillRemote
  simp only
  split <;> split <;>
    simp [OD.get?_set_ne _ _ h1, OD.get?_set_ne _ _ h2]

theorem fillRemote_wf {d : Idx} (h : OD.WF d) : OD.WF (fillRemote d) := by
  unfold fillRemote
  simp only
  split <;> split <;> first | exact (h.set _ _).set _ _ | exact h.set _ _ | exact h

theorem idx0_get (k : String) : (OD.get? idx0 k).join = none := by
  simp only [idx0, OD.get?]
  repeat' split
  all_goals rfl

/-- Building fails exactly for a channel that bears the name of a property. -/
theorem C73_error (comps : List String) :
    (∃ e, locate comps = .error e) ↔ ∃ c ∈ comps, c ∈ properties := by
  have h : ∀ (cs : List String) (d : Idx) (n : Nat),
      (∃ e, setAll d n cs = .error e) ↔ ∃ c ∈ cs, c ∈ properties := by
    intro cs
    induction cs with
    | nil => intro d n; simp [setAll]
    | cons c cs ih =>
      intro d n
      rw [setAll]
      split
      · rename_i hc; exact ⟨fun _ => ⟨c, List.mem_cons_self, hc⟩, fun _ => ⟨_, rfl⟩⟩
      · rename_i hc
        rw [ih]
        simp [hc]
  rw [← h comps idx0 0]
  unfold locate
  cases setAll idx0 0 comps <;> simp

/-- The attribute of a channel is its (last) position in the list, `None` if it is not
listed. -/
theorem C73_index (comps : List String) (d : Idx) (h : locate comps = .ok d) (k : String)
    (h1 : k ≠ "rhx") (h2 : k ≠ "rhy") :
    (k ∉ comps → attr d k = none) ∧
    (k ∈ comps → ∃ i, attr d k = some i ∧ comps[i]? = some k ∧
      ∀ j, i < j → comps[j]? ≠ some k) := by
  unfold locate at h
  split at h
  · rename_i e he
    simp only [Except.ok.injEq] at h
    subst h
    obtain ⟨g1, g2⟩ := setAll_get he k
    simp only [attr, fillRemote_get h1 h2]
    constructor
    · intro hk; rw [g1 hk]; exact idx0_get k
    · intro hk
      obtain ⟨i, hi1, hi2, hi3⟩ := g2 hk
      exact ⟨i, by rw [hi1]; simp, hi2, hi3⟩
  · cases h

theorem attr_isSome {comps : List String} {d : Idx} (h : locate comps = .ok d) {k : String}
    (h1 : k ≠ "rhx") (h2 : k ≠ "rhy") : (attr d k).isSome = true ↔ k ∈ comps := by
  obtain ⟨a, b⟩ := C73_index comps d h k h1 h2
  constructor
  · intro hs
    by_cases hk : k ∈ comps
    · exact hk
    · rw [a hk] at hs; exact absurd hs (by simp)
  · intro hk
    obtain ⟨i, hi, _⟩ := b hk
    rw [hi]; rfl

theorem attr_name {comps : List String} {d : Idx} (h : locate comps = .ok d) {k : String}
    (h1 : k ≠ "rhx") (h2 : k ≠ "rhy") (hk : k ∈ comps) :
    (attr d k).bind (fun i => comps[i]?) = some k := by
  obtain ⟨i, hi, hn, _⟩ := (C73_index comps d h k h1 h2).2 hk
  rw [hi]; exact hn

/-- A remote reference that is not listed is the local channel. -/
theorem C73_remote (comps : List String) (d : Idx) (h : locate comps = .ok d) :
    (attr d "rhx").bind (fun i => comps[i]?)
      = (if "rhx" ∈ comps then some "rhx" else if "hx" ∈ comps then some "hx" else none) ∧
    (attr d "rhy").bind (fun i => comps[i]?)
      = (if "rhy" ∈ comps then some "rhy" else if "hy" ∈ comps then some "hy" else none) := by
  unfold locate at h
  split at h
  · rename_i e he
    simp only [Except.ok.injEq] at h
    subst h
    have val : ∀ k, (attr e k).bind (fun i => comps[i]?) = if k ∈ comps then some k else none := by
      intro k
      obtain ⟨g1, g2⟩ := setAll_get he k
      split
      · rename_i hk
        obtain ⟨i, hi1, hi2, _⟩ := g2 hk
        simp only [attr, hi1, Option.join_some, Nat.zero_add, Option.bind_some]; exact hi2
      · rename_i hk
        have : attr e k = none := by rw [attr, g1 hk]; exact idx0_get k
        rw [this]; rfl
    have non : ∀ k, attr e k = none ↔ k ∉ comps := by
      intro k
      obtain ⟨g1, g2⟩ := setAll_get he k
      constructor
      · intro hn hk
        obtain ⟨i, hi1, _⟩ := g2 hk
        rw [attr, hi1] at hn; simp at hn
      · intro hk; rw [attr, g1 hk]; exact idx0_get k
    have hx : attr (fillRemote e) "rhx" = if attr e "rhx" = none then attr e "hx" else attr e "rhx" := by
      unfold fillRemote
      simp only
      by_cases hr : attr e "rhx" = none
      · rw [if_pos hr, if_pos hr]
        split
        · simp [attr, OD.get?_set_ne, OD.get?_set_self]
        · simp [attr, OD.get?_set_self]
      · rw [if_neg hr, if_neg hr]
        split
        · simp [attr, OD.get?_set_ne]
        · rfl
    have hy : attr (fillRemote e) "rhy" = if attr e "rhy" = none then attr e "hy" else attr e "rhy" := by
      unfold fillRemote
      simp only
      have q : ∀ k, k ≠ "rhx" → attr (if attr e "rhx" = none then OD.set e "rhx" (attr e "hx") else e) k
          = attr e k := by
        intro k hk
        split
        · simp [attr, OD.get?_set_ne _ _ hk]
        · rfl
      rw [q "rhy" (by decide), q "hy" (by decide)]
      split
      · simp [attr, OD.get?_set_self]
      · exact q "rhy" (by decide)
    constructor
    · rw [hx]
      by_cases hm : "rhx" ∈ comps
      · rw [if_neg (fun hn => (non _).1 hn hm), val, if_pos hm, if_pos hm]
      · rw [if_pos ((non _).2 hm), val, if_neg hm]
    · rw [hy]
      by_cases hm : "rhy" ∈ comps
      · rw [if_neg (fun hn => (non _).1 hn hm), val, if_pos hm, if_pos hm]
      · rw [if_pos ((non _).2 hm), val, if_neg hm]
  · cases h

/-- The flags say whether the channels are listed. -/
theorem C73_flags (comps : List String) (d : Idx) (h : locate comps = .ok d) :
    (hasTipper d = true ↔ "hz" ∈ comps) ∧
    (hasElectric d = true ↔ "ex" ∈ comps ∨ "ey" ∈ comps) := by
  constructor
  · exact attr_isSome h (by decide) (by decide)
  · simp only [hasElectric, Bool.or_eq_true]
    rw [attr_isSome h (by decide) (by decide), attr_isSome h (by decide) (by decide)]

/-- Full claim: the input and output channels are listed channels. -/
def C73_claim : Prop :=
  ∀ (comps : List String) (d : Idx), locate comps = .ok d →
    ∀ o ∈ inputChannels d ++ outputChannels d, ∃ i c, o = some i ∧ comps[i]? = some c

/-- It fails when a channel is missing: `None` stands in the list. -/
theorem C73_refuted : ¬ C73_claim := by
  intro h
  obtain ⟨d, hd⟩ : ∃ d, locate ["hx", "hy", "hz", "ex"] = .ok d := ⟨_, rfl⟩
  have hd' := hd
  simp only [locate, setAll, properties] at hd'
  obtain ⟨i, c, h1, _⟩ := h _ d hd none (by
    have : d = fillRemote (OD.set (OD.set (OD.set (OD.set idx0 "hx" (some 0)) "hy" (some 1)) "hz"
        (some 2)) "ex" (some 3)) := by
      simp at hd'; exact hd'.symm
    subst this; decide +kernel)
  cases h1

/-- When the horizontal magnetic channels are listed, and the electric channels come in pairs,
the input and output positions name exactly the listed channels among `hx hy` and
`hz ex ey`. -/
theorem C73_channels_partial (comps : List String) (d : Idx) (h : locate comps = .ok d)
    (hx : "hx" ∈ comps) (hy : "hy" ∈ comps) (he : "ex" ∈ comps ↔ "ey" ∈ comps)
    (hz : "hz" ∈ comps ∨ "ex" ∈ comps) :
    (inputChannels d).map (fun o => o.bind (fun i => comps[i]?)) = [some "hx", some "hy"] ∧
    (outputChannels d).map (fun o => o.bind (fun i => comps[i]?))
      = (["hz", "ex", "ey"].filter (· ∈ comps)).map some := by
  have n := fun {k : String} (h1 : k ≠ "rhx") (h2 : k ≠ "rhy") (hk : k ∈ comps) =>
    attr_name h h1 h2 hk
  obtain ⟨f1, f2⟩ := C73_flags comps d h
  constructor
  · simp [inputChannels, n (by decide) (by decide) hx, n (by decide) (by decide) hy]
  · unfold outputChannels
    by_cases hzc : "hz" ∈ comps
    · rw [if_pos (f1.2 hzc)]
      by_cases hec : "ex" ∈ comps
      · have hey := he.1 hec
        rw [if_pos (f2.2 (.inl hec))]
        simp [n (k := "hz") (by decide) (by decide) hzc, n (k := "ex") (by decide) (by decide) hec,
          n (k := "ey") (by decide) (by decide) hey, hzc, hec, hey]
      · have hey : "ey" ∉ comps := fun hm => hec (he.2 hm)
        rw [if_neg (fun hc => by rcases f2.1 hc with h | h; exacts [hec h, hey h])]
        simp [n (k := "hz") (by decide) (by decide) hzc, hzc, hec, hey]
    · have hec : "ex" ∈ comps := by rcases hz with h | h; exacts [absurd h hzc, h]
      have hey := he.1 hec
      rw [if_neg (fun hc => hzc (f1.1 hc))]
      simp [n (k := "ex") (by decide) (by decide) hec,
          n (k := "ey") (by decide) (by decide) hey, hzc, hec, hey]

/-- `n_channels` is the number of different listed names without the letter `r`. -/
theorem C73_count_partial (comps : List String) (d : Idx) (h : locate comps = .ok d)
    (l : List String) (hn : l.Nodup) (hl : ∀ c, c ∈ l ↔ c ∈ comps ∧ 'r' ∉ c.toList) :
    nChannels d = l.length := by
  have hwf : OD.WF d := by
    unfold locate at h
    split at h
    · rename_i e he
      simp only [Except.ok.injEq] at h; subst h
      exact fillRemote_wf (setAll_wf he (by unfold OD.WF; decide +kernel))
    · cases h
  unfold nChannels
  rw [← List.length_map (f := Prod.fst)]
  apply List.Perm.length_eq
  refine (List.perm_ext_iff_of_nodup ?_ hn).2 ?_
  · exact (List.Sublist.map Prod.fst List.filter_sublist).nodup hwf
  · intro c
    rw [hl c]
    simp only [List.mem_map, List.mem_filter]
    constructor
    · rintro ⟨⟨k, v⟩, ⟨hm, hp⟩, rfl⟩
      simp only [Bool.and_eq_true, Bool.not_eq_true', List.contains_eq_mem, decide_eq_false_iff_not] at hp
      have hr : k ≠ "rhx" ∧ k ≠ "rhy" :=
        ⟨by rintro rfl; exact hp.1 (by decide), by rintro rfl; exact hp.1 (by decide)⟩
      refine ⟨(attr_isSome h hr.1 hr.2).1 ?_, hp.1⟩
      rw [attr, OD.get?_of_mem hwf hm]; exact hp.2
    · rintro ⟨hm, hr⟩
      have hr' : c ≠ "rhx" ∧ c ≠ "rhy" :=
        ⟨by rintro rfl; exact hr (by decide), by rintro rfl; exact hr (by decide)⟩
      obtain ⟨i, hi⟩ := Option.isSome_iff_exists.1 ((attr_isSome h hr'.1 hr'.2).2 hm)
      refine ⟨(c, some i), ⟨?_, by simpa using hr⟩, rfl⟩
      unfold attr at hi
      cases hg : OD.get? d c with
      | none => rw [hg] at hi; simp at hi
      | some o =>
        rw [hg] at hi
        simp only [Option.join_some] at hi
        subst hi
        exact OD.mem_of_get? hg

/-- Full claim: `n_channels` counts the channels that are not remote references. -/
def C73_count_claim : Prop :=
  ∀ (comps : List String) (d : Idx), locate comps = .ok d → comps.Nodup →
    nChannels d = (comps.filter (fun c => !["rhx", "rhy", "rhz"].contains c)).length

/-- It does not: any name with an `r`, such as `temperature`, is left out. -/
theorem C73_count_refuted : ¬ C73_count_claim := by
  intro h
  obtain ⟨d, hd⟩ : ∃ d, locate ["temperature"] = .ok d := ⟨_, rfl⟩
  have h1 := h _ d hd (by decide)
  have h2 := C73_count_partial _ d hd [] (by simp) (by
    intro c; simp only [List.not_mem_nil, List.mem_singleton, false_iff, not_and]
    rintro rfl; decide)
  rw [h2] at h1
  exact absurd h1 (by decide)

example : ∃ d, locate ["hx", "hy", "hz", "ex", "ey", "rhx", "rhy"] = .ok d ∧
    inputChannels d = [some 0, some 1] ∧ outputChannels d = [some 2, some 3, some 4] ∧
    nChannels d = 5 := ⟨_, rfl, by decide +kernel, by decide +kernel, by decide +kernel⟩

theorem append_of_mem_first {c : Char} {b : Str} (h : c ∈ b) :
    ∃ s t, b = s ++ c :: t ∧ c ∉ s := by
  induction b with
  | nil => simp at h
  | cons x b ih =>
    by_cases hx : x = c
    · subst hx; exact ⟨[], b, rfl, by simp⟩
    · rcases List.mem_cons.1 h with h | h
      · exact absurd h.symm hx
      · obtain ⟨s, t, rfl, hs⟩ := ih h
        exact ⟨x :: s, t, rfl, by simp [hs, Ne.symm hx]⟩

/-! ## C112 — normalising the lines of an EDI file -/

def quotes : List Char := ['"', '\'', '[', ']']

theorem replaceC_nil (a : Char) (s : Str) : replaceC a [] s = s.filter (fun c => c ≠ a) := by
  induction s with
  | nil => rfl
  | cons x s ih =>
    unfold replaceC at ih ⊢
    rw [List.flatMap_cons, ih]
    by_cases h : x = a <;> simp [h]

theorem replaceC_single (a b : Char) (s : Str) :
    replaceC a [b] s = s.map (fun c => if c = a then b else c) := by
  induction s with
  | nil => rfl
  | cons x s ih =>
    unfold replaceC at ih ⊢
    rw [List.flatMap_cons, ih]
    by_cases h : x = a <;> simp [h]

theorem unquote_eq (s : Str) : unquote s = s.filter (fun c => !quotes.contains c) := by
  unfold unquote
  simp only [replaceC_nil, List.filter_filter]
  apply List.filter_congr
  intro c _
  simp [quotes, Bool.and_comm, Bool.and_left_comm, Bool.and_assoc]

/-- Several lines: as many lines, each without quotes and brackets and otherwise unchanged. -/
theorem C112_lines (ls : List Str) (h : ls.length ≠ 1) :
    validateLines ls = .ok (ls.map (fun l => l.filter (fun c => !quotes.contains c))) := by
  match ls, h with
  | [], _ => rfl
  | a :: b :: ls, _ =>
    have : unquote = (fun l : Str => l.filter (fun c => !quotes.contains c)) := by
      funext l; exact unquote_eq l
    simp [validateLines, this]

/-- A single line: it is cut at its line and carriage returns (there must be one); joined
again it is the line without quotes and brackets. -/
theorem C112_single (l : Str) :
    (validateLines [l] = .error .valueError ↔ '\n' ∉ l ∧ '\r' ∉ l) ∧
    ∀ ls, validateLines [l] = .ok ls →
      (∀ x ∈ ls, '\n' ∉ x ∧ '\r' ∉ x ∧ ∀ q ∈ quotes, q ∉ x) ∧
      join ['\n'] ls = (l.filter (fun c => !quotes.contains c)).map
        (fun c => if c = '\r' then '\n' else c) := by
  have hbody : replaceC ']' [] (replaceC '[' [] (replaceC '\'' []
      (replaceC '\r' ['\n'] (replaceC '"' [] l))))
      = (l.filter (fun c => !quotes.contains c)).map (fun c => if c = '\r' then '\n' else c) := by
    simp only [replaceC_nil, replaceC_single, List.filter_map, List.filter_filter]
    congr 1
    apply List.filter_congr
    intro c _
    by_cases hc : c = '\r'
    · subst hc; decide
    · simp [quotes, hc, Function.comp_def, Bool.and_comm, Bool.and_left_comm, Bool.and_assoc]
  simp only [validateLines, hbody]
  generalize hb : (l.filter (fun c => !quotes.contains c)).map
    (fun c => if c = '\r' then '\n' else c) = b
  have hmem : '\n' ∈ b ↔ '\n' ∈ l ∨ '\r' ∈ l := by
    subst hb
    simp only [List.mem_map, List.mem_filter]
    constructor
    · rintro ⟨c, ⟨hc, _⟩, he⟩
      by_cases hr : c = '\r'
      · subst hr; exact .inr hc
      · rw [if_neg hr] at he; subst he; exact .inl hc
    · rintro (h | h)
      · exact ⟨'\n', ⟨h, by decide⟩, by decide⟩
      · exact ⟨'\r', ⟨h, by decide⟩, by decide⟩
  have hlen : (splitC '\n' b).length > 1 ↔ '\n' ∈ b := by
    constructor
    · intro h
      by_cases hm : '\n' ∈ b
      · exact hm
      · rw [splitC_none hm] at h; simp at h
    · intro h
      obtain ⟨s, t, rfl, hs⟩ := append_of_mem_first h
      rw [splitC_append _ hs]
      have := splitC_ne_nil '\n' t
      cases hst : splitC '\n' t with
      | nil => exact absurd hst this
      | cons x m => simp
  have hchar : ∀ c ∈ b, c ≠ '\r' ∧ c ∉ quotes := by
    subst hb
    intro c hc
    obtain ⟨x, hx, rfl⟩ := List.mem_map.1 hc
    have hq := (List.mem_filter.1 hx).2
    by_cases hr : x = '\r'
    · subst hr; decide
    · rw [if_neg hr]; exact ⟨hr, by simpa using hq⟩
  constructor
  · split
    · rename_i h
      have := hmem.1 (hlen.1 h)
      constructor
      · intro hc; cases hc
      · rintro ⟨h1, h2⟩; rcases this with h | h; exacts [absurd h h1, absurd h h2]
    · rename_i h
      have hn : ¬ ('\n' ∈ l ∨ '\r' ∈ l) := fun hc => h (hlen.2 (hmem.2 hc))
      simp only [true_iff]
      exact ⟨fun hc => hn (.inl hc), fun hc => hn (.inr hc)⟩
  · intro ls hls
    split at hls
    · cases hls
      refine ⟨?_, join_splitC _ _⟩
      intro x hx
      have hin : ∀ c ∈ x, c ∈ b := by
        have hj := join_splitC '\n' b
        intro c hc
        have hjm : ∀ (l : List Str) (x : Str), x ∈ l → ∀ c ∈ x, c ∈ join ['\n'] l := by
          intro l
          induction l with
          | nil => intro x hx; simp at hx
          | cons a l ih =>
            intro x hx c hc
            cases l with
            | nil => simp at hx; subst hx; simpa [join] using hc
            | cons b l =>
              rw [join]
              rcases List.mem_cons.1 hx with rfl | hx
              · simp [hc]
              · exact List.mem_append_right _ (ih x hx c hc)
        rw [← hj]; exact hjm _ x hx c hc
      exact ⟨splitC_pieces _ _ x hx, fun hc => (hchar _ (hin _ hc)).1 rfl,
        fun q hq hc => (hchar _ (hin _ hc)).2 hq⟩
    · cases hls

example : validateLines [">HEAD\rDATAID=\"ab\"\r>END".toList]
    = .ok [">HEAD".toList, "DATAID=ab".toList, ">END".toList] := by decide +kernel

end Verif.IoTools
