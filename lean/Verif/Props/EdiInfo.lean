import Verif.Model.EdiInfo
import Verif.Lemmas.Text
import Verif.Lemmas.Words
import Verif.Lemmas.OD

/-! Properties C200-C206: the information section of EDI files. -/

namespace Verif.EdiInfo
open Verif.Text

/-! ## C200 — writing and reading -/

/-- No line of these starts the section. -/
def NoInfo (ls : List Str) : Prop := ∀ l ∈ ls, ¬ ">info".toList <:+: lower l

/-- The lines after the section: none, or the next section. -/
def EndsInfo (ls : List Str) : Prop :=
  ls = [] ∨ ∃ l r, ls = l :: r ∧ ¬ ">info".toList <:+: lower l ∧ (strip l).head? = some '>'

/-- The words by which the other formats are recognised. -/
def marks : List Str := ["run information".toList, "empower".toList, "electrics".toList, "magnetics".toList]

/-- A line without these words. -/
def NoMark (l : Str) : Prop := ∀ w ∈ marks, ¬ w <:+: lower l

/-- An item of a list: a word without separators. -/
def Token (t : Str) : Prop := t ≠ [] ∧ ∀ c ∈ t, ws c = false ∧ c ∉ ",;:<>".toList

instance (t : Str) : Decidable (Token t) := inferInstanceAs (Decidable (_ ∧ _))

/-- In brackets. -/
def Bracketed (s : Str) : Prop := s.head? = some '[' ∧ s.getLast? = some ']'

instance (t : Str) : Decidable (Bracketed t) := inferInstanceAs (Decidable (_ ∧ _))

/-- A name in lower case that does not stand for another one. -/
def OwnName (k : Str) : Prop := lower k = k ∧ k ∉ translation.keys

/-- What the section can express: names without separators, texts without line ends, blanks around
them or brackets, lists of words. -/
def Entry (p : Str × IV) : Prop :=
  strip p.1 = p.1 ∧ (∀ c ∈ p.1, c ≠ ':' ∧ c ≠ '=' ∧ c ≠ '<' ∧ c ≠ '>') ∧
  match p.2 with
  | .null => False
  | .text s => (s = [] ∧ p.1 ≠ []) ∨
      (s ≠ [] ∧ OwnName p.1 ∧ strip s = s ∧ '<' ∉ s ∧ '>' ∉ s ∧ ¬ Bracketed s)
  | .list l => OwnName p.1 ∧ ¬ "comment".toList <:+: p.1 ∧ ∀ t ∈ l, Token t

/-- The dictionary that was written is read. -/
def C200_claim : Prop := ∀ (repr : List Str → Str) (d : Info) (pre post : List Str), OD.WF d →
  (∀ p ∈ d, p.1 ≠ [] ∧ strip p.1 = p.1 ∧ (∀ c ∈ p.1, c ≠ ':' ∧ c ≠ '=') ∧ ∃ s, p.2 = .text s ∧ strip s = s) →
  NoInfo pre → EndsInfo post →
  readInfo repr (pre ++ writeInfo d ++ post) = .ok d

/-- The names of several things are changed when they are read, all others to lower case. -/
theorem C200_refuted : ¬ C200_claim := by
  intro h
  have h1 := h (fun _ => []) [("operator".toList, .text "me".toList)] [] [] (by decide +kernel) (by
    intro p hp
    rw [List.mem_singleton] at hp
    subst hp
    exact ⟨by decide, by decide +kernel, by decide +kernel, _, rfl, by decide +kernel⟩) (by intro l hl; simp at hl) (.inl rfl)
  exact absurd h1 (by decide +kernel)

/-! ### The section -/

theorem infix_lower_strip {w l : Str} (h : w <:+: lower (strip l)) : w <:+: lower l := by
  have h1 : strip l <:+: l := by
    unfold strip rstrip lstrip
    have a : ((l.dropWhile ws).reverse.dropWhile ws).reverse <+: l.dropWhile ws := by
      have := List.dropWhile_suffix (l := (l.dropWhile ws).reverse) ws
      have := List.reverse_prefix.2 this
      rwa [List.reverse_reverse] at this
    exact a.isInfix.trans (List.dropWhile_suffix ws).isInfix
  exact h.trans (h1.map _)

theorem sectionLines_skip {pre : List Str} (h : NoInfo pre) (ls : List Str) :
    sectionLines false (pre ++ ls) = sectionLines false ls := by
  induction pre with
  | nil => rfl
  | cons l pre ih =>
    rw [List.cons_append, sectionLines, if_neg, if_neg (by simp), if_neg (by simp)]
    · exact ih fun m hm => h m (List.mem_cons_of_mem _ hm)
    · rw [hasSub_iff]
      exact fun hh => h l List.mem_cons_self (infix_lower_strip hh)

theorem sectionLines_start (ls : List Str) : sectionLines false (">INFO".toList :: ls) = sectionLines true ls := by
  rw [sectionLines, if_pos (by decide +kernel)]

theorem sectionLines_end {post : List Str} (h : EndsInfo post) : sectionLines true post = [] := by
  rcases h with rfl | ⟨l, r, rfl, h1, h2⟩
  · rfl
  · rw [sectionLines, if_neg (by rw [hasSub_iff]; exact fun hh => h1 (infix_lower_strip hh)), if_pos ⟨rfl, h2⟩]

theorem mem_lower {c : Char} {s : Str} (h : c ∈ lower s) (hc : ∀ d : Char, d.toLower = c → d = c) : c ∈ s := by
  obtain ⟨d, hd, e⟩ := List.mem_map.1 h
  exact hc d e ▸ hd

theorem toLower_sign {c : Char} (hs : c ∈ ":=<>,;[]".toList) : ∀ d : Char, d.toLower = c → d = c := by
  intro d e
  rcases toLower_cases d with h | h
  · rw [h.1] at e; exact e
  · have h3 : ∀ c ∈ ":=<>,;[]".toList, c.toNat < 97 := by decide +kernel
    have := h3 c hs
    rw [← e, h.2.2] at this
    have := h.1
    omega

theorem sectionLines_body {L : List Str} (h : ∀ l ∈ L, strip l ≠ [] ∧ '>' ∉ strip l) (ls : List Str) :
    sectionLines true (L ++ ls) = L.map strip ++ sectionLines true ls := by
  induction L with
  | nil => rfl
  | cons l L ih =>
    have hl := h l List.mem_cons_self
    rw [List.cons_append, sectionLines, if_neg, if_neg, if_pos ⟨rfl, hl.1⟩, ih fun m hm => h m (List.mem_cons_of_mem _ hm)]
    · rfl
    · intro hh
      exact hl.2 (List.mem_of_mem_head? hh.2)
    · rw [hasSub_iff]
      intro hh
      have h1 : '>' ∈ lower (strip l) := hh.subset (by decide)
      exact hl.2 (mem_lower h1 (toLower_sign (by decide)))

/-! ### One line -/

/-- The text of an entry. -/
def lineText (p : Str × IV) : Str :=
  match p.2 with
    | .null => p.1
    | .text s => if s = [] then p.1 else p.1 ++ '=' :: strip s
    | .list l => p.1 ++ '=' :: ('[' :: (join ", ".toList l ++ [']']))

theorem infoLine_eq (p : Str × IV) : infoLine p = "    ".toList ++ lineText p := rfl

theorem strip_kv {k r : Str} (hk : strip k = k) (hr : strip r = r) : strip (k ++ '=' :: r) = k ++ '=' :: r := by
  refine strip_of_ends ?_ ?_
  · intro c hc
    cases k with
    | nil =>
      simp only [List.nil_append, List.head?_cons, Option.some.injEq] at hc
      subst hc; decide
    | cons x k =>
      rw [List.cons_append, List.head?_cons] at hc
      refine strip_head (s := x :: k) ?_
      rw [hk]; exact hc
  · intro c hc
    rw [List.getLast?_append, List.getLast?_cons, Option.some_or] at hc
    cases hl : r.getLast? with
    | none =>
      rw [hl] at hc
      simp only [Option.getD_none, Option.some.injEq] at hc
      subst hc; decide
    | some x =>
      rw [hl] at hc
      simp only [Option.getD_some, Option.some.injEq] at hc
      subst hc
      refine strip_last (s := r) ?_
      rw [hr]; exact hl

theorem strip_brackets (s : Str) : strip ('[' :: (s ++ [']'])) = '[' :: (s ++ [']']) := by
  refine strip_of_ends ?_ ?_
  · intro c hc
    simp only [List.head?_cons, Option.some.injEq] at hc
    subst hc; decide
  · intro c hc
    rw [List.getLast?_cons, List.getLast?_append] at hc
    simp only [List.getLast?_singleton, Option.some_or, Option.getD_some, Option.some.injEq] at hc
    subst hc; decide

theorem mem_join {c : Char} {sep : Str} : ∀ {l : List Str}, c ∈ join sep l → c ∈ sep ∨ ∃ t ∈ l, c ∈ t
  | [], h => by simp [join] at h
  | [t], h => .inr ⟨t, by simp, by simpa [join] using h⟩
  | t :: u :: l, h => by
    rw [join] at h
    rcases List.mem_append.1 h with h | h
    · rcases List.mem_append.1 h with h | h
      · exact .inr ⟨t, by simp, h⟩
      · exact .inl h
    · rcases mem_join h with h | ⟨x, hx, h⟩
      · exact .inl h
      · exact .inr ⟨x, List.mem_cons_of_mem _ hx, h⟩

theorem lineText_ok {p : Str × IV} (h : Entry p) :
    strip (infoLine p) = lineText p ∧ lineText p ≠ [] ∧ '<' ∉ lineText p ∧ '>' ∉ lineText p := by
  have hpad : strip (infoLine p) = strip (lineText p) := by
    rw [infoLine_eq]
    have := strip_pad (a := "    ".toList) (b := []) (lineText p) (by decide) (by simp)
    rwa [List.append_nil] at this
  rw [hpad]
  obtain ⟨k, v⟩ := p
  obtain ⟨h1, h2, h3⟩ := h
  have hk : '<' ∉ k ∧ '>' ∉ k := ⟨fun hm => (h2 _ hm).2.2.1 rfl, fun hm => (h2 _ hm).2.2.2 rfl⟩
  unfold lineText
  cases v with
  | null => exact absurd h3 (by simp)
  | text s =>
    rcases h3 with ⟨hs, hne⟩ | ⟨hs, -, h4, h5, h6, -⟩
    · simp only [hs, if_true]
      exact ⟨h1, hne, hk⟩
    · simp only [hs, if_false]
      rw [h4]
      refine ⟨strip_kv h1 h4, by simp, ?_, ?_⟩
      · simp [hk.1, h5]
      · simp [hk.2, h6]
  | list l =>
    obtain ⟨-, -, ht⟩ := h3
    have hn : ∀ c ∈ "<>".toList, c ∉ join ", ".toList l := by
      intro c hc hm
      rcases mem_join hm with hm | ⟨t, ht', hm⟩
      · have : ∀ c ∈ "<>".toList, c ∉ ", ".toList := by decide
        exact this c hc hm
      · have : ∀ c ∈ "<>".toList, c ∈ ",;:<>".toList := by decide
        exact ((ht t ht').2 c hm).2 (this c hc)
    refine ⟨strip_kv h1 (strip_brackets _), by simp, ?_, ?_⟩
    · have := hn '<' (by decide)
      simp only [List.mem_append, List.mem_cons, hk.1, this, List.not_mem_nil, or_false, false_or]
      decide
    · have := hn '>' (by decide)
      simp only [List.mem_append, List.mem_cons, hk.2, this, List.not_mem_nil, or_false, false_or]
      decide

theorem find_cons (c x : Char) (s : Str) : find [c] (x :: s) = if x = c then some 0 else (find [c] s).map (· + 1) := by
  rw [find]
  by_cases h : x = c
  · subst h; simp [List.isPrefixOf]
  · have h' : ¬ c = x := fun e => h e.symm
    simp [List.isPrefixOf, h, h']

theorem separator_cons (c : Char) (s : Str) :
    separator (c :: s) = if c = ':' ∨ c = '=' then some c else separator s := by
  unfold separator
  rw [find_cons, find_cons]
  by_cases h1 : c = ':'
  · subst h1
    rw [if_pos rfl, if_neg (by decide), if_pos (.inl rfl)]
    cases find ['='] s <;> simp
  · by_cases h2 : c = '='
    · subst h2
      rw [if_neg (by decide), if_pos rfl, if_pos (.inr rfl)]
      cases find [':'] s <;> simp
    · rw [if_neg h1, if_neg h2, if_neg (by simp [h1, h2])]
      cases find [':'] s <;> cases find ['='] s <;> simp

theorem separator_none {s : Str} (h : ∀ c ∈ s, c ≠ ':' ∧ c ≠ '=') : separator s = none := by
  induction s with
  | nil => rfl
  | cons c s ih =>
    have hc := h c List.mem_cons_self
    rw [separator_cons, if_neg (by simp [hc.1, hc.2]), ih fun d hd => h d (List.mem_cons_of_mem _ hd)]

theorem separator_first {k : Str} {x : Char} (r : Str) (h : ∀ c ∈ k, c ≠ ':' ∧ c ≠ '=') (hx : x = ':' ∨ x = '=') :
    separator (k ++ x :: r) = some x := by
  induction k with
  | nil => rw [List.nil_append, separator_cons, if_pos hx]
  | cons c k ih =>
    have hc := h c List.mem_cons_self
    rw [List.cons_append, separator_cons, if_neg (by simp [hc.1, hc.2]), ih fun d hd => h d (List.mem_cons_of_mem _ hd)]

theorem separator_some {s : Str} {x : Char} (h : separator s = some x) :
    (x = ':' ∨ x = '=') ∧ ∃ k r, s = k ++ x :: r ∧ ∀ c ∈ k, c ≠ ':' ∧ c ≠ '=' := by
  induction s with
  | nil => cases h
  | cons c s ih =>
    rw [separator_cons] at h
    split at h
    · next hc =>
      cases h
      exact ⟨hc, [], s, rfl, by simp⟩
    · next hc =>
      obtain ⟨h1, k, r, rfl, h2⟩ := ih h
      refine ⟨h1, c :: k, r, rfl, ?_⟩
      intro d hd
      rcases List.mem_cons.1 hd with rfl | hd
      · exact ⟨fun e => hc (.inl e), fun e => hc (.inr e)⟩
      · exact h2 d hd

theorem keyValue_of {k : Str} {x : Char} (r : Str) (h : ∀ c ∈ k, c ≠ ':' ∧ c ≠ '=') (hx : x = ':' ∨ x = '=') :
    keyValue x (k ++ x :: r) = (lower (strip k), strip r) := by
  have hk : x ∉ k := by
    intro hm
    have := h x hm
    rcases hx with rfl | rfl
    · exact this.1 rfl
    · exact this.2 rfl
  unfold keyValue
  rw [split1_append r hk]
  rfl

theorem words_join {l : List Str} (h : ∀ t ∈ l, Token t) :
    words (replaceC ':' [' '] (replaceC ';' [' '] (replaceC ',' [' '] (join ", ".toList l)))) = l := by
  have hrep : ∀ t : Str, Token t → ∀ a ∈ ",;:".toList, replaceC a [' '] t = t := by
    intro t ht a ha
    refine replaceC_none ?_
    intro hm
    have : ∀ a ∈ ",;:".toList, a ∈ ",;:<>".toList := by decide
    exact (ht.2 a hm).2 (this a ha)
  have happ : ∀ (a : Char) (b s t : Str), replaceC a b (s ++ t) = replaceC a b s ++ replaceC a b t :=
    fun a b s t => List.flatMap_append
  induction l with
  | nil => rfl
  | cons t l ih =>
    have ht := h t List.mem_cons_self
    have ih := ih fun u hu => h u (List.mem_cons_of_mem _ hu)
    cases l with
    | nil =>
      rw [join]
      rw [hrep t ht _ (by decide), hrep t ht _ (by decide), hrep t ht _ (by decide)]
      exact words_token (fun c hc => (ht.2 c hc).1) ht.1
    | cons u l =>
      rw [join]
      simp only [happ]
      rw [hrep t ht _ (by decide), hrep t ht _ (by decide), hrep t ht _ (by decide)]
      have e : replaceC ':' [' '] (replaceC ';' [' '] (replaceC ',' [' '] ", ".toList)) = [' ', ' '] := by decide
      rw [e, List.append_assoc]
      show words (t ++ ' ' :: ([' '] ++ _)) = _
      rw [words_append _ (fun c hc => (ht.2 c hc).1) ht.1 (by decide), List.singleton_append,
        words_cons_ws _ (by decide), ih]

theorem parseValue_list {l : List Str} (h : ∀ t ∈ l, Token t) :
    parseValue ('[' :: (join ", ".toList l ++ [']'])) = .list l := by
  unfold parseValue
  rw [if_pos]
  · rw [List.drop_one, List.tail_cons, List.dropLast_concat, words_join h]
  · refine ⟨rfl, ?_⟩
    rw [← List.cons_append, List.getLast?_append]
    rfl

theorem standardLine_entry (repr : List Str → Str) (d : Info) {p : Str × IV} (h : Entry p) :
    standardLine repr d (lineText p) = d.set p.1 p.2 := by
  obtain ⟨-, h0, h1, h2⟩ := lineText_ok h
  obtain ⟨k, v⟩ := p
  obtain ⟨hk, hs, h3⟩ := h
  have hs' : ∀ c ∈ k, c ≠ ':' ∧ c ≠ '=' := fun c hc => ⟨(hs c hc).1, (hs c hc).2.1⟩
  have hkv : ∀ r : Str, OwnName k → lineText (k, v) = k ++ '=' :: r → strip r = r → parseValue r = v →
      standardLine repr d (lineText (k, v)) = d.set k v := by
    intro r ho he hr hv
    unfold standardLine
    rw [if_neg (by simp [h0, h1, h2]), he, separator_first r hs' (.inr rfl)]
    simp only [keyValue_of r hs' (.inr rfl)]
    have hg : translation.get? (lower (strip k)) = none := by
      rw [show strip k = k from hk, ho.1]
      exact (OD.get?_eq_none_iff _ _).2 ho.2
    rw [hg, hr, hv, show strip k = k from hk, ho.1]
  cases v with
  | null => exact absurd h3 (by simp)
  | text s =>
    rcases h3 with ⟨hs0, hne⟩ | ⟨hs0, ho, h4, h5, h6, h7⟩
    · have e : lineText (k, .text s) = k := by simp [lineText, hs0]
      unfold standardLine
      rw [if_neg (by simp [h0, h1, h2]), e, separator_none hs']
      simp only
      rw [show strip k = k from hk, hs0]
    · refine hkv s ho ?_ h4 ?_
      · simp [lineText, hs0, h4]
      · unfold parseValue
        exact if_neg h7
  | list l =>
    exact hkv _ h3.1 rfl (strip_brackets _) (parseValue_list h3.2.2)

theorem joinComments_entries {d : Info} (h : ∀ p ∈ d, Entry p) : joinComments d = d := by
  unfold joinComments
  conv => rhs; rw [← List.map_id d]
  refine List.map_congr_left ?_
  rintro ⟨k, v⟩ hp
  have := h _ hp
  cases v with
  | null => rfl
  | text s => rfl
  | list l =>
    obtain ⟨-, -, -, hc, -⟩ := this
    have hf : ¬ hasSub "comment".toList k = true := by rw [hasSub_iff]; exact hc
    simp only [if_neg hf, id]

theorem noMark_format {ls : List Str} (h : ∀ l ∈ ls, NoMark l) : format ls = .standard := by
  have h1 : ∀ l ∈ ls, phoenixMark l = false ∧ empowerMark l = false := by
    intro l hl
    have hw : ∀ w ∈ marks, hasSub w (lower l) = false := by
      intro w hw
      rw [Bool.eq_false_iff, ne_eq, hasSub_iff]
      exact h l hl w hw
    unfold phoenixMark empowerMark
    rw [hw _ (show "run information".toList ∈ marks by decide), hw _ (show "empower".toList ∈ marks by decide),
      hw _ (show "electrics".toList ∈ marks by decide), hw _ (show "magnetics".toList ∈ marks by decide)]
    exact ⟨rfl, rfl⟩
  unfold format
  rw [if_neg, if_neg]
  · rw [List.any_eq_true]
    rintro ⟨l, hl, he⟩
    rw [(h1 l hl).1] at he; cases he
  · rw [List.any_eq_true]
    rintro ⟨l, hl, he⟩
    rw [(h1 l hl).2, Bool.and_false] at he; cases he

theorem readInfo_standard (repr : List Str → Str) {lines : List Str} (h : format (sectionLines false lines) = .standard) :
    readInfo repr lines = .ok (joinComments (standardInfo repr (sectionLines false lines))) := by
  simp only [readInfo, h]

/-- A section whose names and values it can express, and that does not look like that of another
program, is read as it was written, whatever stands before and after it. -/
theorem C200_info_partial (repr : List Str → Str) (d : Info) (pre post : List Str) (hw : OD.WF d)
    (hd : ∀ p ∈ d, Entry p) (hm : ∀ p ∈ d, NoMark (infoLine p)) (h1 : NoInfo pre) (h2 : EndsInfo post) :
    readInfo repr (pre ++ writeInfo d ++ post) = .ok d := by
  have hsec : sectionLines false (pre ++ writeInfo d ++ post) = d.map lineText := by
    have hb : ∀ l ∈ d.map infoLine, strip l ≠ [] ∧ '>' ∉ strip l := by
      intro l hl
      obtain ⟨p, hp, rfl⟩ := List.mem_map.1 hl
      obtain ⟨a, b, -, c⟩ := lineText_ok (hd p hp)
      rw [a]; exact ⟨b, c⟩
    rw [List.append_assoc, sectionLines_skip h1]
    unfold writeInfo
    rw [List.cons_append, sectionLines_start, sectionLines_body hb, sectionLines_end h2, List.append_nil, List.map_map]
    refine List.map_congr_left ?_
    intro p hp
    exact (lineText_ok (hd p hp)).1
  have hf : format (d.map lineText) = .standard := by
    refine noMark_format ?_
    intro l hl w hw' hi
    obtain ⟨p, hp, rfl⟩ := List.mem_map.1 hl
    refine hm p hp w hw' ?_
    rw [infoLine_eq, lower_append]
    exact hi.trans (List.suffix_append _ _).isInfix
  have hfold : ∀ (e f : Info), OD.WF (e ++ f) → (∀ p ∈ f, Entry p) → (f.map lineText).foldl (standardLine repr) e = e ++ f := by
    intro e f hwf hf
    rw [List.foldl_map, ← OD.foldl_set_fresh f e hwf]
    clear hwf
    induction f generalizing e with
    | nil => rfl
    | cons p f ih =>
      rw [List.foldl_cons, List.foldl_cons, standardLine_entry repr e (hf p List.mem_cons_self)]
      exact ih _ fun q hq => hf q (List.mem_cons_of_mem _ hq)
  rw [readInfo_standard repr (hsec ▸ hf), hsec]
  unfold standardInfo
  rw [hfold [] d hw hd, List.nil_append, joinComments_entries hd]

/-- Three entries between other sections. -/
example : OD.WF [("a b".toList, IV.text "x = 1: [2".toList), ("flag".toList, .text []), ("l".toList, .list ["1".toList, "b=2".toList])] ∧
    readInfo (fun _ => []) ([">HEAD".toList, "x=1".toList] ++
      writeInfo [("a b".toList, .text "x = 1: [2".toList), ("flag".toList, .text []), ("l".toList, .list ["1".toList, "b=2".toList])] ++
      [">=DEFINEMEAS".toList]) =
    .ok [("a b".toList, .text "x = 1: [2".toList), ("flag".toList, .text []), ("l".toList, .list ["1".toList, "b=2".toList])] := by
  decide +kernel

/-! ## C201 — reading what was read and written -/

/-- The parameters of the processing. -/
def paramNames : List Str :=
  ["ndec", "nfft", "ntype", "rrtype", "removelargelines", "rotmaxe"].map String.toList

/-- The other names of the list they are kept in. -/
def listNames : List Str := ["remoteref".toList, "transfer_function.processing_parameters".toList]

/-- A line whose value survives: not a separator alone, comments that are not in brackets, processing
parameters that are words. -/
def LineOk (l : Str) : Prop := strip l ∉ listNames ∧ ∀ k x r, l = k ++ x :: r → (∀ c ∈ k, c ≠ ':' ∧ c ≠ '=') → (x = ':' ∨ x = '=') →
  (strip k ≠ [] ∨ strip r ≠ []) ∧
  ("comment".toList <:+: lower k → ¬ Bracketed (strip r)) ∧
  (lower (strip k) ∈ paramNames → Token (strip r) ∧ ¬ Bracketed (strip r)) ∧
  (lower (strip k) ∈ listNames → Token (strip r) ∨ Bracketed (strip r))

/-- A line of the section and not of the next one. -/
def InInfo (l : Str) : Prop := ¬ ">info".toList <:+: lower l ∧ (strip l).head? ≠ some '>'

/-- What was read from a section can be written and is read again. -/
def C201_claim : Prop := ∀ (repr : List Str → Str) (body : List Str) (d : Info), (∀ l ∈ body, InInfo l ∧ NoMark l) →
  readInfo repr (">INFO".toList :: body) = .ok d → readInfo repr (writeInfo d) = .ok d

/-- A parameter with two words becomes two items of the list. -/
theorem C201_refuted : ¬ C201_claim := by
  intro h
  have h1 := h (fun _ => []) ["nfft=1 2".toList] [("transfer_function.processing_parameters".toList, .list ["nfft=1 2".toList])]
    (by
      intro l hl
      rw [List.mem_singleton] at hl
      subst hl
      refine ⟨⟨by decide +kernel, by decide +kernel⟩, ?_⟩
      unfold NoMark
      decide +kernel) (by decide +kernel)
  exact absurd h1 (by decide +kernel)

/-- What a program writes that looks like that of another one is read with the other one's rules. -/
example : readInfo (fun _ => []) [">INFO".toList, "project=empower v2".toList] = .ok [("project".toList, .text "empower v2".toList)] ∧
    readInfo (fun _ => []) [">INFO".toList, "project=power".toList] = .ok [("survey.project".toList, .text "power".toList)] := by
  decide +kernel

theorem strip_lower (s : Str) : strip (lower s) = lower (strip s) := by
  unfold strip rstrip lstrip lower
  have h : (ws ∘ Char.toLower) = ws := funext fun c => ws_toLower c
  rw [List.dropWhile_map, h, ← List.map_reverse, List.dropWhile_map, h, List.map_reverse]

theorem sectionLines_all {body : List Str} (h : ∀ l ∈ body, InInfo l) (ls : List Str) :
    sectionLines true (body ++ ls) = (body.map strip).filter (fun l => decide (l ≠ [])) ++ sectionLines true ls := by
  induction body with
  | nil => rfl
  | cons l L ih =>
    have hl := h l List.mem_cons_self
    have ih := ih fun m hm => h m (List.mem_cons_of_mem _ hm)
    rw [List.cons_append, sectionLines, if_neg, if_neg]
    · rw [List.map_cons, List.filter_cons]
      by_cases h0 : strip l = []
      · rw [if_neg (by simp [h0]), if_neg (by simp [h0]), ih]
      · rw [if_pos ⟨rfl, h0⟩, if_pos (by simp [h0]), ih]
        rfl
    · exact fun hh => hl.2 hh.2
    · rw [hasSub_iff]
      exact fun hh => hl.1 (infix_lower_strip hh)

theorem splitP_subset {q : Char → Bool} : ∀ {s : Str} {t : Str} {c : Char}, t ∈ splitP q s → c ∈ t → c ∈ s
  | [], t, c, h, hc => by
    rw [splitP, List.mem_singleton] at h
    subst h; exact hc
  | x :: s, t, c, h, hc => by
    rw [splitP] at h
    split at h
    · rcases List.mem_cons.1 h with rfl | h
      · cases hc
      · exact List.mem_cons_of_mem _ (splitP_subset h hc)
    · rcases List.mem_cons.1 h with rfl | h
      · rcases List.mem_cons.1 hc with rfl | hc
        · exact List.mem_cons_self
        · refine List.mem_cons_of_mem _ ?_
          cases hs : splitP q s with
          | nil => rw [hs] at hc; cases hc
          | cons y ys =>
            rw [hs] at hc
            exact splitP_subset (t := y) (by rw [hs]; exact List.mem_cons_self) hc
      · exact List.mem_cons_of_mem _ (splitP_subset (List.mem_of_mem_tail h) hc)

theorem mem_replaceC {a c : Char} {s : Str} (h : c ∈ replaceC a [' '] s) : c = ' ' ∨ (c ∈ s ∧ c ≠ a) := by
  unfold replaceC at h
  obtain ⟨x, hx, hc⟩ := List.mem_flatMap.1 h
  split at hc
  · exact .inl (by simpa using hc)
  · next hne =>
    rw [List.mem_singleton] at hc
    subst hc
    exact .inr ⟨hx, hne⟩

theorem words_inner_tokens {v : Str} (h1 : '<' ∉ v) (h2 : '>' ∉ v) :
    ∀ t ∈ words (replaceC ':' [' '] (replaceC ';' [' '] (replaceC ',' [' '] v))), Token t := by
  intro t ht
  have hw := words_tokens _ t ht
  refine ⟨hw.1, fun c hc => ⟨hw.2 c hc, ?_⟩⟩
  have hmem := splitP_subset (List.mem_filter.1 ht).1 hc
  have hnb : c ≠ ' ' := by
    rintro rfl
    have := hw.2 _ hc
    exact absurd this (by decide)
  rcases mem_replaceC hmem with h | ⟨h, a1⟩
  · exact absurd h hnb
  rcases mem_replaceC h with h | ⟨h, a2⟩
  · exact absurd h hnb
  rcases mem_replaceC h with h | ⟨h, a3⟩
  · exact absurd h hnb
  have b1 : c ≠ '<' := fun e => h1 (e ▸ h)
  have b2 : c ≠ '>' := fun e => h2 (e ▸ h)
  show c ∉ [',', ';', ':', '<', '>']
  simp [a1, a2, a3, b1, b2]

theorem parseValue_cases (v : Str) :
    (Bracketed v ∧ parseValue v =
      .list (words (replaceC ':' [' '] (replaceC ';' [' '] (replaceC ',' [' '] (v.drop 1).dropLast))))) ∨
    (¬ Bracketed v ∧ parseValue v = .text v) := by
  by_cases h : Bracketed v
  · exact .inl ⟨h, if_pos h⟩
  · exact .inr ⟨h, if_neg h⟩

theorem bracketed_tokens {v : Str} (h1 : '<' ∉ v) (h2 : '>' ∉ v) :
    ∀ t ∈ words (replaceC ':' [' '] (replaceC ';' [' '] (replaceC ',' [' '] (v.drop 1).dropLast))), Token t := by
  have hs : ∀ c, c ∈ (v.drop 1).dropLast → c ∈ v := fun c hc => List.mem_of_mem_drop ((List.dropLast_sublist _).mem hc)
  exact words_inner_tokens (fun h => h1 (hs _ h)) (fun h => h2 (hs _ h))

/-- What holds of the dictionary while lines are read. -/
def Inv (d : Info) : Prop :=
  OD.WF d ∧ (∀ p ∈ d, Entry p) ∧ ∀ s, d.get? paramKey = some (.text s) → Token s

theorem mem_set {d : Info} (hw : OD.WF d) {k : Str} {v : IV} {p : Str × IV} (h : p ∈ d.set k v) : p ∈ d ∨ p = (k, v) := by
  have h1 := OD.get?_of_mem (OD.WF.set hw k v) (k := p.1) (v := p.2) h
  rw [OD.get?_set] at h1
  split at h1
  · next e =>
    cases h1
    exact .inr (Prod.ext e.symm rfl)
  · exact .inl (OD.mem_of_get? h1)

theorem Inv.set {d : Info} (h : Inv d) {k : Str} {v : IV} (he : Entry (k, v))
    (ht : k = paramKey → ∀ s, v = .text s → Token s) : Inv (d.set k v) := by
  refine ⟨OD.WF.set h.1 k v, ?_, ?_⟩
  · intro p hp
    rcases mem_set h.1 hp with hp | rfl
    · exact h.2.1 p hp
    · exact he
  · intro s hs
    rw [OD.get?_set] at hs
    split at hs
    · next e =>
      exact ht e s (Option.some.inj hs)
    · exact h.2.2 s hs

theorem translation_values : ∀ p ∈ translation, p.2 = "processing_parameter".toList ∧ p.1 ∈ paramNames ∨
    (strip p.2 = p.2 ∧ (∀ c ∈ p.2, c ≠ ':' ∧ c ≠ '=' ∧ c ≠ '<' ∧ c ≠ '>') ∧ p.2 ≠ [] ∧
      (lower p.2 = p.2 ∧ p.2 ∉ translation.keys) ∧ hasSub "comment".toList p.2 = false ∧
      (p.2 = paramKey → p.1 ∈ listNames) ∧ p.2 ≠ "processing_parameter".toList) := by
  decide +kernel

theorem paramNames_plain : ∀ k ∈ paramNames, ∀ c ∈ k, ws c = false ∧ c ∉ ",;:<>".toList := by decide +kernel

theorem token_append {a b : Str} (ha : ∀ c ∈ a, ws c = false ∧ c ∉ ",;:<>".toList) (hb : Token b) : Token (a ++ '=' :: b) := by
  refine ⟨by simp, ?_⟩
  intro c hc
  rcases List.mem_append.1 hc with hc | hc
  · exact ha c hc
  · rcases List.mem_cons.1 hc with rfl | hc
    · decide
    · exact hb.2 c hc

theorem strip_mem {c : Char} {s : Str} (h : c ∈ strip s) : c ∈ s := by
  unfold strip rstrip lstrip at h
  rw [List.mem_reverse] at h
  exact (List.dropWhile_suffix ws).mem (List.mem_reverse.1 ((List.dropWhile_suffix ws).mem h))

theorem separator_mem {s : Str} (h : ':' ∈ s ∨ '=' ∈ s) : separator s ≠ none := by
  induction s with
  | nil => simp at h
  | cons x s ih =>
    rw [separator_cons]
    split
    · simp
    · next hx =>
      refine ih ?_
      rcases h with h | h <;> rcases List.mem_cons.1 h with e | h
      · exact absurd (.inl e.symm) hx
      · exact .inl h
      · exact absurd (.inr e.symm) hx
      · exact .inr h

theorem Inv.line {repr : List Str → Str} {d : Info} (h : Inv d) {l : Str} (hne : strip l ≠ []) (hok : LineOk l) :
    Inv (standardLine repr d l) := by
  unfold standardLine
  split
  · exact h
  · next hsg =>
    have hsg1 : '<' ∉ l := fun hh => hsg (.inr (.inl hh))
    have hsg2 : '>' ∉ l := fun hh => hsg (.inr (.inr hh))
    cases hsep : separator l with
    | none =>
      refine h.set ⟨strip_strip l, ?_, .inl ⟨rfl, hne⟩⟩ ?_
      · intro c hc
        have hc' := strip_mem hc
        refine ⟨?_, ?_, fun e => hsg1 (e ▸ hc'), fun e => hsg2 (e ▸ hc')⟩
        · exact fun e => absurd hsep (separator_mem (.inl (e ▸ hc')))
        · exact fun e => absurd hsep (separator_mem (.inr (e ▸ hc')))
      · intro e s hs
        exact absurd (show strip l ∈ listNames by rw [e]; decide) hok.1
    | some x =>
      obtain ⟨hx, k, r, rfl, hk⟩ := separator_some hsep
      obtain ⟨o1, o2, o3, o4⟩ := hok.2 k x r rfl hk hx
      have hr1 : '<' ∉ strip r := fun hh => hsg1 (List.mem_append_right _ (List.mem_cons_of_mem _ (strip_mem hh)))
      have hr2 : '>' ∉ strip r := fun hh => hsg2 (List.mem_append_right _ (List.mem_cons_of_mem _ (strip_mem hh)))
      simp only [keyValue_of r hk hx]
      have hlist := bracketed_tokens hr1 hr2
      cases htr : translation.get? (lower (strip k)) with
      | some std =>
        simp only
        have hmem := OD.mem_of_get? htr
        rcases translation_values _ hmem with ⟨e, hpn⟩ | ⟨t1, t2, t3, t4, t5, t6, t7⟩
        · simp only at e hpn
          rw [if_pos e]
          obtain ⟨p1, p2⟩ := o3 hpn
          rcases parseValue_cases (strip r) with ⟨hb, -⟩ | ⟨-, hv⟩
          · exact absurd hb p2
          rw [hv]
          refine h.set (k := paramKey) ⟨show strip paramKey = paramKey by decide +kernel,
            show ∀ c ∈ paramKey, c ≠ ':' ∧ c ≠ '=' ∧ c ≠ '<' ∧ c ≠ '>' by decide +kernel,
            ⟨show lower paramKey = paramKey by decide +kernel, show paramKey ∉ translation.keys by decide +kernel⟩,
            show ¬ "comment".toList <:+: paramKey by decide +kernel, ?_⟩ (by simp)
          intro t ht
          rcases List.mem_append.1 ht with ht | ht
          · unfold params at ht
            cases hg : d.get? paramKey with
            | none => rw [hg] at ht; cases ht
            | some w =>
              rw [hg] at ht
              have he := h.2.1 _ (OD.mem_of_get? hg)
              cases w with
              | null => exact absurd he.2.2 (by simp)
              | text s =>
                rw [List.mem_singleton] at ht
                subst ht
                exact h.2.2 _ hg
              | list l => exact he.2.2.2.2 t ht
          · rw [List.mem_singleton] at ht
            subst ht
            exact token_append (paramNames_plain _ hpn) p1
        · simp only at t1 t2 t3 t4 t5 t6 t7
          rw [if_neg t7]
          rcases parseValue_cases (strip r) with ⟨hb, hv⟩ | ⟨hb, hv⟩
          · rw [hv]
            refine h.set ⟨t1, t2, t4, ?_, hlist⟩ (by simp)
            rw [← hasSub_iff, t5]; simp
          · rw [hv]
            refine h.set ⟨t1, t2, ?_⟩ ?_
            · by_cases h0 : strip r = []
              · exact .inl ⟨h0, t3⟩
              · exact .inr ⟨h0, t4, strip_strip r, hr1, hr2, hb⟩
            · intro e s hs
              cases hs
              rcases o4 (t6 e) with h' | h'
              · exact h'
              · exact absurd h' hb
      | none =>
        simp only
        have hkey : strip (lower (strip k)) = lower (strip k) := by rw [strip_lower, strip_strip]
        have hchars : ∀ c ∈ lower (strip k), c ≠ ':' ∧ c ≠ '=' ∧ c ≠ '<' ∧ c ≠ '>' := by
          intro c hc
          have hback : c ∈ ":=<>,;[]".toList → c ∈ k := fun hs => strip_mem (mem_lower hc (toLower_sign hs))
          refine ⟨?_, ?_, ?_, ?_⟩ <;> rintro rfl
          · exact (hk _ (hback (by decide))).1 rfl
          · exact (hk _ (hback (by decide))).2 rfl
          · exact hsg1 (List.mem_append_left _ (hback (by decide)))
          · exact hsg2 (List.mem_append_left _ (hback (by decide)))
        have hown : OwnName (lower (strip k)) := ⟨lower_lower _, (OD.get?_eq_none_iff _ _).1 htr⟩
        rcases parseValue_cases (strip r) with ⟨hb, hv⟩ | ⟨hb, hv⟩
        · rw [hv]
          refine h.set ⟨hkey, hchars, hown, ?_, hlist⟩ (by simp)
          intro hc
          refine o2 ?_ hb
          exact infix_lower_strip hc
        · rw [hv]
          refine h.set ⟨hkey, hchars, ?_⟩ ?_
          · by_cases h0 : strip r = []
            · refine .inl ⟨h0, ?_⟩
              intro e
              rcases o1 with o1 | o1
              · exact o1 (List.map_eq_nil_iff.1 e)
              · exact o1 h0
            · exact .inr ⟨h0, hown, strip_strip r, hr1, hr2, hb⟩
          · intro e s hs
            cases hs
            rcases o4 (by rw [e]; decide) with h' | h'
            · exact h'
            · exact absurd h' hb

/-- A section whose lines survive is stable once it was read: what was read can be written anywhere
and is read again. -/
theorem C201_stable_partial (repr : List Str → Str) (pre body post pre' post' : List Str) (d : Info)
    (h1 : NoInfo pre) (h2 : EndsInfo post) (hb : ∀ l ∈ body, InInfo l ∧ NoMark l ∧ LineOk (strip l))
    (hr : readInfo repr (pre ++ (">INFO".toList :: body) ++ post) = .ok d) (hm : ∀ p ∈ d, NoMark (infoLine p))
    (h3 : NoInfo pre') (h4 : EndsInfo post') :
    readInfo repr (pre' ++ writeInfo d ++ post') = .ok d := by
  have hsec : sectionLines false (pre ++ (">INFO".toList :: body) ++ post) =
      (body.map strip).filter (fun l => decide (l ≠ [])) := by
    rw [List.append_assoc, sectionLines_skip h1, List.cons_append, sectionLines_start,
      sectionLines_all (fun l hl => (hb l hl).1), sectionLines_end h2, List.append_nil]
  have hlines : ∀ l ∈ (body.map strip).filter (fun l => decide (l ≠ [])), strip l ≠ [] ∧ LineOk l ∧ NoMark l := by
    intro l hl
    obtain ⟨hl, hne⟩ := List.mem_filter.1 hl
    obtain ⟨m, hm, rfl⟩ := List.mem_map.1 hl
    refine ⟨?_, (hb m hm).2.2, fun w hw hi => (hb m hm).2.1 w hw (infix_lower_strip hi)⟩
    rw [strip_strip]
    simpa using hne
  have hf := noMark_format (fun l hl => (hlines l hl).2.2)
  rw [readInfo_standard repr (hsec ▸ hf), hsec] at hr
  generalize (body.map strip).filter (fun l => decide (l ≠ [])) = ls at hlines hr
  have hinv : ∀ (ls : List Str) (e : Info), Inv e → (∀ l ∈ ls, strip l ≠ [] ∧ LineOk l ∧ NoMark l) →
      Inv (ls.foldl (standardLine repr) e) := by
    intro ls
    induction ls with
    | nil => exact fun e he _ => he
    | cons l ls ih =>
      intro e he hls
      rw [List.foldl_cons]
      have hl := hls l List.mem_cons_self
      exact ih _ (he.line hl.1 hl.2.1) fun m hm => hls m (List.mem_cons_of_mem _ hm)
  have hi : Inv (standardInfo repr ls) := hinv ls [] ⟨OD.WF_nil, by simp, by simp⟩ hlines
  rw [joinComments_entries hi.2.1] at hr
  cases hr
  exact C200_info_partial repr _ pre' post' hi.1 hi.2.1 hm h3 h4

/-- A section with translated names, two parameters, a list and a name alone. -/
example : (∀ l ∈ ["  Operator: A. B.", "NDEC=1", "nfft = 512", "Runlist = [a;b, c]", "Free text"].map String.toList,
      InInfo l ∧ NoMark l) ∧
    readInfo (fun _ => []) (">INFO".toList :: ["  Operator: A. B.", "NDEC=1", "nfft = 512", "Runlist = [a;b, c]",
      "Free text"].map String.toList) =
    .ok [("run.acquired_by.author".toList, .text "A. B.".toList),
      ("transfer_function.processing_parameters".toList, .list ["ndec=1".toList, "nfft=512".toList]),
      ("transfer_function.runs_processed".toList, .list ["a".toList, "b".toList, "c".toList]),
      ("Free text".toList, .text [])] := by
  unfold InInfo NoMark
  decide +kernel

/-! ## C202 — the values that are kept -/

/-- The line of a name and its value. -/
def pairLine (p : Str × Str) : Str := p.1 ++ '=' :: p.2

/-- A name and a value as they stand in files. -/
def PairOk (p : Str × Str) : Prop :=
  strip p.1 = p.1 ∧ (∀ c ∈ p.1, c ≠ ':' ∧ c ≠ '=' ∧ c ≠ '<' ∧ c ≠ '>') ∧
  strip p.2 = p.2 ∧ '<' ∉ p.2 ∧ '>' ∉ p.2 ∧ ¬ Bracketed p.2 ∧ NoMark (pairLine p)

/-- All processing parameters are kept, in the order of the file. -/
def C202_claim : Prop := ∀ (repr : List Str → Str) (ps : List (Str × Str)) (d : Info), (∀ p ∈ ps, PairOk p) →
  readInfo repr (">INFO".toList :: ps.map pairLine) = .ok d →
  (∃ p ∈ ps, lower p.1 ∈ paramNames) →
  d.get? "transfer_function.processing_parameters".toList =
    some (.list ((ps.filter fun p => decide (lower p.1 ∈ paramNames)).map fun p => lower p.1 ++ '=' :: p.2))

/-- The name of the remote reference takes the place of the parameters before it. -/
theorem C202_refuted : ¬ C202_claim := by
  intro h
  have h1 := h (fun _ => []) [("ndec".toList, "1".toList), ("remoteref".toList, "r1".toList)]
    [("transfer_function.processing_parameters".toList, .text "r1".toList)] (by
      intro p hp
      have : p = ("ndec".toList, "1".toList) ∨ p = ("remoteref".toList, "r1".toList) := by simpa using hp
      unfold PairOk NoMark
      rcases this with rfl | rfl <;> decide +kernel) (by decide +kernel) (by decide +kernel)
  exact absurd h1 (by decide +kernel)

/-- The names that stand for others. -/
def standardNames : OD Str Str :=
  [("operator", "run.acquired_by.author"), ("adu_serial", "run.data_logger.id"),
    ("e_azimuth", "run.ex.measurement_azimuth"), ("ex_len", "run.ex.dipole_length"), ("ey_len", "run.ey.dipole_length"),
    ("ex_resistance", "run.ex.contact_resistance.start"), ("ey_resistance", "run.ey.contact_resistance.start"),
    ("h_azimuth", "run.hx.measurement_azimuth"), ("hx", "run.hx.sensor.id"), ("hy", "run.hy.sensor.id"),
    ("hz", "run.hz.sensor.id"), ("hx_resistance", "run.hx.h_field_max.start"),
    ("hy_resistance", "run.hy.h_field_max.start"), ("hz_resistance", "run.hz.h_field_max.start"),
    ("algorithmname", "transfer_function.software.name"), ("project", "survey.project"),
    ("processedby", "transfer_function.processed_by.name"), ("processingsoftware", "transfer_function.software.name"),
    ("processingtag", "transfer_function.id"), ("signconvention", "transfer_function.sign_convention"),
    ("sitename", "station.geographic_name"), ("survey", "survey.id"), ("year", "survey.time_period.start_date"),
    ("runlist", "transfer_function.runs_processed"), ("remotesite", "transfer_function.remote_references"),
    ("remoteref", "transfer_function.processing_parameters")].map fun p => (p.1.toList, p.2.toList)

/-- The name under which a value is kept. -/
def nameOf (k : Str) : Str := (standardNames.get? (lower k)).getD (lower k)

theorem get?_filter {ν : Type} (q : Str → Bool) (d : OD Str ν) {k : Str} (h : q k = true) :
    OD.get? (d.filter fun p => q p.1) k = OD.get? d k := by
  induction d with
  | nil => rfl
  | cons p d ih =>
    rw [List.filter_cons]
    by_cases hp : p.1 = k
    · rw [if_pos (by rw [hp]; exact h), OD.get?_cons, OD.get?_cons, if_pos hp, if_pos hp]
    · rw [OD.get?_cons, if_neg hp, ← ih]
      split
      · rw [OD.get?_cons, if_neg hp]
      · rfl

theorem translation_standardNames {k : Str} (h : k ∉ paramNames) : translation.get? k = standardNames.get? k := by
  have e : standardNames = translation.filter fun p => (fun k => decide (k ∉ paramNames)) p.1 := by decide +kernel
  rw [e]
  exact (get?_filter (fun k => decide (k ∉ paramNames)) translation (by simpa using h)).symm

theorem pairLine_section {p : Str × Str} (h : PairOk p) :
    strip (pairLine p) = pairLine p ∧ pairLine p ≠ [] ∧ '<' ∉ pairLine p ∧ '>' ∉ pairLine p := by
  obtain ⟨h1, h2, h3, h4, h5, -, -⟩ := h
  unfold pairLine
  refine ⟨strip_kv h1 h3, by simp, ?_, ?_⟩
  · intro hm
    rcases List.mem_append.1 hm with hm | hm
    · exact (h2 _ hm).2.2.1 rfl
    · rcases List.mem_cons.1 hm with hm | hm
      · exact absurd hm (by decide)
      · exact h4 hm
  · intro hm
    rcases List.mem_append.1 hm with hm | hm
    · exact (h2 _ hm).2.2.2 rfl
    · rcases List.mem_cons.1 hm with hm | hm
      · exact absurd hm (by decide)
      · exact h5 hm

theorem paramNames_get : ∀ k ∈ paramNames, translation.get? k = some "processing_parameter".toList := by decide +kernel

theorem standardLine_pair (repr : List Str → Str) (d : Info) {p : Str × Str} (h : PairOk p) :
    standardLine repr d (pairLine p) =
      if lower p.1 ∈ paramNames then d.set paramKey (.list (params d ++ [lower p.1 ++ '=' :: p.2]))
      else d.set (nameOf p.1) (.text p.2) := by
  obtain ⟨-, h0, h1, h2⟩ := pairLine_section h
  obtain ⟨h3, h4, h5, -, -, h6, -⟩ := h
  have hs' : ∀ c ∈ p.1, c ≠ ':' ∧ c ≠ '=' := fun c hc => ⟨(h4 c hc).1, (h4 c hc).2.1⟩
  unfold standardLine
  rw [if_neg (by simp [h0, h1, h2])]
  rw [show pairLine p = p.1 ++ '=' :: p.2 from rfl, separator_first _ hs' (.inr rfl)]
  simp only [keyValue_of _ hs' (.inr rfl)]
  rw [h3, h5, show parseValue p.2 = .text p.2 from if_neg h6]
  unfold nameOf
  by_cases hp : lower p.1 ∈ paramNames
  · rw [if_pos hp, paramNames_get _ hp]
    rfl
  · rw [if_neg hp, ← translation_standardNames hp]
    cases hg : translation.get? (lower p.1) with
    | none => rfl
    | some std =>
      simp only [Option.getD_some]
      rw [if_neg]
      intro e
      rcases translation_values _ (OD.mem_of_get? hg) with h' | h'
      · exact hp h'.2
      · exact h'.2.2.2.2.2.2 e

theorem readInfo_pairs (repr : List Str → Str) (ps : List (Str × Str)) (h : ∀ p ∈ ps, PairOk p) :
    readInfo repr (">INFO".toList :: ps.map pairLine) = .ok ((ps.map pairLine).foldl (standardLine repr) []) := by
  have hsec : sectionLines false (">INFO".toList :: ps.map pairLine) = ps.map pairLine := by
    have hb : ∀ l ∈ ps.map pairLine, strip l ≠ [] ∧ '>' ∉ strip l := by
      intro l hl
      obtain ⟨p, hp, rfl⟩ := List.mem_map.1 hl
      obtain ⟨a, b, -, c⟩ := pairLine_section (h p hp)
      rw [a]; exact ⟨b, c⟩
    have := sectionLines_body hb []
    rw [List.append_nil] at this
    rw [sectionLines_start, this, sectionLines, List.append_nil, List.map_map]
    refine List.map_congr_left ?_
    intro p hp
    exact (pairLine_section (h p hp)).1
  have hf : format (ps.map pairLine) = .standard := by
    refine noMark_format ?_
    intro l hl
    obtain ⟨p, hp, rfl⟩ := List.mem_map.1 hl
    exact (h p hp).2.2.2.2.2.2
  rw [readInfo_standard repr (by rw [hsec]; exact hf), hsec]
  congr 1
  have hnl : ∀ (ps : List (Str × Str)) (d : Info), (∀ p ∈ ps, PairOk p) → OD.WF d →
      (∀ p ∈ d, ∀ l, p.2 = .list l → p.1 = paramKey) →
      ∀ p ∈ (ps.map pairLine).foldl (standardLine repr) d, ∀ l, p.2 = .list l → p.1 = paramKey := by
    intro ps
    induction ps with
    | nil => exact fun d _ _ hd => hd
    | cons q ps ih =>
      intro d hps hw hd
      rw [List.map_cons, List.foldl_cons, standardLine_pair repr d (hps q List.mem_cons_self)]
      refine ih _ (fun p hp => hps p (List.mem_cons_of_mem _ hp)) ?_ ?_
      · split <;> exact OD.WF.set hw _ _
      · split
        · intro p hp l e
          rcases mem_set hw hp with hp | rfl
          · exact hd p hp l e
          · rfl
        · intro p hp l e
          rcases mem_set hw hp with hp | rfl
          · exact hd p hp l e
          · cases e
  have hnl := hnl ps [] h OD.WF_nil (by simp)
  unfold joinComments standardInfo
  conv => rhs; rw [← List.map_id (List.foldl _ _ _)]
  refine List.map_congr_left ?_
  rintro ⟨k, v⟩ hp
  cases v with
  | null => rfl
  | text s => rfl
  | list l =>
    have : k = paramKey := hnl _ hp l rfl
    subst this
    have hf : ¬ hasSub "comment".toList paramKey = true := by decide +kernel
    simp only [if_neg hf, id]

/-- All processing parameters are kept in the order of the file, unless there is a remote reference;
of all other names the last value is kept under the standard name. -/
theorem C202_kept_partial (repr : List Str → Str) (ps : List (Str × Str)) (d : Info) (h : ∀ p ∈ ps, PairOk p)
    (hr : readInfo repr (">INFO".toList :: ps.map pairLine) = .ok d) :
    ((∀ p ∈ ps, lower p.1 ∉ listNames) → (∃ p ∈ ps, lower p.1 ∈ paramNames) →
      d.get? "transfer_function.processing_parameters".toList =
        some (.list ((ps.filter fun p => decide (lower p.1 ∈ paramNames)).map fun p => lower p.1 ++ '=' :: p.2))) ∧
    (∀ name : Str, name ≠ "transfer_function.processing_parameters".toList →
      d.get? name = ((ps.filter fun p => decide (lower p.1 ∉ paramNames ∧ nameOf p.1 = name)).getLast?).map
        fun p => .text p.2) := by
  rw [readInfo_pairs repr ps h] at hr
  cases hr
  have hname : ∀ k : Str, lower k ∉ paramNames → lower k ∉ listNames → nameOf k ≠ paramKey := by
    intro k h1 h2 e
    unfold nameOf at e
    rw [← translation_standardNames h1] at e
    cases hg : translation.get? (lower k) with
    | none =>
      rw [hg] at e
      exact h2 (by rw [show lower k = paramKey from e]; decide)
    | some std =>
      rw [hg] at e
      rcases translation_values _ (OD.mem_of_get? hg) with h' | h'
      · exact h1 h'.2
      · exact h2 (h'.2.2.2.2.2.1 e)
  refine ⟨?_, ?_⟩
  · intro hl hex
    have key : ∀ (qs : List (Str × Str)) (e : Info), (∀ p ∈ qs, PairOk p) → (∀ p ∈ qs, lower p.1 ∉ listNames) →
        (e.get? paramKey = none ∨ ∃ l, e.get? paramKey = some (.list l)) →
        let r := (qs.map pairLine).foldl (standardLine repr) e
        params r = params e ++ ((qs.filter fun p => decide (lower p.1 ∈ paramNames)).map fun p => lower p.1 ++ '=' :: p.2) ∧
        (((∃ l, e.get? paramKey = some (.list l)) ∨ ∃ p ∈ qs, lower p.1 ∈ paramNames) →
          ∃ l, r.get? paramKey = some (.list l)) := by
      intro qs
      induction qs with
      | nil =>
        intro e _ _ _
        simp
      | cons q qs ih =>
        intro e h1 h2 h3
        simp only
        rw [List.map_cons, List.foldl_cons, standardLine_pair repr e (h1 q List.mem_cons_self)]
        have h1' : ∀ p ∈ qs, PairOk p := fun p hp => h1 p (List.mem_cons_of_mem _ hp)
        have h2' : ∀ p ∈ qs, lower p.1 ∉ listNames := fun p hp => h2 p (List.mem_cons_of_mem _ hp)
        by_cases hq : lower q.1 ∈ paramNames
        · rw [if_pos hq]
          obtain ⟨i1, i2⟩ := ih (e.set paramKey (.list (params e ++ [lower q.1 ++ '=' :: q.2]))) h1' h2'
            (.inr ⟨_, OD.get?_set_self _ _ _⟩)
          refine ⟨?_, fun _ => i2 (.inl ⟨_, OD.get?_set_self _ _ _⟩)⟩
          rw [i1, List.filter_cons, if_pos (by simpa using hq)]
          simp [params, OD.get?_set_self]
        · rw [if_neg hq]
          have hne : paramKey ≠ nameOf q.1 := fun e' => hname q.1 hq (h2 q List.mem_cons_self) e'.symm
          have hg : (e.set (nameOf q.1) (.text q.2)).get? paramKey = e.get? paramKey := OD.get?_set_ne _ _ hne
          obtain ⟨i1, i2⟩ := ih (e.set (nameOf q.1) (.text q.2)) h1' h2' (by rw [hg]; exact h3)
          refine ⟨?_, ?_⟩
          · rw [i1, List.filter_cons, if_neg (by simpa using hq)]
            simp only [params, hg]
          · intro hx
            refine i2 ?_
            rw [hg]
            rcases hx with hx | ⟨p, hp, hpp⟩
            · exact .inl hx
            · rcases List.mem_cons.1 hp with rfl | hp
              · exact absurd hpp hq
              · exact .inr ⟨p, hp, hpp⟩
    obtain ⟨k1, k2⟩ := key ps [] h hl (.inl rfl)
    obtain ⟨l, hl'⟩ := k2 (.inr hex)
    have : params ((ps.map pairLine).foldl (standardLine repr) []) = l := by
      unfold params
      rw [hl']
    rw [this] at k1
    show OD.get? _ paramKey = _
    rw [hl', k1]
    rfl
  · intro name hn
    have key : ∀ (qs : List (Str × Str)) (e : Info), (∀ p ∈ qs, PairOk p) →
        ((qs.map pairLine).foldl (standardLine repr) e).get? name =
          (((qs.filter fun p => decide (lower p.1 ∉ paramNames ∧ nameOf p.1 = name)).getLast?).map
            fun p => IV.text p.2).or (e.get? name) := by
      intro qs
      induction qs with
      | nil => intro e _; rfl
      | cons q qs ih =>
        intro e h1
        rw [List.map_cons, List.foldl_cons, standardLine_pair repr e (h1 q List.mem_cons_self),
          ih _ fun p hp => h1 p (List.mem_cons_of_mem _ hp), List.filter_cons]
        by_cases hq : lower q.1 ∈ paramNames
        · rw [if_pos hq, if_neg (by simp [hq]), OD.get?_set_ne (k := paramKey) _ _ hn]
        · rw [if_neg hq]
          by_cases hnm : nameOf q.1 = name
          · rw [if_pos (by simp [hq, hnm]), hnm, OD.get?_set_self, List.getLast?_cons]
            cases (List.filter _ qs).getLast? <;> rfl
          · rw [if_neg (by simp [hnm]), OD.get?_set_ne _ _ (fun e' => hnm e'.symm)]
    rw [key ps [] h]
    simp

/-- Parameters, a name given twice. -/
example : readInfo (fun _ => []) (">INFO".toList :: [("NFFT".toList, "8 9".toList), ("Year".toList, "1".toList),
      ("ndec".toList, "2".toList), ("year".toList, "2".toList)].map pairLine) =
    .ok [("transfer_function.processing_parameters".toList, .list ["nfft=8 9".toList, "ndec=2".toList]),
      ("survey.time_period.start_date".toList, .text "2".toList)] := by
  decide +kernel

end Verif.EdiInfo
