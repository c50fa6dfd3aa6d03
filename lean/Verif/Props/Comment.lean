import Verif.Model.Comment
import Verif.Lemmas.Text
import Verif.Lemmas.OD

/-!
# C70, C109, C110, C111: comments
-/

namespace Verif.Comment
open Verif.Text

variable {T : Type}

/-- What is assumed of the stamps: printing then parsing gives the stamp back (C15, C75), the
printed form has no bar and no outer blanks, and the words standing for "no time" parse to the
default (mttime.py L349). -/
structure Lawful (k : Clock T) : Prop where
  back : ∀ t, k.parse (k.iso t) = some t
  noBar : ∀ t, '|' ∉ k.iso t
  trim : ∀ t, strip (k.iso t) = k.iso t
  word : ∀ w ∈ ["", "none", "None", "NONE", "Na"], k.parse w.toList = some k.dflt

/-- A comment whose author (if any) and text are non-empty/ordinary: no bars, no outer
blanks, an author that is not the empty string. -/
structure Clean (c : Comment T) : Prop where
  author : ∀ a, c.author = some a → a ≠ [] ∧ '|' ∉ a ∧ strip a = a
  text : ∃ v, c.value = some v ∧ '|' ∉ v ∧ strip v = v

/-! A clock for the examples: stamps are the numbers of a list of names. -/

def toyIso : Bool → Str
  | true => "2020-01-01T00:00:00+00:00".toList
  | false => "1980-01-01T00:00:00+00:00".toList

def toy : Clock Bool where
  iso := toyIso
  parse := fun s =>
    if s = toyIso true then some true
    else if s = toyIso false ∨ s ∈ ["", "none", "None", "NONE", "Na"].map String.toList then
      some false
    else none
  dflt := false

theorem toy_lawful : Lawful toy where
  back := by intro t; cases t <;> decide +kernel
  noBar := by intro t; cases t <;> decide +kernel
  trim := by intro t; cases t <;> decide +kernel
  word := by intro w hw; simp at hw; rcases hw with rfl | rfl | rfl | rfl | rfl <;> decide +kernel

def note1 : Comment Bool := ⟨some "J. Pedantic".toList, true, some "failure at midnight".toList⟩

theorem note1_clean : Clean note1 where
  author := by intro a h; simp only [note1, Option.some.injEq] at h; subst h; decide +kernel
  text := ⟨_, rfl, by decide +kernel, by decide +kernel⟩

/-! ## helper lemmas -/

theorem setVars_noBar (k : Clock T) {c : Comment T} (h : ∀ v, c.value = some v → '|' ∉ v) :
    setVars k c = .ok c := by
  unfold setVars
  split
  · rfl
  · rename_i v hv; rw [if_neg (h v hv)]

theorem ws_space : ws ' ' = true := by decide +kernel

theorem strip_space_both (s : Str) : strip (' ' :: (s ++ [' '])) = strip s := by
  rw [strip_cons_ws _ ws_space, strip_append_ws _ ws_space]

theorem split_two {a v : Str} (ha : '|' ∉ a) (hv : '|' ∉ v) :
    splitC '|' (a ++ [' ', '|', ' '] ++ v) = [a ++ [' '], ' ' :: v] := by
  have : a ++ [' ', '|', ' '] ++ v = (a ++ [' ']) ++ '|' :: (' ' :: v) := by simp
  rw [this, splitC_append _ (by simp [ha]), splitC_none (by simp [hv])]

theorem split_three {a b v : Str} (ha : '|' ∉ a) (hb : '|' ∉ b) (hv : '|' ∉ v) :
    splitC '|' (a ++ [' ', '|', ' '] ++ b ++ [' ', '|', ' '] ++ v)
      = [a ++ [' '], ' ' :: (b ++ [' ']), ' ' :: v] := by
  have : a ++ [' ', '|', ' '] ++ b ++ [' ', '|', ' '] ++ v
      = (a ++ [' ']) ++ '|' :: ((' ' :: b) ++ [' ', '|', ' '] ++ v) := by simp
  rw [this, splitC_append _ (by simp [ha]), split_two (by simp [hb]) hv]
  simp

/-- Reading `"a | v"`. -/
theorem read_two (k : Clock T) (c : Comment T) {a v : Str} (ha : '|' ∉ a) (hv : '|' ∉ v) :
    setValue k c (some (a ++ [' ', '|', ' '] ++ v)) =
      match k.parse (strip a) with
      | some t => .ok { c with time := t, value := some (strip v) }
      | none => .ok { c with author := some (strip a), value := some (strip v) } := by
  unfold setValue setVars
  simp only
  rw [if_pos (by simp), split_two ha hv]
  simp only [List.map_cons, List.map_nil, strip_append_ws _ ws_space, strip_cons_ws _ ws_space]
  rfl

/-- Reading `"a | b | v"`. -/
theorem read_three (k : Clock T) (c : Comment T) {a b v : Str} (ha : '|' ∉ a) (hb : '|' ∉ b)
    (hv : '|' ∉ v) :
    setValue k c (some (a ++ [' ', '|', ' '] ++ b ++ [' ', '|', ' '] ++ v)) =
      match k.parse (strip a) with
      | some t => .ok ⟨some (strip b), t, some (strip v)⟩
      | none => .error .valueError := by
  unfold setValue setVars
  simp only
  rw [if_pos (by simp), split_three ha hb hv]
  simp only [List.map_cons, List.map_nil, strip_append_ws _ ws_space, strip_cons_ws _ ws_space]
  rfl

/-! ## C70 — the string form

Full claim: for every lawful clock, a clean comment is read back from its string form. -/

def C70_claim {T : Type} [DecidableEq T] (k : Clock T) : Prop :=
  ∀ c : Comment T, Clean c → fromDict k (fresh k) (.str (asString k c)) = .ok c

/-- It fails for every lawful clock: an author that reads as a time (for instance the word
`None`) is taken for the time stamp and lost. -/
theorem C70_refuted [DecidableEq T] (k : Clock T) (hk : Lawful k) : ¬ C70_claim k := by
  intro h
  have hc : Clean (T := T) ⟨some "None".toList, k.dflt, some "x".toList⟩ :=
    ⟨by intro a ha; simp only [Option.some.injEq] at ha; subst ha; decide +kernel,
      ⟨_, rfl, by decide +kernel, by decide +kernel⟩⟩
  have h1 := h _ hc
  have h2 : asString k (⟨some "None".toList, k.dflt, some "x".toList⟩ : Comment T)
      = (" None".toList) ++ [' ', '|', ' '] ++ "x".toList := by
    simp [asString, noAuthor, authorText]
  rw [h2] at h1
  simp only [fromDict] at h1
  rw [read_two k _ (by decide +kernel) (by decide +kernel)] at h1
  have hp : k.parse (strip " None".toList) = some k.dflt := by
    have : strip " None".toList = "None".toList := by decide +kernel
    rw [this]; exact hk.word "None" (by simp)
  rw [hp] at h1
  simp [fresh] at h1

/-- The exact condition: a clean comment is read back iff it carries its own time stamp, or
no author, or an author that does not read as a time. -/
theorem C70_iff_partial [DecidableEq T] (k : Clock T) (hk : Lawful k) (c : Comment T)
    (hc : Clean c) :
    fromDict k (fresh k) (.str (asString k c)) = .ok c ↔
      (c.time = k.dflt → ∀ a, c.author = some a → k.parse a = none) := by
  obtain ⟨au, t, v'⟩ := c
  obtain ⟨v, hv, hbar, htrim⟩ := hc.text
  simp only at hv
  subst hv
  simp only [fromDict]
  by_cases ht : t = k.dflt
  · subst ht
    cases au with
    | none =>
      simp only [asString, noAuthor, if_true, decide_true, Bool.true_or]
      rw [setValue, setVars_noBar k (by intro w hw; simp at hw; subst hw; exact hbar)]
      simp [fresh]
    | some a =>
      obtain ⟨hne, hab, hat⟩ := hc.author a rfl
      have h2 : asString k (⟨some a, k.dflt, some v⟩ : Comment T)
          = (' ' :: a) ++ [' ', '|', ' '] ++ v := by
        simp [asString, noAuthor, authorText, hne]
      rw [h2, read_two k _ (by simp [hab]) hbar, strip_cons_ws _ ws_space, hat, htrim]
      cases hp : k.parse a with
      | none => simp [fresh, hp]
      | some u => simp [fresh, hp]
  · refine ⟨fun _ h => absurd h ht, fun _ => ?_⟩
    cases au with
    | none =>
      have h2 : asString k (⟨none, t, some v⟩ : Comment T) = k.iso t ++ [' ', '|', ' '] ++ v := by
        simp [asString, noAuthor, ht]
      rw [h2, read_two k _ (hk.noBar t) hbar, hk.trim, hk.back, htrim]
      simp [fresh]
    | some a =>
      obtain ⟨hne, hab, hat⟩ := hc.author a rfl
      have h2 : asString k (⟨some a, t, some v⟩ : Comment T)
          = k.iso t ++ [' ', '|', ' '] ++ a ++ [' ', '|', ' '] ++ v := by
        simp [asString, noAuthor, authorText, ht, hne]
      rw [h2, read_three k _ (hk.noBar t) hab hbar, hk.trim, hk.back, hat, htrim]

/-- In particular every comment with a time stamp of its own is read back, field by field. -/
theorem C70_stamped_partial [DecidableEq T] (k : Clock T) (hk : Lawful k) (c : Comment T)
    (hc : Clean c) (ht : c.time ≠ k.dflt) :
    fromDict k (fresh k) (.str (asString k c)) = .ok c :=
  (C70_iff_partial k hk c hc).2 (fun h => absurd h ht)

example : fromDict toy (fresh toy) (.str (asString toy note1)) = .ok note1 :=
  C70_stamped_partial toy toy_lawful note1 note1_clean (by decide)

/-- The printed form, for any comment with author, time and text. -/
theorem C70_format_partial [DecidableEq T] (k : Clock T) (a v : Str) (t : T) (ha : a ≠ [])
    (ht : t ≠ k.dflt) :
    asString k ⟨some a, t, some v⟩ = join [' ', '|', ' '] [k.iso t, a, v] := by
  simp [asString, noAuthor, authorText, ht, ha, join]

example : asString toy note1 =
    "2020-01-01T00:00:00+00:00 | J. Pedantic | failure at midnight".toList := by decide +kernel

/-- A line with three fields whose first is not a time is refused, never misread. -/
theorem C70_bad_time_partial (k : Clock T) (c : Comment T) (a b v : Str) (ha : '|' ∉ a)
    (hb : '|' ∉ b) (hv : '|' ∉ v) (hp : k.parse (strip a) = none) :
    fromDict k c (.str (join [' ', '|', ' '] [a, b, v])) = .error .valueError := by
  have : join [' ', '|', ' '] [a, b, v] = a ++ [' ', '|', ' '] ++ b ++ [' ', '|', ' '] ++ v := by
    simp [join]
  simp only [fromDict, this, read_three k c ha hb hv, hp]

example : fromDict toy (fresh toy) (.str "yesterday | me | text".toList) = .error .valueError := by
  decide +kernel

/-! ## C109 — comparison -/

/-- Full claim: comparing with `None` is true only of the comment without content. -/
def C109_claim {T : Type} [DecidableEq T] (k : Clock T) : Prop :=
  ∀ c : Comment T, ∀ r, eq k c .none = .ok r → r.truthy = true → c = fresh k

/-- Every comment compares as equal to `None`. -/
theorem C109_refuted [DecidableEq T] (k : Clock T) : ¬ C109_claim k := by
  intro h
  have := h ⟨some [], k.dflt, none⟩ _ rfl rfl
  simp [fresh] at this

/-- Between comments the comparison is equality of the three fields, hence an equivalence. -/
theorem C109_comments_partial [DecidableEq T] (k : Clock T) (c d : Comment T) (r : EqRes) :
    eq k c (.com d) = .ok r → (r.truthy = true ↔ c = d) := by
  intro h
  simp only [eq, Except.ok.injEq] at h
  subst h
  obtain ⟨a, t, v⟩ := c
  obtain ⟨a', t', v'⟩ := d
  simp [EqRes.truthy, same, and_assoc]

/-- With a string: true exactly if reading the string as a new comment gives this comment. -/
theorem C109_string_partial [DecidableEq T] (k : Clock T) (c : Comment T) (s : Str) :
    eq k c (.str s) = .ok (.bool true) ↔ fromDict k (fresh k) (.str s) = .ok c := by
  simp only [eq, fromDict]
  cases h : setValue k (fresh k) (some s) with
  | error e => simp
  | ok d =>
    have hs : same c d = true ↔ c = d := by
      obtain ⟨a, t, v⟩ := c
      obtain ⟨a', t', v'⟩ := d
      simp [same, and_assoc]
    simp only [Except.ok.injEq, EqRes.bool.injEq, hs]
    exact eq_comm

/-- So a stamped comment equals its own string form. -/
theorem C109_own_string_partial [DecidableEq T] (k : Clock T) (hk : Lawful k) (c : Comment T)
    (hc : Clean c) (ht : c.time ≠ k.dflt) :
    eq k c (.str (asString k c)) = .ok (.bool true) :=
  (C109_string_partial k c _).2 (C70_stamped_partial k hk c hc ht)

example : eq toy note1 (.str (asString toy note1)) = .ok (.bool true) :=
  C109_own_string_partial toy toy_lawful note1 note1_clean (by decide)

example : eq toy note1 (.str "failure at midnight".toList) = .ok (.bool false) := by
  decide +kernel

/-! ## C110 — the dictionary form -/

theorem setVars_out_noBar (k : Clock T) (c d : Comment T) (h : setVars k c = .ok d) :
    ∀ v, d.value = some v → '|' ∉ v := by
  intro v hv
  unfold setVars at h
  split at h
  · rename_i hn; cases h; rw [hn] at hv; exact absurd hv (by simp)
  · rename_i w hw
    split at h
    · have key : ∀ x, ((splitC '|' w).map strip).getLastD [] = x → '|' ∉ x := by
        intro x hx hm
        subst hx
        cases hl : splitC '|' w with
        | nil => exact absurd hl (splitC_ne_nil _ _)
        | cons a l =>
          have hmem : ((a :: l).map strip).getLastD [] ∈ (a :: l).map strip := by
            rw [List.getLastD_eq_getLast?, List.getLast?_eq_some_getLast (by simp)]
            exact List.getLast_mem _
          rw [hl] at hm
          obtain ⟨y, hy, hye⟩ := List.mem_map.1 hmem
          rw [← hye] at hm
          exact splitC_pieces '|' w y (by rw [hl]; exact hy) (mem_of_mem_strip hm)
      simp only at h
      have hval : ∃ x, d.value = some x ∧ ((splitC '|' w).map strip).getLastD [] = x := by
        split at h
        · split at h
          · rename_i hs _ _ _; cases h; exact ⟨_, rfl, rfl⟩
          · cases h
        · split at h
          · cases h; exact ⟨_, rfl, rfl⟩
          · cases h; exact ⟨_, rfl, rfl⟩
        · cases h; exact ⟨_, rfl, rfl⟩
      obtain ⟨x, hx1, hx2⟩ := hval
      rw [hx1] at hv; cases hv
      exact key _ hx2
    · rename_i hb
      cases h
      rw [hw] at hv; cases hv; exact hb

/-- The comments a program can hold: built from any dictionary, then changed by any
assignments. -/
inductive Made (k : Clock T) : Comment T → Prop
  | new {d c} : construct k d = .ok c → Made k c
  | value {c v d} : Made k c → setValue k c v = .ok d → Made k d
  | author {c a d} : Made k c → setAuthor k c a = .ok d → Made k d
  | time {c s d} : Made k c → setTime k c s = .ok d → Made k d

theorem note1_made : Made toy note1 :=
  .new (d := [("value", some "2020-01-01T00:00:00+00:00 |J. Pedantic| failure at midnight".toList)])
    (by decide +kernel)

/-- No comment a program can hold has a bar in its text. -/
theorem C110_no_bar (k : Clock T) (c : Comment T) (h : Made k c) :
    ∀ v, c.value = some v → '|' ∉ v := by
  cases h with
  | new h =>
    unfold construct at h
    split at h
    · cases h
    · exact setVars_out_noBar k _ _ h
  | value _ h => exact setVars_out_noBar k _ _ h
  | author _ h => exact setVars_out_noBar k _ _ h
  | time _ h =>
    unfold setTime at h
    split at h
    · exact setVars_out_noBar k _ _ h
    · cases h

/-- Reading the three-field dictionary of any comment into any other comment gives it back
exactly, whatever author and text hold. -/
theorem C110_partial (k : Clock T) (hk : Lawful k) (c e : Comment T)
    (mc : Made k c) (me : Made k e) :
    fromDict k e (.flat (toDict k c)) = .ok c ∧
    ∀ key, fromDict k e (.nested key (toDict k c)) = .ok c := by
  have hc := C110_no_bar k c mc
  have he := C110_no_bar k e me
  have h3 : three k e (toDict k c) = .ok c := by
    have g1 : getD (toDict k c) "time_stamp" = some (k.iso c.time) := by
      simp [getD, toDict, OD.get?]
    have g2 : getD (toDict k c) "author" = c.author := by
      simp [getD, toDict, OD.get?]
    have g3 : getD (toDict k c) "value" = c.value := by
      simp [getD, toDict, OD.get?]
    unfold three
    rw [g1, g2, g3]
    simp only [setTime, parseTime, hk.back]
    rw [setVars_noBar k (c := { e with time := c.time }) he]
    simp only [setAuthor]
    rw [setVars_noBar k (c := { e with time := c.time, author := c.author }) he]
    simp only [setValue]
    exact setVars_noBar k hc
  refine ⟨?_, fun key => h3⟩
  simp only [fromDict]
  rw [if_pos (by simp [toDict]), h3]

/-- Full claim, for the dictionary the library writes by default (fields without value left
out). -/
def C110_claim {T : Type} (k : Clock T) : Prop :=
  ∀ c : Comment T, Made k c → fromDict k (fresh k) (.flat (toDictReq k c)) = .ok c

/-- It fails for a comment without author and text: the time stamp is read as the text. -/
theorem C110_refuted (k : Clock T) (hk : Lawful k) : ¬ C110_claim k := by
  intro h
  have h1 := h ⟨none, k.dflt, none⟩ (.new (d := []) rfl)
  have h2 : toDictReq k (⟨none, k.dflt, none⟩ : Comment T) = [("time_stamp", some (k.iso k.dflt))] := by
    simp [toDictReq, toDict]
  rw [h2] at h1
  simp only [fromDict, List.length_singleton, gt_iff_lt, Nat.lt_irrefl, if_false] at h1
  rw [setValue, setVars_noBar k (by intro v hv; simp at hv; subst hv; exact hk.noBar _)] at h1
  simp [fresh] at h1

/-- With an author or a text it is read back, also from the shortened dictionary. -/
theorem C110_required_partial (k : Clock T) (hk : Lawful k) (c : Comment T)
    (mc : Made k c) (hne : c.author ≠ none ∨ c.value ≠ none) :
    fromDict k (fresh k) (.flat (toDictReq k c)) = .ok c := by
  have hc := C110_no_bar k c mc
  obtain ⟨a, t, v⟩ := c
  have hb : ∀ w, (fresh k).value = some w → '|' ∉ w := by simp [fresh]
  have key : ∀ d : OD String (Option Str), d.length > 1 → getD d "time_stamp" = some (k.iso t) →
      getD d "author" = a → getD d "value" = v → fromDict k (fresh k) (.flat d) = .ok ⟨a, t, v⟩ := by
    intro d hd g1 g2 g3
    simp only [fromDict]
    rw [if_pos hd]
    unfold three
    rw [g1, g2, g3]
    simp only [setTime, parseTime, hk.back]
    rw [setVars_noBar k (by simp [fresh])]
    simp only [setAuthor]
    rw [setVars_noBar k (by simp [fresh])]
    simp only [setValue]
    exact setVars_noBar k hc
  cases a <;> cases v
  · simp at hne
  all_goals
    apply key <;> simp [toDictReq, toDict, getD, OD.get?]

example : fromDict toy (fresh toy) (.flat (toDictReq toy note1)) = .ok note1 :=
  C110_required_partial toy toy_lawful note1 note1_made (by simp [note1])

/-! ## C111 — writing a comment as XML -/

/-- Full claim: writing leaves the comment unchanged. -/
def C111_claim (T : Type) : Prop := ∀ c : Comment T, (toXml c).1 = c

/-- It does not: a missing author becomes the empty string. -/
theorem C111_refuted [Inhabited T] : ¬ C111_claim T := by
  intro h
  have := h ⟨none, default, none⟩
  simp [toXml] at this

/-- The element carries author and text, a second writing gives the same element and changes
nothing more, and a comment with both fields is left as it is. -/
theorem C111_partial (c : Comment T) :
    (toXml c).2 = (c.author.getD [], c.value.getD []) ∧
    (toXml (toXml c).1) = ((toXml c).1, (toXml c).2) ∧
    (c.author ≠ none → c.value ≠ none → (toXml c).1 = c) ∧
    (toXml c).1.time = c.time := by
  obtain ⟨a, t, v⟩ := c
  refine ⟨rfl, rfl, ?_, rfl⟩
  cases a <;> cases v <;> simp [toXml]

example : (toXml note1).1 = note1 := ((C111_partial note1).2.2.1) (by simp [note1]) (by simp [note1])

end Verif.Comment
