import Verif.Model.Units

/-!
C45, C92, C93: unit strings.
-/

namespace Verif.Units

/-- A word in a unit expression: not empty, no blank, no slash, no bracket, and not "per". -/
def Word (w : Str) : Prop :=
  w ≠ [] ∧ (∀ c ∈ w, c.isWhitespace = false ∧ c ≠ '/' ∧ c ≠ '[' ∧ c ≠ ']') ∧ w ≠ "per".toList

instance (w : Str) : Decidable (Word w) := by unfold Word; infer_instance

/-- The unit expression `u s₁ v₁ s₂ v₂ …`. -/
def build (u : Str) (l : List (Sep × Str)) : Str := u ++ l.flatMap (fun p => p.1.str ++ p.2)

/-! ### Auxiliary facts -/

theorem build_cons (u : Str) (s : Sep) (v : Str) (l : List (Sep × Str)) :
    build u ((s, v) :: l) = u ++ (s.str ++ build v l) := by
  simp [build]

theorem find_skip {pat : Str} {p : Char} {ps : Str} (hp : pat = p :: ps) {u : Str}
    (hu : p ∉ u) (t : Str) : find pat (u ++ t) = (find pat t).map (· + u.length) := by
  subst hp
  induction u with
  | nil => simp
  | cons a u ih =>
    have h1 : ((p :: ps).isPrefixOf (a :: (u ++ t))) = false := by
      have : p ≠ a := fun e => hu (by simp [e])
      simp [List.isPrefixOf, this]
    rw [List.cons_append, find, h1]
    simp only [Bool.false_eq_true, if_false]
    rw [ih (fun h => hu (by simp [h]))]
    cases find (p :: ps) t with
    | none => rfl
    | some n => simp [Nat.add_assoc]

theorem find_cons_none {pat : Str} {c : Char} {cs : Str} (h : pat.isPrefixOf (c :: cs) = false) :
    find pat (c :: cs) = (find pat cs).map (· + 1) := by
  rw [find, h]; simp

theorem find_cons_some {pat : Str} {c : Char} {cs : Str} (h : pat.isPrefixOf (c :: cs) = true) :
    find pat (c :: cs) = some 0 := by
  rw [find, h]; simp

theorem Word.no_slash {w : Str} (h : Word w) : '/' ∉ w := fun hm => (h.2.1 _ hm).2.1 rfl

theorem Word.no_blank {w : Str} (h : Word w) : ' ' ∉ w := fun hm =>
  absurd (h.2.1 _ hm).1 (by decide)

theorem per_not_prefix {v : Str} (hv : Word v) (l : List (Sep × Str)) :
    Sep.per.str.isPrefixOf (' ' :: build v l) = false := by
  have key : ¬ ['p', 'e', 'r', ' '] <+: build v l := by
    have hb := hv.no_blank
    obtain ⟨h0, h1, h2⟩ := hv
    rcases v with _ | ⟨a, _ | ⟨b, _ | ⟨c, _ | ⟨d, v⟩⟩⟩⟩
    · exact absurd rfl h0
    · rcases l with _ | ⟨⟨s, w⟩, l⟩
      · simp [build]
      · cases s <;> simp [build, Sep.str]
    · rcases l with _ | ⟨⟨s, w⟩, l⟩
      · simp [build]
      · cases s <;> simp [build, Sep.str]
    · intro h
      simp only [build, List.cons_append, List.nil_append, List.cons_prefix_cons] at h
      exact h2 (by rw [← h.1, ← h.2.1, ← h.2.2.1]; rfl)
    · intro h
      simp only [build, List.cons_append, List.cons_prefix_cons] at h
      exact hb (by rw [h.2.2.2.1]; simp)
  cases hp : Sep.per.str.isPrefixOf (' ' :: build v l) with
  | false => rfl
  | true =>
    have := List.isPrefixOf_iff_prefix.1 hp
    simp only [Sep.str, List.cons_prefix_cons, true_and] at this
    refine absurd ?_ key
    simpa only [List.cons_prefix_cons] using this

theorem findSep_word {u : Str} (h : Word u) : findSep u = none := by
  have e1 : find Sep.slash.str u = none := by
    have := find_skip (pat := Sep.slash.str) rfl h.no_slash []
    rw [List.append_nil] at this
    rw [this]; rfl
  have e2 : find Sep.per.str u = none := by
    have := find_skip (pat := Sep.per.str) rfl h.no_blank []
    rw [List.append_nil] at this
    rw [this]; rfl
  have e3 : find Sep.blank.str u = none := by
    have := find_skip (pat := Sep.blank.str) rfl h.no_blank []
    rw [List.append_nil] at this
    rw [this]; rfl
  unfold findSep
  rw [e1, e2, e3]
  rfl

theorem better_keep {a : Nat × Sep} {b : Option (Nat × Sep)} (h : ∀ x, b = some x → a.1 ≤ x.1) :
    better (some a) b = some a := by
  cases b with
  | none => rfl
  | some b =>
    simp only [better]
    rw [if_neg (by have := h b rfl; omega)]

theorem better_take {a : Option (Nat × Sep)} {b : Nat × Sep} (h : ∀ x, a = some x → b.1 < x.1) :
    better a (some b) = some b := by
  cases a with
  | none => rfl
  | some a =>
    simp only [better]
    rw [if_pos (h a rfl)]

theorem le_map {o : Option Nat} {k n : Nat} {s : Sep} {x : Nat × Sep}
    (h : ((o.map (· + k)).map (· + n)).map (·, s) = some x) : n + k ≤ x.1 := by
  cases o with
  | none => cases h
  | some m =>
    simp only [Option.map_some, Option.some.injEq] at h
    rw [← h]
    simp only
    omega

theorem findSep_build {u v : Str} (hu : Word u) (hv : Word v) (s : Sep) (l : List (Sep × Str)) :
    findSep (u ++ (s.str ++ build v l)) = some (u.length, s) := by
  unfold findSep
  rw [find_skip (pat := Sep.slash.str) rfl hu.no_slash, find_skip (pat := Sep.per.str) rfl hu.no_blank,
    find_skip (pat := Sep.blank.str) rfl hu.no_blank]
  cases s with
  | slash =>
    have e1 : find Sep.slash.str (Sep.slash.str ++ build v l) = some 0 :=
      find_cons_some (by simp [Sep.str, List.isPrefixOf])
    have e2 : find Sep.per.str (Sep.slash.str ++ build v l) =
        (find Sep.per.str (build v l)).map (· + 1) :=
      find_cons_none (by simp [Sep.str, List.isPrefixOf])
    have e3 : find Sep.blank.str (Sep.slash.str ++ build v l) =
        (find Sep.blank.str (build v l)).map (· + 1) :=
      find_cons_none (by simp [Sep.str, List.isPrefixOf])
    rw [e1, e2, e3]
    simp only [Option.map_some, Nat.zero_add]
    rw [better_keep (fun x hx => ?_), better_keep (fun x hx => ?_)]
    · have := le_map hx; simp only; omega
    · have := le_map hx; simp only; omega
  | per =>
    have e1 : find Sep.slash.str (Sep.per.str ++ build v l) =
        (find Sep.slash.str (build v l)).map (· + 5) :=
      find_skip (u := Sep.per.str) rfl (by decide) _
    have e2 : find Sep.per.str (Sep.per.str ++ build v l) = some 0 :=
      find_cons_some (by simp [Sep.str, List.isPrefixOf])
    have e3 : find Sep.blank.str (Sep.per.str ++ build v l) = some 0 :=
      find_cons_some (by simp [Sep.str, List.isPrefixOf])
    rw [e1, e2, e3]
    simp only [Option.map_some, Nat.zero_add]
    rw [better_take (b := (u.length, Sep.per)) (fun x hx => ?_), better_keep (fun x hx => ?_)]
    · cases hx; exact Nat.le_refl _
    · have := le_map hx; simp only; omega
  | blank =>
    have e1 : find Sep.slash.str (Sep.blank.str ++ build v l) =
        (find Sep.slash.str (build v l)).map (· + 1) :=
      find_cons_none (by simp [Sep.str, List.isPrefixOf])
    have e2 : find Sep.per.str (Sep.blank.str ++ build v l) =
        (find Sep.per.str (build v l)).map (· + 1) :=
      find_cons_none (per_not_prefix hv l)
    have e3 : find Sep.blank.str (Sep.blank.str ++ build v l) = some 0 :=
      find_cons_some (by simp [Sep.str, List.isPrefixOf])
    rw [e1, e2, e3]
    simp only [Option.map_some, Nat.zero_add]
    rw [better_take (fun x hx => ?_)]
    have hb : ∀ a b : Option (Nat × Sep), better a b = some x → a = some x ∨ b = some x := by
      intro a b h
      cases a with
      | none => exact Or.inr h
      | some a =>
        cases b with
        | none => exact Or.inl h
        | some b =>
          simp only [better] at h
          split at h
          · exact Or.inr h
          · exact Or.inl h
    rcases hb _ _ hx with hx | hx
    · have := le_map hx; simp only; omega
    · have := le_map hx; simp only; omega

theorem strip_of_ends {a b : Char} {m : Str} (ha : a.isWhitespace = false)
    (hb : b.isWhitespace = false) {s : Str} (h1 : s.head? = some a) (h2 : s.getLast? = some b)
    (_hm : m = s) : strip s = s := by
  unfold strip
  have e1 : s.dropWhile Char.isWhitespace = s := by
    cases s with
    | nil => rfl
    | cons x s =>
      simp only [List.head?_cons, Option.some.injEq] at h1
      rw [List.dropWhile_cons_of_neg]; rw [h1, ha]; simp
  have h2' : s.reverse.head? = some b := by rw [List.head?_reverse]; exact h2
  have e2 : s.reverse.dropWhile Char.isWhitespace = s.reverse := by
    cases hr : s.reverse with
    | nil => rfl
    | cons x r =>
      rw [hr] at h2'
      simp only [List.head?_cons, Option.some.injEq] at h2'
      rw [List.dropWhile_cons_of_neg]; rw [h2', hb]; simp
  rw [e1, e2, List.reverse_reverse]

theorem Word.head {w : Str} (h : Word w) : ∃ a, w.head? = some a ∧ a.isWhitespace = false := by
  cases w with
  | nil => exact absurd rfl h.1
  | cons a w => exact ⟨a, rfl, (h.2.1 a (by simp)).1⟩

theorem Word.last {w : Str} (h : Word w) : ∃ a, w.getLast? = some a ∧ a.isWhitespace = false := by
  cases hl : w.getLast? with
  | none => exact absurd (List.getLast?_eq_none_iff.1 hl) h.1
  | some a => exact ⟨a, rfl, (h.2.1 a (List.mem_of_getLast? hl)).1⟩

theorem build_head {u : Str} (hu : Word u) (l : List (Sep × Str)) :
    ∃ a, (build u l).head? = some a ∧ a.isWhitespace = false := by
  obtain ⟨a, h1, h2⟩ := hu.head
  refine ⟨a, ?_, h2⟩
  unfold build
  rw [List.head?_append, h1]; rfl

theorem build_last {u : Str} (hu : Word u) (l : List (Sep × Str)) (hl : ∀ p ∈ l, Word p.2) :
    ∃ a, (build u l).getLast? = some a ∧ a.isWhitespace = false := by
  induction l generalizing u with
  | nil => simpa [build] using hu.last
  | cons p l ih =>
    obtain ⟨s, v⟩ := p
    obtain ⟨a, h1, h2⟩ := ih (u := v) (hl (s, v) (by simp)) (fun q hq => hl q (by simp [hq]))
    refine ⟨a, ?_, h2⟩
    rw [build_cons, ← List.append_assoc, List.getLast?_append, h1]; rfl

theorem strip_build {u : Str} (hu : Word u) (l : List (Sep × Str)) (hl : ∀ p ∈ l, Word p.2) :
    strip (build u l) = build u l := by
  obtain ⟨a, h1, h2⟩ := build_head hu l
  obtain ⟨b, h3, h4⟩ := build_last hu l hl
  exact strip_of_ends h2 h4 h1 h3 rfl

theorem strip_word {u : Str} (hu : Word u) : strip u = u := by
  have := strip_build hu [] (by simp)
  simpa [build] using this

theorem firstWord_word {u : Str} (hu : Word u) : firstWord u = some u := by
  have e1 : u.dropWhile Char.isWhitespace = u := by
    obtain ⟨a, h1, h2⟩ := hu.head
    cases u with
    | nil => rfl
    | cons x s =>
      simp only [List.head?_cons, Option.some.injEq] at h1
      rw [List.dropWhile_cons_of_neg]; rw [h1, h2]; simp
  have e2 : u.takeWhile (fun c => !c.isWhitespace) = u := by
    have : ∀ w : Str, (∀ c ∈ w, c.isWhitespace = false) → w.takeWhile (fun c => !c.isWhitespace) = w := by
      intro w
      induction w with
      | nil => exact fun _ => rfl
      | cons a w ih =>
        intro h
        rw [List.takeWhile_cons_of_pos (by simp [h a (by simp)]), ih (fun c hc => h c (by simp [hc]))]
    exact this u (fun c hc => (hu.2.1 c hc).1)
  unfold firstWord
  rw [e1, e2]
  cases u with
  | nil => exact absurd rfl hu.1
  | cons a w => rfl

/-- The entries found in a unit expression, each with the separator behind it. -/
def partsOf : Str → List (Sep × Str) → List Part
  | u, [] => [{ name := u, sep := none }]
  | u, (s, v) :: l => { name := u, sep := some s } :: partsOf v l

theorem loop_build (l : List (Sep × Str)) : ∀ (n : Nat) (u : Str), Word u →
    (∀ p ∈ l, Word p.2) → l.length < n → loop n (build u l) = partsOf u l := by
  induction l with
  | nil =>
    intro n u hu _ hn
    obtain ⟨m, rfl⟩ : ∃ m, n = m + 1 := ⟨n - 1, by simp at hn; omega⟩
    have e : build u [] = u := by simp [build]
    rw [e, loop, findSep_word hu, firstWord_word hu]
    rfl
  | cons p l ih =>
    obtain ⟨s, v⟩ := p
    intro n u hu hl hn
    obtain ⟨m, rfl⟩ : ∃ m, n = m + 1 := ⟨n - 1, by simp at hn; omega⟩
    have hv : Word v := hl (s, v) (by simp)
    have hl' : ∀ p ∈ l, Word p.2 := fun q hq => hl q (by simp [hq])
    rw [build_cons, loop, findSep_build hu hv]
    simp only
    have e1 : (u ++ (s.str ++ build v l)).take u.length = u := by simp
    have e2 : (u ++ (s.str ++ build v l)).drop (u.length + s.str.length) = build v l := by
      rw [← List.drop_drop]; simp
    rw [e1, e2, strip_word hu, strip_build hv l hl', if_neg hu.1,
      ih m v hv hl' (by simp at hn; omega)]
    rfl

theorem length_build (u : Str) (l : List (Sep × Str)) : l.length ≤ (build u l).length := by
  induction l generalizing u with
  | nil => simp
  | cons p l ih =>
    obtain ⟨s, v⟩ := p
    have := ih v
    rw [build_cons]
    have : 1 ≤ s.str.length := by cases s <;> decide
    simp only [List.length_append, List.length_cons]
    omega

theorem filter_build {u : Str} (hu : Word u) (l : List (Sep × Str)) (hl : ∀ p ∈ l, Word p.2) :
    (build u l).filter (fun c => c ≠ '[' ∧ c ≠ ']') = build u l := by
  rw [List.filter_eq_self]
  intro c hc
  simp only [decide_eq_true_eq]
  unfold build at hc
  rcases List.mem_append.1 hc with hc | hc
  · exact (hu.2.1 c hc).2.2
  · obtain ⟨p, hp, hc⟩ := List.mem_flatMap.1 hc
    rcases List.mem_append.1 hc with hc | hc
    · have : ∀ (s : Sep), ∀ c ∈ s.str, c ≠ '[' ∧ c ≠ ']' := by
        intro s; cases s <;> decide
      exact this _ c hc
    · exact ((hl p hp).2.1 c hc).2.2

theorem shift_partsOf (l : List (Sep × Str)) : ∀ (prev : Option Sep) (u : Str),
    shift prev (partsOf u l) = { name := u, sep := prev } :: l.map (fun p => { name := p.2, sep := some p.1 }) := by
  induction l with
  | nil => intro prev u; rfl
  | cons p l ih =>
    obtain ⟨s, v⟩ := p
    intro prev u
    simp only [partsOf, shift, List.map_cons]
    rw [ih]

/-- More rounds than needed change nothing: the number of rounds in `parse` is enough. -/
theorem loop_fuel : ∀ (n : Nat) (s : Str), s.length < n → loop n s = loop (s.length + 1) s := by
  have hfind : ∀ (pat : Str) (s : Str) (i : Nat), find pat s = some i → i + pat.length ≤ s.length := by
    intro pat s
    induction s with
    | nil =>
      intro i h
      unfold find at h
      split at h
      · next hp =>
        cases h
        have := List.IsPrefix.length_le (List.isPrefixOf_iff_prefix.1 hp)
        omega
      · cases h
    | cons c s ih =>
      intro i h
      unfold find at h
      split at h
      · next hp =>
        cases h
        have := List.IsPrefix.length_le (List.isPrefixOf_iff_prefix.1 hp)
        omega
      · cases hf : find pat s with
        | none => rw [hf] at h; cases h
        | some j =>
          rw [hf] at h
          simp only [Option.map_some, Option.some.injEq] at h
          have := ih j hf
          simp only [List.length_cons]
          omega
  have hbet : ∀ a b x, better a b = some x → a = some x ∨ b = some x := by
    intro a b x h
    cases a with
    | none => exact Or.inr h
    | some a =>
      cases b with
      | none => exact Or.inl h
      | some b =>
        simp only [better] at h
        split at h
        · exact Or.inr h
        · exact Or.inl h
  have hsep : ∀ (s : Str) (i : Nat) (sep : Sep), findSep s = some (i, sep) →
      i + sep.str.length ≤ s.length := by
    intro s i sep h
    have hm : ∀ p : Sep, (find p.str s).map (·, p) = some (i, sep) → i + sep.str.length ≤ s.length := by
      intro p hp
      cases hf : find p.str s with
      | none => rw [hf] at hp; cases hp
      | some j =>
        rw [hf] at hp
        simp only [Option.map_some, Option.some.injEq, Prod.mk.injEq] at hp
        rw [← hp.1, ← hp.2]
        exact hfind _ _ _ hf
    unfold findSep at h
    rcases hbet _ _ _ h with h | h
    · rcases hbet _ _ _ h with h | h
      · exact hm _ h
      · exact hm _ h
    · exact hm _ h
  have hdw : ∀ (t : Str), (t.dropWhile Char.isWhitespace).length ≤ t.length :=
    fun t => (List.dropWhile_suffix _).length_le
  have hstrip : ∀ (t : Str), (strip t).length ≤ t.length := by
    intro t
    unfold strip
    rw [List.length_reverse]
    refine Nat.le_trans (hdw _) ?_
    rw [List.length_reverse]
    exact hdw _
  have key : ∀ (k n m : Nat) (s : Str), s.length ≤ k → s.length < n → s.length < m →
      loop n s = loop m s := by
    intro k
    induction k with
    | zero =>
      intro n m s hk hn hm
      obtain ⟨n, rfl⟩ : ∃ m, n = m + 1 := ⟨n - 1, by omega⟩
      obtain ⟨m, rfl⟩ : ∃ k, m = k + 1 := ⟨m - 1, by omega⟩
      have : s = [] := List.length_eq_zero_iff.1 (by omega)
      subst this
      rfl
    | succ k ih =>
      intro n m s hk hn hm
      obtain ⟨n, rfl⟩ : ∃ m, n = m + 1 := ⟨n - 1, by omega⟩
      obtain ⟨m, rfl⟩ : ∃ k, m = k + 1 := ⟨m - 1, by omega⟩
      unfold loop
      cases hs : findSep s with
      | none => rfl
      | some p =>
        obtain ⟨i, sep⟩ := p
        have h1 := hsep s i sep hs
        have h2 : 1 ≤ sep.str.length := by cases sep <;> decide
        have h3 := hstrip (s.drop (i + sep.str.length))
        rw [List.length_drop] at h3
        simp only
        rw [ih n m (strip (s.drop (i + sep.str.length))) (by omega) (by omega) (by omega)]
  intro n s h
  exact key s.length n (s.length + 1) s (Nat.le_refl _) h (by omega)

/-! ### C45 -/

/-- C45: a unit expression of any length is taken apart into exactly its units and separators. -/
theorem C45_parse (u : Str) (l : List (Sep × Str)) (hu : Word u) (hl : ∀ p ∈ l, Word p.2) :
    parse (build u l) =
      .ok ({ name := u, sep := none } :: l.map (fun p => { name := p.2, sep := some p.1 })) := by
  unfold parse
  simp only [filter_build hu l hl]
  rw [loop_build l _ u hu hl (by have := length_build u l; omega)]
  cases l with
  | nil => rfl
  | cons p l =>
    obtain ⟨s, v⟩ := p
    have e := shift_partsOf ((s, v) :: l) none u
    cases l with
    | nil => rw [← e]; rfl
    | cons q l => rw [← e]; rfl

/-- Combining units that are all found. -/
theorem combineAll_ok (b : Bool) (l : List (Option Sep × Str × Unit)) (U : Unit)
    (h : ∀ p ∈ l, fromDf p.2.1 b = .ok p.2.2) :
    ∃ X, combineAll b U (l.map (fun p => { name := p.2.1, sep := p.1 })) = .ok X ∧
      X.name = U.name ++ l.flatMap (fun p => nameSep p.1 ++ p.2.2.name) ∧
      X.symbol = U.symbol ++ l.flatMap (fun p => symSep p.1 ++ p.2.2.symbol) := by
  induction l generalizing U with
  | nil => exact ⟨U, rfl, by simp, by simp⟩
  | cons p l ih =>
    obtain ⟨s, v, V⟩ := p
    obtain ⟨X, h1, h2, h3⟩ := ih (combine U V s) (fun q hq => h q (by simp [hq]))
    refine ⟨X, ?_, ?_, ?_⟩
    · simp only [List.map_cons, combineAll]
      rw [h (s, v, V) (by simp)]
      exact h1
    · rw [h2]; simp [combine]
    · rw [h3]; simp [combine]

/-- How a separator appears in the long name: "per" for a division, a blank for a product. -/
def longSep : Sep → Str
  | .slash => " per ".toList
  | .per => " per ".toList
  | .blank => " ".toList

/-- How a separator appears in the symbol. -/
def shortSep : Sep → Str
  | .slash => "/".toList
  | .per => "/".toList
  | .blank => " ".toList

/-- C45: the unit found for an expression of units that are each found has as name the names joined
by " per " or a blank, and as symbol the symbols joined by a slash or a blank. -/
theorem C45_combined (b : Bool) (u : Str) (U : Unit) (l : List (Sep × Str × Unit)) (hu : Word u)
    (hl : ∀ p ∈ l, Word p.2.1) (hU : fromDf u b = .ok U) (hV : ∀ p ∈ l, fromDf p.2.1 b = .ok p.2.2)
    (hc : isCounts (build u (l.map (fun p => (p.1, p.2.1)))) = false) :
    ∃ X, getUnit (some (build u (l.map (fun p => (p.1, p.2.1))))) b = .ok X ∧
      X.name = U.name ++ l.flatMap (fun p => longSep p.1 ++ p.2.2.name) ∧
      X.symbol = U.symbol ++ l.flatMap (fun p => shortSep p.1 ++ p.2.2.symbol) := by
  have hl' : ∀ p ∈ l.map (fun p => (p.1, p.2.1)), Word p.2 := by
    intro p hp
    obtain ⟨q, hq, rfl⟩ := List.mem_map.1 hp
    exact hl q hq
  have hne : build u (l.map (fun p => (p.1, p.2.1))) ≠ [] := by
    obtain ⟨a, h1, _⟩ := build_head hu (l.map (fun p => (p.1, p.2.1)))
    intro e; rw [e] at h1; cases h1
  obtain ⟨X, h1, h2, h3⟩ := combineAll_ok b (l.map (fun p => (some p.1, p.2.1, p.2.2))) U (by
    intro p hp
    obtain ⟨q, hq, rfl⟩ := List.mem_map.1 hp
    exact hV q hq)
  refine ⟨X, ?_, ?_, ?_⟩
  · unfold getUnit
    simp only [hc]
    rw [if_neg (by decide), if_neg hne, C45_parse u _ hu hl']
    simp only [hU]
    rw [← h1]
    congr 1
    simp [List.map_map, Function.comp_def]
  · rw [h2, List.flatMap_map]
    congr 1
    have : (fun a : Sep × Str × Unit => nameSep (some a.1) ++ a.2.2.name) =
        (fun p => longSep p.1 ++ p.2.2.name) := by
      funext p; cases p.1 <;> rfl
    rw [← this]
  · rw [h3, List.flatMap_map]
    congr 1
    have : (fun a : Sep × Str × Unit => symSep (some a.1) ++ a.2.2.symbol) =
        (fun p => shortSep p.1 ++ p.2.2.symbol) := by
      funext p; cases p.1 <;> rfl
    rw [← this]

/-- The name found for a unit string. -/
def nameOf (s : String) : Option String :=
  match getUnit (some s.toList) true with
  | .ok u => some (String.ofList u.name)
  | .error _ => none

example : nameOf "mV/[km nT]" = some "milliVolt per kilometer nanoTesla" := by decide +kernel
example : Word "mV".toList ∧ Word "km".toList ∧ isCounts "mV/km".toList = false := by decide +kernel

/-! ### C92 -/

/-- C92: every unit of the table is found under its own symbol. -/
def C92_claim : Prop := ∀ r ∈ table, fromDf r.symbol false = .ok r

/-- C92 is false: `C` means celsius, coulomb cannot be found by its symbol. -/
theorem C92_refuted : ¬ C92_claim := by
  intro h
  have hm : unitOf "Coulomb" " Unit of electric charge" "C" "C" ∈ table := by decide +kernel
  exact absurd (h _ hm) (by decide +kernel)

/-- C92: every other unit, with every prefix, is found under its symbol. -/
theorem C92_symbol_partial : ∀ r ∈ table, r.name ≠ "Coulomb".toList → fromDf r.symbol false = .ok r := by
  decide +kernel

theorem find?_weaken {p q : Unit → Bool} {l : List Unit} {r : Unit} (h : l.find? p = some r)
    (hpq : ∀ x ∈ l, q x = true → p x = true) (hr : q r = true) : l.find? q = some r := by
  induction l with
  | nil => cases h
  | cons a l ih =>
    rw [List.find?_cons] at h ⊢
    cases hp : p a with
    | true =>
      rw [hp] at h
      simp only [Option.some.injEq] at h
      subst h
      rw [hr]
    | false =>
      rw [hp] at h
      have : q a = false := by
        cases hq : q a with
        | false => rfl
        | true => rw [hpq a (by simp) hq] at hp; cases hp
      rw [this]
      exact ih h (fun x hx => hpq x (by simp [hx]))

theorem table_names : ∀ r ∈ table, r.name = "digital counts".toList ∨
    table.find? (fun x => lower x.name == lower r.name || lower x.symbol == lower r.name) = some r := by
  decide +kernel

/-- C92: every unit but digital counts is found under its name, in any mixture of cases. -/
theorem C92_name_partial (r : Unit) (hr : r ∈ table) (h : r.name ≠ "digital counts".toList)
    (v : Str) (hv : lower v = lower r.name) (b : Bool) : fromDf v b = .ok r := by
  rcases table_names r hr with h' | h'
  · exact absurd h' h
  · have : table.find? (fun x => lower x.name == lower v || x.symbol == v) = some r := by
      refine find?_weaken h' ?_ (by simp [hv])
      intro x _ hx
      simp only [Bool.or_eq_true, beq_iff_eq] at hx ⊢
      rcases hx with hx | hx
      · exact Or.inl (hx.trans hv)
      · exact Or.inr (by rw [hx, hv])
    unfold fromDf
    rw [this]

/-! ### C93 -/

/-- Prefixes of the SI with their symbols. -/
def siPrefixes : List (Str × Str) :=
  [([], []), ("yotta".toList, ['Y']), ("zetta".toList, ['Z']), ("exa".toList, ['E']), ("peta".toList, ['P']), ("tera".toList, ['T']),
   ("giga".toList, ['G']), ("mega".toList, ['M']), ("kilo".toList, ['k']), ("hecto".toList, ['h']), ("deca".toList, ['d', 'a']),
   ("deci".toList, ['d']), ("centi".toList, ['c']), ("milli".toList, ['m']), ("micro".toList, ['μ']), ("nano".toList, ['n']),
   ("pico".toList, ['p']), ("femto".toList, ['f']), ("atto".toList, ['a']), ("zepto".toList, ['z']), ("yocto".toList, ['y'])]

/-- Units of the SI with their symbols. -/
def siUnits : List (Str × Str) :=
  [("meter".toList, ['m']), ("second".toList, ['s']), ("ampere".toList, ['A']), ("kelvin".toList, ['K']), ("mole".toList, ['m', 'o', 'l']),
   ("candela".toList, ['c', 'd']), ("radian".toList, ['r', 'a', 'd']), ("hertz".toList, ['H', 'z']), ("newton".toList, ['N']),
   ("joule".toList, ['J']), ("watt".toList, ['W']), ("pascal".toList, ['P', 'a']), ("coulomb".toList, ['C']), ("volt".toList, ['V']),
   ("ohm".toList, ['Ω']), ("siemens".toList, ['S']), ("weber".toList, ['W', 'b']), ("tesla".toList, ['T']), ("henry".toList, ['H'])]

theorem si_prefixes : ∀ p ∈ siPrefixes, p ∈ prefixes := by decide +kernel

theorem si_units : ∀ u ∈ siUnits, ∃ w ∈ plainUnits, w.1 = u.1 ∧ w.2.1 = u.2 := by decide +kernel

theorem si_names : ∀ p ∈ prefixes, ∀ w ∈ plainUnits, lower (prefixed p w).name = p.1 ++ w.1 ∧ (prefixed p w).name ≠ "digital counts".toList := by
  decide +kernel

theorem si_table : ∀ p ∈ siPrefixes, ∀ u ∈ siUnits, ∃ r ∈ table, lower r.name = p.1 ++ u.1 ∧ r.symbol = p.2 ++ u.2 ∧ r.name ≠ "digital counts".toList := by
  intro p hp u hu
  obtain ⟨w, hw, h1, h2⟩ := si_units u hu
  have hp' := si_prefixes p hp
  obtain ⟨h3, h4⟩ := si_names p hp' w hw
  refine ⟨prefixed p w, ?_, by rw [h3, h1], by rw [← h2]; rfl, h4⟩
  exact List.mem_append_right _ (List.mem_flatMap.2 ⟨p, hp', List.mem_map.2 ⟨w, hw, rfl⟩⟩)

/-- C92: every unit of the SI with every prefix is found by its name, in any mixture of cases, and has the symbol of the SI. -/
theorem C92_si_partial (p u : Str × Str) (hp : p ∈ siPrefixes) (hu : u ∈ siUnits) (v : Str) (hv : lower v = p.1 ++ u.1) (b : Bool) :
    ∃ r, fromDf v b = .ok r ∧ r.symbol = p.2 ++ u.2 := by
  obtain ⟨r, hr, h1, h2, h3⟩ := si_table p hp u hu
  exact ⟨r, C92_name_partial r hr h3 v (hv.trans h1.symm) b, h2⟩

example : ("micro".toList, ['μ']) ∈ siPrefixes ∧ ("volt".toList, ['V']) ∈ siUnits ∧ lower "MicroVolt".toList = "micro".toList ++ "volt".toList := by
  decide +kernel

/-- C93: the name found for a unit string names the same unit: normalising twice is normalising
once (units are stored by that name and looked up again). -/
def C93_claim : Prop := ∀ (s : Str) (b : Bool) (u : Unit), getUnit (some s) b = .ok u →
  ∃ u', getUnit (some u.name) b = .ok u' ∧ u'.name = u.name

/-- C93 is false: `counts/V` is stored as `digital counts per Volt`, which is not a known unit. -/
theorem C93_refuted : ¬ C93_claim := by
  intro h
  have h1 : ∃ u, getUnit (some "counts/V".toList) false = .ok u ∧
      u.name = "digital counts per Volt".toList :=
    ⟨_, rfl, by decide +kernel⟩
  obtain ⟨u, hu, hn⟩ := h1
  obtain ⟨u', hu', _⟩ := h _ _ u hu
  rw [hn] at hu'
  have : getUnit (some "digital counts per Volt".toList) false = .error .keyError := by decide +kernel
  rw [this] at hu'
  cases hu'

theorem fromDf_mem {v : Str} {b : Bool} {u : Unit} (h : fromDf v b = .ok u) : u ∈ table := by
  unfold fromDf at h
  split at h
  · next r hr => cases h; exact List.mem_of_find?_eq_some hr
  · split at h
    · next r hr =>
      cases h
      split at hr
      · exact List.mem_of_find?_eq_some hr
      · cases hr
    · split at h
      · cases h; decide +kernel
      · cases h

/-- A row's name, as far as parsing it is concerned. -/
theorem row_word : ∀ r ∈ table, r.name = "digital counts".toList ∨ Word r.name := by
  decide +kernel

theorem row_not_counts : ∀ r ∈ table, lower r.name ≠ "counts".toList ∧
    lower r.name ≠ "digital count".toList ∧ lower r.name ≠ "digital".toList ∧
    (lower r.name = "digital counts".toList → r.name = "digital counts".toList) := by
  decide +kernel

theorem combineAll_shape (b : Bool) (ps : List Part) : ∀ (U X : Unit),
    combineAll b U ps = .ok X → ∃ l : List (Option Sep × Unit), (∀ p ∈ l, p.2 ∈ table) ∧
      X.name = U.name ++ l.flatMap (fun p => nameSep p.1 ++ p.2.name) := by
  induction ps with
  | nil =>
    intro U X h
    cases h
    exact ⟨[], by simp, by simp⟩
  | cons p ps ih =>
    intro U X h
    unfold combineAll at h
    cases hv : fromDf p.name b with
    | error e => rw [hv] at h; cases h
    | ok V =>
      rw [hv] at h
      obtain ⟨l, h1, h2⟩ := ih _ _ h
      refine ⟨(p.sep, V) :: l, ?_, ?_⟩
      · intro q hq
        rcases List.mem_cons.1 hq with rfl | hq
        · exact fromDf_mem hv
        · exact h1 q hq
      · rw [h2]; simp [combine]

/-- The separator that `nameSep` prints. -/
def sepOf : Option Sep → Sep
  | some .slash => .per
  | some .per => .per
  | _ => .blank

theorem nameSep_eq (s : Option Sep) : nameSep s = (sepOf s).str := by
  cases s with
  | none => rfl
  | some s => cases s <;> rfl

theorem longSep_sepOf (s : Option Sep) : longSep (sepOf s) = nameSep s := by
  cases s with
  | none => rfl
  | some s => cases s <;> rfl

theorem lowerC_blank {c : Char} (h : lowerC c = ' ') : c = ' ' := by
  unfold lowerC at h
  split at h
  · exact absurd h (by decide)
  · unfold Char.toLower at h
    split at h
    · next hc =>
      have h' := congrArg Char.toNat h
      have e : (' ' : Char).toNat = 32 := rfl
      rw [e] at h'
      have a1 : (65 : UInt32).toNat ≤ c.val.toNat := hc.1
      have a2 : c.val.toNat ≤ (90 : UInt32).toNat := hc.2
      have b1 : (65 : UInt32).toNat = 65 := rfl
      have b2 : (90 : UInt32).toNat = 90 := rfl
      have b3 : (32 : UInt32).toNat = 32 := rfl
      have : (c.val + 32).toNat = c.val.toNat + 32 := by
        rw [UInt32.toNat_add, b3, Nat.mod_eq_of_lt]
        show c.val.toNat + 32 < 2 ^ 32
        omega
      have h'' : (c.val + 32).toNat = 32 := h'
      omega
    · exact h

/-- C93: whatever the string, if the resulting name does not contain "digital counts" (or is exactly
that), it names the same unit again. -/
theorem C93_stable_partial (s : Str) (b : Bool) (u : Unit) (h : getUnit (some s) b = .ok u)
    (hd : u.name = "digital counts".toList ∨ ¬ "digital counts".toList <:+: u.name) :
    ∃ u', getUnit (some u.name) b = .ok u' ∧ u'.name = u.name := by
  rcases hd with hd | hd
  · rw [hd]
    cases b
    · exact ⟨unitOf "digital counts" "digital counts from data logger" "count" "Digital Counts",
        by decide +kernel, by decide +kernel⟩
    · exact ⟨unitOf "digital counts" "digital counts from data logger" "count" "Digital Counts",
        by decide +kernel, by decide +kernel⟩
  · -- the name is made of rows of the table
    have shape : ∃ (U : Unit) (l : List (Option Sep × Unit)), U ∈ table ∧ (∀ p ∈ l, p.2 ∈ table) ∧
        u.name = U.name ++ l.flatMap (fun p => nameSep p.1 ++ p.2.name) := by
      unfold getUnit at h
      simp only at h
      split at h
      · exact ⟨u, [], fromDf_mem h, by simp, by simp⟩
      · split at h
        · cases h
          exact ⟨unknown, [], by decide +kernel, by simp, by simp⟩
        · cases hp : parse s with
          | error e => rw [hp] at h; cases h
          | ok ps =>
            rw [hp] at h
            cases ps with
            | nil => cases h
            | cons p ps =>
              simp only at h
              cases hU : fromDf p.name b with
              | error e => rw [hU] at h; cases h
              | ok U =>
                rw [hU] at h
                obtain ⟨l, h1, h2⟩ := combineAll_shape b ps U u h
                exact ⟨U, l, fromDf_mem hU, h1, h2⟩
    obtain ⟨U, l, hU, hl, hn⟩ := shape
    have notc : ∀ r ∈ table, r.name <:+: u.name → r.name ≠ "digital counts".toList := by
      intro r _ hi e
      rw [e] at hi
      exact hd hi
    have hUn : U.name ≠ "digital counts".toList :=
      notc U hU (hn ▸ (List.prefix_append _ _).isInfix)
    have hUw : Word U.name := (row_word U hU).resolve_left hUn
    have hln : ∀ p ∈ l, p.2.name ≠ "digital counts".toList := by
      intro p hp
      refine notc p.2 (hl p hp) ?_
      obtain ⟨l1, l2, rfl⟩ := List.append_of_mem hp
      rw [hn]
      exact ⟨U.name ++ l1.flatMap (fun p => nameSep p.1 ++ p.2.name) ++ nameSep p.1,
        l2.flatMap (fun p => nameSep p.1 ++ p.2.name), by simp⟩
    have hlw : ∀ p ∈ l, Word p.2.name := fun p hp => (row_word p.2 (hl p hp)).resolve_left (hln p hp)
    have hb : build U.name ((l.map (fun p => (sepOf p.1, p.2.name, p.2))).map (fun p => (p.1, p.2.1))) =
        u.name := by
      rw [hn]
      unfold build
      rw [List.flatMap_map, List.flatMap_map]
      simp only [nameSep_eq]
    have hc : isCounts u.name = false := by
      cases hc : isCounts u.name with
      | false => rfl
      | true =>
        exfalso
        obtain ⟨r1, r2, r3, r4⟩ := row_not_counts U hU
        cases l with
        | nil =>
          have e : u.name = U.name := by rw [hn]; simp
          rw [e] at hc
          simp only [isCounts, Bool.or_eq_true, beq_iff_eq] at hc
          rcases hc with (hc | hc) | hc
          · exact hUn (r4 hc)
          · exact r1 hc
          · exact r2 hc
        | cons p l =>
          have e : ∃ rest, u.name = U.name ++ ' ' :: rest := by
            rw [hn]
            simp only [List.flatMap_cons]
            have : ∃ t, nameSep p.1 = ' ' :: t := by
              rw [nameSep_eq]
              rcases p.1 with _ | s
              · exact ⟨_, rfl⟩
              · cases s <;> exact ⟨_, rfl⟩
            obtain ⟨t, ht⟩ := this
            rw [ht]
            exact ⟨_, rfl⟩
          obtain ⟨rest, e⟩ := e
          have el : lower u.name = lower U.name ++ ' ' :: lower rest := by
            rw [e]; simp [lower]; rfl
          have hnb : ' ' ∉ lower U.name := by
            intro hm
            obtain ⟨c, hc1, hc2⟩ := List.mem_map.1 hm
            rw [lowerC_blank hc2] at hc1
            exact hUw.no_blank hc1
          have htw : ∀ (a t : Str), ' ' ∉ a → (a ++ ' ' :: t).takeWhile (fun c => c ≠ ' ') = a := by
            intro a t ha
            induction a with
            | nil => rfl
            | cons x a ih =>
              rw [List.cons_append, List.takeWhile_cons_of_pos (by
                simp only [decide_eq_true_eq]; intro e; exact ha (by simp [e])),
                ih (fun hm => ha (by simp [hm]))]
          have hfw := htw (lower U.name) (lower rest) hnb
          rw [← el] at hfw
          simp only [isCounts, Bool.or_eq_true, beq_iff_eq] at hc
          rcases hc with (hc | hc) | hc <;> rw [hc] at hfw
          · exact r3 (by rw [← hfw]; decide +kernel)
          · exact r1 (by rw [← hfw]; decide +kernel)
          · exact r3 (by rw [← hfw]; decide +kernel)
    obtain ⟨X, h1, h2, _⟩ := C45_combined b U.name U (l.map (fun p => (sepOf p.1, p.2.name, p.2))) hUw
      (by
        intro p hp
        obtain ⟨q, hq, rfl⟩ := List.mem_map.1 hp
        exact hlw q hq)
      (C92_name_partial U hU hUn U.name rfl b)
      (by
        intro p hp
        obtain ⟨q, hq, rfl⟩ := List.mem_map.1 hp
        exact C92_name_partial q.2 (hl q hq) (hln q hq) q.2.name rfl b)
      (by rw [hb]; exact hc)
    rw [hb] at h1
    refine ⟨X, h1, ?_⟩
    rw [h2, hn, List.flatMap_map]
    congr 1
    simp only [longSep_sepOf]

example : nameOf "mv/KM" = some "unknown per unknown" := by decide +kernel
example : nameOf "milliVolt per kilometer" = some "milliVolt per kilometer" := by decide +kernel

end Verif.Units
