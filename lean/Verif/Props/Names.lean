import Verif.Model.Names

/-!
C89, C90: the name validators of `utils/validators.py`.
-/

namespace Verif.Names

theorem isUp_iff (c : Char) : isUp c = true ↔ 65 ≤ c.toNat ∧ c.toNat ≤ 90 := by
  simp only [isUp, Bool.and_eq_true, decide_eq_true_eq]
  exact Iff.rfl

theorem isDig_iff (c : Char) : isDig c = true ↔ 48 ≤ c.toNat ∧ c.toNat ≤ 57 := by
  simp only [isDig, Bool.and_eq_true, decide_eq_true_eq]
  exact Iff.rfl

theorem toLower_of_not_up {c : Char} (h : isUp c = false) : c.toLower = c := by
  have h' : ¬ (65 ≤ c.toNat ∧ c.toNat ≤ 90) := by
    rw [← isUp_iff, h]; simp
  unfold Char.toLower
  rw [dif_neg]
  intro ⟨h1, h2⟩
  exact h' ⟨h1, h2⟩

theorem toLower_toNat {c : Char} (h : isUp c = true) : c.toLower.toNat = c.toNat + 32 := by
  have h' := (isUp_iff c).1 h
  unfold Char.toLower
  rw [dif_pos ⟨h'.1, h'.2⟩]
  have := h'.2
  simp only [Char.toNat] at *
  simp only [UInt32.toNat_add]
  have : (32 : UInt32).toNat = 32 := rfl
  rw [Nat.mod_eq_of_lt]
  · rfl
  · show c.val.toNat + 32 < 2 ^ 32
    omega

theorem not_up_toLower (c : Char) : isUp c.toLower = false := by
  cases h : isUp c with
  | false => rw [toLower_of_not_up h, h]
  | true =>
    have h1 := toLower_toNat h
    have h2 := (isUp_iff c).1 h
    cases h3 : isUp c.toLower with
    | false => rfl
    | true =>
      have := (isUp_iff _).1 h3
      omega

theorem isDig_toLower (c : Char) : isDig c.toLower = isDig c := by
  cases h : isUp c with
  | false => rw [toLower_of_not_up h]
  | true =>
    have h1 := toLower_toNat h
    have h2 := (isUp_iff c).1 h
    rw [Bool.eq_iff_iff, isDig_iff, isDig_iff]
    omega

theorem toLower_ne_slash {c : Char} (h : c ≠ '/') : c.toLower ≠ '/' := by
  cases hu : isUp c with
  | false => rw [toLower_of_not_up hu]; exact h
  | true =>
    have h1 := toLower_toNat hu
    have h2 := (isUp_iff c).1 hu
    intro e
    rw [e] at h1
    have : ('/' : Char).toNat = 47 := rfl
    omega

theorem mem_dropDot {c : Char} : ∀ {s : Str}, c ∈ dropDotUnderscore s → c ∈ s := by
  intro s
  induction s using dropDotUnderscore.induct with
  | case1 => exact id
  | case2 cs ih =>
    simp only [dropDotUnderscore, List.mem_cons]
    rintro (h | h)
    · exact Or.inl h
    · exact Or.inr (Or.inr (ih h))
  | case3 c' cs hne ih =>
    rw [dropDotUnderscore.eq_3 _ _ hne]
    simp only [List.mem_cons]
    rintro (h | h)
    · exact Or.inl h
    · exact Or.inr (ih h)

theorem head_dropDot (s : Str) : (dropDotUnderscore s).head? = s.head? := by
  induction s using dropDotUnderscore.induct with
  | case1 => rfl
  | case2 cs ih => rfl
  | case3 c' cs hne ih => rw [dropDotUnderscore.eq_3 _ _ hne]; rfl

theorem mem_underscores {c : Char} {s : Str} (h : c ∈ underscores s) : c ∈ s ∨ c = '_' := by
  cases s with
  | nil => cases h
  | cons a s =>
    simp only [underscores, List.mem_cons, List.mem_flatMap] at h
    rcases h with rfl | ⟨d, hd, h⟩
    · simp
    · split at h
      · simp only [List.mem_cons, List.not_mem_nil, or_false] at h
        rcases h with rfl | rfl
        · right; rfl
        · left; simp [hd]
      · simp only [List.mem_cons, List.not_mem_nil, or_false] at h
        subst h
        left; simp [hd]

theorem lower_of_no_up {s : Str} (h : ∀ c ∈ s, isUp c = false) : lower s = s := by
  unfold lower
  conv => rhs; rw [← List.map_id s]
  exact List.map_congr_left (fun c hc => toLower_of_not_up (h c hc))

/-! ### C89 -/

/-- C89: `validate_name` fails exactly on names that start with a digit. -/
theorem C89_fails_iff (name : Str) :
    (∃ e, validateName name = .error e) ↔ ∃ c cs, name = c :: cs ∧ '0' ≤ c ∧ c ≤ '9' := by
  cases name with
  | nil => simp [validateName]
  | cons c cs =>
    have hd : isDig c = true ↔ '0' ≤ c ∧ c ≤ '9' := by
      simp only [isDig, Bool.and_eq_true, decide_eq_true_eq]
    have e : (c :: cs).head?.any isDig = isDig c := rfl
    constructor
    · rintro ⟨x, hx⟩
      unfold validateName at hx
      rw [e] at hx
      split at hx
      · next h => exact ⟨c, cs, rfl, hd.1 h⟩
      · simp only at hx
        split at hx <;> cases hx
    · rintro ⟨c', cs', he, h⟩
      cases he
      refine ⟨.valueError, ?_⟩
      unfold validateName
      rw [e, if_pos (hd.2 h)]

/-- C89: the validated name has no capital and no slash. -/
theorem C89_normal (name r : Str) (h : validateName name = .ok r) :
    ∀ c ∈ r, ¬ ('A' ≤ c ∧ c ≤ 'Z') ∧ c ≠ '/' := by
  unfold validateName at h
  split at h
  · cases h
  · have hs : ∀ c ∈ name.map (fun c => if c = '/' then '.' else c), c ≠ '/' := by
      intro c hc
      obtain ⟨d, _, rfl⟩ := List.mem_map.1 hc
      split
      · decide
      · assumption
    have key : ∀ c : Char, isUp c = false → ¬ ('A' ≤ c ∧ c ≤ 'Z') := by
      intro c hc hh
      have : isUp c = true := by simp [isUp, hh]
      rw [hc] at this; cases this
    simp only at h
    split at h
    · cases h
      intro c hc
      obtain ⟨d, hd, rfl⟩ := List.mem_map.1 hc
      refine ⟨key _ (not_up_toLower d), toLower_ne_slash ?_⟩
      rcases mem_underscores (mem_dropDot hd) with hm | rfl
      · exact hs d hm
      · decide
    · next hup =>
      cases h
      intro c hc
      refine ⟨key _ ?_, hs c hc⟩
      cases hu : isUp c with
      | false => rfl
      | true => exact absurd (List.any_eq_true.2 ⟨c, hc, hu⟩) hup

/-- C89: validating twice is validating once. -/
theorem C89_idempotent (name r : Str) (h : validateName name = .ok r) :
    validateName r = .ok r := by
  have hn := C89_normal name r h
  have hup : ¬ r.any isUp = true := by
    intro hh
    obtain ⟨c, hc, hu⟩ := List.any_eq_true.1 hh
    simp only [isUp, Bool.and_eq_true, decide_eq_true_eq] at hu
    exact (hn c hc).1 hu
  have hm : r.map (fun c => if c = '/' then '.' else c) = r := by
    conv => rhs; rw [← List.map_id r]
    exact List.map_congr_left (fun c hc => by rw [if_neg (hn c hc).2]; rfl)
  have hd : ¬ r.head?.any isDig = true := by
    unfold validateName at h
    split at h
    · cases h
    · next hd =>
      have h0 : ¬ (name.map (fun c => if c = '/' then '.' else c)).head?.any isDig = true := by
        cases name with
        | nil => simp
        | cons c cs =>
          simp only [List.map_cons, List.head?_cons, Option.any_some] at hd ⊢
          split
          · decide
          · exact hd
      simp only at h
      split at h
      · cases h
        have e : (lower (dropDotUnderscore (underscores
            (name.map (fun c => if c = '/' then '.' else c))))).head? =
            (name.map (fun c => if c = '/' then '.' else c)).head?.map Char.toLower := by
          unfold lower
          rw [List.head?_map, head_dropDot]
          cases name.map (fun c => if c = '/' then '.' else c) <;> rfl
        rw [e]
        cases hh : (name.map (fun c => if c = '/' then '.' else c)).head? with
        | none => simp
        | some c =>
          rw [hh] at h0
          simpa [isDig_toLower] using h0
      · cases h; exact h0
  unfold validateName
  rw [if_neg hd]
  simp only [hm]
  rw [if_neg hup]

example : validateName "Location/LatitudeValue".toList = .ok "location.latitude_value".toList := by
  decide +kernel

/-! ### C90 -/

theorem isWord_not_space {c : Char} (h : isWord c = true) : c.isWhitespace = false := by
  cases hw : c.isWhitespace with
  | false => rfl
  | true =>
    simp only [Char.isWhitespace, Bool.or_eq_true, decide_eq_true_eq] at hw
    rcases hw with ((rfl | rfl) | rfl) | rfl <;> exact absurd h (by decide)

theorem dropWhile_of_none {s : Str} (h : ∀ c ∈ s, c.isWhitespace = false) :
    s.dropWhile Char.isWhitespace = s := by
  cases s with
  | nil => rfl
  | cons a s => rw [List.dropWhile_cons_of_neg]; rw [h a (by simp)]; simp

/-- C90: a validated station name is not empty and consists of letters, digits and underscores. -/
theorem C90_word (name r : Str) (h : validateStation name = .ok r) :
    r ≠ [] ∧ ∀ c ∈ r, ('a' ≤ c ∧ c ≤ 'z') ∨ ('A' ≤ c ∧ c ≤ 'Z') ∨ ('0' ≤ c ∧ c ≤ '9') ∨ c = '_' := by
  unfold validateStation at h
  simp only at h
  split at h
  · next hc =>
    cases h
    refine ⟨hc.1, fun c hm => ?_⟩
    have := List.all_eq_true.1 hc.2 c hm
    simp only [isWord, isUp, isDig, Bool.or_eq_true, Bool.and_eq_true, decide_eq_true_eq,
      beq_iff_eq] at this
    rcases this with ((h | h) | h) | h
    · exact Or.inl h
    · exact Or.inr (Or.inl h)
    · exact Or.inr (Or.inr (Or.inl h))
    · exact Or.inr (Or.inr (Or.inr h))
  · cases h

/-- C90: a name of letters, digits and underscores is returned unchanged. -/
theorem C90_keeps (r : Str) (h0 : r ≠ [])
    (h : ∀ c ∈ r, ('a' ≤ c ∧ c ≤ 'z') ∨ ('A' ≤ c ∧ c ≤ 'Z') ∨ ('0' ≤ c ∧ c ≤ '9') ∨ c = '_') :
    validateStation r = .ok r := by
  have hw : ∀ c ∈ r, isWord c = true := by
    intro c hc
    simp only [isWord, isUp, isDig, Bool.or_eq_true, Bool.and_eq_true, decide_eq_true_eq,
      beq_iff_eq]
    rcases h c hc with h | h | h | h
    · exact Or.inl (Or.inl (Or.inl h))
    · exact Or.inl (Or.inl (Or.inr h))
    · exact Or.inl (Or.inr h)
    · exact Or.inr h
  have hsp : ∀ c ∈ r, c.isWhitespace = false := fun c hc => isWord_not_space (hw c hc)
  have e : strip r = r := by
    unfold strip
    rw [dropWhile_of_none hsp, dropWhile_of_none (by simpa using hsp), List.reverse_reverse]
  have em : r.map (fun c => if c = ' ' ∨ c = '-' ∨ c = '.' then '_' else c) = r := by
    conv => rhs; rw [← List.map_id r]
    refine List.map_congr_left (fun c hc => ?_)
    rw [if_neg]
    · rfl
    · intro hh
      have := hw c hc
      rcases hh with rfl | rfl | rfl <;> exact absurd this (by decide)
  unfold validateStation
  simp only [e, em]
  rw [if_pos ⟨h0, List.all_eq_true.2 hw⟩]

/-- C90: validating twice is validating once. -/
theorem C90_idempotent (name r : Str) (h : validateStation name = .ok r) :
    validateStation r = .ok r :=
  C90_keeps r (C90_word name r h).1 (C90_word name r h).2

/-- C90: two station names can become the same: `validate_station_name` is not injective. -/
example : validateStation "mt-01".toList = validateStation " mt.01".toList := by decide +kernel

example : validateStation " MT 01.a".toList = .ok "MT_01_a".toList := by decide +kernel

end Verif.Names
