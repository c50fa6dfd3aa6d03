import Verif.Model.StdFields

/-! # C401-C402: types and options of fields in summaries of standards -/

namespace Verif.StdFields
open Verif.Text

/-! ### C401: options -/

/-- C401: the field takes each option that is shown for an enumeration. -/
def C401_claim : Prop := ∀ (name : Str) (ms : List (Str × Str)), ∀ o ∈ fieldOptions (.one (.enum name ms)) [], accepts ms o = true

theorem find_isSome (l : List Str) (s : Str) : (∃ m, Enums.findMember l s = some m ∧ m ∈ l) ↔ ∃ m ∈ l, Enums.lower s = Enums.lower m := by
  induction l with
  | nil => simp [Enums.findMember]
  | cons x l ih =>
    unfold Enums.findMember
    by_cases h : Enums.lower s = Enums.lower x
    · rw [if_pos h]
      exact ⟨fun _ => ⟨x, List.mem_cons_self, h⟩, fun _ => ⟨x, rfl, List.mem_cons_self⟩⟩
    · rw [if_neg h]
      constructor
      · rintro ⟨m, h1, h2⟩
        rcases List.mem_cons.1 h2 with rfl | h2
        · exact ⟨m, List.mem_cons_self, by
            have : ∀ l : List Str, Enums.findMember l s = some m → Enums.lower s = Enums.lower m := by
              intro l
              induction l with
              | nil => exact nofun
              | cons y l ih =>
                unfold Enums.findMember
                by_cases hy : Enums.lower s = Enums.lower y
                · rw [if_pos hy]
                  intro e
                  cases e
                  exact hy
                · rw [if_neg hy]
                  exact ih
            exact this l h1⟩
        · obtain ⟨m', h3, h4⟩ := ih.1 ⟨m, h1, h2⟩
          exact ⟨m', List.mem_cons_of_mem _ h3, h4⟩
      · rintro ⟨m, h1, h2⟩
        rcases List.mem_cons.1 h1 with rfl | h1
        · exact absurd h2 h
        · obtain ⟨m', h3, h4⟩ := ih.2 ⟨m, h1, h2⟩
          exact ⟨m', h3, List.mem_cons_of_mem _ h4⟩

theorem find_mem (l : List Str) (s m : Str) (h : Enums.findMember l s = some m) : m ∈ l := by
  induction l with
  | nil => cases h
  | cons x l ih =>
    unfold Enums.findMember at h
    split at h
    · cases h
      exact List.mem_cons_self
    · exact List.mem_cons_of_mem _ (ih h)

theorem accepts_iff (ms : List (Str × Str)) (s : Str) : accepts ms s = true ↔ ∃ m ∈ ms, Enums.lower s = Enums.lower m.2 := by
  have h := find_isSome (ms.map Prod.snd) s
  have hm : (∃ m ∈ ms.map Prod.snd, Enums.lower s = Enums.lower m) ↔ ∃ m ∈ ms, Enums.lower s = Enums.lower m.2 := by
    constructor
    · rintro ⟨m, h1, h2⟩
      obtain ⟨p, hp, rfl⟩ := List.mem_map.1 h1
      exact ⟨p, hp, h2⟩
    · rintro ⟨p, hp, h2⟩
      exact ⟨p.2, List.mem_map.2 ⟨p, hp, rfl⟩, h2⟩
  rw [← hm, ← h]
  cases hf : Enums.findMember (ms.map Prod.snd) s with
  | none => simp [accepts, Enums.validate, Enums.normalizeCase, hf]
  | some m =>
    have := find_mem _ _ _ hf
    refine ⟨fun _ => ⟨m, rfl, this⟩, fun _ => ?_⟩
    simp only [accepts, Enums.validate, Enums.normalizeCase, hf, if_pos this]

/-- C401 (part): each option shown is taken if and only if each name of a member is the value of a member, up to case. -/
theorem C401_iff_partial (name : Str) (ms : List (Str × Str)) : (∀ o ∈ fieldOptions (.one (.enum name ms)) [], accepts ms o = true) ↔
    ∀ a ∈ ms, ∃ b ∈ ms, Enums.lower a.1 = Enums.lower b.2 := by
  have e : fieldOptions (.one (.enum name ms)) [] = ms.map Prod.fst := List.append_nil _
  rw [e]
  simp only [accepts_iff]
  simp

/-- C401 (part): all texts the field takes are shown, up to case, if and only if each value is the name of a member, up to case. -/
theorem C401_all_partial (name : Str) (ms : List (Str × Str)) :
    (∀ s, accepts ms s = true → ∃ o ∈ fieldOptions (.one (.enum name ms)) [], Enums.lower o = Enums.lower s) ↔
      ∀ a ∈ ms, ∃ b ∈ ms, Enums.lower b.1 = Enums.lower a.2 := by
  have e : fieldOptions (.one (.enum name ms)) [] = ms.map Prod.fst := List.append_nil _
  rw [e]
  simp only [accepts_iff]
  constructor
  · intro h a ha
    obtain ⟨o, ho, hl⟩ := h a.2 ⟨a, ha, rfl⟩
    obtain ⟨b, hb, rfl⟩ := List.mem_map.1 ho
    exact ⟨b, hb, hl⟩
  · rintro h s ⟨a, ha, hl⟩
    obtain ⟨b, hb, hl'⟩ := h a ha
    exact ⟨b.1, List.mem_map.2 ⟨b, hb, rfl⟩, hl'.trans hl.symm⟩

/-- C401 (part): a field that may be `None` as well shows none of the members. -/
theorem C401_optional_partial (name : Str) (ms : List (Str × Str)) (extra : List Str) :
    fieldOptions (.union [.enum name ms, .none]) extra = extra ∧ fieldOptions (.union [.none, .enum name ms]) extra = extra := ⟨rfl, rfl⟩

/-- C401 is false: the names of the release states are shown, which are not their values. -/
theorem C401_refuted : ¬ C401_claim := by
  intro h
  have h1 := (C401_iff_partial [] releaseStatus).1 (h [] releaseStatus) _ List.mem_cons_self
  revert h1
  decide +kernel

example : ∀ a ∈ [("ex".toList, "ex".toList), ("ODD".toList, "odd".toList)], ∃ b ∈ [("ex".toList, "ex".toList), ("ODD".toList, "odd".toList)],
    Enums.lower a.1 = Enums.lower b.2 := by decide

/-! ### C402: types -/

/-- **C402**: that a field may be `None` does not matter for its type: of a union in which `None` is added anywhere the type is the same,
and of a union of one type and `None` it is that of the type. -/
theorem C402_none (l r : List Ann) (a : Ann) (ha : a ≠ .none) :
    fieldType (.union (l ++ .none :: r)) = fieldType (.union (l ++ r)) ∧ fieldType (.union [a, .none]) = fieldType (.one a) ∧
      fieldType (.union [.none, a]) = fieldType (.one a) := by
  refine ⟨?_, ?_, ?_⟩
  · unfold fieldType
    simp only [List.find?_append]
    rw [List.find?_cons_of_neg (by simp)]
  · simp only [fieldType]
    rw [List.find?_cons_of_pos (by simpa using ha)]
  · simp only [fieldType]
    rw [List.find?_cons_of_neg (by simp), List.find?_cons_of_pos (by simpa using ha)]

/-- **C402**: a union of built-in types is shown as its first. -/
theorem C402_first (b : Basic) (r : List Ann) : fieldType (.union (.basic b :: r)) =
    match b with
    | .str => .string
    | .int => .integer
    | .float => .float
    | .bool => .boolean
    | .list => .list
    | .dict => .dict := by
  cases b <;> rfl

/-- **C402**: enumerations whose names end with `Enum` are shown as texts, with or without `None`. -/
theorem C402_enum (n : Str) (ms : List (Str × Str)) :
    fieldType (.one (.enum (n ++ "enum".toList) ms)) = .string ∧ fieldType (.union [.enum (n ++ "enum".toList) ms, .none]) = .string := by
  have h : byName (n ++ "enum".toList) = .string := if_pos (List.suffix_append _ _)
  exact ⟨h, h⟩

example : fieldType (.union [.none, .basic .float, .basic .str]) = .float ∧ fieldType (.one (.cls "ndarray".toList)) = .list ∧
    fieldType (.one (.cls "mtime".toList)) = .object ∧ fieldType (.one (.cls "listdict".toList)) = .list := by decide +kernel

end Verif.StdFields
