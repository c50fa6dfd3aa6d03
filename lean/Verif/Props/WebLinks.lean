import Verif.Model.WebLinks

/-! # C412-C413: links of EMTF XML files and of persons -/

namespace Verif.WebLinks

/-- Values that say there is no link. -/
def Empty (v : Val) : Prop := v = .none ∨ v = .text []

/-- Values that are a link `u`. -/
def Means (url : Str → Option Str) (v : Val) (u : Str) : Prop := v = .link u ∨ ∃ s, s ≠ [] ∧ v = .text s ∧ url s = some u

/-- C412: the link of an EMTF XML file that is set cannot be emptied. -/
def C412_claim : Prop := ∀ (url : Str → Option Str) (u : Str) (v : Val), Empty v → assign url (some u) v = (some u, some .valueError)

theorem check_cases (url : Str → Option Str) (v : Val) : (Empty v ∧ check url none v = .ok none) ∨ (∃ u, Means url v u ∧ check url none v = .ok (some u)) ∨
    (¬ Empty v ∧ (∀ u, ¬ Means url v u) ∧ check url none v = .error .valueError) := by
  cases v with
  | none => exact .inl ⟨.inl rfl, rfl⟩
  | link u => exact .inr (.inl ⟨u, .inl rfl, rfl⟩)
  | other =>
    refine .inr (.inr ⟨?_, ?_, rfl⟩)
    · rintro (h | h) <;> cases h
    · rintro u (h | ⟨s, _, h, _⟩) <;> cases h
  | text s =>
    cases s with
    | nil => exact .inl ⟨.inr rfl, rfl⟩
    | cons c s =>
      cases e : url (c :: s) with
      | some u => exact .inr (.inl ⟨u, .inr ⟨c :: s, nofun, rfl, e⟩, by simp only [check, e]⟩)
      | none =>
        refine .inr (.inr ⟨?_, ?_, by simp only [check, e]⟩)
        · rintro (h | h) <;> cases h
        · rintro u (h | ⟨s', _, h, h'⟩)
          · cases h
          · cases h
            rw [e] at h'
            cases h'

/-- C412 (part): whatever the link was, an empty value empties it. -/
theorem C412_emptied_partial (url : Str → Option Str) (old : Option Str) (v : Val) (h : Empty v) : assign url old v = (none, none) := by
  rcases h with rfl | rfl <;> rfl

/-- C412 (part): a link, or the text of a link, is taken; anything else is an error and changes nothing. -/
theorem C412_taken_partial (url : Str → Option Str) (old : Option Str) (v : Val) (h : ¬ Empty v) :
    (∀ u, Means url v u → assign url old v = (some u, none)) ∧ ((∀ u, ¬ Means url v u) → assign url old v = (old, some .valueError)) := by
  refine ⟨?_, ?_⟩
  · rintro u (rfl | ⟨s, hs, rfl, e⟩)
    · rfl
    · cases s with
      | nil => exact absurd rfl hs
      | cons c s => simp only [assign, check, e]
  · intro hn
    rcases check_cases url v with ⟨a, _⟩ | ⟨u, a, _⟩ | ⟨_, _, e⟩
    · exact absurd a h
    · exact absurd a (hn u)
    · simp only [assign, e]

/-- C412 (part): after any history the link is that of the last value that was empty or a link, or the first. -/
theorem C412_history_partial (url : Str → Option Str) (old : Option Str) (l : List Val) :
    (assigns url old l = old ∧ ∀ v ∈ l, ¬ Empty v ∧ ∀ u, ¬ Means url v u) ∨
      ∃ a v b, l = a ++ v :: b ∧ (∀ x ∈ b, ¬ Empty x ∧ ∀ u, ¬ Means url x u) ∧
        ((Empty v ∧ assigns url old l = none) ∨ ∃ u, Means url v u ∧ assigns url old l = some u) := by
  induction l generalizing old with
  | nil => exact .inl ⟨rfl, nofun⟩
  | cons v l ih =>
    have e : assigns url old (v :: l) = assigns url (assign url old v).1 l := rfl
    rw [e]
    rcases ih (assign url old v).1 with ⟨h1, h2⟩ | ⟨a, w, b, h1, h2, h3⟩
    · rcases check_cases url v with ⟨hv, hc⟩ | ⟨u, hv, hc⟩ | ⟨hv, hm, hc⟩
      · refine .inr ⟨[], v, l, rfl, h2, .inl ⟨hv, ?_⟩⟩
        rw [h1]
        simp only [assign, hc]
      · refine .inr ⟨[], v, l, rfl, h2, .inr ⟨u, hv, ?_⟩⟩
        rw [h1]
        simp only [assign, hc]
      · refine .inl ⟨?_, fun x hx => ?_⟩
        · rw [h1]
          simp only [assign, hc]
        · rcases List.mem_cons.1 hx with rfl | hx
          · exact ⟨hv, hm⟩
          · exact h2 x hx
    · exact .inr ⟨v :: a, w, b, by rw [h1]; rfl, h2, h3⟩

/-- Texts that begin with h are links. -/
def exUrl : Str → Option Str
  | 'h' :: s => some ('h' :: s ++ ['/'])
  | _ => none

/-- C412 is false: the link is emptied without an error, as the validator does not see it. -/
theorem C412_refuted : ¬ C412_claim := by
  intro h
  exact absurd (h exUrl ['h'] (.text []) (.inr rfl)) (by decide)

/-- … though it would refuse if it did. -/
example : check exUrl (some ['h']) (.text []) = .error .valueError := rfl
example : Means exUrl (.text ['h', 'a']) ['h', 'a', '/'] := .inr ⟨['h', 'a'], nofun, rfl, rfl⟩
example : assigns exUrl none [.text ['h', 'a'], .text ['x'], .other] = some ['h', 'a', '/'] := by decide
example : assigns exUrl none [.text ['h', 'a'], .text ['x'], .none] = none := by decide

/-- C413: the link of a person is what was assigned, or nothing if that says so; other values are errors. -/
def C413_claim : Prop := ∀ (url : Str → Option Str) (v : Val), (∃ s ∈ nulls, v = .text s) ∨ v = .none ∨
  (∃ u, Means url v u ∧ personUrl url v = .ok (some u)) ∨ personUrl url v = .error .valueError

/-- C413 (part): so it is for texts, links and None; texts that say nothing are none. -/
theorem C413_partial (url : Str → Option Str) (v : Val) (hv : v ≠ .other) :
    (((∃ s ∈ nulls, v = .text s) ∨ v = .none) ∧ personUrl url v = .ok none) ∨ (∃ u, Means url v u ∧ personUrl url v = .ok (some u)) ∨
      ((∀ u, ¬ Means url v u) ∧ personUrl url v = .error .valueError) := by
  cases v with
  | none => exact .inl ⟨.inr rfl, rfl⟩
  | link u => exact .inr (.inl ⟨u, .inl rfl, rfl⟩)
  | other => exact absurd rfl hv
  | text s =>
    by_cases hs : s ∈ nulls
    · exact .inl ⟨.inl ⟨s, hs, rfl⟩, by simp only [personUrl, if_pos hs]⟩
    · have hne : s ≠ [] := fun e => hs (e ▸ List.mem_cons_self)
      cases e : url s with
      | some u => exact .inr (.inl ⟨u, .inr ⟨s, hne, rfl, e⟩, by simp only [personUrl, if_neg hs, e]⟩)
      | none =>
        refine .inr (.inr ⟨?_, by simp only [personUrl, if_neg hs, e]⟩)
        rintro u (h | ⟨s', _, h, h'⟩)
        · cases h
        · cases h
          rw [e] at h'
          cases h'

/-- C413 (part): which texts say nothing. -/
theorem C413_nulls_partial (url : Str → Option Str) (s : Str) : personUrl url (.text s) = .ok none ↔
    s = [] ∨ s = ['n', 'u', 'l', 'l'] ∨ s = ['N', 'o', 'n', 'e'] ∨ s = ['N', 'O', 'N', 'E'] ∨ s = ['N', 'U', 'L', 'L'] ∨ s = ['N', 'u', 'l', 'l'] ∨
      s = ['n', 'o', 'n', 'e'] ∨ s = "1980-01-01T00:00:00".toList ∨ s = "1980-01-01T00:00:00+00:00".toList := by
  have hm : personUrl url (.text s) = .ok none ↔ s ∈ nulls := by
    by_cases hs : s ∈ nulls
    · exact ⟨fun _ => hs, fun _ => by simp only [personUrl, if_pos hs]⟩
    · cases e : url s <;> simp [personUrl, if_neg hs, e, hs]
  rw [hm]
  simp [nulls]

/-- C413 is false: a number is taken without an error, and there is no link afterwards. -/
theorem C413_refuted : ¬ C413_claim := by
  intro h
  rcases h exUrl .other with ⟨s, _, h⟩ | h | ⟨u, _, h⟩ | h <;> cases h

example : personUrl exUrl (.text "None".toList) = .ok none := by decide
example : personUrl exUrl (.text ['h', 'a']) = .ok (some ['h', 'a', '/']) := by decide
example : personUrl exUrl (.text ['x']) = .error .valueError := by decide

end Verif.WebLinks
