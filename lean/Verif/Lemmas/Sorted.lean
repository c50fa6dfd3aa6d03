import Verif.Base.Py

/-! Laws of `pySorted`. -/

namespace Verif
variable {β : Type} (le : β → β → Bool)

theorem insertSorted_perm (a : β) (l : List β) : (insertSorted le a l).Perm (a :: l) := by
  induction l with
  | nil => exact List.Perm.refl _
  | cons b l ih =>
    unfold insertSorted; split
    · exact List.Perm.refl _
    · exact (List.Perm.cons b ih).trans (List.Perm.swap a b l)

theorem pySorted_perm (l : List β) : (pySorted le l).Perm l := by
  induction l with
  | nil => exact List.Perm.refl _
  | cons a l ih => exact (insertSorted_perm le a _).trans (List.Perm.cons a ih)

variable {le}

theorem insertSorted_pairwise (tr : ∀ a b c, le a b = true → le b c = true → le a c = true)
    (tot : ∀ a b, (le a b || le b a) = true) (a : β) {l : List β}
    (h : l.Pairwise (fun a b => le a b = true)) :
    (insertSorted le a l).Pairwise (fun a b => le a b = true) := by
  induction l with
  | nil => simp [insertSorted]
  | cons b l ih =>
    rw [List.pairwise_cons] at h
    unfold insertSorted; split
    · next hab =>
      rw [List.pairwise_cons, List.pairwise_cons]
      refine ⟨fun c hc => ?_, h⟩
      rcases List.mem_cons.1 hc with rfl | hc
      · exact hab
      · exact tr _ _ _ hab (h.1 c hc)
    · next hab =>
      have hba : le b a = true := by
        have := tot a b; simpa [hab] using this
      rw [List.pairwise_cons]
      refine ⟨fun c hc => ?_, ih h.2⟩
      rcases List.mem_cons.1 ((insertSorted_perm le a l).mem_iff.1 hc) with rfl | hc
      · exact hba
      · exact h.1 c hc

theorem pySorted_pairwise (tr : ∀ a b c, le a b = true → le b c = true → le a c = true)
    (tot : ∀ a b, (le a b || le b a) = true) (l : List β) :
    (pySorted le l).Pairwise (fun a b => le a b = true) := by
  induction l with
  | nil => exact List.Pairwise.nil
  | cons a l ih => exact insertSorted_pairwise tr tot a ih

theorem pySorted_of_pairwise {l : List β} (h : l.Pairwise (fun a b => le a b = true)) :
    pySorted le l = l := by
  induction l with
  | nil => rfl
  | cons a l ih =>
    rw [List.pairwise_cons] at h
    rw [pySorted, ih h.2]
    cases l with
    | nil => rfl
    | cons b l => simp [insertSorted, h.1 b (by simp)]

end Verif
