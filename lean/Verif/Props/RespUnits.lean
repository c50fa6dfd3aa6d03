import Verif.Model.RespUnits

/-! # C410: units of a channel response over assignments -/

namespace Verif.RespUnits
variable {U : Type} [DecidableEq U]

/-- Each filter takes what the one before gives. -/
def Chain (l : List (Filt U)) : Prop := ∀ a b f g, l = a ++ f :: g :: b → g.uin = f.uout

/-- The units are those of the filters. -/
def Right (r : Resp U) : Prop := (∀ f l, r.filters = f :: l → r.uin = f.uin) ∧ (∀ f l, r.filters = l ++ [f] → r.uout = f.uout)

/-- C410: at all times the units of a channel response are those of its first and last filter, and its filters fit together. -/
def C410_claim : Prop := ∀ (U : Type) [DecidableEq U] (u v : U) (l : List (Op U)), Right (steps ⟨[], u, v⟩ l) ∧ Chain (steps ⟨[], u, v⟩ l).filters

theorem fits_iff (u : U) (l : List (Filt U)) : fits u l = true ↔ (∀ f r, l = f :: r → f.uin = u) ∧ Chain l := by
  induction l generalizing u with
  | nil => exact ⟨fun _ => ⟨nofun, fun a b f g h => by cases a <;> cases h⟩, fun _ => rfl⟩
  | cons x l ih =>
    rw [fits, Bool.and_eq_true, decide_eq_true_eq, ih]
    constructor
    · rintro ⟨h1, h2, h3⟩
      refine ⟨fun f r h => ?_, fun a b f g h => ?_⟩
      · cases h; exact h1
      · cases a with
        | nil =>
          simp only [List.nil_append, List.cons.injEq] at h
          obtain ⟨rfl, rfl⟩ := h
          exact h2 g b rfl
        | cons y a =>
          simp only [List.cons_append, List.cons.injEq] at h
          exact h3 a b f g h.2
    · rintro ⟨h1, h2⟩
      refine ⟨h1 x l rfl, fun f r h => ?_, fun a b f g h => ?_⟩
      · subst h
        exact h2 [] r x f rfl
      · exact h2 (x :: a) b f g (by rw [h]; rfl)

theorem check_iff (l : List (Filt U)) : check l = true ↔ Chain l := by
  cases l with
  | nil => exact ⟨fun _ a b f g h => (by cases a <;> cases h), fun _ => rfl⟩
  | cons x l =>
    rw [check, fits_iff]
    constructor
    · rintro ⟨h2, h3⟩ a b f g h
      cases a with
      | nil =>
        simp only [List.nil_append, List.cons.injEq] at h
        obtain ⟨rfl, rfl⟩ := h
        exact h2 g b rfl
      | cons y a =>
        simp only [List.cons_append, List.cons.injEq] at h
        exact h3 a b f g h.2
    · intro h2
      refine ⟨fun f r h => ?_, fun a b f g h => ?_⟩
      · subst h
        exact h2 [] r x f rfl
      · exact h2 (x :: a) b f g (by rw [h]; rfl)

theorem refresh_right (r : Resp U) : Right (refresh r) ∧ (refresh r).filters = r.filters := by
  obtain ⟨fs, u, v⟩ := r
  cases fs with
  | nil => exact ⟨⟨fun f l e => (by cases e), fun f l e => (by cases l <;> cases e)⟩, rfl⟩
  | cons f l =>
    refine ⟨⟨fun f' l' e => ?_, fun f' l' e => ?_⟩, rfl⟩
    · simp only [refresh, List.cons.injEq] at e ⊢
      rw [e.1]
    · simp only [refresh] at e ⊢
      simp only [e, List.getLast_append_of_ne_nil _ (List.cons_ne_nil f' []), List.getLast_singleton]

/-- C410 (part): after every assignment that succeeds, of whatever field, the units are those of the first and the last filter. -/
theorem C410_assigned_partial (r : Resp U) (o : Op U) (h : ∀ g, o ≠ .edit g) (hs : (step r o).2 = none) : Right (step r o).1 := by
  cases o with
  | filters l =>
    unfold step at hs ⊢
    by_cases hc : check l = true
    · simp only [hc, if_true]
      exact (refresh_right _).1
    · simp only [hc] at hs
      cases hs
  | units u v => exact (refresh_right _).1
  | other => exact (refresh_right _).1
  | edit g => exact absurd rfl (h g)

/-- C410 (part): a list of filters is taken if and only if the filters fit together, and an error changes nothing. -/
theorem C410_taken_partial (r : Resp U) (l : List (Filt U)) :
    ((step r (.filters l)).2 = none ↔ Chain l) ∧ (Chain l → (step r (.filters l)).1.filters = l) ∧ (¬ Chain l → (step r (.filters l)) = (r, some .valueError)) := by
  rw [← check_iff]
  unfold step
  by_cases hc : check l = true
  · simp only [hc, if_true, true_iff, forall_const]
    exact ⟨trivial, (refresh_right _).2, nofun⟩
  · simp only [hc]
    exact ⟨by simp, nofun, fun _ => rfl⟩

/-- C410 (part): the claim for all histories without changes in place. -/
theorem C410_partial (u v : U) (l : List (Op U)) (h : ∀ g, Op.edit g ∉ l) : Right (steps ⟨[], u, v⟩ l) ∧ Chain (steps ⟨[], u, v⟩ l).filters := by
  have key : ∀ (l : List (Op U)) (r : Resp U), (∀ g, Op.edit g ∉ l) → Right r → Chain r.filters → Right (steps r l) ∧ Chain (steps r l).filters := by
    intro l
    induction l with
    | nil => intro r _ h1 h2; exact ⟨h1, h2⟩
    | cons o l ih =>
      intro r hl h1 h2
      refine ih (step r o).1 (fun g hg => hl g (List.mem_cons_of_mem _ hg)) ?_ ?_
      · cases e : (step r o).2 with
        | none => exact C410_assigned_partial r o (fun g hg => hl g (hg ▸ List.mem_cons_self)) e
        | some x =>
          cases o with
          | filters m =>
            obtain ⟨a, b, c⟩ := C410_taken_partial r m
            rw [c (fun hc => by rw [a.2 hc] at e; cases e)]
            exact h1
          | units u v => cases e
          | other => cases e
          | edit g => cases e
      · cases o with
        | filters m =>
          obtain ⟨a, b, c⟩ := C410_taken_partial r m
          by_cases hc : Chain m
          · rw [b hc]; exact hc
          · rw [c hc]; exact h2
        | units u v =>
          show Chain (refresh _).filters
          rw [(refresh_right _).2]
          show Chain (refresh _).filters
          rw [(refresh_right _).2]
          exact h2
        | other =>
          show Chain (refresh _).filters
          rw [(refresh_right _).2]
          exact h2
        | edit g => exact absurd List.mem_cons_self (hl g)
  refine key l _ h ⟨nofun, fun f l e => by cases l <;> cases e⟩ (fun a b f g h => by cases a <;> cases h)

/-- C410 (part): an empty list leaves the units of the filters there were. -/
theorem C410_empty_partial (r : Resp U) : step r (.filters []) = ({ r with filters := [] }, none) := rfl

/-- C410 (part): units that are assigned are kept if and only if there are no filters, or the filters have them. -/
theorem C410_units_partial (r : Resp U) (u v : U) : ((step r (.units u v)).1.uin = u ∧ (step r (.units u v)).1.uout = v) ↔
    r.filters = [] ∨ ∃ f l, r.filters = f :: l ∧ f.uin = u ∧ ∀ g m, r.filters = m ++ [g] → g.uout = v := by
  have e : (step r (.units u v)).1.filters = r.filters := by
    show (refresh _).filters = _
    rw [(refresh_right _).2]
    show (refresh _).filters = _
    rw [(refresh_right _).2]
  obtain ⟨h1, h2⟩ := C410_assigned_partial r (.units u v) nofun rfl
  rw [e] at h1 h2
  cases hf : r.filters with
  | nil =>
    simp only [true_or, iff_true]
    simp [step, refresh, hf]
  | cons f l =>
    rw [h1 f l hf]
    constructor
    · rintro ⟨rfl, hv⟩
      refine .inr ⟨f, l, rfl, rfl, fun g m hg => ?_⟩
      rw [← h2 g m (hf.trans hg), hv]
    · rintro (h | ⟨f', l', h, hu, hv⟩)
      · cases h
      · cases h
        refine ⟨hu, ?_⟩
        have hl : r.filters = r.filters.dropLast ++ [r.filters.getLast (by rw [hf]; exact List.cons_ne_nil _ _)] := (List.dropLast_concat_getLast _).symm
        rw [h2 _ _ hl]
        exact hv _ _ (hf.symm.trans hl)

/-- Two filters that fit, one that does not. -/
def exFit : List (Filt Nat) := [⟨1, 2⟩, ⟨2, 3⟩]
def exOdd : Filt Nat := ⟨7, 8⟩

/-- C410 is false: a filter that is added to the list is not looked at. -/
theorem C410_refuted : ¬ C410_claim := by
  intro h
  have := (h Nat 0 0 [.filters exFit, .edit (fun l => l ++ [exOdd])]).1.2 exOdd exFit rfl
  exact absurd this (by decide)

example : Chain exFit := (check_iff _).1 rfl
example : (step (⟨[], 0, 0⟩ : Resp Nat) (.filters exFit)).1 = ⟨exFit, 1, 3⟩ := by decide
/-- With the next assignment the units follow, but the filters do not fit. -/
example : (steps (⟨[], 0, 0⟩ : Resp Nat) [.filters exFit, .edit (fun l => l ++ [exOdd]), .other]) = ⟨exFit ++ [exOdd], 1, 8⟩ ∧ check (exFit ++ [exOdd]) = false := by
  decide
example : (step (⟨exFit, 1, 3⟩ : Resp Nat) (.filters (exFit ++ [exOdd]))).2 = some .valueError := by decide
example : (steps (⟨[], 0, 0⟩ : Resp Nat) [.filters exFit, .filters []]) = ⟨[], 1, 3⟩ := by decide

end Verif.RespUnits
