import Verif.Base.Num

/-! Whole numbers printed and read. -/

namespace Verif

/-- `int(text)` of what `showInt` prints. -/
def readInt (s : Str) : Option Int :=
  match s with
  | '-' :: t => (parseDigits t).map fun n => -(n : Int)
  | t => (parseDigits t).map fun n => (n : Int)

theorem parseDigits_showNat (n : Nat) : parseDigits (showNat n) = some n := by
  unfold parseDigits
  rw [if_pos ⟨showNat_ne_nil n, List.all_eq_true.2 fun c hc => digit_of_mem_showNat hc⟩, digitsVal_showNat]

theorem readInt_showInt (n : Int) : readInt (showInt n) = some n := by
  unfold showInt
  split
  · next h =>
    show (parseDigits (showNat n.natAbs)).map (fun m => -(m : Int)) = some n
    rw [parseDigits_showNat]
    show some (-((n.natAbs : Nat) : Int)) = some n
    congr 1; omega
  · next h =>
    have hne : ∀ t, showNat n.natAbs ≠ '-' :: t := by
      intro t e
      have := digit_of_mem_showNat (n := n.natAbs) (c := '-') (by rw [e]; simp)
      revert this; decide
    have : readInt (showNat n.natAbs) = (parseDigits (showNat n.natAbs)).map fun m => (m : Int) := by
      unfold readInt
      split
      · next t e => exact absurd e (hne t)
      · rfl
    rw [this, parseDigits_showNat]
    show some ((n.natAbs : Nat) : Int) = some n
    congr 1; omega

theorem mem_showInt {n : Int} {c : Char} (h : c ∈ showInt n) : c = '-' ∨ c.isDigit = true := by
  unfold showInt at h
  split at h
  · rcases List.mem_cons.1 h with e | e
    · exact Or.inl e
    · exact Or.inr (digit_of_mem_showNat e)
  · exact Or.inr (digit_of_mem_showNat h)

end Verif
