import Mathlib.Algebra.Order.Ring.Rat
import Verif.Model.EdiUse
import Verif.Lemmas.OD

/-! # C388-C390: one `EDI` object for several files -/

namespace Verif.EdiUse
variable {M L : Type} [DecidableEq L] (line : M → L) (rename : Str → M → M)

/-! ### C388: channels -/

/-- C388: the channels after reading a file are those of the file, whatever was read before. -/
def C388_claim : Prop := ∀ (M L : Type) (_ : DecidableEq L) (line : M → L) (rename : Str → M → M) (l : List (File M)) (f : File M) (t : Str),
  OD.get? (read line rename (readAll line rename {} l) f).meas t = OD.get? (read line rename {} f).meas t

theorem rr_ne (t : Str) : rr t ≠ t := by
  intro h
  have := congrArg List.length h
  simp [rr] at this
  omega

theorem rr_inj {s t : Str} (h : rr s = rr t) : s = t := by
  unfold rr at h
  simpa using h

theorem fold_first (ms : List (Str × M)) (d : OD Str M) (t : Str) (ht : ∀ s, t ≠ rr s) :
    OD.get? (ms.foldl (addMeas line rename) d) t = (OD.get? d t).or ((ms.find? (fun x => decide (x.1 = t))).map Prod.snd) := by
  induction ms generalizing d with
  | nil => simp
  | cons x ms ih =>
    rw [List.foldl_cons, ih]
    unfold addMeas
    by_cases hx : x.1 = t
    · rw [List.find?_cons_of_pos (by simpa using hx)]
      subst hx
      cases hd : OD.get? d x.1 with
      | none => simp
      | some m =>
        simp only
        split
        · rw [OD.get?_set_ne _ _ (ht _), hd]
          simp
        · rw [hd]
          simp
    · rw [List.find?_cons_of_neg (by simpa using hx)]
      congr 1
      split
      · exact OD.get?_set_ne _ _ (Ne.symm hx)
      · split
        · exact OD.get?_set_ne _ _ (ht _)
        · rfl

theorem readAll_meas (l : List (File M)) (o : Obj M) :
    (readAll line rename o l).meas = (l.flatMap File.meas).foldl (addMeas line rename) o.meas := by
  induction l generalizing o with
  | nil => rfl
  | cons f l ih =>
    rw [List.flatMap_cons, List.foldl_append]
    exact ih (read line rename o f)

/-- C388 (part): a channel is that of the first line of its type in all files read, and stays so for ever. -/
theorem C388_first_partial (l : List (File M)) (t : Str) (ht : ∀ s, t ≠ 'r' :: 'r' :: s) :
    OD.get? (readAll line rename {} l).meas t = ((l.flatMap File.meas).find? (fun x => decide (x.1 = t))).map Prod.snd := by
  rw [readAll_meas, fold_first line rename _ _ t ht]
  rfl

/-- C388 (part): the claim for channels of types that no file before had. -/
theorem C388_new_partial (l : List (File M)) (f : File M) (t : Str) (ht : ∀ s, t ≠ 'r' :: 'r' :: s) (h : ∀ g ∈ l, ∀ m, (t, m) ∉ g.meas) :
    OD.get? (read line rename (readAll line rename {} l) f).meas t = OD.get? (read line rename {} f).meas t := by
  show OD.get? (f.meas.foldl _ (readAll line rename {} l).meas) t = OD.get? (f.meas.foldl _ []) t
  rw [fold_first line rename _ _ t ht, fold_first line rename _ _ t ht, C388_first_partial line rename l t ht]
  have : (l.flatMap File.meas).find? (fun x => decide (x.1 = t)) = none := by
    rw [List.find?_eq_none]
    rintro ⟨s, m⟩ hx
    obtain ⟨g, hg, hm⟩ := List.mem_flatMap.1 hx
    simp only [decide_eq_true_eq]
    rintro rfl
    exact h g hg m hm
  rw [this]
  rfl

theorem fold_remote (ms : List (Str × M)) (d : OD Str M) (t : Str) (m0 : M) (ht : ∀ s, t ≠ rr s) (hd : OD.get? d t = some m0)
    (hr : ∀ x ∈ ms, x.1 ≠ rr t) : OD.get? (ms.foldl (addMeas line rename) d) (rr t) =
      (((ms.reverse.find? (fun x => decide (x.1 = t ∧ line m0 ≠ line x.2))).map (fun x => rename (rr t) x.2)).or (OD.get? d (rr t))) := by
  induction ms generalizing d with
  | nil => rfl
  | cons x ms ih =>
    have hr1 := hr x (by simp)
    have hd1 : OD.get? (addMeas line rename d x) t = some m0 := by
      have := fold_first line rename [x] d t ht
      rw [hd] at this
      simpa using this
    rw [List.foldl_cons, ih _ hd1 (fun y hy => hr y (List.mem_cons_of_mem _ hy)), List.reverse_cons, List.find?_append]
    cases hf : ms.reverse.find? (fun x => decide (x.1 = t ∧ line m0 ≠ line x.2)) with
    | some y => simp
    | none =>
      simp only [Option.map_none, Option.none_or]
      by_cases hx : x.1 = t
      · by_cases hl : line m0 ≠ line x.2
        · rw [List.find?_cons_of_pos (by simpa using ⟨hx, hl⟩)]
          unfold addMeas
          rw [hx, hd]
          simp only
          rw [if_pos hl, OD.get?_set_self]
          rfl
        · rw [List.find?_cons_of_neg (by simp [hx]; simpa using hl)]
          unfold addMeas
          rw [hx, hd]
          simp only
          rw [if_neg hl]
          rfl
      · rw [List.find?_cons_of_neg (by simp [hx])]
        unfold addMeas
        split
        · rw [OD.get?_set_ne _ _ (Ne.symm hr1)]
          rfl
        · split
          · rw [OD.get?_set_ne _ _ (fun e => hx (rr_inj e).symm)]
            rfl
          · rfl

/-- C388 (part): the first channel of a type that differs from what is there becomes remote: the remote channel after a file is the last line
of the file that differs from the first one of all files, if there is one, whether or not the file has remote channels. -/
theorem C388_remote_partial (l : List (File M)) (f : File M) (t : Str) (m0 : M) (ht : ∀ s, t ≠ 'r' :: 'r' :: s)
    (h0 : ((l.flatMap File.meas).find? (fun x => decide (x.1 = t))).map Prod.snd = some m0) (hr : ∀ x ∈ f.meas, x.1 ≠ 'r' :: 'r' :: t) (a b : List (Str × M))
    (m : M) (hf : f.meas = a ++ (t, m) :: b) (hm : line m0 ≠ line m) (hb : ∀ x ∈ b, x.1 = t → line m0 = line x.2) :
    OD.get? (read line rename (readAll line rename {} l) f).meas ('r' :: 'r' :: t) = some (rename ('r' :: 'r' :: t) m) ∧
      OD.get? (read line rename (readAll line rename {} l) f).meas t = some m0 := by
  have hd : OD.get? (readAll line rename {} l).meas t = some m0 := by rw [C388_first_partial line rename l t ht, h0]
  constructor
  · show OD.get? (f.meas.foldl _ (readAll line rename {} l).meas) (rr t) = some (rename (rr t) m)
    rw [fold_remote line rename _ _ t m0 ht hd hr, hf, List.reverse_append, List.reverse_cons, List.append_assoc, List.find?_append]
    have : b.reverse.find? (fun x => decide (x.1 = t ∧ line m0 ≠ line x.2)) = none := by
      rw [List.find?_eq_none]
      intro x hx
      simp only [decide_eq_true_eq]
      rintro ⟨h1, h2⟩
      exact h2 (hb x (List.mem_reverse.1 hx) h1)
    rw [this]
    simp [hm]
  · show OD.get? (f.meas.foldl _ (readAll line rename {} l).meas) t = _
    rw [fold_first line rename _ _ t ht, hd]
    rfl

/-- A file. -/
def exA : File (Str × Nat) := ⟨fun _ => some 40, fun _ => some 41, true, [("hx".toList, ("hx".toList, 1))]⟩
/-- Another file. -/
def exB : File (Str × Nat) := ⟨fun _ => none, fun _ => some 50, false, [("hx".toList, ("hx".toList, 2))]⟩

/-- C388 is false: the second file's channel becomes a remote one. -/
theorem C388_refuted : ¬ C388_claim := by
  intro h
  have := h (Str × Nat) (Str × Nat) inferInstance id (fun t m => (t, m.2)) [exA] exB "hx".toList
  revert this
  decide

example : (readAll id (fun t m => (t, m.2)) {} [exA, exB]).meas =
    [("hx".toList, ("hx".toList, 1)), ("rrhx".toList, ("rrhx".toList, 2))] := by decide

example : ∀ s, "hx".toList ≠ rr s := by
  intro s h
  simp [rr] at h

/-! ### C389: positions -/

/-- C389: the position after reading a file is that of its header, or that of its reference if the header has none. -/
def C389_claim : Prop := ∀ (M L : Type) (_ : DecidableEq L) (line : M → L) (rename : Str → M → M) (l : List (File M)) (f : File M) (c : Part),
  (read line rename (readAll line rename {} l) f).head c = if (f.head c).getD 0 = 0 then (f.ref c).getD 0 else (f.head c).getD 0

/-- C389 (part): so it is if the header has a position that is not 0, or if no file before had any. -/
theorem C389_given_partial (o : Obj M) (f : File M) (c : Part) (x : ℚ) (h : f.head c = some x) (hx : x ≠ 0) : (read line rename o f).head c = x := by
  show (if (f.head c).getD (o.head c) = 0 then (f.ref c).getD (o.ref c) else (f.head c).getD (o.head c)) = x
  rw [h, Option.getD_some, if_neg hx]

theorem readAll_zero (l : List (File M)) (o : Obj M) (c : Part) (h1 : o.head c = 0) (h2 : o.ref c = 0)
    (h : ∀ g ∈ l, (g.head c).getD 0 = 0 ∧ (g.ref c).getD 0 = 0) :
    (readAll line rename o l).head c = 0 ∧ (readAll line rename o l).ref c = 0 := by
  induction l generalizing o with
  | nil => exact ⟨h1, h2⟩
  | cons g l ih =>
    have hg := h g (by simp)
    refine ih (read line rename o g) ?_ ?_ (fun g' m => h g' (List.mem_cons_of_mem _ m))
    · show (if (g.head c).getD (o.head c) = 0 then (g.ref c).getD (o.ref c) else (g.head c).getD (o.head c)) = 0
      rw [h1, h2, if_pos hg.1, hg.2]
    · show (g.ref c).getD (o.ref c) = 0
      rw [h2, hg.2]

/-- C389 (part): the claim if no file before had a position. -/
theorem C389_new_partial (l : List (File M)) (f : File M) (c : Part) (h : ∀ g ∈ l, (g.head c).getD 0 = 0 ∧ (g.ref c).getD 0 = 0) :
    (read line rename (readAll line rename {} l) f).head c = if (f.head c).getD 0 = 0 then (f.ref c).getD 0 else (f.head c).getD 0 := by
  obtain ⟨h1, h2⟩ := readAll_zero line rename l {} c rfl rfl h
  show (if (f.head c).getD ((readAll line rename {} l).head c) = 0 then (f.ref c).getD ((readAll line rename {} l).ref c) else
    (f.head c).getD ((readAll line rename {} l).head c)) = _
  rw [h1, h2]

/-- C389 (part): without a position in the header the old one stays, whatever the reference of the file. -/
theorem C389_stays_partial (o : Obj M) (f : File M) (c : Part) (h : f.head c = none) (ho : o.head c ≠ 0) : (read line rename o f).head c = o.head c := by
  show (if (f.head c).getD (o.head c) = 0 then (f.ref c).getD (o.ref c) else (f.head c).getD (o.head c)) = o.head c
  rw [h, Option.getD_none, if_neg ho]

/-- C389 (part): with 0 in the header the position is the last reference of all files. -/
theorem C389_zero_partial (l : List (File M)) (f : File M) (c : Part) (h : f.head c = some 0) :
    (read line rename (readAll line rename {} l) f).head c = (((l ++ [f]).reverse.findSome? (fun g => g.ref c)).getD 0) := by
  have hr : ∀ (l : List (File M)) (o : Obj M), (readAll line rename o l).ref c = (l.reverse.findSome? (fun g => g.ref c)).getD (o.ref c) := by
    intro l
    induction l with
    | nil => intro o; rfl
    | cons g l ih =>
      intro o
      show (readAll line rename (read line rename o g) l).ref c = _
      rw [ih, List.reverse_cons, List.findSome?_append]
      cases l.reverse.findSome? (fun g => g.ref c) with
      | some x => rfl
      | none =>
        simp only [Option.none_or]
        show (g.ref c).getD (o.ref c) = _
        cases hg : g.ref c <;> simp [hg]
  show (if (f.head c).getD ((readAll line rename {} l).head c) = 0 then (f.ref c).getD ((readAll line rename {} l).ref c) else
    (f.head c).getD ((readAll line rename {} l).head c)) = _
  rw [h, Option.getD_some, if_pos rfl, hr, List.reverse_append]
  show _ = (List.findSome? (fun g => g.ref c) (f :: l.reverse)).getD 0
  cases hf : f.ref c <;> simp [hf]

/-- C389 is false: the position of the first file stays. -/
theorem C389_refuted : ¬ C389_claim := by
  intro h
  have := h (Str × Nat) (Str × Nat) inferInstance id (fun t m => (t, m.2)) [exA] exB .lat
  revert this
  decide +kernel

/-! ### C390: the Phoenix format -/

/-- C390: whether a file is in the Phoenix format does not depend on the files before. -/
def C390_claim : Prop := ∀ (M L : Type) (_ : DecidableEq L) (line : M → L) (rename : Str → M → M) (l : List (File M)) (f : File M),
  (read line rename (readAll line rename {} l) f).phoenix = f.phoenix

/-- C390 (part): the object says so if and only if one of the files read was. -/
theorem C390_any_partial (l : List (File M)) : (readAll line rename {} l).phoenix = true ↔ ∃ g ∈ l, g.phoenix = true := by
  have : ∀ o : Obj M, (readAll line rename o l).phoenix = true ↔ o.phoenix = true ∨ ∃ g ∈ l, g.phoenix = true := by
    induction l with
    | nil => intro o; simp [readAll]
    | cons g l ih =>
      intro o
      show (readAll line rename (read line rename o g) l).phoenix = true ↔ _
      rw [ih]
      show ((o.phoenix || g.phoenix) = true ∨ _) ↔ _
      simp [or_assoc]
  rw [this]
  simp

/-- C390 is false: the first file was. -/
theorem C390_refuted : ¬ C390_claim := by
  intro h
  have := h (Str × Nat) (Str × Nat) inferInstance id (fun t m => (t, m.2)) [exA] exB
  revert this
  decide

end Verif.EdiUse
