import Verif.Props.EmtfData

/-!
# The data element of EMTF XML files, stated without the tables of the model

C176: other programs find the entries by the names, outputs and inputs in the file, and read real or complex numbers as
the file says.
-/

namespace Verif.EmtfData

variable {F : Type} {N : Nums F}

/-- The element of each array. -/
def tagOf : Key → Str
  | .z => "Z".toList
  | .zVar => "Z.VAR".toList
  | .zInv => "Z.INVSIGCOV".toList
  | .zRes => "Z.RESIDCOV".toList
  | .t => "T".toList
  | .tVar => "T.VAR".toList
  | .tInv => "T.INVSIGCOV".toList
  | .tRes => "T.RESIDCOV".toList

/-- Its attributes: variances are real, impedances and tippers have units. -/
def headOf : Key → List (Str × Str)
  | .z => [("type".toList, "complex".toList), ("size".toList, "2 2".toList), ("units".toList, "[mV/km]/[nT]".toList)]
  | .zVar => [("type".toList, "real".toList), ("size".toList, "2 2".toList)]
  | .zInv => [("type".toList, "complex".toList), ("size".toList, "2 2".toList)]
  | .zRes => [("type".toList, "complex".toList), ("size".toList, "2 2".toList)]
  | .t => [("type".toList, "complex".toList), ("size".toList, "1 2".toList), ("units".toList, "[]".toList)]
  | .tVar => [("type".toList, "real".toList), ("size".toList, "1 2".toList)]
  | .tInv => [("type".toList, "complex".toList), ("size".toList, "2 2".toList)]
  | .tRes => [("type".toList, "complex".toList), ("size".toList, "1 1".toList)]

/-- A named entry. -/
def named (n o i : String) : List (Str × Str) :=
  [("name".toList, n.toList), ("output".toList, o.toList), ("input".toList, i.toList)]

/-- An entry without name. -/
def unnamed (o i : String) : List (Str × Str) := [("output".toList, o.toList), ("input".toList, i.toList)]

/-- The attributes of the entries, row by row. -/
def cellsOf : Key → List (List (Str × Str))
  | .z => [named "Zxx" "Ex" "Hx", named "Zxy" "Ex" "Hy", named "Zyx" "Ey" "Hx", named "Zyy" "Ey" "Hy"]
  | .zVar => [named "Zxx" "Ex" "Hx", named "Zxy" "Ex" "Hy", named "Zyx" "Ey" "Hx", named "Zyy" "Ey" "Hy"]
  | .zInv => [unnamed "Hx" "Hx", unnamed "Hx" "Hy", unnamed "Hy" "Hx", unnamed "Hy" "Hy"]
  | .zRes => [unnamed "Ex" "Ex", unnamed "Ex" "Ey", unnamed "Ey" "Ex", unnamed "Ey" "Ey"]
  | .t => [named "Tx" "Hz" "Hx", named "Ty" "Hz" "Hy"]
  | .tVar => [named "Tx" "Hz" "Hx", named "Ty" "Hz" "Hy"]
  | .tInv => [unnamed "Hx" "Hx", unnamed "Hx" "Hy", unnamed "Hy" "Hx", unnamed "Hy" "Hy"]
  | .tRes => [unnamed "Hz" "Hz"]

/-- The text of a complex number: both parts, 1e32 for zero. -/
def complexText (N : Nums F) (v : C F) : Str :=
  if N.isZero (N.fix v.1) && N.isZero (N.fix v.2) then N.f6 N.big ++ ' ' :: N.f6 N.big
  else N.f6 (N.fix v.1) ++ ' ' :: N.f6 (N.fix v.2)

/-- The text of a real number. -/
def realText (N : Nums F) (v : C F) : Str := if N.isZero (N.fix v.1) then N.f6 N.big else N.f6 (N.fix v.1)

/-- The text of an entry. -/
def textOf (N : Nums F) : Key → C F → Str
  | .zVar => realText N
  | .tVar => realText N
  | _ => complexText N

/-- The element of an array of a period. -/
def arrayEl (N : Nums F) (k : Key) (m : List (List (C F))) : El :=
  .mk (tagOf k) (headOf k) none ((List.zip (cellsOf k) m.flatten).map fun x => .mk "value".toList x.1 (some (textOf N k x.2)) [])

/-- The element of a period: the arrays that are there, in this order. -/
def periodOf (N : Nums F) (d : Data F) (p : F × Nat) : El :=
  .mk "Period".toList [("value".toList, N.f12 p.1), ("units".toList, "secs".toList)] none
    ([Key.z, .zVar, .zInv, .zRes, .t, .tVar, .tInv, .tRes].filterMap fun k =>
      (d.arr k).bind fun a => a[p.2]?.map fun m => arrayEl N k m)

/-- Rows and columns of each array. -/
def dims : Key → Nat × Nat
  | .z => (2, 2)
  | .zVar => (2, 2)
  | .zInv => (2, 2)
  | .zRes => (2, 2)
  | .t => (1, 2)
  | .tVar => (1, 2)
  | .tInv => (2, 2)
  | .tRes => (1, 1)

/-- Arrays are empty or have a matrix for each period. -/
def Data.Shaped (d : Data F) : Prop :=
  ∀ k a, d.arr k = some a → a = [] ∨
    (a.length = d.period.length ∧ ∀ m ∈ a, m.length = (dims k).1 ∧ ∀ r ∈ m, r.length = (dims k).2)

theorem Shaped_ok {d : Data F} (h : d.Shaped) : d.Ok := by
  intro k a ha
  rcases h k a ha with e | ⟨h1, h2⟩
  · exact Or.inl e
  · refine Or.inr ⟨h1, fun m hm => ?_⟩
    have := h2 m hm
    cases k <;> exact this

theorem tag_eq : ∀ k ∈ Key.all, k.tag = tagOf k := by decide +kernel

theorem cells_eq : ∀ k ∈ Key.all, cellsOf k =
    (List.range (dims k).1).flatMap (fun i => (List.range (dims k).2).map fun j => entAttrs k i j) := by decide +kernel

theorem text_eq (k : Key) (v : C F) : valueText N k.cplx (clean N k.cplx v) = textOf N k v := by
  cases k <;> simp only [Key.cplx, textOf, complexText, realText, clean, valueText] <;> split <;> rfl

theorem show1 : showNat 1 = ['1'] := by decide +kernel
theorem show2 : showNat 2 = ['2'] := by decide +kernel

theorem head_eq (k : Key) (m : List (List (C F))) (h1 : m.length = (dims k).1) (h2 : (m.headD []).length = (dims k).2) :
    compAttrs k m = headOf k := by
  unfold compAttrs sizeText
  rw [h1, h2]
  cases k <;> simp only [dims, show1, show2] <;> rfl

theorem ent_eq (k : Key) (i j : Nat) (v : C F) :
    ent N k i j v = .mk "value".toList (entAttrs k i j) (some (textOf N k v)) [] := by
  unfold ent; rw [text_eq]

theorem array_eq (k : Key) (m : List (List (C F))) (h : m.length = (dims k).1 ∧ ∀ r ∈ m, r.length = (dims k).2) :
    elOf N (k, m) = arrayEl N k m := by
  have hh : compAttrs k m = headOf k := by
    apply head_eq _ _ h.1
    cases m with
    | nil => cases k <;> cases h.1
    | cons r rs => exact h.2 r (by simp)
  unfold elOf arrayEl ents
  rw [tag_eq k (mem_all k), hh, cells_eq k (mem_all k)]
  congr 1
  simp only [ent_eq]
  have cases : dims k = (2, 2) ∨ dims k = (1, 2) ∨ dims k = (1, 1) := by cases k <;> decide
  obtain ⟨h1, h2⟩ := h
  rcases cases with e | e | e <;> rw [e] at h1 h2 ⊢
  · obtain ⟨x, y, rfl⟩ := len2 h1
    obtain ⟨a, b, rfl⟩ := len2 (h2 x (by simp))
    obtain ⟨c, d, rfl⟩ := len2 (h2 y (by simp))
    rfl
  · obtain ⟨x, rfl⟩ := len1 h1
    obtain ⟨a, b, rfl⟩ := len2 (h2 x (by simp))
    rfl
  · obtain ⟨x, rfl⟩ := len1 h1
    obtain ⟨a, rfl⟩ := len1 (h2 x (by simp))
    rfl

/-- The data element that is written: for each period the arrays that are there, with the names, outputs and inputs
of their entries. -/
theorem C176_file {d : Data F} (hd : d.Shaped) :
    toXml N d = .ok (.mk "Data".toList [("count".toList, showNat d.period.length)] none (d.period.zipIdx.map (periodOf N d))) := by
  rw [toXml_eq (Shaped_ok hd)]
  congr 2
  apply List.map_congr_left
  intro p hp
  have hi : p.2 < d.period.length := by have := List.mem_zipIdx (x := p.1) (i := p.2) hp; omega
  unfold periodEl periodOf mats
  congr 1
  rw [List.map_filterMap]
  apply List.filterMap_congr
  intro k _
  unfold mat
  cases ha : d.arr k with
  | none => rfl
  | some a =>
    simp only [Option.bind_some]
    by_cases hz : sizeZero a = true
    · rw [(sizeZero_iff (Shaped_ok hd k a ha)).1 hz]; simp [sizeZero]
    · rw [if_neg hz]
      rcases hd k a ha with rfl | ⟨h1, h2⟩
      · exact absurd rfl hz
      · have hi' : p.2 < a.length := by omega
        rw [List.getElem?_eq_getElem hi']
        simp only [Option.map_some]
        rw [array_eq k _ (h2 _ (List.getElem_mem _))]

/-- Not vacuous, and what is written of an impedance. -/
example : exData.Shaped := by
  intro k a ha
  cases k <;> simp only [exData, Option.some.injEq, reduceCtorEq] at ha <;> subst ha
  · exact Or.inr (by decide)
  · exact Or.inr (by decide)
  · exact Or.inl rfl

end Verif.EmtfData
