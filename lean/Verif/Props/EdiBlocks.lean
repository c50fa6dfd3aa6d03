import Verif.Props.EdiData

/-! # Blocks of EDI files by name (C140) -/

namespace Verif.EdiData
open Verif.Text

variable {F : Type} [DecidableEq F] {N : Numbers F} {empty : F}

/-- The names of the blocks, by the EDI standard: real part, imaginary part and variance of each element. -/
def ediName : Key → String
  | .freq => "FREQ"
  | .zrot => "ZROT"
  | .trot => "TROT"
  | .z 0 0 0 => "ZXXR" | .z 0 0 1 => "ZXXI" | .z 0 0 2 => "ZXX.VAR"
  | .z 0 1 0 => "ZXYR" | .z 0 1 1 => "ZXYI" | .z 0 1 2 => "ZXY.VAR"
  | .z 1 0 0 => "ZYXR" | .z 1 0 1 => "ZYXI" | .z 1 0 2 => "ZYX.VAR"
  | .z 1 1 0 => "ZYYR" | .z 1 1 1 => "ZYYI" | .z 1 1 2 => "ZYY.VAR"
  | .t 0 0 => "TXR.EXP" | .t 0 1 => "TXI.EXP" | .t 0 2 => "TXVAR.EXP"
  | .t 1 0 => "TYR.EXP" | .t 1 1 => "TYI.EXP" | .t 1 2 => "TYVAR.EXP"

/-- A block of a file: a name, whatever else is in its first line, lines of data. -/
structure Blk where
  name : Str
  rest : Str
  data : List Str

/-- Names are words, the rest of the line is set off by a blank, lines have no marks in them. -/
def Blk.Ok (b : Blk) : Prop :=
  b.name ≠ [] ∧ (∀ c ∈ b.name, ws c = false ∧ c ≠ '!' ∧ c ≠ '\n') ∧
  (b.rest = [] ∨ ∃ c r, b.rest = c :: r ∧ ws c = true) ∧ (∀ c ∈ b.rest, c ≠ '!' ∧ c ≠ '\n') ∧
  ∀ l ∈ b.data, ∀ c ∈ l, c ≠ '>' ∧ c ≠ '!' ∧ c ≠ '\n'

/-- The lines of a block. -/
def Blk.lines (b : Blk) : List Str := ('>' :: (b.name ++ b.rest)) :: b.data

/-- The file, each line ended. -/
def textOf (bs : List Blk) : Str := (bs.flatMap Blk.lines).flatMap (fun l => l ++ ['\n'])

/-- Upper and lower case letters are the same in names. -/
def sameName (s : Str) (k : Key) : Bool := lower s == lower (ediName k).toList

/-- The words of the last block of a name. -/
def lastOf (bs : List Blk) (k : Key) : Option (List Str) :=
  (bs.reverse.find? fun b => sameName b.name k).map fun b => b.data.flatMap words

theorem ediName_lower (k : Key) : lower (ediName k).toList = label k := by
  cases k with
  | freq => decide
  | zrot => decide
  | trot => decide
  | z i j p => revert i j p; decide +kernel
  | t j p => revert j p; decide +kernel

theorem keyOf_iff (s : Str) (k : Key) : keyOf s = some k ↔ s = label k := by
  constructor
  · intro h
    unfold keyOf at h
    have := List.find?_some h
    simpa using (eq_of_beq this).symm
  · rintro rfl
    exact keyOf_label k

theorem rstrip_cons {x : Char} (s : Str) (hx : ws x = false) : rstrip (x :: s) = x :: rstrip s := by
  unfold rstrip
  rw [List.reverse_cons, List.dropWhile_append]
  split
  · rename_i h
    rw [List.isEmpty_iff] at h
    rw [h]
    simp [List.dropWhile, hx]
  · simp

theorem lstrip_id {x : Char} (s : Str) (hx : ws x = false) : lstrip (x :: s) = x :: s := by
  simp [lstrip, List.dropWhile, hx]

theorem step_header (b : Blk) (hb : b.Ok) (st : OD Key (List F) × Option Key) :
    step N empty st ('>' :: (b.name ++ b.rest)) =
      match keyOf (lower b.name) with
      | some k => (OD.set st.1 k [], some k)
      | none => (st.1, none) := by
  obtain ⟨h1, h2, h3, h4, -⟩ := hb
  obtain ⟨x, n, hx⟩ : ∃ x n, b.name = x :: n := List.exists_cons_of_ne_nil h1
  have hxw : ws x = false := (h2 x (by rw [hx]; exact List.mem_cons_self)).1
  have e1 : strip ('>' :: (b.name ++ b.rest)) = '>' :: strip (b.name ++ b.rest) := by
    unfold strip
    rw [lstrip_id _ (by decide), rstrip_cons _ (by decide), hx, List.cons_append, lstrip_id _ hxw]
  have e2 : '!' ∉ strip ('>' :: (b.name ++ b.rest)) := by
    intro h
    rcases List.mem_cons.1 (mem_of_mem_strip h) with h | h
    · exact absurd h (by decide)
    · rcases List.mem_append.1 h with h | h
      · exact (h2 _ h).2.1 rfl
      · exact (h4 _ h).1 rfl
  have e3 : ∃ ws, words (b.name ++ b.rest) = b.name :: ws := by
    rcases h3 with h3 | ⟨c, r, h3, hc⟩
    · rw [h3, List.append_nil]
      exact ⟨[], words_token (fun c hc => (h2 c hc).1) h1⟩
    · rw [h3]
      exact ⟨words r, words_append r (fun c hc => (h2 c hc).1) h1 hc⟩
  obtain ⟨w, e3⟩ := e3
  unfold step
  simp only []
  rw [if_pos ⟨by rw [e1]; exact List.mem_cons_self, e2⟩, e1]
  simp only [List.drop_succ_cons, List.drop_zero, words_strip, e3]
  cases keyOf (lower b.name) <;> rfl

/-- Lines of an unknown block. -/
theorem fold_skip (L : List Str) (hL : ∀ l ∈ L, ∀ c ∈ l, c ≠ '>' ∧ c ≠ '!') (d : OD Key (List F)) :
    L.foldl (step N empty) (d, none) = (d, none) := by
  induction L with
  | nil => rfl
  | cons l L ih =>
    have h1 : '>' ∉ strip l := fun h => (hL l List.mem_cons_self _ (mem_of_mem_strip h)).1 rfl
    have hs : step N empty (d, none) l = (d, none) := by
      unfold step
      simp only [h1, false_and, if_false]
    rw [List.foldl_cons, hs, ih (fun l hl => hL l (List.mem_cons_of_mem _ hl))]

theorem fold_blk (b : Blk) (hb : b.Ok) (st : OD Key (List F) × Option Key) (k : Key) :
    OD.get? (b.lines.foldl (step N empty) st).1 k =
      if sameName b.name k then some ((b.data.flatMap words).map (value N empty)) else OD.get? st.1 k := by
  have hd : ∀ l ∈ b.data, ∀ c ∈ l, c ≠ '>' ∧ c ≠ '!' := fun l hl c hc => ⟨(hb.2.2.2.2 l hl c hc).1, (hb.2.2.2.2 l hl c hc).2.1⟩
  have hk : sameName b.name k = true ↔ keyOf (lower b.name) = some k := by
    rw [keyOf_iff, ← ediName_lower k]
    simp [sameName]
  unfold Blk.lines
  rw [List.foldl_cons, step_header b hb]
  cases hq : keyOf (lower b.name) with
  | none =>
    simp only []
    rw [fold_skip _ hd, if_neg (by rw [hk, hq]; simp)]
  | some k' =>
    simp only []
    obtain ⟨d', g1, g2, g3⟩ := fold_data (N := N) (empty := empty) b.data hd (OD.set st.1 k' []) k' [] (OD.get?_set_self _ _ _)
    rw [g1]
    by_cases hkk : k = k'
    · subst hkk
      rw [if_pos (hk.2 hq), g2]
      rfl
    · rw [if_neg (by rw [hk, hq]; simpa using fun h => hkk h.symm), g3 k hkk, OD.get?_set_ne _ _ hkk]

theorem lines_flat (L : List Str) (hL : ∀ l ∈ L, '\n' ∉ l) : splitC '\n' (L.flatMap (fun l => l ++ ['\n'])) = L ++ [[]] := by
  induction L with
  | nil => rfl
  | cons l L ih =>
    rw [List.flatMap_cons, List.append_assoc, List.singleton_append, splitC_mid, ih (fun x hx => hL x (List.mem_cons_of_mem _ hx)),
      splitC_none (hL l List.mem_cons_self)]
    rfl

theorem fold_blks (bs : List Blk) (hb : ∀ b ∈ bs, b.Ok) (st : OD Key (List F) × Option Key) (k : Key) :
    OD.get? ((bs.flatMap Blk.lines).foldl (step N empty) st).1 k =
      match lastOf bs k with
      | some w => some (w.map (value N empty))
      | none => OD.get? st.1 k := by
  induction bs generalizing st with
  | nil => rfl
  | cons b bs ih =>
    rw [List.flatMap_cons, List.foldl_append, ih (fun x hx => hb x (List.mem_cons_of_mem _ hx))]
    have hl : lastOf (b :: bs) k = (lastOf bs k).or (if sameName b.name k then some (b.data.flatMap words) else none) := by
      unfold lastOf
      rw [List.reverse_cons, List.find?_append]
      cases h : bs.reverse.find? fun b => sameName b.name k with
      | some x => rfl
      | none =>
        by_cases hn : sameName b.name k = true
        · simp [hn]
        · simp [hn]
    rw [hl]
    cases lastOf bs k with
    | some w => rfl
    | none =>
      rw [fold_blk b (hb b List.mem_cons_self)]
      by_cases hn : sameName b.name k = true
      · simp [hn]
      · simp [hn]

/-- Data are appended to a list that is there. -/
def Open (st : OD Key (List F) × Option Key) : Prop := ∀ k, st.2 = some k → (OD.get? st.1 k).isSome = true

theorem step_open (st : OD Key (List F) × Option Key) (h : Open st) (l : Str) : Open (step N empty st l) := by
  unfold step
  simp only []
  split
  · split
    · exact h
    · split
      · intro k hk
        simp only [Option.some.injEq] at hk
        subst hk
        rw [OD.get?_set_self]
        rfl
      · intro k hk
        cases hk
  · split
    · rename_i k hk
      split
      · intro k' hk'
        simp only [hk, Option.some.injEq] at hk'
        subst hk'
        rw [OD.get?_set_self]
        rfl
      · exact h
    · exact h

theorem fold_open (L : List Str) (st : OD Key (List F) × Option Key) (h : Open st) : Open (L.foldl (step N empty) st) := by
  induction L generalizing st with
  | nil => exact h
  | cons l L ih => exact ih _ (step_open st h l)

/-- C140: in a file of blocks with any names in any order, the numbers of an element are those of the last block of its
name; blocks of other names are not read and do not disturb those before. -/
theorem C140_blocks (bs : List Blk) (hb : ∀ b ∈ bs, b.Ok) (k : Key) :
    OD.get? (readDict N empty (textOf bs)) k = (lastOf bs k).map (fun w => w.map (value N empty)) := by
  have hL : ∀ l ∈ bs.flatMap Blk.lines, '\n' ∉ l := by
    intro l hl
    obtain ⟨b, hbm, hl⟩ := List.mem_flatMap.1 hl
    obtain ⟨-, h2, -, h4, h5⟩ := hb b hbm
    rcases List.mem_cons.1 hl with rfl | hl
    · intro h
      rcases List.mem_cons.1 h with h | h
      · exact absurd h (by decide)
      · rcases List.mem_append.1 h with h | h
        · exact (h2 _ h).2.2 rfl
        · exact (h4 _ h).2 rfl
    · exact fun h => (h5 l hl _ h).2.2 rfl
  have hlast : ∀ st : OD Key (List F) × Option Key, ∀ k, OD.get? ([[]].foldl (step N empty) st).1 k = if st.2 = some k then some ((OD.get? st.1 k).getD []) else OD.get? st.1 k := by
    rintro ⟨d, o⟩ k
    cases o with
    | none => simp [step, strip, rstrip, lstrip]
    | some k' =>
      by_cases hk : k = k'
      · subst hk
        simp [step, strip, rstrip, lstrip, words, splitP, OD.get?_set_self]
      · rw [if_neg (by simpa using fun h => hk h.symm)]
        simp [step, strip, rstrip, lstrip, words, splitP, OD.get?_set_ne _ _ hk]
  have e : readDict N empty (textOf bs) = ([[]].foldl (step N empty) ((bs.flatMap Blk.lines).foldl (step N empty) ([], none))).1 := by
    unfold readDict textOf
    rw [lines_flat _ hL, List.foldl_append]
  rw [e, hlast]
  have ho : Open ((bs.flatMap Blk.lines).foldl (step N empty) (([] : OD Key (List F)), none)) :=
    fold_open _ _ (fun k hk => by cases hk)
  have hf := fold_blks (N := N) (empty := empty) bs hb ([], none) k
  have hr : OD.get? ((bs.flatMap Blk.lines).foldl (step N empty) (([] : OD Key (List F)), none)).1 k =
      (lastOf bs k).map (fun w => w.map (value N empty)) := by
    rw [hf]
    cases lastOf bs k <;> rfl
  split
  · rename_i hk
    have := ho k hk
    rw [hr] at this ⊢
    obtain ⟨v, hv⟩ := Option.isSome_iff_exists.1 this
    rw [hv]
    rfl
  · exact hr

/-- The numbers of the words of a block; what cannot be read and the empty value are zeros. -/
def Holds (N : Numbers F) (empty : F) (bs : List Blk) (k : Key) (v : List F) : Prop :=
  ∃ w, lastOf bs k = some w ∧ v = w.map (fun x => match N.parse x with
    | some y => if y = empty then N.zero else y
    | none => N.zero)

theorem Holds.get {bs : List Blk} (hb : ∀ b ∈ bs, b.Ok) {k : Key} {v : List F} (h : Holds N empty bs k v) :
    OD.get? (readDict N empty (textOf bs)) k = some v := by
  obtain ⟨w, h1, h2⟩ := h
  rw [C140_blocks bs hb k, h1, h2]
  rfl

theorem fill_of {d : OD Key (List F)} (a : Arrays F) (n : Nat) (hl : a.freq.length = n) (hf : OD.get? d .freq = some a.freq)
    (hz : ∀ i j, element N d n (.z i j) = .ok (a.z i j)) (ht : ∀ j, element N d n (.t j) = .ok (a.t j)) :
    fill N d = .ok { a with rot := [] } := by
  unfold fill
  rw [hf]
  simp only [hl, hz, ht]
  have e1 : ∀ i : Fin 2, i = 0 ∨ i = 1 := by decide
  congr 1
  congr 1
  · funext i j
    rcases e1 i with rfl | rfl <;> rcases e1 j with rfl | rfl <;> simp
  · funext j
    rcases e1 j with rfl | rfl <;> simp

/-- C140: a file with blocks for the frequencies and all parts of all elements, among others and in any order, gives
these arrays; turned around if the frequencies ascend. Without blocks of tippers the tipper is zero, without angles
the angles are zero. -/
theorem C140_read (bs : List Blk) (hb : ∀ b ∈ bs, b.Ok) (a : Arrays F) (n : Nat) (hn : 2 ≤ n) (hsq : Square a n)
    (hf : Holds N empty bs .freq a.freq) (hz : ∀ i j p, Holds N empty bs (.z i j p) (a.z i j p))
    (ht : (∀ j p, Holds N empty bs (.t j p) (a.t j p)) ∨
      ∀ j p, lastOf bs (.t j p) = none ∧ a.t j p = List.replicate n N.zero)
    (hr : Holds N empty bs .zrot a.rot ∨ (lastOf bs .zrot = none ∧ a.rot = List.replicate n N.zero)) :
    (¬ Ascends N a.freq → readMt N empty (textOf bs) = .ok a) ∧
    (Ascends N a.freq → readMt N empty (textOf bs) = .ok (reversed a)) := by
  obtain ⟨l1, l2, l3, l4⟩ := hsq
  have hfill : fill N (readDict N empty (textOf bs)) = .ok { a with rot := [] } := by
    refine fill_of a n l1 (hf.get hb) (fun i j => element_some (fun p => (hz i j p).get hb) (l3 i j)) (fun j => ?_)
    rcases ht with ht | ht
    · exact element_some (fun p => (ht j p).get hb) (l4 j)
    · rw [element_none (fun p => by rw [C140_blocks bs hb, (ht j p).1]; rfl)]
      congr 1
      funext p
      exact (ht j p).2.symm
  have hrot : (OD.get? (readDict N empty (textOf bs)) .zrot).getD (List.replicate n N.zero) = a.rot := by
    rcases hr with hr | ⟨hr, hr'⟩
    · rw [hr.get hb]
      rfl
    · rw [C140_blocks bs hb, hr, hr']
      rfl
  obtain ⟨f, g, r, hfr⟩ : ∃ f g r, a.freq = f :: g :: r := by
    match h : a.freq, l1 with
    | f :: g :: r, _ => exact ⟨f, g, r, rfl⟩
    | [_], hl => simp at hl; omega
    | [], hl => simp at hl; omega
  constructor
  · intro h
    have hlt : N.lt f g = false := by
      by_contra hc
      exact h ⟨f, g, r, hfr, by simpa using hc⟩
    unfold readMt
    simp only [hfill]
    unfold descending
    simp only [hfr, hlt]
    simp only [Bool.false_eq_true, if_false]
    rw [show (f :: g :: r).length = n by rw [← hfr]; exact l1, hrot, ← hfr]
  · rintro ⟨f', g', r', hf', hlt⟩
    unfold readMt
    simp only [hfill]
    unfold descending
    simp only [hf', hlt]
    simp only [if_true, List.length_reverse]
    rw [show (f' :: g' :: r').length = n by rw [← hf']; exact l1, hrot, ← hf']
    rfl

/-- A file: frequencies, an element in lower case with more in its line, a block of another name. -/
def sampleBlocks : List Blk :=
  [{ name := "FREQ".toList, rest := " // 3".toList, data := ["  7 5".toList, " 3".toList] },
   { name := "zxyi".toList, rest := " ROT=ZROT // 3".toList, data := ["  1 1000 ***".toList] },
   { name := "ZXX.COH".toList, rest := [], data := ["9 9 9".toList] }]

example : OD.get? (readDict natNumbers 1000 (textOf sampleBlocks)) (.z 0 1 1) = some [1, 0, 0] := by decide +kernel

example : ∀ b ∈ sampleBlocks, b.Ok := by
  intro b hb
  simp only [sampleBlocks, List.mem_cons, List.not_mem_nil, or_false] at hb
  rcases hb with rfl | rfl | rfl
  · exact ⟨by decide, by decide, .inr ⟨' ', "// 3".toList, by decide, by decide⟩, by decide, by decide⟩
  · exact ⟨by decide, by decide, .inr ⟨' ', "ROT=ZROT // 3".toList, by decide, by decide⟩, by decide, by decide⟩
  · exact ⟨by decide, by decide, .inl rfl, by decide, by decide⟩

end Verif.EdiData
