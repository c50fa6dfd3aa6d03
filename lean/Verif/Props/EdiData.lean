import Verif.Model.EdiData
import Verif.Lemmas.Text
import Verif.Lemmas.OD
import Mathlib.Data.List.Basic

/-! # Writing and reading the data of EDI files (C134) -/

namespace Verif.EdiData
open Verif.Text

variable {F : Type} [DecidableEq F]

/-- What is assumed of numbers: printed with at least one blank before them and none inside, without
`>` and `!`, and read as a rounded number. -/
def Faithful (N : Numbers F) (rnd : F → F) : Prop := ∀ x, ∃ pre tok : Str, N.fmt x = pre ++ tok ∧ pre ≠ [] ∧
  (∀ c ∈ pre, c = ' ') ∧ tok ≠ [] ∧ (∀ c ∈ tok, ws c = false ∧ c ≠ '>' ∧ c ≠ '!') ∧ N.parse tok = some (rnd x)

/-- What a number comes back as: zeros go through the empty value, except in angles. -/
def back (N : Numbers F) (rnd : F → F) (empty : F) (rot : Bool) (x : F) : F :=
  let d := if x = N.zero ∧ rot = false then empty else x
  if rnd d = empty then N.zero else rnd d

/-! ## Text -/

theorem splitC_mid (c : Char) (a b : Str) : splitC c (a ++ c :: b) = splitC c a ++ splitC c b := by
  induction a with
  | nil => rw [List.nil_append, splitC_cons_self, splitC_nil]; rfl
  | cons x a ih =>
    by_cases hx : x = c
    · subst hx
      rw [List.cons_append, splitC_cons_self, splitC_cons_self, ih]; rfl
    · rw [List.cons_append, splitC_cons_ne _ hx, splitC_cons_ne _ hx, ih]
      have := splitC_ne_nil c a
      cases h : splitC c a with
      | nil => exact absurd h this
      | cons p l => simp

theorem mem_of_mem_splitC {c x : Char} {s l : Str} (hl : l ∈ splitC c s) (hx : x ∈ l) : x ∈ s := by
  induction s generalizing l with
  | nil =>
    rw [splitC_nil, List.mem_singleton] at hl
    subst hl; exact hx
  | cons y s ih =>
    by_cases hy : y = c
    · subst hy
      rw [splitC_cons_self] at hl
      rcases List.mem_cons.1 hl with hl | hl
      · subst hl; cases hx
      · exact List.mem_cons_of_mem _ (ih hl hx)
    · rw [splitC_cons_ne _ hy] at hl
      cases h : splitC c s with
      | nil => exact absurd h (splitC_ne_nil c s)
      | cons p L =>
        rw [h] at hl ih
        simp only [List.mem_cons] at hl
        rcases hl with hl | hl
        · subst hl
          rcases List.mem_cons.1 hx with hx | hx
          · exact hx ▸ List.mem_cons_self
          · exact List.mem_cons_of_mem _ (ih List.mem_cons_self hx)
        · exact List.mem_cons_of_mem _ (ih (List.mem_cons_of_mem _ hl) hx)

theorem lines_words (s : Str) : (splitC '\n' s).flatMap words = words s := by
  unfold words
  rw [flatMap_filter, splitC, splitP_flatMap]
  congr 2
  funext c
  by_cases h : c = '\n'
  · subst h; rfl
  · simp [h]

theorem words_append_ws {x : Char} (s : Str) (hx : ws x = true) : words (s ++ [x]) = words s := by
  rw [← words_strip, strip_append_ws _ hx, words_strip]

theorem words_blanks {p : Str} (s : Str) (h : ∀ c ∈ p, c = ' ') : words (p ++ s) = words s := by
  induction p with
  | nil => rfl
  | cons c p ih =>
    have hc := h c List.mem_cons_self
    subst hc
    rw [List.cons_append, words_cons_ws _ (by decide), ih (fun c hc => h c (List.mem_cons_of_mem _ hc))]

variable {N : Numbers F} {rnd : F → F} {empty : F} {rot : Bool}

/-- The text after a number begins with a blank. -/
theorem body_cons (hN : Faithful N rnd) (i : Nat) (x : F) (xs : List F) :
    ∃ pre tok c s, body N empty rot i (x :: xs) = pre ++ (tok ++ c :: s) ∧ (∀ c ∈ pre, c = ' ') ∧ tok ≠ [] ∧
      (∀ c ∈ tok, ws c = false ∧ c ≠ '>' ∧ c ≠ '!') ∧ ws c = true ∧
      value N empty tok = back N rnd empty rot x ∧ words (c :: s) = words (body N empty rot (i + 1) xs) := by
  obtain ⟨pre, tok, h1, -, h3, h4, h5, h6⟩ := hN (if x = N.zero ∧ rot = false then empty else x)
  have hv : value N empty tok = back N rnd empty rot x := by
    unfold value back
    rw [h6]
  cases xs with
  | nil =>
    by_cases hi : (i + 1) % 6 = 0
    · exact ⟨pre, tok, '\n', ['\n'], by simp [body, h1, hi], h3, h4, h5, by decide, hv, by simp [body]; decide⟩
    · exact ⟨pre, tok, '\n', [], by simp [body, h1, hi], h3, h4, h5, by decide, hv, by simp [body]; decide⟩
  | cons y ys =>
    by_cases hi : (i + 1) % 6 = 0
    · refine ⟨pre, tok, '\n', body N empty rot (i + 1) (y :: ys), ?_, h3, h4, h5, by decide, hv, ?_⟩
      · rw [body]; simp [h1, hi]
      · rw [words_cons_ws _ (by decide)]
    · obtain ⟨pre2, tok2, g1, g2, g3, -, -, -⟩ := hN (if y = N.zero ∧ rot = false then empty else y)
      cases pre2 with
      | nil => exact absurd rfl g2
      | cons c p2 =>
        have hb : ∃ s, body N empty rot (i + 1) (y :: ys) = c :: s := ⟨_, by rw [body]; simp [g1]; rfl⟩
        obtain ⟨s, hs⟩ := hb
        have hc := g3 c List.mem_cons_self
        refine ⟨pre, tok, c, s, ?_, h3, h4, h5, by rw [hc]; decide, hv, by rw [hs]⟩
        rw [body, hs]
        simp [h1, hi]

/-- The words of a block are its numbers. -/
theorem body_words (hN : Faithful N rnd) (i : Nat) (xs : List F) :
    (words (body N empty rot i xs)).map (value N empty) = xs.map (back N rnd empty rot) := by
  induction xs generalizing i with
  | nil => rfl
  | cons x xs ih =>
    obtain ⟨pre, tok, c, s, h1, h2, h3, h4, h5, h6, h7⟩ := body_cons (empty := empty) (rot := rot) hN i x xs
    rw [h1, words_blanks _ h2, words_append s (fun c hc => (h4 c hc).1) h3 h5, List.map_cons, List.map_cons, h6,
      ← ih (i + 1), ← h7, words_cons_ws _ h5]

theorem body_chars (hN : Faithful N rnd) (i : Nat) (xs : List F) :
    ∀ c ∈ body N empty rot i xs, c ≠ '>' ∧ c ≠ '!' := by
  induction xs generalizing i with
  | nil => intro c hc; simp [body] at hc
  | cons x xs ih =>
    intro c hc
    rw [body] at hc
    obtain ⟨pre, tok, h1, -, h3, -, h5, -⟩ := hN (if x = N.zero ∧ rot = false then empty else x)
    simp only [List.mem_append] at hc
    rcases hc with hc | hc | hc | hc
    · rw [h1] at hc
      rcases List.mem_append.1 hc with hc | hc
      · rw [h3 c hc]; decide
      · exact (h5 c hc).2
    · split at hc
      · rw [List.mem_singleton.1 hc]; decide
      · simp at hc
    · split at hc
      · rw [List.mem_singleton.1 hc]; decide
      · simp at hc
    · exact ih (i + 1) c hc

theorem body_end (i : Nat) (x : F) (xs : List F) : ∃ s, body N empty rot i (x :: xs) = s ++ ['\n'] := by
  induction xs generalizing i x with
  | nil => exact ⟨N.fmt (if x = N.zero ∧ rot = false then empty else x) ++ (if (i + 1) % 6 = 0 then ['\n'] else []), by simp [body]⟩
  | cons y ys ih =>
    obtain ⟨s, hs⟩ := ih (i + 1) y
    refine ⟨N.fmt (if x = N.zero ∧ rot = false then empty else x) ++ ((if (i + 1) % 6 = 0 then ['\n'] else []) ++ s), ?_⟩
    rw [body, hs]
    simp

/-! ## Lines -/

/-- Reading lines of data. -/
theorem fold_data (L : List Str) (hL : ∀ l ∈ L, ∀ c ∈ l, c ≠ '>' ∧ c ≠ '!') (d : OD Key (List F)) (k : Key) (v : List F)
    (hd : OD.get? d k = some v) :
    ∃ d', L.foldl (step N empty) (d, some k) = (d', some k) ∧
      OD.get? d' k = some (v ++ (L.flatMap words).map (value N empty)) ∧ ∀ k', k' ≠ k → OD.get? d' k' = OD.get? d k' := by
  induction L generalizing d v with
  | nil => exact ⟨d, rfl, by simpa using hd, fun _ _ => rfl⟩
  | cons l L ih =>
    have h1 : '>' ∉ strip l := fun h => (hL l List.mem_cons_self _ (mem_of_mem_strip h)).1 rfl
    have h2 : '!' ∉ strip l := fun h => (hL l List.mem_cons_self _ (mem_of_mem_strip h)).2 rfl
    have hs : step N empty (d, some k) l = (OD.set d k (v ++ (words l).map (value N empty)), some k) := by
      unfold step
      simp only [h1, h2, false_and, if_false, not_false_eq_true, and_self, if_true, hd, Option.getD_some, words_strip]
    obtain ⟨d', g1, g2, g3⟩ := ih (fun l hl => hL l (List.mem_cons_of_mem _ hl)) (OD.set d k (v ++ (words l).map (value N empty))) _
      (OD.get?_set_self _ _ _)
    refine ⟨d', by rw [List.foldl_cons, hs, g1], ?_, fun k' hk' => by rw [g3 k' hk', OD.get?_set_ne _ _ hk']⟩
    rw [g2]
    simp [List.append_assoc]

theorem label_lower (k : Key) : lower (upper (label k)) = label k := by
  cases k with
  | freq => decide
  | zrot => decide
  | trot => decide
  | z i j p => revert i j p; decide +kernel
  | t j p => revert j p; decide +kernel

theorem keyOf_label (k : Key) : keyOf (label k) = some k := by
  cases k with
  | freq => decide
  | zrot => decide
  | trot => decide
  | z i j p => revert i j p; decide +kernel
  | t j p => revert j p; decide +kernel

theorem upper_chars (k : Key) : upper (label k) ≠ [] ∧ ∀ c ∈ upper (label k), ws c = false ∧ c ≠ '!' ∧ c ≠ '\n' := by
  cases k with
  | freq => decide
  | zrot => decide
  | trot => decide
  | z i j p => revert i j p; decide +kernel
  | t j p => revert j p; decide +kernel

theorem tail_form (k : Key) (n : Nat) : ∃ r, tail k n = ' ' :: (r ++ showNat n) ∧ ∀ c ∈ r, c ≠ '!' ∧ c ≠ '\n' := by
  cases k with
  | freq => exact ⟨['/', '/', ' '], rfl, by decide⟩
  | zrot => exact ⟨['/', '/', ' '], rfl, by decide⟩
  | trot => exact ⟨['/', '/', ' '], rfl, by decide⟩
  | z i j p => exact ⟨['R', 'O', 'T', '=', 'Z', 'R', 'O', 'T', ' ', '/', '/', ' '], rfl, by decide⟩
  | t j p => exact ⟨['R', 'O', 'T', '=', 'T', 'R', 'O', 'T', ' ', '/', '/', ' '], rfl, by decide⟩

theorem digit_facts {c : Char} (h : c.isDigit = true) : ws c = false ∧ c ≠ '!' ∧ c ≠ '\n' := by
  have h' : 48 ≤ c.toNat ∧ c.toNat ≤ 57 := by
    simp only [Char.isDigit, Bool.and_eq_true, decide_eq_true_eq] at h
    exact ⟨UInt32.le_iff_toNat_le.1 h.1, UInt32.le_iff_toNat_le.1 h.2⟩
  refine ⟨?_, ?_, ?_⟩
  · simp only [ws, Bool.or_eq_false_iff, Bool.and_eq_false_iff, decide_eq_false_iff_not]
    omega
  · rintro rfl; exact absurd h (by decide)
  · rintro rfl; exact absurd h (by decide)

/-- The first line of a block. -/
def first (k : Key) (n : Nat) : Str := '>' :: (upper (label k) ++ tail k n)

theorem first_facts (k : Key) (n : Nat) : strip (first k n) = first k n ∧ '!' ∉ first k n ∧ '\n' ∉ first k n := by
  obtain ⟨r, hr, hc⟩ := tail_form k n
  refine ⟨?_, ?_, ?_⟩
  · apply strip_of_ends
    · intro c h
      simp only [first, List.head?_cons, Option.some.injEq] at h
      subst h; decide
    · intro c h
      obtain ⟨d, hd⟩ := List.getLast?_isSome.2 (showNat_ne_nil n) |> Option.isSome_iff_exists.1
      have h' : (first k n) = ('>' :: (upper (label k) ++ ' ' :: r)) ++ showNat n := by simp [first, hr]
      rw [h', List.getLast?_append, hd] at h
      simp only [Option.some_or, Option.some.injEq] at h
      subst h
      exact (digit_facts (digit_of_mem_showNat (List.mem_of_getLast? hd))).1
  · intro h
    simp only [first, hr, List.mem_cons, List.mem_append] at h
    rcases h with h | h | h | h | h
    · exact absurd h (by decide)
    · exact ((upper_chars k).2 _ h).2.1 rfl
    · exact absurd h (by decide)
    · exact (hc _ h).1 rfl
    · exact (digit_facts (digit_of_mem_showNat h)).2.1 rfl
  · intro h
    simp only [first, hr, List.mem_cons, List.mem_append] at h
    rcases h with h | h | h | h | h
    · exact absurd h (by decide)
    · exact ((upper_chars k).2 _ h).2.2 rfl
    · exact absurd h (by decide)
    · exact (hc _ h).2 rfl
    · exact (digit_facts (digit_of_mem_showNat h)).2.2 rfl

theorem step_first (k : Key) (n : Nat) (st : OD Key (List F) × Option Key) :
    step N empty st (first k n) = (OD.set st.1 k [], some k) := by
  obtain ⟨h1, h2, -⟩ := first_facts k n
  obtain ⟨r, hr, -⟩ := tail_form k n
  have hw : words (strip ((first k n).drop 1)) = upper (label k) :: words (r ++ showNat n) := by
    rw [words_strip]
    show words (upper (label k) ++ tail k n) = _
    rw [hr, words_append _ (fun c hc => ((upper_chars k).2 c hc).1) (upper_chars k).1 (by decide)]
  unfold step
  simp only [h1]
  rw [if_pos ⟨List.mem_cons_self, h2⟩, hw]
  simp only [label_lower, keyOf_label]

/-- A block ends its last line. -/
theorem block_read (hN : Faithful N rnd) (b : Key × List F) : ∃ Q, writeBlock N empty b = Q ++ ['\n'] ∧
    ∀ st, ∃ d', (splitC '\n' Q).foldl (step N empty) st = (d', some b.1) ∧
      OD.get? d' b.1 = some (b.2.map (back N rnd empty (isRot b.1))) ∧ ∀ k', k' ≠ b.1 → OD.get? d' k' = OD.get? st.1 k' := by
  obtain ⟨k, xs⟩ := b
  have h3 := (first_facts k xs.length).2.2
  cases xs with
  | nil =>
    refine ⟨first k 0, by simp [writeBlock, first, body], fun st => ⟨OD.set st.1 k [], ?_, ?_, ?_⟩⟩
    · have h3 : '\n' ∉ first k 0 := h3
      rw [splitC_none h3]
      exact step_first k 0 st
    · exact OD.get?_set_self _ _ _
    · exact fun k' hk' => OD.get?_set_ne _ _ hk'
  | cons x xs =>
    obtain ⟨s, hs⟩ := body_end (N := N) (empty := empty) (rot := isRot k) 0 x xs
    refine ⟨first k (x :: xs).length ++ '\n' :: s, by simp [writeBlock, first, hs], fun st => ?_⟩
    rw [splitC_append s h3, List.foldl_cons, step_first]
    obtain ⟨d', g1, g2, g3⟩ := fold_data (N := N) (empty := empty) (splitC '\n' s) (fun l hl c hc => by
      have hm : c ∈ s := mem_of_mem_splitC hl hc
      exact body_chars (empty := empty) (rot := isRot k) hN 0 (x :: xs) c (by rw [hs]; exact List.mem_append_left _ hm))
      (OD.set st.1 k []) k [] (OD.get?_set_self _ _ _)
    refine ⟨d', g1, ?_, fun k' hk' => by rw [g3 k' hk', OD.get?_set_ne _ _ hk']⟩
    rw [g2, lines_words, ← words_append_ws s (x := '\n') (by decide), ← hs, List.nil_append, body_words hN]

/-- Headings are skipped. -/
theorem heading_read (s : Str) (hs : '\n' ∉ s) : ∃ Q, heading s = Q ++ ['\n'] ∧
    ∀ st, (splitC '\n' Q).foldl (step N empty) st = st := by
  refine ⟨['>', '!', '*', '*', '*', '*'] ++ (s ++ ['*', '*', '*', '*', '!']), by simp [heading], fun st => ?_⟩
  have hn : '\n' ∉ ['>', '!', '*', '*', '*', '*'] ++ (s ++ ['*', '*', '*', '*', '!']) := by
    simp only [List.mem_append, not_or]
    exact ⟨by decide, hs, by decide⟩
  rw [splitC_none hn]
  have h : strip (['>', '!', '*', '*', '*', '*'] ++ (s ++ ['*', '*', '*', '*', '!'])) =
      ['>', '!', '*', '*', '*', '*'] ++ (s ++ ['*', '*', '*', '*', '!']) := by
    apply strip_of_ends
    · intro c h
      simp only [List.cons_append, List.head?_cons, Option.some.injEq] at h
      subst h; decide
    · intro c h
      rw [← List.append_assoc, List.getLast?_append] at h
      simp at h
      subst h; decide
  have hm : '!' ∈ ['>', '!', '*', '*', '*', '*'] ++ (s ++ ['*', '*', '*', '*', '!']) := by simp
  show step N empty st _ = st
  unfold step
  simp only [h]
  rw [if_neg (fun h => h.2 hm)]
  split
  · rw [if_neg (fun h => h.2 hm)]
  · rfl

/-- The keys of a list of parts. -/
def partKeys (ps : List (Part F)) : List Key := ps.filterMap fun | .head _ => none | .block b => some b.1

/-- The whole data part. -/
theorem parts_read (hN : Faithful N rnd) (ps : List (Part F)) (hh : ∀ s, Part.head s ∈ ps → '\n' ∉ s)
    (hk : (partKeys ps).Nodup) (rest : Str) (st : OD Key (List F) × Option Key) : ∃ st',
      (splitC '\n' (ps.flatMap (writePart N empty) ++ rest)).foldl (step N empty) st =
        (splitC '\n' rest).foldl (step N empty) st' ∧
      (∀ b, Part.block b ∈ ps → OD.get? st'.1 b.1 = some (b.2.map (back N rnd empty (isRot b.1)))) ∧
      ∀ k, k ∉ partKeys ps → OD.get? st'.1 k = OD.get? st.1 k := by
  induction ps generalizing st with
  | nil => exact ⟨st, rfl, by simp, fun _ _ => rfl⟩
  | cons p ps ih =>
    cases p with
    | head s =>
      obtain ⟨Q, h1, h2⟩ := heading_read (N := N) (empty := empty) s (hh s List.mem_cons_self)
      obtain ⟨st', g1, g2, g3⟩ := ih (fun s hs => hh s (List.mem_cons_of_mem _ hs)) hk st
      refine ⟨st', ?_, ?_, g3⟩
      · rw [List.flatMap_cons]
        show (splitC '\n' ((heading s ++ _) ++ rest)).foldl _ _ = _
        rw [h1, List.append_assoc, List.append_assoc, List.singleton_append, splitC_mid, List.foldl_append, h2, g1]
      · intro b hb
        rcases List.mem_cons.1 hb with hb | hb
        · cases hb
        · exact g2 b hb
    | block b =>
      have hk' : b.1 ∉ partKeys ps ∧ (partKeys ps).Nodup := List.nodup_cons.1 hk
      obtain ⟨Q, h1, h2⟩ := block_read (empty := empty) hN b
      obtain ⟨d, e1, e2, e3⟩ := h2 st
      obtain ⟨st', g1, g2, g3⟩ := ih (fun s hs => hh s (List.mem_cons_of_mem _ hs)) hk'.2 (d, some b.1)
      refine ⟨st', ?_, ?_, ?_⟩
      · rw [List.flatMap_cons]
        show (splitC '\n' ((writeBlock N empty b ++ _) ++ rest)).foldl _ _ = _
        rw [h1, List.append_assoc, List.append_assoc, List.singleton_append, splitC_mid, List.foldl_append, e1, g1]
      · intro b' hb
        rcases List.mem_cons.1 hb with hb | hb
        · cases hb
          rw [g3 _ hk'.1, e2]
        · exact g2 b' hb
      · intro k hk2
        have hk2 : k ∉ b.1 :: partKeys ps := hk2
        rw [g3 k (fun h => hk2 (List.mem_cons_of_mem _ h)), e3 k (fun h => hk2 (h ▸ List.mem_cons_self))]

/-! ## The arrays -/

theorem parts_heads (a : Arrays F) : ∀ s, Part.head s ∈ parts N a → '\n' ∉ s := by
  intro s hs
  have : s ∈ ["FREQUENCIES".toList, "IMPEDANCE ROTATION ANGLES".toList, "IMPEDANCES".toList,
      "TIPPER ROTATION ANGLES".toList, "TIPPER".toList] := by
    unfold parts at hs
    split at hs <;> simp [zParts, tParts] at hs <;> simp <;> tauto
  clear hs
  revert s
  decide +kernel

theorem parts_keys (a : Arrays F) : partKeys (parts N a) = if noTipper N a then keys.filter (fun k => match k with | .t _ _ => false | .trot => false | _ => true)
    else [.freq, .zrot] ++ (keys.filter (fun k => match k with | .z _ _ _ => true | _ => false) ++ (.trot :: keys.filter (fun k => match k with | .t _ _ => true | _ => false))) := by
  unfold parts
  split <;> rfl

theorem parts_nodup (a : Arrays F) : (partKeys (parts N a)).Nodup := by
  rw [parts_keys]
  split <;> decide +kernel

/-- The dictionary that is read. -/
theorem dict_read (hN : Faithful N rnd) (a : Arrays F) :
    (∀ b, Part.block b ∈ parts N a → OD.get? (readDict N empty (write N empty a)) b.1 = some (b.2.map (back N rnd empty (isRot b.1)))) ∧
    ∀ k, k ∉ partKeys (parts N a) → OD.get? (readDict N empty (write N empty a)) k = none := by
  obtain ⟨st', h1, h2, h3⟩ := parts_read (empty := empty) hN (parts N a) (parts_heads a) (parts_nodup a) ['>', 'E', 'N', 'D'] ([], none)
  have he : ((splitC '\n' ['>', 'E', 'N', 'D']).foldl (step N empty) st').1 = st'.1 := by
    have e1 : splitC '\n' ['>', 'E', 'N', 'D'] = [['>', 'E', 'N', 'D']] := by decide
    have e2 : strip ['>', 'E', 'N', 'D'] = ['>', 'E', 'N', 'D'] := by decide
    have e3 : words (strip (List.drop 1 ['>', 'E', 'N', 'D'])) = [['E', 'N', 'D']] := by decide
    have e4 : keyOf (lower ['E', 'N', 'D']) = none := by decide +kernel
    rw [e1]
    rw [List.foldl_cons, List.foldl_nil]
    unfold step
    simp only [e2]
    rw [if_pos (by decide), e3]
    simp only [e4]
  have hr : readDict N empty (write N empty a) = st'.1 := by
    unfold readDict write writeParts
    rw [h1, he]
  rw [hr]
  exact ⟨h2, fun k hk => by rw [h3 k hk]; rfl⟩

/-- All arrays have `n` frequencies. -/
def Square (a : Arrays F) (n : Nat) : Prop :=
  a.freq.length = n ∧ a.rot.length = n ∧ (∀ i j p, (a.z i j p).length = n) ∧ ∀ j p, (a.t j p).length = n

/-- What is expected of reading the file written: numbers rounded, zeros kept, nothing for a tipper that
was not written. -/
def expected (N : Numbers F) (rnd : F → F) (empty : F) (a : Arrays F) : Arrays F :=
  { freq := a.freq.map (back N rnd empty false)
    rot := a.rot.map (back N rnd empty true)
    z := fun i j p => (a.z i j p).map (back N rnd empty false)
    t := fun j p => if noTipper N a then List.replicate a.freq.length N.zero else (a.t j p).map (back N rnd empty false) }

theorem mem_z (a : Arrays F) (i j : Fin 2) (p : Fin 3) : Part.block (.z i j p, a.z i j p) ∈ parts N a := by
  unfold parts
  refine List.mem_append_right _ (List.mem_append_left _ ?_)
  have key : ∀ i j : Fin 2, ∀ p : Fin 3, ∃ q ∈ [((0 : Fin 2), (0 : Fin 2)), (0, 1), (1, 0), (1, 1)], q = (i, j) ∧ p ∈ [(0 : Fin 3), 1, 2] := by decide
  obtain ⟨q, hq, rfl, hp⟩ := key i j p
  exact List.mem_flatMap.2 ⟨_, hq, List.mem_map.2 ⟨p, hp, rfl⟩⟩

theorem mem_t (a : Arrays F) (h : noTipper N a = false) (j : Fin 2) (p : Fin 3) : Part.block (.t j p, a.t j p) ∈ parts N a := by
  unfold parts
  rw [if_neg (by simp [h])]
  refine List.mem_append_right _ (List.mem_append_right _ (List.mem_append_right _ ?_))
  have key : ∀ j : Fin 2, ∀ p : Fin 3, j ∈ [(0 : Fin 2), 1] ∧ p ∈ [(0 : Fin 3), 1, 2] := by decide
  obtain ⟨hj, hp⟩ := key j p
  exact List.mem_flatMap.2 ⟨j, hj, List.mem_map.2 ⟨p, hp, rfl⟩⟩

theorem element_some {d : OD Key (List F)} {n : Nat} {k : Fin 3 → Key} {v : Fin 3 → List F}
    (h : ∀ p, OD.get? d (k p) = some (v p)) (hl : ∀ p, (v p).length = n) : element N d n k = .ok v := by
  have hc : ∀ p, column d n (k p) = .ok (some (v p)) := by
    intro p
    unfold column
    rw [h p]
    simp [hl p]
  unfold element pair varOf
  simp only [hc, h, Option.isSome_some, and_self, if_true]
  congr 1
  funext p
  revert p
  intro p
  match p with
  | 0 => rfl
  | 1 => rfl
  | 2 => rfl

theorem element_none {d : OD Key (List F)} {n : Nat} {k : Fin 3 → Key}
    (h : ∀ p, OD.get? d (k p) = none) : element N d n k = .ok (fun _ => List.replicate n N.zero) := by
  unfold element pair varOf column
  simp only [h, Option.isSome_none, Bool.false_eq_true, false_and, if_false]
  congr 1
  funext p
  match p with
  | 0 => rfl
  | 1 => rfl
  | 2 => rfl

/-- Reading before the frequencies are ordered. -/
theorem fill_read (hN : Faithful N rnd) (a : Arrays F) (n : Nat) (ha : Square a n) :
    fill N (readDict N empty (write N empty a)) = .ok { expected N rnd empty a with rot := [] } := by
  obtain ⟨h1, h2⟩ := dict_read (empty := empty) hN a
  obtain ⟨l1, -, l3, l4⟩ := ha
  have hf : OD.get? (readDict N empty (write N empty a)) .freq = some (a.freq.map (back N rnd empty false)) :=
    h1 (.freq, a.freq) (List.mem_append_left _ (List.mem_cons_of_mem _ List.mem_cons_self))
  have hz : ∀ i j, element N (readDict N empty (write N empty a)) n (.z i j) = .ok ((expected N rnd empty a).z i j) := by
    intro i j
    exact element_some (fun p => h1 (.z i j p, a.z i j p) (mem_z a i j p))
      (fun p => (List.length_map ..).trans (l3 i j p))
  have ht : ∀ j, element N (readDict N empty (write N empty a)) n (.t j) = .ok ((expected N rnd empty a).t j) := by
    intro j
    by_cases hno : noTipper N a = true
    · have e : (expected N rnd empty a).t j = fun _ => List.replicate n N.zero := by
        funext p
        simp [expected, hno, l1]
      rw [e]
      refine element_none (fun p => h2 _ ?_)
      rw [parts_keys, if_pos hno]
      clear e
      revert j p
      decide +kernel
    · have hno : noTipper N a = false := by simpa using hno
      have e : (expected N rnd empty a).t j = fun p => (a.t j p).map (back N rnd empty false) := by
        funext p
        simp [expected, hno]
      rw [e]
      exact element_some (fun p => h1 (.t j p, a.t j p) (mem_t a hno j p)) (fun p => (List.length_map ..).trans (l4 j p))
  unfold fill
  rw [hf]
  simp only [List.length_map, l1, hz, ht]
  congr 1
  have e1 : ∀ i : Fin 2, i = 0 ∨ i = 1 := by decide
  have n1 : ¬ (1 : Fin 2) = 0 := by decide
  congr 1
  · funext i j
    rcases e1 i with rfl | rfl <;> rcases e1 j with rfl | rfl <;> simp
  · funext j
    rcases e1 j with rfl | rfl <;> simp

theorem rot_read (hN : Faithful N rnd) (a : Arrays F) :
    OD.get? (readDict N empty (write N empty a)) .zrot = some (a.rot.map (back N rnd empty true)) :=
  (dict_read (empty := empty) hN a).1 (.zrot, a.rot)
    (List.mem_append_left _ (List.mem_cons_of_mem _ (List.mem_cons_of_mem _ (List.mem_cons_of_mem _ List.mem_cons_self))))

/-- The arrays turned around, all but the angles. -/
def reversed (a : Arrays F) : Arrays F :=
  { freq := a.freq.reverse, rot := a.rot, z := fun i j p => (a.z i j p).reverse, t := fun j p => (a.t j p).reverse }

/-- The first two frequencies ascend. -/
def Ascends (N : Numbers F) (l : List F) : Prop := ∃ f g r, l = f :: g :: r ∧ N.lt f g = true

/-- C134: what is written is read: numbers as printed, zeros as zeros, every element, its variances and
the angles in their place. -/
theorem C134_read_partial (hN : Faithful N rnd) (a : Arrays F) (n : Nat) (ha : Square a n) (hn : 2 ≤ n) :
    (¬ Ascends N (expected N rnd empty a).freq → readMt N empty (write N empty a) = .ok (expected N rnd empty a)) ∧
    (Ascends N (expected N rnd empty a).freq → readMt N empty (write N empty a) = .ok (reversed (expected N rnd empty a))) := by
  have hlen : (expected N rnd empty a).freq.length = n := by simp [expected, ha.1]
  obtain ⟨f, g, r, hf⟩ : ∃ f g r, (expected N rnd empty a).freq = f :: g :: r := by
    match h : (expected N rnd empty a).freq, hlen with
    | f :: g :: r, _ => exact ⟨f, g, r, rfl⟩
    | [_], hl => simp at hl; omega
    | [], hl => simp at hl; omega
  constructor
  · intro h
    have hlt : N.lt f g = false := by
      by_contra hc
      exact h ⟨f, g, r, hf, by simpa using hc⟩
    unfold readMt
    simp only [fill_read hN a n ha, rot_read hN a]
    unfold descending
    simp only [hf, hlt]
    simp only [Bool.false_eq_true, if_false, Option.getD_some]
    simp only [← hf]
    rfl
  · rintro ⟨f', g', r', hf', hlt⟩
    unfold readMt
    simp only [fill_read hN a n ha, rot_read hN a]
    unfold descending
    simp only [hf', hlt]
    simp only [if_true, Option.getD_some]
    simp only [← hf']
    rfl

/-- Numbers the format keeps and that are not the empty value. -/
def Exact (rnd : F → F) (empty : F) (a : Arrays F) : Prop :=
  ∀ x, (x ∈ a.freq ∨ x ∈ a.rot ∨ (∃ i j p, x ∈ a.z i j p) ∨ ∃ j p, x ∈ a.t j p) → rnd x = x ∧ x ≠ empty

theorem expected_exact (he : rnd empty = empty) (a : Arrays F) (n : Nat) (ha : Square a n) (hx : Exact rnd empty a)
    (ht : noTipper N a = true → ∀ j, a.t j 2 = List.replicate n N.zero) : expected N rnd empty a = a := by
  have hb : ∀ rot, ∀ x, rnd x = x → x ≠ empty → back N rnd empty rot x = x := by
    intro rot x h1 h2
    unfold back
    by_cases h : x = N.zero ∧ rot = false
    · simp [h, he]
    · simp [h, h1, h2]
  have hm : ∀ rot (l : List F), (∀ x ∈ l, rnd x = x ∧ x ≠ empty) → l.map (back N rnd empty rot) = l := by
    intro rot l hl
    conv_rhs => rw [← List.map_id l]
    exact List.map_congr_left (fun x hxl => hb rot x (hl x hxl).1 (hl x hxl).2)
  unfold expected
  obtain ⟨freq, rot, z, t⟩ := a
  congr 1
  · exact hm _ _ (fun x h => hx x (.inl h))
  · exact hm _ _ (fun x h => hx x (.inr (.inl h)))
  · funext i j p
    exact hm _ _ (fun x h => hx x (.inr (.inr (.inl ⟨i, j, p, h⟩))))
  · funext j p
    split
    · rename_i hno
      have hno' := hno
      unfold noTipper at hno
      simp only [List.all_append, Bool.and_eq_true, List.all_eq_true, decide_eq_true_eq] at hno
      have l1 : freq.length = n := ha.1
      show List.replicate freq.length N.zero = t j p
      rw [l1]
      have hr : ∀ l : List F, l.length = n → (∀ x ∈ l, x = N.zero) → List.replicate n N.zero = l :=
        fun l h1 h2 => (List.eq_replicate_iff.2 ⟨h1, h2⟩).symm
      have e2 : ∀ p : Fin 3, p = 0 ∨ p = 1 ∨ p = 2 := by decide
      have e1 : ∀ i : Fin 2, i = 0 ∨ i = 1 := by decide
      rcases e2 p with rfl | rfl | rfl
      · rcases e1 j with rfl | rfl
        · exact hr _ (ha.2.2.2 0 0) hno.1.1
        · exact hr _ (ha.2.2.2 1 0) hno.2.1
      · rcases e1 j with rfl | rfl
        · exact hr _ (ha.2.2.2 0 1) hno.1.2
        · exact hr _ (ha.2.2.2 1 1) hno.2.2
      · exact (ht hno' j).symm
    · exact hm _ _ (fun x h => hx x (.inr (.inr (.inr ⟨j, p, h⟩))))

/-- C134, numbers that are printed exactly: the arrays come back, turned around (the angles not) if the
frequencies ascend. -/
theorem C134_partial (hN : Faithful N rnd) (he : rnd empty = empty) (a : Arrays F) (n : Nat) (ha : Square a n)
    (hn : 2 ≤ n) (hx : Exact rnd empty a) (ht : noTipper N a = true → ∀ j, a.t j 2 = List.replicate n N.zero) :
    (¬ Ascends N a.freq → readMt N empty (write N empty a) = .ok a) ∧
    (Ascends N a.freq → readMt N empty (write N empty a) = .ok (reversed a)) := by
  have h := C134_read_partial (empty := empty) hN a n ha hn
  rw [expected_exact he a n ha hx ht] at h
  exact h

/-- The claim: the arrays come back as they were or all turned around. -/
def C134_claim : Prop := ∀ (F : Type) [DecidableEq F] (N : Numbers F) (rnd : F → F) (empty : F) (a : Arrays F) (n : Nat),
  Faithful N rnd → rnd empty = empty → Square a n → 0 < n → Exact rnd empty a →
  (noTipper N a = true → ∀ j, a.t j 2 = List.replicate n N.zero) →
  readMt N empty (write N empty a) = .ok a ∨
    readMt N empty (write N empty a) = .ok { reversed a with rot := a.rot.reverse }

/-- Natural numbers, printed after a blank. -/
def natNumbers : Numbers Nat :=
  { fmt := fun n => ' ' :: showNat n, parse := fun s => if s = [] then none else if s.all Char.isDigit then some (digitsVal s) else none,
    zero := 0, lt := fun a b => decide (a < b) }

theorem natNumbers_faithful : Faithful natNumbers id := by
  intro x
  refine ⟨[' '], showNat x, rfl, by simp, by simp, showNat_ne_nil x, ?_, ?_⟩
  · intro c hc
    have h := digit_of_mem_showNat hc
    refine ⟨(digit_facts h).1, ?_, (digit_facts h).2.1⟩
    rintro rfl
    exact absurd h (by decide)
  · simp only [natNumbers]
    rw [if_neg (showNat_ne_nil x), if_pos (List.all_eq_true.2 fun c hc => digit_of_mem_showNat hc), digitsVal_showNat]
    rfl

/-- Two ascending frequencies with two angles. -/
def ascendingCase : Arrays Nat :=
  { freq := [1, 2], rot := [30, 40], z := fun i j p => [i.val + 1, j.val + p.val], t := fun _ _ => [0, 5] }

/-- C134 fails: with ascending frequencies the angles go to the other frequencies. -/
theorem C134_refuted : ¬ C134_claim := by
  intro h
  have hs : Square ascendingCase 2 := ⟨rfl, rfl, fun _ _ _ => rfl, fun _ _ => rfl⟩
  have hx : Exact id 1000 ascendingCase := by
    intro x hx
    refine ⟨rfl, ?_⟩
    have : x ≤ 40 := by
      rcases hx with hx | hx | ⟨i, j, p, hx⟩ | ⟨j, p, hx⟩
      · simp [ascendingCase] at hx; omega
      · simp [ascendingCase] at hx; omega
      · simp [ascendingCase] at hx; omega
      · simp [ascendingCase] at hx; omega
    omega
  have hno : noTipper natNumbers ascendingCase = true → ∀ j, ascendingCase.t j 2 = List.replicate 2 natNumbers.zero := by
    intro h; exact absurd h (by decide)
  have hr := (C134_partial natNumbers_faithful (empty := 1000) rfl ascendingCase 2 hs (by omega) hx hno).2 ⟨1, 2, [], rfl, rfl⟩
  rcases h Nat natNumbers id 1000 ascendingCase 2 natNumbers_faithful rfl hs (by omega) hx hno with h | h
  · rw [hr] at h
    have := congrArg Arrays.freq (Except.ok.inj h)
    exact absurd this (by decide)
  · rw [hr] at h
    have := congrArg Arrays.rot (Except.ok.inj h)
    exact absurd this (by decide)

/-- C134 fails: a file of one frequency is written and not read. -/
theorem C134_single_refuted (hN : Faithful N rnd) (a : Arrays F) (ha : Square a 1) :
    readMt N empty (write N empty a) = .error .indexError := by
  have hlen : (expected N rnd empty a).freq.length = 1 := by simp [expected, ha.1]
  obtain ⟨f, hf⟩ := List.length_eq_one_iff.1 hlen
  unfold readMt
  simp only [fill_read hN a 1 ha]
  unfold descending
  simp only [hf]

example : Square ({ ascendingCase with freq := [2, 1] }) 2 ∧ ¬ Ascends natNumbers [2, 1] := by
  refine ⟨⟨rfl, rfl, fun _ _ _ => rfl, fun _ _ => rfl⟩, ?_⟩
  rintro ⟨f, g, r, h, hl⟩
  cases h
  exact absurd hl (by decide)

example : readMt natNumbers 1000 (write natNumbers 1000 { ascendingCase with freq := [2, 1] }) =
    .ok { ascendingCase with freq := [2, 1] } := by
  refine (C134_partial natNumbers_faithful rfl _ 2 ⟨rfl, rfl, fun _ _ _ => rfl, fun _ _ => rfl⟩ (by omega) ?_ ?_).1 ?_
  · intro x hx
    refine ⟨rfl, ?_⟩
    have : x ≤ 40 := by
      rcases hx with hx | hx | ⟨i, j, p, hx⟩ | ⟨j, p, hx⟩ <;> simp [ascendingCase] at hx <;> omega
    omega
  · intro h; exact absurd h (by decide)
  · rintro ⟨f, g, r, h, hl⟩
    cases h
    exact absurd hl (by decide)

end Verif.EdiData
