import Verif.Model.JFile
import Verif.Lemmas.Words
import Verif.Lemmas.Sorted
import Verif.Lemmas.OD
import Verif.Lemmas.Ints
import Mathlib.Tactic.SplitIfs
import Mathlib.Tactic.Tauto
import Mathlib.Data.List.Induction

namespace Verif.JFile
open Verif.Text

variable {F : Type}

/-! ## Numbers -/

/-- Printed floats are read as what they are, zero is printed as `0.0`. -/
structure Laws (N : Nums F) : Prop where
  read : ∀ x, N.isMask x = false → N.parse (N.show' x) = some x
  zero : N.show' N.zero = "0.0".toList
  zeroMask : N.isMask N.zero = false
  noHash : ∀ x, '#' ∉ N.show' x

/-- The number a word stands for: zero if it is none or masked. -/
def num (N : Nums F) (s : Str) : F :=
  match N.parse s with
  | some x => if N.isMask x then N.zero else x
  | none => N.zero

theorem num_mask {N : Nums F} (L : Laws N) (s : Str) : N.isMask (num N s) = false := by
  unfold num
  split
  · split_ifs with h
    · exact L.zeroMask
    · simpa using h
  · exact L.zeroMask

theorem clean_eq {N : Nums F} (L : Laws N) (s : Str) : clean N s = N.show' (num N s) := by
  unfold clean num
  cases N.parse s with
  | none => exact L.zero.symm
  | some x =>
    show (if N.isMask x then "0.0".toList else N.show' x) = N.show' (if N.isMask x then N.zero else x)
    split_ifs
    · exact L.zero.symm
    · rfl

theorem parse_clean {N : Nums F} (L : Laws N) (s : Str) : N.parse (clean N s) = some (num N s) := by
  rw [clean_eq L, L.read _ (num_mask L s)]

theorem clean_inj {N : Nums F} (L : Laws N) {s : Str} {x : F} (hx : N.isMask x = false) :
    clean N s = N.show' x ↔ num N s = x := by
  constructor
  · intro h
    have := parse_clean L s
    rw [h, L.read _ hx] at this
    exact (Option.some.inj this).symm
  · rintro rfl
    exact clean_eq L s

/-! ## Dictionaries filled in a loop -/

theorem get?_fill {κ ν α : Type} [DecidableEq κ] (k : α → κ) (v : α → ν) (l : List α) (key : κ) :
    OD.get? (l.foldl (fun d x => OD.set d (k x) (v x)) []) key = (l.reverse.find? (fun x => decide (k x = key))).map v := by
  induction l using List.reverseRecOn with
  | nil => rfl
  | append_singleton l a ih =>
    rw [List.foldl_append, List.reverse_append]
    simp only [List.foldl_cons, List.foldl_nil, List.reverse_cons, List.reverse_nil, List.nil_append, List.singleton_append,
      List.find?_cons]
    by_cases h : k a = key
    · subst h; simp [OD.get?_set_self]
    · rw [OD.get?_set_ne _ _ (Ne.symm h), ih]; simp [h]

theorem mem_keys_fill {κ ν α : Type} [DecidableEq κ] (k : α → κ) (v : α → ν) (l : List α) (key : κ) :
    key ∈ OD.keys (l.foldl (fun d x => OD.set d (k x) (v x)) ([] : OD κ ν)) ↔ ∃ x ∈ l, k x = key := by
  induction l using List.reverseRecOn with
  | nil => simp [OD.keys]
  | append_singleton l a ih =>
    rw [List.foldl_append]
    simp only [List.foldl_cons, List.foldl_nil, OD.mem_keys_set, ih, List.mem_append, List.mem_singleton]
    constructor
    · rintro (h | ⟨x, hx, h⟩)
      · exact ⟨a, Or.inr rfl, h.symm⟩
      · exact ⟨x, Or.inl hx, h⟩
    · rintro ⟨x, hx | rfl, h⟩
      · exact Or.inr ⟨x, hx, h⟩
      · exact Or.inl h.symm

/-! ## The form of a file -/

/-- A line with none of the letters that have a meaning to the reader. -/
def Plain (l : Str) : Prop := ∀ c ∈ l, c ∉ "lLzZtTrR#>".toList

/-- No comment or information line and no word that could be taken for a position. -/
def NoMark (l : Str) : Prop := ∀ c ∈ l, c ∉ "lL#>".toList

/-- A component with a line that begins with its name, a line with the number of rows, and the rows. -/
structure Blk where
  comp : Comp
  head : Str
  count : Str
  rows : List Str

structure Blk.Ok (b : Blk) : Prop where
  name : ∃ w r, words b.head = w :: r ∧ lower w = b.comp.name
  head : NoMark b.head
  count1 : (words b.count).length = 1
  count : Plain b.count
  four : ∀ l ∈ b.rows, 4 ≤ (words l).length
  rows : ∀ l ∈ b.rows, Plain l

def Blk.lines (b : Blk) : List Str := b.head :: b.count :: b.rows

/-- Header, station, components, and what follows them (resistivities). -/
structure File where
  head : List Str
  station : Str
  blocks : List Blk
  tail : List Str

def File.lines (f : File) : List Str := f.head ++ f.station :: (f.blocks.flatMap Blk.lines ++ f.tail)

/-- The part of a line in front of the first equals sign contains `v`, in small or large letters. -/
def Named (v : Str) (l : Str) : Prop := '=' ∈ l ∧ hasSub v (lower (l.takeWhile (· ≠ '='))) = true

def vars : List Str := ["lat".toList, "lon".toList, "elev".toList]

structure File.Ok (f : File) : Prop where
  /-- header lines begin with `#` or `>` -/
  marks : ∀ l ∈ f.head, l.head? = some '#' ∨ l.head? = some '>'
  /-- latitude, longitude and elevation are there -/
  given : ∀ v ∈ vars, ∃ l ∈ f.head, Named v l
  /-- lines in which these words occur have an equals sign -/
  equals : ∀ l ∈ f.head, ∀ v ∈ vars, hasSub v (lower l) = true → '=' ∈ l
  station : '#' ∉ f.station ∧ '>' ∉ f.station
  blocks : ∀ b ∈ f.blocks, b.Ok
  tailMark : ∀ l ∈ f.tail, '#' ∉ l ∧ '>' ∉ l
  tail : ∀ l, f.tail.head? = some l → hasSub ['r'] (lower l) = true ∧ ¬ (words l).head?.any starts

/-- All rows of a component, in the order of the file. -/
def File.rows (f : File) (c : Comp) : List Str := (f.blocks.filter (fun b => b.comp = c)).flatMap Blk.rows

/-- The `i`-th number of a row. -/
def col (N : Nums F) (l : Str) (i : Nat) : F := num N ((words l).getD i [])

/-- Value and error of a row: an infinite value counts as zero, an infinite error as a million. -/
def rowValue (N : Nums F) (l : Str) : F × F :=
  if N.isInf (col N l 1) ∧ N.isZero (col N l 2) then (N.zero, N.zero) else (col N l 1, col N l 2)

def rowError (N : Nums F) (l : Str) : F := if N.isInf (col N l 3) then N.big else col N l 3

/-- The last row of a component with a period. -/
def File.rowAt [DecidableEq F] (N : Nums F) (f : File) (c : Comp) (p : F) : Option Str :=
  (f.rows c).reverse.find? (fun l => col N l 0 = p)

/-! ## Reading lines -/

theorem toLower_eq {c d u : Char} (h : c.toLower = d) (hd : u.toNat + 32 = d.toNat) : c = d ∨ c = u := by
  rcases toLower_cases c with ⟨h', _⟩ | ⟨_, _, h3⟩
  · exact Or.inl (h'.symm.trans h)
  · refine Or.inr (Char.ext (UInt32.toNat_inj.1 ?_))
    have : c.toNat = u.toNat := by rw [h] at h3; omega
    exact this

theorem plain_not_r {l : Str} (h : Plain l) : hasSub ['r'] (lower l) = false := by
  rw [Bool.eq_false_iff]
  intro hs
  have hm : 'r' ∈ lower l := (hasSub_iff.1 hs).subset (by simp)
  obtain ⟨c, hc, e⟩ := List.mem_map.1 hm
  have hn := h c hc
  rcases toLower_eq (u := 'R') e (by decide) with rfl | rfl <;> exact hn (by decide)

theorem mem_of_words {l w : Str} (h : w ∈ words l) {c : Char} (hc : c ∈ w) : c ∈ l := (words_infix l w h).subset hc

theorem plain_not_starts {l : Str} (h : Plain l) : (words l).head?.any starts = false := by
  cases hw : words l with
  | nil => rfl
  | cons w ws =>
    show starts w = false
    cases w with
    | nil => rfl
    | cons c w =>
      have hn := h c (mem_of_words (w := c :: w) (by rw [hw]; simp) (by simp))
      show decide (c.toLower = 'z' ∨ c.toLower = 't') = false
      rw [decide_eq_false_iff_not]
      rintro (e | e)
      · rcases toLower_eq (u := 'Z') e (by decide) with rfl | rfl <;> exact hn (by decide)
      · rcases toLower_eq (u := 'T') e (by decide) with rfl | rfl <;> exact hn (by decide)

theorem compOf_name (c : Comp) : compOf c.name = some c := by cases c <;> decide

theorem starts_of_name {w : Str} {c : Comp} (h : lower w = c.name) : starts w = true := by
  cases w with
  | nil => cases c <;> exact absurd h (by decide)
  | cons x w =>
    have h1 : x.toLower = c.name.headD ' ' := by rw [← h]; rfl
    show decide (x.toLower = 'z' ∨ x.toLower = 't') = true
    rw [h1]
    cases c <;> decide

/-- The dictionary of a component after some rows. -/
def addRows (N : Nums F) (d : OD Str (List Str)) (rows : List Str) : OD Str (List Str) :=
  rows.foldl (fun d l => OD.set d (clean N ((words l).getD 0 [])) ((((words l).map (clean N)).drop 1).take 3)) d

theorem store_row (N : Nums F) {st : Data} {c : Comp} (hk : st.key = some c.name) {l : Str} (h : 4 ≤ (words l).length) :
    store st ((words l).map (clean N)) =
      .ok { st with d := fun c' => if c' = c then addRows N (st.d c) [l] else st.d c' } := by
  unfold store
  rw [hk]
  show (match compOf c.name with
    | none => _
    | some c => _) = _
  rw [compOf_name]
  cases hw : words l with
  | nil => rw [hw] at h; simp at h
  | cons w ws => simp [item, addRows, hw, bind, Except.bind]

theorem loop_rows (N : Nums F) (c : Comp) (rest : List Str) : ∀ (rows : List Str) (st : Data), st.key = some c.name →
    (∀ l ∈ rows, 4 ≤ (words l).length) → (∀ l ∈ rows, Plain l) →
    loop N (rows ++ rest) st = loop N rest { st with d := fun c' => if c' = c then addRows N (st.d c) rows else st.d c' } := by
  intro rows
  induction rows with
  | nil =>
    intro st _ _ _
    congr 1
    cases st with
    | mk k d =>
      simp only [Data.mk.injEq, true_and]
      funext c'
      split_ifs with h
      · subst h; rfl
      · rfl
  | cons l rows ih =>
    intro st hk h4 hp
    rw [List.cons_append, loop]
    have hl4 := h4 l (by simp)
    rw [plain_not_starts (hp l (by simp)), plain_not_r (hp l (by simp))]
    rw [if_neg (by simp), if_neg (by simp; omega), if_neg (by simp), store_row N hk hl4]
    show loop N (rows ++ rest) _ = _
    rw [ih { st with d := fun c' => if c' = c then addRows N (st.d c) [l] else st.d c' } hk (fun x hx => h4 x (by simp [hx])) (fun x hx => hp x (by simp [hx]))]
    congr 2
    funext c'
    show (if c' = c then addRows N (if c = c then addRows N (st.d c) [l] else _) rows else if c' = c then _ else _) = _
    by_cases h : c' = c
    · subst h; simp [addRows]
    · simp [h]

theorem loop_block (N : Nums F) {b : Blk} (hb : b.Ok) (rest : List Str) (st : Data) :
    loop N (b.lines ++ rest) st =
      loop N rest { key := some b.comp.name, d := fun c' => if c' = b.comp then addRows N (st.d b.comp) b.rows else st.d c' } := by
  obtain ⟨w, r, hw, hn⟩ := hb.name
  show loop N (b.head :: (b.count :: (b.rows ++ rest))) st = _
  rw [loop, if_pos (by rw [hw]; exact starts_of_name hn), loop, if_neg (by rw [plain_not_starts hb.count]; simp),
    if_pos ⟨hb.count1, by rw [plain_not_r hb.count]; simp⟩, loop_rows N b.comp rest b.rows _ (by rw [hw]; simp [hn]) hb.four hb.rows]
  simp [hw, hn]

theorem loop_blocks (N : Nums F) (rest : List Str) : ∀ (bs : List Blk) (st : Data), (∀ b ∈ bs, b.Ok) →
    ∃ k, loop N (bs.flatMap Blk.lines ++ rest) st =
      loop N rest { key := k, d := fun c => addRows N (st.d c) ((bs.filter (fun b => b.comp = c)).flatMap Blk.rows) } := by
  intro bs
  induction bs with
  | nil => intro st _; exact ⟨st.key, rfl⟩
  | cons b bs ih =>
    intro st h
    obtain ⟨k, e⟩ := ih { key := some b.comp.name, d := fun c' => if c' = b.comp then addRows N (st.d b.comp) b.rows else st.d c' }
      (fun x hx => h x (by simp [hx]))
    refine ⟨k, ?_⟩
    rw [List.flatMap_cons, List.append_assoc, loop_block N (h b (by simp)), e]
    congr 2
    funext c
    by_cases hc : b.comp = c
    · subst hc
      simp [addRows]
    · simp [hc, Ne.symm hc]

theorem loop_tail (N : Nums F) {tail : List Str}
    (h : ∀ l, tail.head? = some l → hasSub ['r'] (lower l) = true ∧ ¬ (words l).head?.any starts) (st : Data) :
    loop N tail st = .ok st := by
  cases tail with
  | nil => rfl
  | cons l ls =>
    obtain ⟨h1, h2⟩ := h l rfl
    rw [loop, if_neg h2, if_neg (by simp [h1]), if_pos h1]

/-- What the loop collects from a file. -/
def File.data (N : Nums F) (f : File) (c : Comp) : OD Str (List Str) := addRows N [] (f.rows c)

theorem loop_file (N : Nums F) {f : File} (h : f.Ok) :
    ∃ k, loop N (f.blocks.flatMap Blk.lines ++ f.tail) { key := none, d := fun _ => [] } = .ok { key := k, d := f.data N } := by
  obtain ⟨k, e⟩ := loop_blocks N f.tail f.blocks { key := none, d := fun _ => [] } h.blocks
  exact ⟨k, e.trans (loop_tail N h.tail _)⟩

/-! ## Values and periods -/

theorem get?_data [DecidableEq F] {N : Nums F} (L : Laws N) (f : File) (c : Comp) {p : F} (hp : N.isMask p = false) :
    OD.get? (f.data N c) (N.show' p) =
      (f.rowAt N c p).map (fun l => (((words l).map (clean N)).drop 1).take 3) := by
  unfold File.data addRows
  rw [get?_fill]
  unfold File.rowAt col
  congr 2
  funext l
  exact decide_eq_decide.2 (clean_inj L hp)

theorem mem_data {N : Nums F} (L : Laws N) (f : File) (c : Comp) {k : Str} :
    k ∈ OD.keys (f.data N c) ↔ ∃ l ∈ f.rows c, k = N.show' (col N l 0) := by
  unfold File.data addRows
  rw [mem_keys_fill]
  unfold col
  simp only [clean_eq L, eq_comm]

theorem data_empty (N : Nums F) (f : File) (c : Comp) : (f.data N c).isEmpty = (f.rows c).isEmpty := by
  unfold File.data addRows
  cases h : f.rows c with
  | nil => rfl
  | cons l ls =>
    show List.isEmpty (List.foldl _ _ (l :: ls)) = false
    rw [Bool.eq_false_iff, Ne, List.isEmpty_iff]
    intro e
    have : clean N ((words l).getD 0 []) ∈ OD.keys (List.foldl (fun d l => OD.set d (clean N ((words l).getD 0 []))
      ((((words l).map (clean N)).drop 1).take 3)) ([] : OD Str (List Str)) (l :: ls)) :=
      (mem_keys_fill _ _ _ _).2 ⟨l, by simp, rfl⟩
    rw [e] at this
    exact absurd this (by simp [OD.keys])

theorem rows_four {f : File} (h : f.Ok) (c : Comp) : ∀ l ∈ f.rows c, 4 ≤ (words l).length := by
  intro l hl
  obtain ⟨b, hb, hl⟩ := List.mem_flatMap.1 hl
  exact (h.blocks b (List.mem_filter.1 hb).1).four l hl

theorem value_data [DecidableEq F] {N : Nums F} (L : Laws N) {f : File} (h : f.Ok) (c : Comp) {p : F} (hp : N.isMask p = false) :
    value N (f.data N c) p = .ok (match f.rowAt N c p with
      | some l => (rowValue N l, rowError N l)
      | none => ((N.zero, N.zero), N.zero)) := by
  unfold value
  rw [get?_data L f c hp]
  cases hr : f.rowAt N c p with
  | none => rfl
  | some l =>
    have hl : l ∈ f.rows c := by
      have := List.mem_of_find?_eq_some hr
      simpa using this
    have h4 := rows_four h c l hl
    simp only [Option.map_some]
    match hw : words l, h4 with
    | w0 :: w1 :: w2 :: w3 :: ws, _ =>
      simp only [item, List.map_cons, List.drop_succ_cons, List.drop_zero, List.take_succ_cons, List.take_zero, bind, Except.bind,
        List.getElem?_cons_zero, List.getElem?_cons_succ, parse_clean L]
      simp only [rowValue, rowError, col, hw, List.getD_cons_zero, List.getD_cons_succ, Bool.and_eq_true]

/-- The numbers a list of texts stands for. -/
theorem filterMap_parse {N : Nums F} (L : Laws N) {ks : List Str} (h : ∀ k ∈ ks, ∃ x, N.isMask x = false ∧ k = N.show' x) :
    (ks.filterMap N.parse).map N.show' = ks ∧ ∀ x ∈ ks.filterMap N.parse, N.isMask x = false := by
  induction ks with
  | nil => exact ⟨rfl, by simp⟩
  | cons k ks ih =>
    obtain ⟨x, hx, rfl⟩ := h k (by simp)
    obtain ⟨i1, i2⟩ := ih (fun k hk => h k (by simp [hk]))
    rw [List.filterMap_cons, L.read x hx]
    refine ⟨by simp [i1], ?_⟩
    intro y hy
    rcases List.mem_cons.1 hy with rfl | hy
    · exact hx
    · exact i2 y hy

theorem leText_trans : ∀ a b c : Str, leText a b = true → leText b c = true → leText a c = true := by
  intro a
  induction a with
  | nil => intros; rfl
  | cons x a ih =>
    intro b c h1 h2
    cases b with
    | nil => simp [leText] at h1
    | cons y b =>
      cases c with
      | nil => simp [leText] at h2
      | cons z c =>
        simp only [leText] at h1 h2 ⊢
        by_cases hxy : x = y
        · subst hxy
          rw [if_pos rfl] at h1
          by_cases hxz : x = z
          · subst hxz; rw [if_pos rfl] at h2 ⊢; exact ih b c h1 h2
          · rw [if_neg hxz] at h2 ⊢; exact h2
        · rw [if_neg hxy, decide_eq_true_eq] at h1
          by_cases hyz : y = z
          · subst hyz; rw [if_neg hxy]; simpa using h1
          · rw [if_neg hyz, decide_eq_true_eq] at h2
            have : x ≠ z := by rintro rfl; omega
            rw [if_neg this, decide_eq_true_eq]; omega

theorem leText_total : ∀ a b : Str, (leText a b || leText b a) = true := by
  intro a
  induction a with
  | nil => intro b; rfl
  | cons x a ih =>
    intro b
    cases b with
    | nil => rfl
    | cons y b =>
      simp only [leText]
      by_cases h : x = y
      · subst h; simpa using ih b
      · rw [if_neg h, if_neg (Ne.symm h)]
        have : x.toNat ≠ y.toNat := fun e => h (Char.ext (UInt32.toNat_inj.1 e))
        simp only [Bool.or_eq_true, decide_eq_true_eq]; omega

/-- The components that are read: tippers only if there are rows of the first. -/
def File.read (f : File) : List Comp := [.zxx, .zxy, .zyx, .zyy] ++ if f.rows .tzx = [] then [] else [.tzx, .tzy]

theorem findTipper_file (N : Nums F) (f : File) : findTipper (f.data N) = !decide (f.rows .tzx = []) := by
  unfold findTipper
  rw [data_empty]
  cases f.rows .tzx <;> simp

theorem periods_file [DecidableEq F] {N : Nums F} (L : Laws N) (f : File) :
    (∀ p, p ∈ periods N (f.data N) ↔ N.isZero p = false ∧ ∃ c ∈ f.read, ∃ l ∈ f.rows c, p = col N l 0) ∧
    (periods N (f.data N)).Nodup ∧
    ((periods N (f.data N)).map N.show').Pairwise (fun a b => leText a b = true) ∧
    ∀ p ∈ periods N (f.data N), N.isMask p = false := by
  have hcs : (zComps ++ if findTipper (f.data N) then tComps else []) = f.read := by
    rw [findTipper_file]
    unfold File.read zComps tComps
    by_cases h : f.rows .tzx = [] <;> simp [h]
  have hkeys : ∀ k, k ∈ pySorted leText ((f.read).flatMap fun c => OD.keys (f.data N c)).dedup ↔
      ∃ c ∈ f.read, ∃ l ∈ f.rows c, k = N.show' (col N l 0) := by
    intro k
    rw [(pySorted_perm _ _).mem_iff, List.mem_dedup, List.mem_flatMap]
    simp only [mem_data L]
  have hform : ∀ k ∈ pySorted leText ((f.read).flatMap fun c => OD.keys (f.data N c)).dedup,
      ∃ x, N.isMask x = false ∧ k = N.show' x := by
    intro k hk
    obtain ⟨c, _, l, _, e⟩ := (hkeys k).1 hk
    exact ⟨_, num_mask L _, e⟩
  obtain ⟨h1, h2⟩ := filterMap_parse L hform
  have hper : periods N (f.data N) =
      ((pySorted leText ((f.read).flatMap fun c => OD.keys (f.data N c)).dedup).filterMap N.parse).filter fun x => !N.isZero x := by
    unfold periods; rw [hcs]
  have hsub : List.Sublist ((periods N (f.data N)).map N.show') (pySorted leText ((f.read).flatMap fun c => OD.keys (f.data N c)).dedup) := by
    rw [hper]
    have := (List.filter_sublist (p := fun x => !N.isZero x) (l := (pySorted leText ((f.read).flatMap fun c => OD.keys (f.data N c)).dedup).filterMap N.parse)).map N.show'
    rw [h1] at this
    exact this
  have hnd : (pySorted leText ((f.read).flatMap fun c => OD.keys (f.data N c)).dedup).Nodup :=
    (pySorted_perm _ _).nodup_iff.2 (List.nodup_dedup _)
  have hmask : ∀ p ∈ periods N (f.data N), N.isMask p = false := by
    intro p hp
    rw [hper] at hp
    exact h2 p (List.mem_filter.1 hp).1
  refine ⟨?_, List.Nodup.of_map _ (hnd.sublist hsub), (pySorted_pairwise leText_trans leText_total _).sublist hsub, hmask⟩
  intro p
  constructor
  · intro hp
    have hm := hmask p hp
    rw [hper, List.mem_filter] at hp
    refine ⟨by simpa using hp.2, ?_⟩
    have : N.show' p ∈ pySorted leText ((f.read).flatMap fun c => OD.keys (f.data N c)).dedup := by
      rw [← h1]; exact List.mem_map_of_mem hp.1
    obtain ⟨c, hc, l, hl, e⟩ := (hkeys _).1 this
    refine ⟨c, hc, l, hl, ?_⟩
    have e1 := L.read p hm
    rw [e, L.read _ (show N.isMask (col N l 0) = false from num_mask L _)] at e1
    exact (Option.some.inj e1).symm
  · rintro ⟨hz, c, hc, l, hl, rfl⟩
    rw [hper, List.mem_filter]
    refine ⟨?_, by simp [hz]⟩
    exact List.mem_filterMap.2 ⟨_, (hkeys _).2 ⟨c, hc, l, hl, rfl⟩, L.read _ (num_mask L _)⟩

/-- Value and error of a component at a period. -/
def File.at' [DecidableEq F] (N : Nums F) (f : File) (c : Comp) (p : F) : (F × F) × F :=
  if c ∈ f.read then
    match f.rowAt N c p with
    | some l => (rowValue N l, rowError N l)
    | none => ((N.zero, N.zero), N.zero)
  else ((N.zero, N.zero), N.zero)

theorem row_file [DecidableEq F] {N : Nums F} (L : Laws N) {f : File} (h : f.Ok) {p : F} (hp : N.isMask p = false) :
    row N (f.data N) p = .ok { period := p, z := fun c => (f.at' N c p).1, err := fun c => (f.at' N c p).2 } := by
  unfold row
  simp only [value_data L h _ hp, findTipper_file]
  by_cases ht : f.rows .tzx = []
  · have hno : ∀ c, c ∈ f.read ↔ c ∈ zComps := by intro c; unfold File.read zComps; simp [ht]
    simp only [ht, decide_true, Bool.not_true, Bool.false_eq_true, if_false, bind, Except.bind]
    congr 2 <;>
    · funext c
      unfold File.at'
      cases c <;> simp [hno, zComps]
  · have hall : ∀ c, c ∈ f.read := by intro c; unfold File.read; rw [if_neg ht]; cases c <;> decide
    simp only [ht, decide_false, Bool.not_false, if_true, bind, Except.bind]
    congr 2 <;>
    · funext c
      unfold File.at'
      rw [if_pos (hall c)]
      cases c <;> rfl

/-! ## Header lines made readable -/

structure HeadOk (head : List Str) : Prop where
  marks : ∀ l ∈ head, l.head? = some '#' ∨ l.head? = some '>'
  given : ∀ v ∈ vars, ∃ l ∈ head, Named v l
  equals : ∀ l ∈ head, ∀ v ∈ vars, hasSub v (lower l) = true → '=' ∈ l

/-- What stands in front of an equals sign. -/
def front (l : Str) : Str := l.takeWhile (· ≠ '=')

theorem front_split {l : Str} (h : '=' ∈ l) : ∃ t, l = front l ++ '=' :: t ∧ '=' ∉ front l := by
  induction l with
  | nil => simp at h
  | cons c l ih =>
    by_cases hc : c = '='
    · subst hc; exact ⟨l, by simp [front], by simp [front]⟩
    · obtain ⟨t, h1, h2⟩ := ih (by rcases List.mem_cons.1 h with e | e; exact absurd e.symm hc; exact e)
      have : front (c :: l) = c :: front l := by simp [front, hc]
      refine ⟨t, by rw [this, List.cons_append, ← h1], ?_⟩
      rw [this]
      intro hm
      rcases List.mem_cons.1 hm with e | e
      · exact hc e.symm
      · exact h2 e

theorem split_front {l t : Str} (h : l = front l ++ '=' :: t) (h2 : '=' ∉ front l) : splitC '=' l = front l :: splitC '=' t := by
  conv => lhs; rw [h]
  exact splitC_append t h2

/-- A line rewritten by `_validate_j_file`. -/
def newLine (l : Str) (text : Str) : Str := front l ++ (" = ".toList ++ (text ++ ['\n']))

theorem newLine_front (l text : Str) (h : '=' ∈ l) : front (newLine l text) = front l ++ [' '] ∧ '=' ∈ newLine l text := by
  obtain ⟨t, _, h2⟩ := front_split h
  constructor
  · unfold front newLine
    rw [List.takeWhile_append_of_pos (by
      intro c hc
      simp only [decide_eq_true_eq]
      rintro rfl
      exact h2 hc)]
    rfl
  · unfold newLine; simp

theorem fixFirst_head (N : Nums F) {v : Str} (rest : List Str) : ∀ (head : List Str),
    (∃ l ∈ head, hasSub v (lower l) = true) → (∀ l ∈ head, hasSub v (lower l) = true → '=' ∈ l) →
    ∃ a l b x, head = a ++ l :: b ∧ (∀ x ∈ a, hasSub v (lower x) = false) ∧ hasSub v (lower l) = true ∧ '=' ∈ l ∧
      fixFirst N v (head ++ rest) = .ok (a ++ newLine l (N.show' x) :: b ++ rest) := by
  intro head
  induction head with
  | nil => rintro ⟨l, hl, _⟩; simp at hl
  | cons x head ih =>
    intro hex heq
    by_cases hx : hasSub v (lower x) = true
    · have he := heq x (by simp) hx
      obtain ⟨t, h1, h2⟩ := front_split he
      have hs := split_front h1 h2
      refine ⟨[], x, head, (N.parse (strip ((splitC '=' t).headD []))).getD N.zero, rfl, by simp, hx, he, ?_⟩
      rw [List.cons_append, fixFirst, if_pos hx, hs]
      cases ht : splitC '=' t with
      | nil => exact absurd ht (splitC_ne_nil _ _)
      | cons y ys => rfl
    · have hx' : hasSub v (lower x) = false := by simpa using hx
      obtain ⟨a, l, b, text, h1, h2, h3, h4, h5⟩ := ih (by
        obtain ⟨l, hl, e⟩ := hex
        rcases List.mem_cons.1 hl with rfl | hl
        · exact absurd e hx
        · exact ⟨l, hl, e⟩) (fun l hl => heq l (by simp [hl]))
      refine ⟨x :: a, l, b, text, by rw [h1]; rfl, ?_, h3, h4, ?_⟩
      · intro y hy
        rcases List.mem_cons.1 hy with rfl | hy
        · exact hx'
        · exact h2 y hy
      · rw [List.cons_append, fixFirst, if_neg hx, h5]
        simp

theorem named_hasSub {v l : Str} (h : Named v l) : hasSub v (lower l) = true := by
  obtain ⟨h1, h2⟩ := h
  obtain ⟨t, h3, _⟩ := front_split h1
  rw [h3, lower_append]
  have := hasSub_iff.1 h2
  exact hasSub_iff.2 (this.trans ⟨[], _, rfl⟩)

theorem named_newLine {v l : Str} (text : Str) (h : Named v l) : Named v (newLine l text) := by
  obtain ⟨h1, h2⟩ := h
  obtain ⟨h3, h4⟩ := newLine_front l text h1
  refine ⟨h4, ?_⟩
  show hasSub v (lower (front (newLine l text))) = true
  rw [h3, lower_append]
  exact hasSub_iff.2 ((hasSub_iff.1 h2).trans ⟨[], _, rfl⟩)

/-- Comment lines in which no word could be taken for a position. -/
def Sharp (lines : List Str) : Prop := ∀ l ∈ lines, '#' ∈ l → ∀ v ∈ vars, hasSub v (lower l) = false

theorem sharp_iff (lines : List Str) : Sharp lines ↔ ∀ l ∈ lines.filter (fun l => '#' ∈ l), ∀ v ∈ vars, hasSub v (lower l) = false := by
  unfold Sharp
  simp only [List.mem_filter, decide_eq_true_eq, and_imp]

theorem front_sub (l : Str) {c : Char} (h : c ∈ front l) : c ∈ l := (List.takeWhile_sublist _).mem h

theorem newLine_hash {N : Nums F} (L : Laws N) (l : Str) (x : F) (h : '#' ∉ l) : '#' ∉ newLine l (N.show' x) := by
  intro hm
  unfold newLine at hm
  rcases List.mem_append.1 hm with hm | hm
  · exact h (front_sub l hm)
  rcases List.mem_append.1 hm with hm | hm
  · exact absurd hm (by decide)
  rcases List.mem_append.1 hm with hm | hm
  · exact L.noHash x hm
  · exact absurd hm (by decide)

theorem fix_one (N : Nums F) {v : Str} (hv : v ∈ vars) (rest : List Str) {head : List Str} (h : HeadOk head) :
    ∃ head', HeadOk head' ∧ fixFirst N v (head ++ rest) = .ok (head' ++ rest) ∧
      (Laws N → Sharp head → head'.filter (fun l => '#' ∈ l) = head.filter (fun l => '#' ∈ l)) := by
  obtain ⟨l0, hl0, hn0⟩ := h.given v hv
  obtain ⟨a, l, b, x, h1, _, h3, h4, h5⟩ := fixFirst_head N rest head ⟨l0, hl0, named_hasSub hn0⟩ (fun l hl => h.equals l hl v hv)
  generalize htext : N.show' x = text at h5
  refine ⟨a ++ newLine l text :: b, ⟨?_, ?_, ?_⟩, by simpa using h5, ?_⟩
  rotate_left 3
  · intro L hs
    have hl : '#' ∉ l := by
      intro hm
      have := hs l (by rw [h1]; simp) hm v hv
      rw [h3] at this
      exact absurd this (by decide)
    have hl' : '#' ∉ newLine l text := by rw [← htext]; exact newLine_hash L l x hl
    rw [h1, List.filter_append, List.filter_append, List.filter_cons_of_neg (by simpa using hl'),
      List.filter_cons_of_neg (by simpa using hl)]
  · intro x hx
    rcases List.mem_append.1 hx with hx | hx
    · exact h.marks x (by rw [h1]; simp [hx])
    · rcases List.mem_cons.1 hx with rfl | hx
      · have hm := h.marks l (by rw [h1]; simp)
        cases l with
        | nil => simp at hm
        | cons c l =>
          have hc : c ≠ '=' := by
            rintro rfl
            rcases hm with hm | hm <;> exact absurd (Option.some.inj hm) (by decide)
          have : front (c :: l) = c :: front l := by simp [front, hc]
          unfold newLine
          rw [this]
          exact hm
      · exact h.marks x (by rw [h1]; simp [hx])
  · intro w hw
    obtain ⟨y, hy, hn⟩ := h.given w hw
    rw [h1] at hy
    rcases List.mem_append.1 hy with hy | hy
    · exact ⟨y, by simp [hy], hn⟩
    · rcases List.mem_cons.1 hy with rfl | hy
      · exact ⟨newLine y text, by simp, named_newLine text hn⟩
      · exact ⟨y, by simp [hy], hn⟩
  · intro x hx w hw hs
    rcases List.mem_append.1 hx with hx | hx
    · exact h.equals x (by rw [h1]; simp [hx]) w hw hs
    · rcases List.mem_cons.1 hx with rfl | hx
      · exact (newLine_front l text h4).2
      · exact h.equals x (by rw [h1]; simp [hx]) w hw hs

theorem validate_head (N : Nums F) (rest : List Str) {head : List Str} (h : HeadOk head) :
    ∃ head', HeadOk head' ∧ validate N (head ++ rest) = .ok (head' ++ rest) ∧
      (Laws N → Sharp head → head'.filter (fun l => '#' ∈ l) = head.filter (fun l => '#' ∈ l)) := by
  obtain ⟨h1, k1, e1, s1⟩ := fix_one N (v := "lat".toList) (by simp [vars]) rest h
  obtain ⟨h2, k2, e2, s2⟩ := fix_one N (v := "lon".toList) (by simp [vars]) rest k1
  obtain ⟨h3, k3, e3, s3⟩ := fix_one N (v := "elev".toList) (by simp [vars]) rest k2
  refine ⟨h3, k3, ?_, ?_⟩
  · unfold validate
    simp only [List.foldlM_cons, List.foldlM_nil, e1, e2, e3, bind, Except.bind, pure, Except.pure]
  · intro L hs
    have t1 := s1 L hs
    have t2 := s2 L ((sharp_iff _).2 (by rw [t1]; exact (sharp_iff _).1 hs))
    have t3 := s3 L ((sharp_iff _).2 (by rw [t2, t1]; exact (sharp_iff _).1 hs))
    rw [t3, t2, t1]

theorem mem_mark {head : List Str} (h : HeadOk head) : ∀ l ∈ head, '>' ∈ l ∨ '#' ∈ l := by
  intro l hl
  rcases h.marks l hl with e | e
  · exact Or.inr (List.mem_of_mem_head? e)
  · exact Or.inl (List.mem_of_mem_head? e)

theorem noMark_mem {l : Str} (h : NoMark l) : '>' ∉ l ∧ '#' ∉ l :=
  ⟨fun hm => h _ hm (by decide), fun hm => h _ hm (by decide)⟩

theorem plain_noMark {l : Str} (h : Plain l) : NoMark l := by
  intro c hc hm
  have : ∀ c ∈ "lL#>".toList, c ∈ "lLzZtTrR#>".toList := by decide
  exact h c hc (this c hm)

/-- The lines of a file that are neither header nor information. -/
theorem data_lines {f : File} (h : f.Ok) {head : List Str} (hh : HeadOk head) :
    (head ++ f.station :: (f.blocks.flatMap Blk.lines ++ f.tail)).filter (fun l => ¬ '>' ∈ l ∧ ¬ '#' ∈ l) =
      f.station :: (f.blocks.flatMap Blk.lines ++ f.tail) := by
  rw [List.filter_append, List.filter_eq_nil_iff.2, List.nil_append, List.filter_eq_self.2]
  · intro l hl
    have : '>' ∉ l ∧ '#' ∉ l := by
      rcases List.mem_cons.1 hl with rfl | hl
      · exact ⟨h.station.2, h.station.1⟩
      rcases List.mem_append.1 hl with hl | hl
      · obtain ⟨b, hb, hl⟩ := List.mem_flatMap.1 hl
        have ok := h.blocks b hb
        rcases List.mem_cons.1 hl with rfl | hl
        · exact noMark_mem ok.head
        rcases List.mem_cons.1 hl with rfl | hl
        · exact noMark_mem (plain_noMark ok.count)
        · exact noMark_mem (plain_noMark (ok.rows l hl))
      · exact ⟨(h.tailMark l hl).2, (h.tailMark l hl).1⟩
    simpa using this
  · intro l hl hf
    have hf : '>' ∉ l ∧ '#' ∉ l := by simpa using hf
    rcases mem_mark hh l hl with e | e
    · exact hf.1 e
    · exact hf.2 e

theorem mapM_rows [DecidableEq F] {N : Nums F} (L : Laws N) {f : File} (h : f.Ok) : ∀ (ps : List F), (∀ p ∈ ps, N.isMask p = false) →
    ps.mapM (row N (f.data N)) =
      .ok (ps.map fun p => { period := p, z := fun c => (f.at' N c p).1, err := fun c => (f.at' N c p).2 }) := by
  intro ps
  induction ps with
  | nil => intro _; rfl
  | cons p ps ih =>
    intro hm
    rw [List.mapM_cons, row_file L h (hm p (by simp)), ih (fun q hq => hm q (by simp [hq]))]
    rfl

theorem file_headOk {f : File} (h : f.Ok) : HeadOk f.head := ⟨h.marks, h.given, h.equals⟩

/-- A file of this form is read if its header is. -/
theorem read_file [DecidableEq F] {N : Nums F} (L : Laws N) {f : File} (h : f.Ok) :
    ∃ head', validate N f.lines = .ok (head' ++ f.station :: (f.blocks.flatMap Blk.lines ++ f.tail)) ∧ HeadOk head' ∧
    (Sharp f.head → head'.filter (fun l => '#' ∈ l) = f.head.filter (fun l => '#' ∈ l)) ∧
    read N f.lines = (readHeader N (head' ++ f.station :: (f.blocks.flatMap Blk.lines ++ f.tail))).map fun th =>
      { title := th.1, head := th.2, pos := readMeta N (head' ++ f.station :: (f.blocks.flatMap Blk.lines ++ f.tail))
        station := strip f.station
        rows := (periods N (f.data N)).map fun p => { period := p, z := fun c => (f.at' N c p).1, err := fun c => (f.at' N c p).2 } } := by
  obtain ⟨head', hh, e, hs⟩ := validate_head N (f.station :: (f.blocks.flatMap Blk.lines ++ f.tail)) (file_headOk h)
  refine ⟨head', e, hh, hs L, ?_⟩
  obtain ⟨k, hl⟩ := loop_file N h
  unfold read
  rw [show f.lines = f.head ++ f.station :: (f.blocks.flatMap Blk.lines ++ f.tail) from rfl, e]
  simp only [bind, Except.bind]
  cases readHeader N (head' ++ f.station :: (f.blocks.flatMap Blk.lines ++ f.tail)) with
  | error x => rfl
  | ok th =>
    simp only [data_lines h hh, item, List.getElem?_cons_zero, List.drop_succ_cons, List.drop_zero, hl]
    rw [mapM_rows L h _ (periods_file L f).2.2.2]
    rfl

/-- C143: what is read from a J file. The periods are the numbers in the first column (no masked ones, none twice);
every component has its values at each period in which it has a row (the last such row), zero where it has none. -/
theorem C143_values [DecidableEq F] {N : Nums F} (L : Laws N) {f : File} (h : f.Ok) {j : J F} (hj : read N f.lines = .ok j) :
    j.station = strip f.station ∧
    (∀ p, p ∈ j.rows.map Row.period ↔ N.isZero p = false ∧ ∃ c ∈ f.read, ∃ l ∈ f.rows c, p = col N l 0) ∧
    (j.rows.map Row.period).Nodup ∧
    ∀ r ∈ j.rows, ∀ c, (r.z c, r.err c) = f.at' N c r.period := by
  obtain ⟨head', _, _, _, e⟩ := read_file L h
  rw [e] at hj
  cases hr : readHeader N (head' ++ f.station :: (f.blocks.flatMap Blk.lines ++ f.tail)) with
  | error x => rw [hr] at hj; simp [Except.map] at hj
  | ok th =>
    rw [hr] at hj
    have hj := (Except.ok.inj hj).symm
    subst hj
    obtain ⟨p1, p2, _, _⟩ := periods_file L f
    simp only [List.map_map]
    have : (Row.period ∘ fun p => ({ period := p, z := fun c => (f.at' N c p).1, err := fun c => (f.at' N c p).2 } : Row F)) = id := by
      funext p; rfl
    rw [this, List.map_id]
    refine ⟨trivial, p1, p2, ?_⟩
    intro r hr c
    obtain ⟨p, _, rfl⟩ := List.mem_map.1 hr
    rfl

/-! ## Names and values in the header -/

/-- `key=  value ` with any number of blanks. -/
structure Item where
  key : Str
  gap : Nat
  val : Str
  after : Nat

def Item.text (it : Item) : Str :=
  it.key ++ '=' :: (List.replicate it.gap ' ' ++ (it.val ++ (List.replicate it.after ' ' ++ [' '])))

/-- Keys and values are words without equals signs and commas. -/
structure Item.Ok (it : Item) : Prop where
  key : it.key ≠ []
  val : it.val ≠ []
  keyChars : ∀ c ∈ it.key, ws c = false ∧ c ≠ '=' ∧ c ≠ ','
  valChars : ∀ c ∈ it.val, ws c = false ∧ c ≠ '=' ∧ c ≠ ','

/-- A header line: names and values, ended by blanks or a line end. -/
def itemLine (lead : Nat) (items : List Item) (tail : Str) : Str :=
  '#' :: (List.replicate lead ' ' ++ (items.flatMap Item.text ++ tail))

theorem words_blank (n : Nat) (s : Str) : words (List.replicate n ' ' ++ s) = words s := by
  induction n with
  | zero => rfl
  | succ n ih => rw [List.replicate_succ, List.cons_append, words_cons_ws _ (by decide), ih]

/-- The words of an item. -/
def Item.toks (it : Item) : List Str :=
  if it.gap = 0 then [it.key ++ '=' :: it.val] else [it.key ++ ['='], it.val]

theorem words_item {it : Item} (h : it.Ok) (s : Str) : words (it.text ++ s) = it.toks ++ words s := by
  have hblank : ∀ t, words (List.replicate it.after ' ' ++ ([' '] ++ t)) = words t := by
    intro t; rw [words_blank, List.singleton_append, words_cons_ws _ (by decide)]
  have hv : ∀ c ∈ it.val, ws c = false := fun c hc => (h.valChars c hc).1
  have hsep : ∀ (a t : Str), a ≠ [] → (∀ c ∈ a, ws c = false) →
      words (a ++ (List.replicate it.after ' ' ++ ([' '] ++ t))) = a :: words t := by
    intro a t ha hc
    have : ∃ r, List.replicate it.after ' ' ++ ([' '] ++ t) = ' ' :: r ∧ words r = words t := by
      cases it.after with
      | zero => exact ⟨t, rfl, rfl⟩
      | succ n =>
        refine ⟨List.replicate n ' ' ++ ([' '] ++ t), rfl, ?_⟩
        rw [words_blank, List.singleton_append, words_cons_ws _ (by decide)]
    obtain ⟨r, e1, e2⟩ := this
    rw [e1, words_mid a r (by decide), words_token hc ha, e2]; rfl
  have hk : ∀ c ∈ it.key ++ ['='], ws c = false := by
    intro c hc
    rcases List.mem_append.1 hc with hc | hc
    · exact (h.keyChars c hc).1
    · rw [List.mem_singleton.1 hc]; decide
  unfold Item.toks
  split_ifs with hg
  · have e : it.text ++ s = (it.key ++ '=' :: it.val) ++ (List.replicate it.after ' ' ++ ([' '] ++ s)) := by
      simp [Item.text, hg]
    rw [e, hsep _ s (by simp) (by
      intro c hc
      rcases List.mem_append.1 hc with hc | hc
      · exact (h.keyChars c hc).1
      · rcases List.mem_cons.1 hc with rfl | hc
        · decide
        · exact hv c hc)]
    rfl
  · obtain ⟨g, hg⟩ := Nat.exists_eq_succ_of_ne_zero hg
    have e : it.text ++ s = (it.key ++ ['=']) ++ ' ' :: (List.replicate g ' ' ++ (it.val ++ (List.replicate it.after ' ' ++ ([' '] ++ s)))) := by
      simp [Item.text, hg, List.replicate_succ]
    rw [e, words_mid _ _ (by decide), words_token hk (by simp), words_blank, hsep _ s h.val hv]
    rfl

theorem words_items : ∀ (items : List Item), (∀ it ∈ items, it.Ok) → ∀ {tail : Str}, (∀ c ∈ tail, ws c = true) →
    words (items.flatMap Item.text ++ tail) = items.flatMap Item.toks := by
  intro items
  induction items with
  | nil => intro _ tail ht; exact words_all_ws ht
  | cons it items ih =>
    intro h tail ht
    rw [List.flatMap_cons, List.append_assoc, words_item (h it (by simp)), ih (fun x hx => h x (by simp [hx])) ht,
      List.flatMap_cons]

theorem join_append' (sep : Str) : ∀ {a b : List Str}, a ≠ [] → b ≠ [] → join sep (a ++ b) = join sep a ++ (sep ++ join sep b) := by
  intro a
  induction a with
  | nil => intro b h _; exact absurd rfl h
  | cons x a ih =>
    intro b _ hb
    cases a with
    | nil =>
      cases b with
      | nil => exact absurd rfl hb
      | cons y b => simp [join]
    | cons z a =>
      have := ih (b := b) (by simp) hb
      rw [List.cons_append] at this
      rw [List.cons_append, List.cons_append, join, this, join]
      simp

theorem commas_tok : ∀ (t s : Str) (e i : Nat), (∀ c ∈ t, c ≠ '=' ∧ c ≠ ' ') →
    commas e i (t ++ s) = t ++ commas e (i + t.length) s := by
  intro t
  induction t with
  | nil => intros; rfl
  | cons c t ih =>
    intro s e i h
    obtain ⟨h1, h2⟩ := h c (by simp)
    rw [List.cons_append, commas, if_neg h1, if_neg h2, ih s e (i + 1) (fun x hx => h x (by simp [hx]))]
    have : i + 1 + t.length = i + (c :: t).length := by simp; omega
    rw [this]; rfl

theorem item_chars {it : Item} (h : it.Ok) : (∀ c ∈ it.key, c ≠ '=' ∧ c ≠ ' ') ∧ ∀ c ∈ it.val, c ≠ '=' ∧ c ≠ ' ' := by
  have hs : ws ' ' = true := by decide
  constructor
  · intro c hc
    obtain ⟨h1, h2, _⟩ := h.keyChars c hc
    exact ⟨h2, by rintro rfl; rw [hs] at h1; simp at h1⟩
  · intro c hc
    obtain ⟨h1, h2, _⟩ := h.valChars c hc
    exact ⟨h2, by rintro rfl; rw [hs] at h1; simp at h1⟩

theorem commas_item {it : Item} (h : it.Ok) (s : Str) (e i : Nat) :
    ∃ e' i', e' + 2 ≤ i' ∧ commas e i (join [' '] it.toks ++ s) = it.key ++ '=' :: (it.val ++ commas e' i' s) := by
  obtain ⟨hk, hv⟩ := item_chars h
  have hl : 1 ≤ it.val.length := List.length_pos_iff.2 h.val
  unfold Item.toks
  split_ifs with hg
  · refine ⟨i + it.key.length, i + it.key.length + 1 + it.val.length, by omega, ?_⟩
    rw [show join [' '] [it.key ++ '=' :: it.val] ++ s = it.key ++ '=' :: (it.val ++ s) by simp [join],
      commas_tok _ _ _ _ hk, commas, if_pos rfl, commas_tok _ _ _ _ hv]
  · refine ⟨i + it.key.length, i + it.key.length + 1 + 1 + it.val.length, by omega, ?_⟩
    rw [show join [' '] [it.key ++ ['='], it.val] ++ s = it.key ++ '=' :: ' ' :: (it.val ++ s) by simp [join],
      commas_tok _ _ _ _ hk, commas, if_pos rfl, commas, if_neg (by decide), if_pos rfl, if_pos (by omega),
      commas_tok _ _ _ _ hv]

/-- `key=value` -/
def Item.pair (it : Item) : Str := it.key ++ '=' :: it.val

theorem toks_ne (it : Item) : it.toks ≠ [] := by unfold Item.toks; split_ifs <;> simp

theorem flat_ne {it : Item} {items : List Item} : (it :: items).flatMap Item.toks ≠ [] := by
  rw [List.flatMap_cons]
  intro h
  exact toks_ne it (List.append_eq_nil_iff.1 h).1

theorem commas_items : ∀ (items : List Item), (∀ it ∈ items, it.Ok) → ∀ e i,
    commas e i (join [' '] (items.flatMap Item.toks)) = join [','] (items.map Item.pair) := by
  intro items
  induction items with
  | nil => intros; rfl
  | cons it items ih =>
    intro h e i
    have ok := h it (by simp)
    cases items with
    | nil =>
      obtain ⟨e', i', _, hc⟩ := commas_item ok [] e i
      simp only [List.append_nil] at hc
      rw [List.flatMap_cons, List.flatMap_nil, List.append_nil, hc]
      simp [commas, join, Item.pair]
    | cons it2 items =>
      rw [List.flatMap_cons, join_append' _ (toks_ne it) flat_ne]
      obtain ⟨e', i', hi, hc⟩ := commas_item ok ([' '] ++ join [' '] ((it2 :: items).flatMap Item.toks)) e i
      rw [hc, List.singleton_append, commas, if_neg (by decide), if_pos rfl, if_neg (by omega),
        ih (fun x hx => h x (by simp [hx]))]
      simp [join, Item.pair]

/-- What a value stands for: a number if it can be read as one. -/
def valueOf (N : Nums F) (s : Str) : Atom F := ((N.parse s).map Atom.num).getD (.text s)

theorem atom_eq (N : Nums F) (s : Str) : atom N s = valueOf N s := by
  unfold atom valueOf
  cases N.parse s <;> rfl

/-- The names of what is said of a file. -/
def fileKeys : List Str := ["filnam", "nskip", "nread", "ncomp", "indices", "nfil"].map String.toList

/-- The names of angles. -/
def rotationKeys : List Str := ["theta1", "theta2", "phi"].map String.toList

/-- The name and value an item stands for. -/
def Item.entry (N : Nums F) (it : Item) : Str × HVal F := (it.key, .one (valueOf N it.val))

theorem entries (N : Nums F) : ∀ (items : List Item), (∀ it ∈ items, it.Ok) → ∀ (d : OD Str (HVal F)) (k : Str),
    ∃ k', (items.map Item.pair).foldlM (entry N) (d, k) =
      .ok ((items.map (Item.entry N)).foldl (fun d p => OD.set d p.1 p.2) d, k') := by
  intro items
  induction items with
  | nil => intro _ d k; exact ⟨k, rfl⟩
  | cons it items ih =>
    intro h d k
    have ok := h it (by simp)
    obtain ⟨k', e⟩ := ih (fun x hx => h x (by simp [hx])) (OD.set d it.key (.one (valueOf N it.val))) it.key
    refine ⟨k', ?_⟩
    have hs : splitC '=' it.pair = [it.key, it.val] := by
      unfold Item.pair
      rw [splitC_append _ (fun hm => (ok.keyChars _ hm).2.1 rfl), splitC_none (fun hm => (ok.valChars _ hm).2.1 rfl)]
    rw [List.map_cons, List.foldlM_cons]
    have : entry N (d, k) it.pair = .ok (OD.set d it.key (.one (valueOf N it.val)), it.key) := by
      unfold entry; rw [hs]; simp only [atom_eq]
    rw [this]
    exact e

theorem pair_noComma {it : Item} (h : it.Ok) : ',' ∉ it.pair := by
  intro hm
  rcases List.mem_append.1 hm with hm | hm
  · exact (h.keyChars _ hm).2.2 rfl
  · rcases List.mem_cons.1 hm with hm | hm
    · exact absurd hm (by decide)
    · exact (h.valChars _ hm).2.2 rfl

theorem readLine_items (N : Nums F) (lead : Nat) {items : List Item} (h : ∀ it ∈ items, it.Ok) (hne : items ≠ []) {tail : Str}
    (ht : ∀ c ∈ tail, ws c = true) : readLine N (itemLine lead items tail) = .ok (OD.ofPairs (items.map (Item.entry N))) := by
  unfold readLine itemLine
  rw [List.drop_succ_cons, List.drop_zero, words_blank, words_items items h ht, commas_items items h,
    splitC_join (by simpa using hne) (by
      intro p hp
      obtain ⟨it, hit, rfl⟩ := List.mem_map.1 hp
      exact pair_noComma (h it hit))]
  obtain ⟨k', e⟩ := entries N items h [] "null".toList
  rw [e]
  rfl

/-! ## Blocks and angles -/

/-- `put` with the count of blocks. -/
def putStep (first : Str) (st : List (OD Str (HVal F)) × Nat) (kv : Str × HVal F) :
    Except PyErr (List (OD Str (HVal F)) × Nat) :=
  let n := if kv.1 = first then st.2 + 1 else st.2
  match put st.1 n kv.1 kv.2 with
  | .ok b => .ok (b, n)
  | .error e => .error e

theorem head_split : ∀ (s : List (Str × HVal F)) (h : Head F) (B A : List (OD Str (HVal F))) (n m : Nat),
    (s.filter (fun p => p.1 ∈ blockKeys)).foldlM (putStep "nfil".toList) (h.blocks, h.nb) = .ok (B, n) →
    (s.filter (fun p => p.1 ∈ angleKeys)).foldlM (putStep "theta1".toList) (h.angles, h.na) = .ok (A, m) →
    s.foldlM headStep h = .ok (Head.mk B n A m
      ((s.filter (fun p => p.1 ∉ blockKeys ∧ p.1 ∉ angleKeys)).foldl (fun d p => OD.set d p.1 p.2) h.params)) := by
  have disj : ∀ k, k ∈ blockKeys → k ∉ angleKeys := by
    intro k hk
    have : ∀ k ∈ blockKeys, k ∉ angleKeys := by decide
    exact this k hk
  intro s
  induction s with
  | nil =>
    intro h B A n m hb ha
    simp only [List.filter_nil, List.foldlM_nil, pure, Except.pure, Except.ok.injEq, Prod.mk.injEq] at hb ha ⊢
    obtain ⟨rfl, rfl⟩ := hb
    obtain ⟨rfl, rfl⟩ := ha
    rfl
  | cons p s ih =>
    intro h B A n m hb ha
    rw [List.foldlM_cons]
    by_cases h1 : p.1 ∈ blockKeys
    · have h2 := disj _ h1
      rw [List.filter_cons_of_pos (by simpa using h1), List.foldlM_cons] at hb
      rw [List.filter_cons_of_neg (by simpa using h2)] at ha
      unfold headStep
      rw [if_pos h1]
      unfold putStep at hb
      simp only [bind, Except.bind] at hb ⊢
      cases hp : put h.blocks (if p.1 = "nfil".toList then h.nb + 1 else h.nb) p.1 p.2 with
      | error x => rw [hp] at hb; simp at hb
      | ok b =>
        rw [hp] at hb
        simp only at hb ⊢
        have := ih { h with blocks := b, nb := if p.1 = "nfil".toList then h.nb + 1 else h.nb } B A n m hb ha
        rw [List.filter_cons_of_neg (by simp [h1])]
        exact this
    · by_cases h2 : p.1 ∈ angleKeys
      · rw [List.filter_cons_of_neg (by simpa using h1)] at hb
        rw [List.filter_cons_of_pos (by simpa using h2), List.foldlM_cons] at ha
        unfold headStep
        rw [if_neg h1, if_pos h2]
        unfold putStep at ha
        simp only [bind, Except.bind] at ha ⊢
        cases hp : put h.angles (if p.1 = "theta1".toList then h.na + 1 else h.na) p.1 p.2 with
        | error x => rw [hp] at ha; simp at ha
        | ok b =>
          rw [hp] at ha
          simp only at ha ⊢
          have := ih { h with angles := b, na := if p.1 = "theta1".toList then h.na + 1 else h.na } B A n m hb ha
          rw [List.filter_cons_of_neg (by simp [h2])]
          exact this
      · rw [List.filter_cons_of_neg (by simpa using h1)] at hb
        rw [List.filter_cons_of_neg (by simpa using h2)] at ha
        have := ih { h with params := OD.set h.params p.1 p.2 } B A n m hb ha
        unfold headStep
        rw [if_neg h1, if_neg h2, List.filter_cons_of_pos (by simp [h1, h2])]
        exact this

/-- Groups, each of which begins with the key `first` and has it only there. -/
def Groups (first : Str) (gs : List (List (Str × HVal F))) : Prop :=
  ∀ g ∈ gs, ∃ v r, g = (first, v) :: r ∧ ∀ p ∈ r, p.1 ≠ first

theorem put_rest (first : Str) (B : List (OD Str (HVal F))) : ∀ (r : List (Str × HVal F)) (d : OD Str (HVal F)),
    (∀ p ∈ r, p.1 ≠ first) →
    r.foldlM (putStep first) (B ++ [d], B.length + 1) = .ok (B ++ [r.foldl (fun d p => OD.set d p.1 p.2) d], B.length + 1) := by
  intro r
  induction r with
  | nil => intros; rfl
  | cons p r ih =>
    intro d h
    rw [List.foldlM_cons]
    have : putStep first (B ++ [d], B.length + 1) p = .ok (B ++ [OD.set d p.1 p.2], B.length + 1) := by
      unfold putStep put
      rw [if_neg (h p (by simp))]
      simp
    rw [this]
    exact ih _ (fun q hq => h q (by simp [hq]))

theorem put_groups (first : Str) : ∀ (gs : List (List (Str × HVal F))) (B : List (OD Str (HVal F))), Groups first gs →
    gs.flatten.foldlM (putStep first) (B, B.length) = .ok (B ++ gs.map OD.ofPairs, B.length + gs.length) := by
  intro gs
  induction gs with
  | nil => intro B _; simp; rfl
  | cons g gs ih =>
    intro B h
    obtain ⟨v, r, rfl, hr⟩ := h g (by simp)
    rw [List.flatten_cons, List.foldlM_append, List.foldlM_cons]
    have : putStep first (B, B.length) (first, v) = .ok (B ++ [[(first, v)]], B.length + 1) := by
      unfold putStep put
      rw [if_pos rfl]
      simp [OD.set]
    rw [this]
    show (List.foldlM (putStep first) (B ++ [[(first, v)]], B.length + 1) r >>= fun s => List.foldlM (putStep first) s gs.flatten) = _
    rw [put_rest first B r _ hr]
    have e := ih (B ++ [r.foldl (fun d p => OD.set d p.1 p.2) [(first, v)]]) (fun x hx => h x (by simp [hx]))
    simp only [List.length_append, List.length_cons, List.length_nil, Nat.zero_add] at e
    show List.foldlM (putStep first) (B ++ [r.foldl (fun d p => OD.set d p.1 p.2) [(first, v)]], B.length + 1) gs.flatten = _
    rw [e]
    simp [OD.ofPairs, OD.set]
    omega

/-- Lines of the data hold no comment. -/
theorem data_noHash {f : File} (h : f.Ok) (l : Str) (hl : l ∈ f.station :: (f.blocks.flatMap Blk.lines ++ f.tail)) :
    '>' ∉ l ∧ '#' ∉ l := by
  have := data_lines h (file_headOk h)
  have hm : l ∈ (f.head ++ f.station :: (f.blocks.flatMap Blk.lines ++ f.tail)).filter (fun l => ¬ '>' ∈ l ∧ ¬ '#' ∈ l) := by
    rw [this]; exact hl
  simpa using (List.mem_filter.1 hm).2

/-- A header as programs write it: a title, lines of names and values, and lines of information. -/
structure Form where
  title : Str
  items : List (Nat × List Item × Str)
  info : List Str

def Form.lines (m : Form) : List Str :=
  ('#' :: m.title) :: (m.items.map (fun x => itemLine x.1 x.2.1 x.2.2) ++ m.info)

structure Form.Ok (m : Form) : Prop where
  items : ∀ x ∈ m.items, x.2.1 ≠ [] ∧ (∀ it ∈ x.2.1, it.Ok) ∧ (x.2.1.map Item.key).Nodup ∧ ∀ c ∈ x.2.2, ws c = true
  info : ∀ l ∈ m.info, '#' ∉ l
  sharp : Sharp m.lines

/-- All names and values of the header. -/
def Form.entries (N : Nums F) (m : Form) : List (Str × HVal F) := m.items.flatMap fun x => x.2.1.map (Item.entry N)

theorem headLines (N : Nums F) : ∀ (items : List (Nat × List Item × Str)),
    (∀ x ∈ items, x.2.1 ≠ [] ∧ (∀ it ∈ x.2.1, it.Ok) ∧ (x.2.1.map Item.key).Nodup ∧ ∀ c ∈ x.2.2, ws c = true) → ∀ h : Head F,
    (items.map (fun x => itemLine x.1 x.2.1 x.2.2)).foldlM (headLine N) h =
      (items.flatMap fun x => x.2.1.map (Item.entry N)).foldlM headStep h := by
  intro items
  induction items with
  | nil => intros; rfl
  | cons x items ih =>
    intro hok h
    obtain ⟨h1, h2, h3, h4⟩ := hok x (by simp)
    rw [List.map_cons, List.foldlM_cons, List.flatMap_cons, List.foldlM_append]
    have e : headLine N h (itemLine x.1 x.2.1 x.2.2) = (x.2.1.map (Item.entry N)).foldlM headStep h := by
      unfold headLine
      rw [readLine_items N x.1 h2 h1 h4, OD.ofPairs_of_wf (by
        unfold OD.WF OD.keys
        rw [List.map_map]
        exact h3)]
      rfl
    rw [e]
    cases (x.2.1.map (Item.entry N)).foldlM headStep h with
    | error _ => rfl
    | ok h' => exact ih (fun y hy => hok y (by simp [hy])) h'

/-- C144: the header is read. Files are described in groups that begin with `nfil`, angles in groups that begin with
`theta1`; all other names are parameters. Numbers are read as numbers. (This also shows that such files can be read.) -/
theorem C144_header [DecidableEq F] {N : Nums F} (L : Laws N) {f : File} (h : f.Ok) {m : Form} (hm : m.Ok) (hf : f.head = m.lines)
    {gs as : List (List (Str × HVal F))}
    (hg : (m.entries N).filter (fun p => p.1 ∈ fileKeys) = gs.flatten) (hgs : Groups "nfil".toList gs)
    (ha : (m.entries N).filter (fun p => p.1 ∈ rotationKeys) = as.flatten) (has : Groups "theta1".toList as) :
    ∃ j, read N f.lines = .ok j ∧ j.title = strip m.title ∧ j.head.blocks = gs.map OD.ofPairs ∧
      j.head.angles = as.map OD.ofPairs ∧
      j.head.params = OD.ofPairs ((m.entries N).filter (fun p => p.1 ∉ fileKeys ∧ p.1 ∉ rotationKeys)) := by
  have e1 : fileKeys = blockKeys := rfl
  have e2 : rotationKeys = angleKeys := rfl
  rw [e1] at hg ⊢
  rw [e2] at ha ⊢
  obtain ⟨head', _, hh, hs, e⟩ := read_file L h
  have hsharp : Sharp f.head := by rw [hf]; exact hm.sharp
  have hfil : (head' ++ f.station :: (f.blocks.flatMap Blk.lines ++ f.tail)).filter (fun l => '#' ∈ l) =
      ('#' :: m.title) :: m.items.map (fun x => itemLine x.1 x.2.1 x.2.2) := by
    have hd : (f.station :: (f.blocks.flatMap Blk.lines ++ f.tail)).filter (fun l => '#' ∈ l) = [] :=
      List.filter_eq_nil_iff.2 (fun l hl => by simpa using (data_noHash h l hl).2)
    rw [List.filter_append, hs hsharp, hd, List.append_nil, hf]
    unfold Form.lines
    rw [List.filter_cons_of_pos (by simp), List.filter_append, List.filter_eq_self.2 (by
      intro l hl
      obtain ⟨x, _, rfl⟩ := List.mem_map.1 hl
      simp [itemLine]), List.filter_eq_nil_iff.2 (by
      intro l hl
      simpa using hm.info l hl), List.append_nil]
  have hB := put_groups "nfil".toList gs ([] : List (OD Str (HVal F))) hgs
  have hA := put_groups "theta1".toList as ([] : List (OD Str (HVal F))) has
  have hrun := head_split (m.entries N) { blocks := [], nb := 0, angles := [], na := 0, params := [] } (gs.map OD.ofPairs)
    (as.map OD.ofPairs) (0 + gs.length) (0 + as.length) (by rw [hg]; exact hB) (by rw [ha]; exact hA)
  have hr : readHeader N (head' ++ f.station :: (f.blocks.flatMap Blk.lines ++ f.tail)) = .ok (strip m.title,
      Head.mk (gs.map OD.ofPairs) (0 + gs.length) (as.map OD.ofPairs) (0 + as.length)
        (OD.ofPairs ((m.entries N).filter (fun p => p.1 ∉ blockKeys ∧ p.1 ∉ angleKeys)))) := by
    unfold readHeader
    rw [hfil]
    simp only [item, List.getElem?_cons_zero, List.drop_succ_cons, List.drop_zero, bind, Except.bind]
    rw [headLines N m.items hm.items]
    have : (m.items.flatMap fun x => x.2.1.map (Item.entry N)) = m.entries N := rfl
    rw [this, hrun]
    rfl
  rw [hr] at e
  exact ⟨_, e, rfl, rfl, rfl, rfl⟩

/-! ## Positions -/

theorem strip_first {l : Str} {c : Char} (h : l.head? = some c) (hc : ws c = false) : (strip l).head? = some c := by
  cases l with
  | nil => simp at h
  | cons x l =>
    have hx : x = c := Option.some.inj h
    subst hx
    unfold strip
    have e : lstrip (x :: l) = x :: l := by simp [lstrip, List.dropWhile, hc]
    rw [e]
    unfold rstrip
    rw [List.reverse_cons, List.dropWhile_append]
    split
    · rename_i h
      simp [List.dropWhile, hc]
    · simp

theorem front_first {l : Str} {c : Char} (h : l.head? = some c) (hc : c ≠ '=') : (front l).head? = some c := by
  cases l with
  | nil => simp at h
  | cons x l =>
    have hx : x = c := Option.some.inj h
    subst hx
    simp [front, hc]

theorem split_head (l : Str) : (splitC '=' l).headD [] = front l := by
  by_cases h : '=' ∈ l
  · obtain ⟨t, h1, h2⟩ := front_split h
    rw [split_front h1 h2]; rfl
  · rw [splitC_none h]
    show l = front l
    have := List.takeWhile_append_of_pos (p := fun c => decide (c ≠ '=')) (l₁ := l) (l₂ := []) (by
      intro c hc
      simp only [decide_eq_true_eq]
      rintro rfl
      exact h hc)
    simpa [front] using this.symm

/-- No text that begins with a mark is a number. -/
def NoNumber (N : Nums F) : Prop := ∀ s, N.parse ('>' :: s) = none ∧ N.parse ('#' :: s) = none

theorem metaLine_zero {N : Nums F} (hn : NoNumber N) {l : Str} (h : l.head? = some '#' ∨ l.head? = some '>') :
    (metaLine N l).2 = N.zero := by
  unfold metaLine
  simp only [split_head]
  have key : ∀ c, (c = '#' ∨ c = '>') → l.head? = some c → N.parse (strip (front (strip l))) = none := by
    intro c hc hl
    have w : ws c = false := by rcases hc with rfl | rfl <;> decide
    have ne : c ≠ '=' := by rcases hc with rfl | rfl <;> decide
    have := strip_first (front_first (strip_first hl w) ne) w
    cases hs : strip (front (strip l)) with
    | nil => rw [hs] at this; simp at this
    | cons x s =>
      rw [hs] at this
      have hx : x = c := Option.some.inj this
      subst hx
      rcases hc with rfl | rfl
      · exact (hn s).2
      · exact (hn s).1
  rcases h with h | h
  · rw [key '#' (Or.inl rfl) h]; rfl
  · rw [key '>' (Or.inr rfl) h]; rfl

theorem fill_zero {κ : Type} [DecidableEq κ] (z : F) : ∀ (l : List (κ × F)) (d : OD κ F), (∀ p ∈ l, p.2 = z) →
    (∀ k x, OD.get? d k = some x → x = z) → ∀ k x, OD.get? (l.foldl (fun d p => OD.set d p.1 p.2) d) k = some x → x = z := by
  intro l
  induction l with
  | nil => intro d _ h; exact h
  | cons p l ih =>
    intro d hp hd
    refine ih _ (fun q hq => hp q (by simp [hq])) ?_
    intro k x hx
    by_cases hk : k = p.1
    · subst hk
      rw [OD.get?_set_self] at hx
      rw [← Option.some.inj hx]
      exact hp p (by simp)
    · rw [OD.get?_set_ne _ _ hk] at hx
      exact hd k x hx

/-- What a user expects of the position in a J file: a line `>LATITUDE = x` gives latitude `x`. -/
def C145_claim : Prop := ∀ (F : Type) (_ : DecidableEq F) (N : Nums F), Laws N → NoNumber N → ∀ (f : File) (j : J F) (x : F), f.Ok →
  (∀ l ∈ f.head, hasSub "lat".toList (lower l) = true → l = ">LATITUDE = ".toList ++ N.show' x) →
  read N f.lines = .ok j → OD.get? j.pos "latitude".toList = some x

/-- C145 (part): whatever the file says, every latitude, longitude, elevation and azimuth that is read is zero. -/
theorem C145_partial [DecidableEq F] {N : Nums F} (L : Laws N) (hn : NoNumber N) {f : File} (h : f.Ok) {j : J F}
    (hj : read N f.lines = .ok j) : ∀ k x, OD.get? j.pos k = some x → x = N.zero := by
  obtain ⟨head', _, hh, _, e⟩ := read_file L h
  rw [e] at hj
  cases hr : readHeader N (head' ++ f.station :: (f.blocks.flatMap Blk.lines ++ f.tail)) with
  | error x => rw [hr] at hj; simp [Except.map] at hj
  | ok th =>
    rw [hr] at hj
    have hj := (Except.ok.inj hj).symm
    subst hj
    show ∀ k x, OD.get? (readMeta N _) k = some x → x = N.zero
    unfold readMeta
    have hf : (head' ++ f.station :: (f.blocks.flatMap Blk.lines ++ f.tail)).filter (fun l => '>' ∈ l) =
        head'.filter (fun l => '>' ∈ l) := by
      rw [List.filter_append]
      have hd : (f.station :: (f.blocks.flatMap Blk.lines ++ f.tail)).filter (fun l => '>' ∈ l) = [] :=
        List.filter_eq_nil_iff.2 (fun l hl => by simpa using (data_noHash h l hl).1)
      rw [hd, List.append_nil]
    rw [hf]
    have := fill_zero N.zero ((head'.filter (fun l => '>' ∈ l)).map (metaLine N)) [] (by
      intro p hp
      obtain ⟨l, hl, rfl⟩ := List.mem_map.1 hp
      exact metaLine_zero hn (hh.marks l (List.mem_filter.1 hl).1)) (by intro k x hx; simp [OD.get?] at hx)
    rw [List.foldl_map] at this
    exact this

/-! ## A concrete case -/

/-- Whole numbers, printed as floats. -/
def decNums : Nums Int :=
  { parse := fun s => match splitC '.' s with
      | [a] => readInt a
      | [a, b] => if b.all (fun c => c = '0') then readInt a else none
      | _ => none
    show' := fun n => showInt n ++ ".0".toList
    zero := 0, big := 1000000
    isMask := fun n => n = -999, isZero := fun n => n = 0, isInf := fun n => n = 1000000000, isNeg := fun n => n < 0
    neg := fun n => -n, inv := fun n => 1000 / n }

theorem decNums_laws : Laws decNums := by
  refine ⟨?_, rfl, rfl, ?_⟩
  · intro n _
    show (match splitC '.' (showInt n ++ ".0".toList) with
      | [a] => readInt a
      | [a, b] => if b.all (fun c => c = '0') then readInt a else none
      | _ => none) = some n
    have hd : '.' ∉ showInt n := by
      intro hm
      rcases mem_showInt hm with e | e
      · exact absurd e (by decide)
      · exact absurd e (by decide)
    have : showInt n ++ ".0".toList = showInt n ++ '.' :: ['0'] := rfl
    rw [this, splitC_append _ hd]
    exact readInt_showInt n
  · intro n hm
    rcases List.mem_append.1 hm with hm | hm
    · rcases mem_showInt hm with e | e <;> exact absurd e (by decide)
    · exact absurd hm (by decide)

theorem decNums_noNumber : NoNumber decNums := by
  have key : ∀ c s, c.isDigit = false → c ≠ '-' → c ≠ '.' → decNums.parse (c :: s) = none := by
    intro c s h1 h2 h3
    have hr : ∀ t, readInt (c :: t) = none := by
      intro t
      unfold readInt
      split
      · next t' e => exact absurd (List.cons.inj e).1 h2
      · unfold parseDigits
        rw [if_neg (by simp [h1])]
        rfl
    show (match splitC '.' (c :: s) with
      | [a] => readInt a
      | [a, b] => if b.all (fun c => c = '0') then readInt a else none
      | _ => none) = none
    rw [splitC_cons_ne _ h3]
    split
    · next a e => rw [← (List.cons.inj e).1]; exact hr _
    · next a b e => rw [← (List.cons.inj e).1, hr, ite_self]
    · rfl
  intro s
  exact ⟨key _ s (by decide) (by decide) (by decide), key _ s (by decide) (by decide) (by decide)⟩

/-- A header like that of BIRRP. -/
def someForm (file : Str) : Form :=
  { title := "BIRRP Version 5".toList
    items := [(0, [⟨"outputs".toList, 2, "2".toList, 0⟩, ⟨"deltat".toList, 0, "4.0".toList, 1⟩], ['\n']),
      (1, [⟨"nfil".toList, 1, "0".toList, 0⟩], ['\n']), (0, [⟨"filnam".toList, 0, file, 0⟩, ⟨"nread".toList, 3, "300".toList, 0⟩], ['\n']),
      (0, [⟨"nfil".toList, 1, "1".toList, 0⟩], ['\n']), (0, [⟨"theta1".toList, 0, "0".toList, 0⟩, ⟨"phi".toList, 0, "90".toList, 0⟩], [])]
    info := [">LATITUDE = 45.0".toList, ">LONGITUDE = 7.0".toList, ">ELEVATION = ".toList] }

def someFile (file : Str) (blocks : List Blk) : File :=
  { head := (someForm file).lines, station := "MT 01".toList, blocks := blocks, tail := ["RXX".toList, "1".toList, " 5 1 2 3".toList] }

def someBlocks : List Blk :=
  [⟨.zxx, "ZXX S.I.".toList, " 3".toList, [" 2.0 10 -3 1 0.5".toList, " 10.0 20 4 2 0.5".toList, " -999 -999 -999 -999".toList]⟩,
   ⟨.tzx, "TZX".toList, "1".toList, ["10 5 6 bad".toList]⟩]

instance (l : Str) : Decidable (Plain l) := by unfold Plain; infer_instance
instance (l : Str) : Decidable (NoMark l) := by unfold NoMark; infer_instance

theorem someBlocks_ok : ∀ b ∈ someBlocks, b.Ok := by
  intro b hb
  rcases List.mem_cons.1 hb with rfl | hb
  · exact ⟨⟨_, _, rfl, rfl⟩, by decide +kernel, by decide +kernel, by decide +kernel, by decide +kernel, by decide +kernel⟩
  · rcases List.mem_cons.1 hb with rfl | hb
    · exact ⟨⟨_, _, rfl, rfl⟩, by decide +kernel, by decide +kernel, by decide +kernel, by decide +kernel, by decide +kernel⟩
    · simp at hb

instance (v l : Str) : Decidable (Named v l) := by unfold Named; infer_instance

/-- The hypotheses of C143 are met. -/
theorem someFile_ok {blocks : List Blk} (h : ∀ b ∈ blocks, b.Ok) : (someFile "a.dat".toList blocks).Ok := by
  refine ⟨show ∀ l ∈ (someForm "a.dat".toList).lines, _ from by decide +kernel,
    show ∀ v ∈ vars, ∃ l ∈ (someForm "a.dat".toList).lines, Named v l from by decide +kernel,
    show ∀ l ∈ (someForm "a.dat".toList).lines, ∀ v ∈ vars, hasSub v (lower l) = true → '=' ∈ l from by decide +kernel,
    show '#' ∉ "MT 01".toList ∧ '>' ∉ "MT 01".toList from by decide +kernel, h,
    show ∀ l ∈ ["RXX".toList, "1".toList, " 5 1 2 3".toList], '#' ∉ l ∧ '>' ∉ l from by decide +kernel, ?_⟩
  intro l hl
  have := Option.some.inj hl
  subst this
  decide +kernel

instance (l : List Str) : Decidable (Sharp l) := by unfold Sharp; infer_instance

/-- The hypotheses of C144 are met. -/
theorem someForm_ok : (someForm "a.dat".toList).Ok := by
  refine ⟨?_, by decide +kernel, by decide +kernel⟩
  intro x hx
  refine ⟨?_, ?_, ?_, ?_⟩
  · revert x; decide +kernel
  · intro it hit
    refine ⟨?_, ?_, ?_, ?_⟩ <;> (revert it; revert x; decide +kernel)
  · revert x; decide +kernel
  · revert x; decide +kernel

example : ∃ gs as, ((someForm "a.dat".toList).entries decNums).filter (fun p => p.1 ∈ fileKeys) = gs.flatten ∧ Groups "nfil".toList gs ∧
    ((someForm "a.dat".toList).entries decNums).filter (fun p => p.1 ∈ rotationKeys) = as.flatten ∧ Groups "theta1".toList as := by
  refine ⟨[[("nfil".toList, .one (.num 0)), ("filnam".toList, .one (.text "a.dat".toList)), ("nread".toList, .one (.num 300))],
    [("nfil".toList, .one (.num 1))]], [[("theta1".toList, .one (.num 0)), ("phi".toList, .one (.num 90))]],
    by decide +kernel, ?_, by decide +kernel, ?_⟩
  · intro g hg
    rcases List.mem_cons.1 hg with rfl | hg
    · exact ⟨_, _, rfl, by decide +kernel⟩
    · rw [List.mem_singleton.1 hg]; exact ⟨_, _, rfl, by simp⟩
  · intro g hg
    rw [List.mem_singleton.1 hg]; exact ⟨_, _, rfl, by decide +kernel⟩

/-- Periods of what is read. -/
def pers (x : Except PyErr (J Int)) : Option (List Int) := x.toOption.map fun j => j.rows.map Row.period

example : pers (read decNums (someFile "a.dat".toList someBlocks).lines) = some [10, 2] := by decide +kernel

theorem of_toOption {α β : Type} {x : Except PyErr α} {g : α → β} {b : β} (h : x.toOption.map g = some b) :
    ∃ a, x = .ok a ∧ g a = b := by
  cases x with
  | error e => simp [Except.toOption] at h
  | ok a => exact ⟨a, rfl, by simpa [Except.toOption] using h⟩

theorem C145_refuted : ¬ C145_claim := by
  intro h
  obtain ⟨j, hj, e⟩ := of_toOption (x := read decNums (someFile "a.dat".toList someBlocks).lines)
    (g := fun j => OD.get? j.pos "latitude".toList) (b := some 0) (by decide +kernel)
  have := h Int inferInstance decNums decNums_laws decNums_noNumber _ j 45 (someFile_ok someBlocks_ok) (by decide +kernel) hj
  rw [this] at e
  exact absurd e (by decide)

/-! ## Order of the periods -/

/-- What a user expects: the periods increase. -/
def C146_claim : Prop := ∀ (f : File) (j : J Int), f.Ok → read decNums f.lines = .ok j → (j.rows.map Row.period).Pairwise (· < ·)

theorem C146_refuted : ¬ C146_claim := by
  intro h
  obtain ⟨j, hj, e⟩ := of_toOption (x := read decNums (someFile "a.dat".toList someBlocks).lines)
    (g := fun j => j.rows.map Row.period) (b := [10, 2]) (by decide +kernel)
  have := h _ j (someFile_ok someBlocks_ok) hj
  rw [e] at this
  exact absurd this (by decide)

/-- C146 (part): the texts of the periods increase as texts (10.0 is in front of 2.0). -/
theorem C146_partial [DecidableEq F] {N : Nums F} (L : Laws N) {f : File} (h : f.Ok) {j : J F} (hj : read N f.lines = .ok j) :
    (j.rows.map fun r => N.show' r.period).Pairwise (fun a b => leText a b = true ∧ a ≠ b) := by
  obtain ⟨head', _, _, _, e⟩ := read_file L h
  rw [e] at hj
  cases hr : readHeader N (head' ++ f.station :: (f.blocks.flatMap Blk.lines ++ f.tail)) with
  | error x => rw [hr] at hj; simp [Except.map] at hj
  | ok th =>
    rw [hr] at hj
    have hj := (Except.ok.inj hj).symm
    subst hj
    obtain ⟨_, p2, p3, p4⟩ := periods_file L f
    simp only [List.map_map]
    have : ((fun r : Row F => N.show' r.period) ∘ fun p => ({ period := p, z := fun c => (f.at' N c p).1, err := fun c => (f.at' N c p).2 } : Row F)) = N.show' := by
      funext p; rfl
    rw [this]
    have hnd : ((periods N (f.data N)).map N.show').Nodup := by
      refine List.Nodup.map_on ?_ p2
      intro x hx y hy e
      have h1 := L.read x (p4 x hx)
      rw [e, L.read y (p4 y hy)] at h1
      exact (Option.some.inj h1).symm
    exact p3.imp₂ (fun a b h1 h2 => ⟨h1, h2⟩) hnd

/-! ## Several values -/

/-- A header line with a name and several values. -/
def listLine (k : Str) (vs : List Str) : Str := '#' :: (k ++ ('=' :: ' ' :: join [' '] vs))

def Word (s : Str) : Prop := s ≠ [] ∧ ∀ c ∈ s, ws c = false ∧ c ≠ '=' ∧ c ≠ ','

/-- What a user expects: all values of a name are read (as for `indices=  1  2  3  4`). -/
def C147_claim : Prop := ∀ (F : Type) (N : Nums F), Laws N → ∀ (k : Str) (v w : Str) (vs : List Str), Word k → Word v → Word w →
  (∀ x ∈ vs, Word x) → readLine N (listLine k (v :: w :: vs)) = .ok [(k, .many ((v :: w :: vs).map (valueOf N)))]

theorem word_facts {s : Str} (h : Word s) : (∀ c ∈ s, ws c = false) ∧ (∀ c ∈ s, c ≠ '=' ∧ c ≠ ' ') ∧ ',' ∉ s ∧ '=' ∉ s := by
  refine ⟨fun c hc => (h.2 c hc).1, fun c hc => ⟨(h.2 c hc).2.1, ?_⟩, fun hm => (h.2 _ hm).2.2 rfl, fun hm => (h.2 _ hm).2.1 rfl⟩
  rintro rfl
  exact absurd (h.2 _ hc).1 (by decide)

theorem words_join : ∀ (vs : List Str), (∀ v ∈ vs, Word v) → words (join [' '] vs) = vs := by
  intro vs
  induction vs with
  | nil => intro _; rfl
  | cons v vs ih =>
    intro h
    have hv := h v (by simp)
    cases vs with
    | nil => exact words_token (word_facts hv).1 hv.1
    | cons w vs =>
      rw [join, List.append_assoc, List.singleton_append, words_mid _ _ (by decide), words_token (word_facts hv).1 hv.1,
        ih (fun x hx => h x (by simp [hx]))]
      rfl

theorem commas_words : ∀ (vs : List Str) (e i : Nat), (∀ v ∈ vs, Word v) → e + 1 ≤ i →
    commas e i (join [' '] vs) = join [','] vs := by
  intro vs
  induction vs with
  | nil => intros; rfl
  | cons v vs ih =>
    intro e i h hi
    have hv := h v (by simp)
    cases vs with
    | nil =>
      have := commas_tok v [] e i (word_facts hv).2.1
      simpa [join, commas] using this
    | cons w vs =>
      have hl : 1 ≤ v.length := List.length_pos_iff.2 hv.1
      rw [join, List.append_assoc, List.singleton_append, commas_tok _ _ _ _ (word_facts hv).2.1, commas, if_neg (by decide),
        if_pos rfl, if_neg (by omega), ih e _ (fun x hx => h x (by simp [hx])) (by omega), join]
      simp

theorem entries_skip (N : Nums F) (st : OD Str (HVal F) × Str) : ∀ (vs : List Str), (∀ v ∈ vs, Word v) →
    vs.foldlM (entry N) st = .ok st := by
  intro vs
  induction vs with
  | nil => intro _; rfl
  | cons v vs ih =>
    intro h
    have : entry N st v = .ok st := by
      unfold entry; rw [splitC_none (word_facts (h v (by simp))).2.2.2]
    rw [List.foldlM_cons, this]
    exact ih (fun x hx => h x (by simp [hx]))

/-- C147 (part): of several values only the first is read. -/
theorem C147_partial (N : Nums F) {k v : Str} {vs : List Str} (hk : Word k) (hv : Word v) (hvs : ∀ x ∈ vs, Word x) :
    readLine N (listLine k (v :: vs)) = .ok [(k, .one (valueOf N v))] := by
  have hall : ∀ x ∈ v :: vs, Word x := by
    intro x hx
    rcases List.mem_cons.1 hx with rfl | hx
    · exact hv
    · exact hvs x hx
  have hl : 1 ≤ v.length := List.length_pos_iff.2 hv.1
  unfold readLine listLine
  have hw : words ((k ++ ('=' :: ' ' :: join [' '] (v :: vs)))) = (k ++ ['=']) :: v :: vs := by
    rw [show k ++ ('=' :: ' ' :: join [' '] (v :: vs)) = (k ++ ['=']) ++ ' ' :: join [' '] (v :: vs) by simp,
      words_mid _ _ (by decide), words_join _ hall, words_token (by
        intro c hc
        rcases List.mem_append.1 hc with hc | hc
        · exact (word_facts hk).1 c hc
        · rw [List.mem_singleton.1 hc]; decide) (by simp)]
    rfl
  have hc : commas 0 0 (join [' '] ((k ++ ['=']) :: v :: vs)) = join [','] ((k ++ '=' :: v) :: vs) := by
    have e : join [' '] ((k ++ ['=']) :: v :: vs) = k ++ '=' :: ' ' :: join [' '] (v :: vs) := by simp [join]
    rw [e, commas_tok _ _ _ _ (word_facts hk).2.1, commas, if_pos rfl, commas, if_neg (by decide), if_pos rfl, if_pos (by omega),
      commas_words _ _ _ hall (by omega)]
    cases vs with
    | nil => simp [join]
    | cons w vs => simp [join]
  rw [List.drop_succ_cons, List.drop_zero, hw, hc, splitC_join (by simp) (by
    intro p hp
    rcases List.mem_cons.1 hp with rfl | hp
    · intro hm
      rcases List.mem_append.1 hm with hm | hm
      · exact (word_facts hk).2.2.1 hm
      · rcases List.mem_cons.1 hm with hm | hm
        · exact absurd hm (by decide)
        · exact (word_facts hv).2.2.1 hm
    · exact (word_facts (hvs p hp)).2.2.1)]
  have he : entry N ([], "null".toList) (k ++ '=' :: v) = .ok ([(k, .one (valueOf N v))], k) := by
    unfold entry
    rw [splitC_append _ (word_facts hk).2.2.2, splitC_none (word_facts hv).2.2.2]
    simp only [atom_eq]
    rfl
  rw [List.foldlM_cons, he]
  show (List.foldlM (entry N) ([(k, .one (valueOf N v))], k) vs).map Prod.fst = _
  rw [entries_skip N _ vs hvs]
  rfl

instance (s : Str) : Decidable (Word s) := by unfold Word; infer_instance

theorem C147_refuted : ¬ C147_claim := by
  intro h
  have h1 := h Int decNums decNums_laws "indices".toList "1".toList "2".toList ["3".toList] (by decide +kernel) (by decide +kernel)
    (by decide +kernel) (by decide +kernel)
  rw [C147_partial decNums (by decide +kernel) (by decide +kernel) (by decide +kernel)] at h1
  exact absurd h1 (by simp)

/-! ## Lines changed before reading -/

/-- What a user expects: making positions readable changes no comment line. -/
def C148_claim : Prop := ∀ (F : Type) (N : Nums F), Laws N → ∀ (f : File) (lines : List Str), f.Ok → validate N f.lines = .ok lines →
  lines.filter (fun l => '#' ∈ l) = f.head.filter (fun l => '#' ∈ l)

/-- C148 (part): so it is if no comment line contains `lat`, `lon` or `elev`. -/
theorem C148_partial [DecidableEq F] {N : Nums F} (L : Laws N) {f : File} (h : f.Ok) (hs : Sharp f.head) {lines : List Str}
    (hl : validate N f.lines = .ok lines) : lines.filter (fun l => '#' ∈ l) = f.head.filter (fun l => '#' ∈ l) := by
  obtain ⟨head', e, _, k, _⟩ := read_file L h
  rw [e] at hl
  rw [← Except.ok.inj hl, List.filter_append, k hs]
  have hd : (f.station :: (f.blocks.flatMap Blk.lines ++ f.tail)).filter (fun l => '#' ∈ l) = [] :=
    List.filter_eq_nil_iff.2 (fun l hl => by simpa using (data_noHash h l hl).2)
  rw [hd, List.append_nil]

/-- The data of a long period station. -/
def longFile : File := someFile "/data/long/mt01.txt".toList someBlocks

theorem longFile_ok : longFile.Ok := by
  refine ⟨by decide +kernel, by decide +kernel, by decide +kernel, by decide +kernel, someBlocks_ok, by decide +kernel, ?_⟩
  intro l hl
  have := Option.some.inj hl
  subst this
  decide +kernel

theorem C148_refuted : ¬ C148_claim := by
  intro h
  obtain ⟨ls, hl, e⟩ := of_toOption (x := validate decNums longFile.lines)
    (g := fun ls => decide (ls.filter (fun l => '#' ∈ l) = longFile.head.filter (fun l => '#' ∈ l))) (b := false) (by decide +kernel)
  have := h Int decNums decNums_laws _ ls longFile_ok hl
  rw [decide_eq_true this] at e
  exact absurd e (by decide)

/-- The name of the file and the number of samples are lost. -/
example : (read decNums longFile.lines).toOption.map (fun j => j.head.blocks.map fun b => OD.get? b "nread".toList) = some [none, none] := by
  decide +kernel

/-- What a user expects: files without a position are read as well. -/
def C148_nopos_claim : Prop := ∀ (F : Type) (N : Nums F), Laws N → ∀ (station : Str), '#' ∉ station → '>' ∉ station →
  ∃ j, read N ["#title".toList, station, "ZXX".toList, "1".toList, "2 1 1 1".toList] = .ok j

theorem C148_nopos_refuted : ¬ C148_nopos_claim := by
  intro h
  obtain ⟨j, hj⟩ := h Int decNums decNums_laws "Colonia".toList (by decide) (by decide)
  have : (read decNums ["#title".toList, "Colonia".toList, "ZXX".toList, "1".toList, "2 1 1 1".toList]).toOption.isSome = false := by
    decide +kernel
  rw [hj] at this
  exact absurd this (by simp [Except.toOption])

/-! ## Transfer functions from J files -/

/-- What a user expects: a J file that can be read gives a transfer function. -/
def C149_claim : Prop := ∀ (F : Type) (N : Nums F), Laws N → ∀ (f : File) (j : J F), f.Ok → read N f.lines = .ok j →
  ∃ r, toTf N f.lines = .ok (j, r)

/-- C149 (part): so it is if the time step is given and not zero; the sample rate is its inverse, or its absolute value if it
is negative. Otherwise there is a division by zero. -/
theorem C149_partial {N : Nums F} {lines : List Str} {j : J F} (hj : read N lines = .ok j) :
    (∀ x, OD.get? j.head.params "deltat".toList = some (.one (.num x)) → N.isNeg x = true → toTf N lines = .ok (j, N.neg x)) ∧
    (∀ x, OD.get? j.head.params "deltat".toList = some (.one (.num x)) → N.isNeg x = false → N.isZero x = false →
      toTf N lines = .ok (j, N.inv x)) ∧
    (OD.get? j.head.params "deltat".toList = none → N.isNeg N.zero = false → N.isZero N.zero = true →
      toTf N lines = .error .zeroDivisionError) := by
  refine ⟨?_, ?_, ?_⟩
  · intro x hx hn
    have : deltat N j = .ok x := by unfold deltat; rw [hx]
    simp [toTf, sampleRate, this, hj, hn, bind, Except.bind]
  · intro x hx hn hz
    have : deltat N j = .ok x := by unfold deltat; rw [hx]
    simp [toTf, sampleRate, this, hj, hn, hz, bind, Except.bind]
  · intro hx hn hz
    have : deltat N j = .ok N.zero := by unfold deltat; rw [hx]
    simp [toTf, sampleRate, this, hj, hn, hz, bind, Except.bind]

def plainForm : Form :=
  { title := "written by hand".toList, items := []
    info := [">LATITUDE = 45.0".toList, ">LONGITUDE = 7.0".toList, ">ELEVATION = ".toList] }

def plainFile (blocks : List Blk) : File :=
  { head := plainForm.lines, station := "MT 01".toList, blocks := blocks, tail := [] }

theorem plainFile_ok {blocks : List Blk} (h : ∀ b ∈ blocks, b.Ok) : (plainFile blocks).Ok := by
  refine ⟨show ∀ l ∈ plainForm.lines, _ from by decide +kernel,
    show ∀ v ∈ vars, ∃ l ∈ plainForm.lines, Named v l from by decide +kernel,
    show ∀ l ∈ plainForm.lines, ∀ v ∈ vars, hasSub v (lower l) = true → '=' ∈ l from by decide +kernel,
    show '#' ∉ "MT 01".toList ∧ '>' ∉ "MT 01".toList from by decide +kernel, h, fun l hl => absurd hl (by simp [plainFile]), ?_⟩
  intro l hl
  simp [plainFile] at hl

theorem C149_refuted : ¬ C149_claim := by
  intro h
  obtain ⟨j, hj, e⟩ := of_toOption (x := read decNums (plainFile someBlocks).lines)
    (g := fun j => OD.get? j.head.params "deltat".toList) (b := none) (by decide +kernel)
  obtain ⟨r, hr⟩ := h Int decNums decNums_laws _ j (plainFile_ok someBlocks_ok) hj
  rw [(C149_partial hj).2.2 e rfl rfl] at hr
  simp at hr

example : (toTf decNums (someFile "a.dat".toList someBlocks).lines).toOption.map Prod.snd = some 250 := by decide +kernel

/-! ## All blocks of a file -/

/-- A block of apparent resistivities. -/
def rhoLines : List Str := ["RXX".toList, "1".toList, "2 5 6 7 8".toList]

/-- What a user expects: blocks of resistivities do not matter, wherever they are. -/
def C150_claim : Prop := ∀ (f : File) (j : J Int), f.Ok → read decNums f.lines = .ok j →
  ∃ j', read decNums (f.head ++ f.station :: (rhoLines ++ (f.blocks.flatMap Blk.lines ++ f.tail))) = .ok j' ∧
    j'.rows.map Row.period = j.rows.map Row.period

theorem C150_refuted : ¬ C150_claim := by
  intro h
  obtain ⟨j, hj, e⟩ := of_toOption (x := read decNums (plainFile someBlocks).lines)
    (g := fun j => j.rows.map Row.period) (b := [10, 2]) (by decide +kernel)
  obtain ⟨j', hj', e'⟩ := h _ j (plainFile_ok someBlocks_ok) hj
  obtain ⟨j'', hj'', e''⟩ := of_toOption (x := read decNums ((plainFile someBlocks).head ++ (plainFile someBlocks).station ::
    (rhoLines ++ ((plainFile someBlocks).blocks.flatMap Blk.lines ++ (plainFile someBlocks).tail))))
    (g := fun j => j.rows.map Row.period) (b := []) (by decide +kernel)
  rw [hj''] at hj'
  have := Except.ok.inj hj'
  subst this
  rw [e', e] at e''
  exact absurd e'' (by decide)

/-- What a user expects: every component with rows has values. -/
def C150_tipper_claim : Prop := ∀ (f : File) (j : J Int), f.Ok → read decNums f.lines = .ok j → ∀ c, ∀ l ∈ f.rows c,
  decNums.isZero (col decNums l 0) = false → ∃ r ∈ j.rows, r.period = col decNums l 0

def onlyTzy : List Blk := [⟨.tzy, "TZY".toList, "1".toList, ["10 5 6 7".toList]⟩]

theorem onlyTzy_ok : ∀ b ∈ onlyTzy, b.Ok := by
  intro b hb
  rw [List.mem_singleton.1 hb]
  exact ⟨⟨_, _, rfl, rfl⟩, by decide +kernel, by decide +kernel, by decide +kernel, by decide +kernel, by decide +kernel⟩

theorem C150_tipper_refuted : ¬ C150_tipper_claim := by
  intro h
  obtain ⟨j, hj, e⟩ := of_toOption (x := read decNums (plainFile onlyTzy).lines)
    (g := fun j => j.rows.map Row.period) (b := []) (by decide +kernel)
  obtain ⟨r, hr, _⟩ := h _ j (plainFile_ok onlyTzy_ok) hj .tzy "10 5 6 7".toList (by decide +kernel) (by decide +kernel)
  have := List.mem_map_of_mem (f := Row.period) hr
  rw [e] at this
  simp at this

/-- What a user expects: empty lines do not matter. -/
def C150_blank_claim : Prop := ∀ (f : File) (j : J Int), f.Ok → read decNums f.lines = .ok j →
  ∃ j', read decNums (f.head ++ f.station :: (f.blocks.flatMap Blk.lines ++ ["\n".toList])) = .ok j'

theorem C150_blank_refuted : ¬ C150_blank_claim := by
  intro h
  obtain ⟨j, hj, _⟩ := of_toOption (x := read decNums (plainFile onlyTzy).lines)
    (g := fun j => j.rows.map Row.period) (b := []) (by decide +kernel)
  obtain ⟨j', hj'⟩ := h _ j (plainFile_ok onlyTzy_ok) hj
  have : (read decNums ((plainFile onlyTzy).head ++ (plainFile onlyTzy).station ::
    ((plainFile onlyTzy).blocks.flatMap Blk.lines ++ ["\n".toList]))).toOption.isSome = false := by decide +kernel
  rw [hj'] at this
  exact absurd this (by simp [Except.toOption])

/-- C150 (part): blocks of the impedance and of the tipper in front of the resistivities are all read: a period in each row
of a component that is read is among the periods, with the values of that row if it is the last with this period. -/
theorem C150_partial [DecidableEq F] {N : Nums F} (L : Laws N) {f : File} (h : f.Ok) {j : J F} (hj : read N f.lines = .ok j)
    {c : Comp} (hc : c ∈ f.read) {a b : List Str} {l : Str} (hl : f.rows c = a ++ l :: b) (hz : N.isZero (col N l 0) = false)
    (hlast : ∀ x ∈ b, col N x 0 ≠ col N l 0) :
    ∃ r ∈ j.rows, r.period = col N l 0 ∧ r.z c = rowValue N l ∧ r.err c = rowError N l := by
  obtain ⟨_, h2, _, h4⟩ := C143_values L h hj
  have hm := (h2 (col N l 0)).2 ⟨hz, c, hc, l, by rw [hl]; simp, rfl⟩
  obtain ⟨r, hr, e⟩ := List.mem_map.1 hm
  have := h4 r hr c
  have hat : f.rowAt N c (col N l 0) = some l := by
    unfold File.rowAt
    rw [hl, List.reverse_append, List.reverse_cons, List.append_assoc, List.find?_append]
    have : List.find? (fun x => decide (col N x 0 = col N l 0)) b.reverse = none := by
      rw [List.find?_eq_none]
      intro x hx
      simpa using hlast x (by simpa using hx)
    rw [this]
    simp
  rw [e] at this
  unfold File.at' at this
  rw [if_pos hc, hat] at this
  exact ⟨r, hr, e, (Prod.mk.inj this).1, (Prod.mk.inj this).2⟩

end Verif.JFile
