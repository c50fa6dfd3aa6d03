import Verif.Model.LevelBands
import Verif.Props.Processing
import Mathlib.Data.List.Perm.Basic
import Mathlib.Data.List.Perm.Subperm

/-!
Properties C260-C264: the bands of a decimation level.
-/

namespace Verif.LevelBands
open Verif.FreqBand Verif.Processing

/-! ### Sorted lists of numbers -/

theorem sort_eq {l m : List Int} (hp : l.Perm m) (hs : m.Pairwise (· ≤ ·)) :
    pySorted (fun a b => decide (a ≤ b)) l = m := by
  have h1 := pySorted_perm (fun a b : Int => decide (a ≤ b)) l
  have h2 : (pySorted (fun a b : Int => decide (a ≤ b)) l).Pairwise (· ≤ ·) := by
    have := pySorted_pairwise (le := fun a b : Int => decide (a ≤ b))
      (by intro a b c; simp only [decide_eq_true_eq]; exact Int.le_trans)
      (by intro a b; simp only [Bool.or_eq_true, decide_eq_true_eq]; exact Int.le_total a b) l
    exact this.imp (by intro a b h; simpa using h)
  exact (h1.trans hp).eq_of_pairwise (fun a b _ _ => Int.le_antisymm) h2 hs

theorem sort_sorted (l : List Int) :
    (pySorted (fun a b => decide (a ≤ b)) l).Pairwise (· ≤ ·) := by
  have := pySorted_pairwise (le := fun a b : Int => decide (a ≤ b))
    (by intro a b c; simp only [decide_eq_true_eq]; exact Int.le_trans)
    (by intro a b; simp only [Bool.or_eq_true, decide_eq_true_eq]; exact Int.le_total a b) l
  exact this.imp (by intro a b h; simpa using h)

theorem allSome_map (l : List Int) : allSome (l.map some) = some l := by
  induction l with
  | nil => rfl
  | cons x l ih => simp [allSome, ih]

theorem allSome_none (l : List (Option Int)) (h : none ∈ l) : allSome l = none := by
  induction l with
  | nil => simp at h
  | cons x l ih =>
    cases x with
    | none => rfl
    | some x => simp [allSome, ih (by simpa using h)]

theorem sortedBounds_map (l : List Int) :
    sortedBounds (l.map some) = .ok ((pySorted (fun a b => decide (a ≤ b)) l).map some) := by
  unfold sortedBounds
  split
  · rename_i h
    match l, h with
    | [], _ => rfl
    | [x], _ => rfl
    | _ :: _ :: _, h => simp at h
  · rw [allSome_map]

/-! ### C260 -/

/-- Both indices of a band are set, to these. -/
def Has (b : LBand) (p : Int × Int) : Prop := b.band.imin = some p.1 ∧ b.band.imax = some p.2

theorem forall₂_min {bs : List LBand} {ps : List (Int × Int)} (h : List.Forall₂ Has bs ps) :
    bs.map (fun b => b.band.imin) = (ps.map Prod.fst).map some := by
  induction h with
  | nil => rfl
  | cons h _ ih => simp only [List.map_cons, h.1, ih]

theorem forall₂_max {bs : List LBand} {ps : List (Int × Int)} (h : List.Forall₂ Has bs ps) :
    bs.map (fun b => b.band.imax) = (ps.map Prod.snd).map some := by
  induction h with
  | nil => rfl
  | cons h _ ih => simp only [List.map_cons, h.2, ih]

/-- C260: the bounds taken together are those of the bands. -/
def C260_claim : Prop := ∀ (bs : List LBand) (ps : List (Int × Int)), List.Forall₂ Has bs ps →
  ∃ lo hi : List Int, lowerBounds bs = .ok (lo.map some) ∧ upperBounds bs = .ok (hi.map some) ∧
    (lo.zip hi).Perm ps

/-- A band with indices. -/
def mk (lo hi : Int) : LBand :=
  { level := some 0, band := { fmin := lo, fmax := hi, closed := .left, imin := some lo, imax := some hi } }

/-- C260 is false: the bounds of a band inside another are mixed with those of the other. -/
theorem C260_refuted : ¬ C260_claim := by
  intro h
  obtain ⟨lo, hi, h1, h2, hp⟩ := h [mk 1 10, mk 2 3] [(1, 10), (2, 3)]
    (.cons ⟨rfl, rfl⟩ (.cons ⟨rfl, rfl⟩ .nil))
  have e1 : lowerBounds [mk 1 10, mk 2 3] = .ok ([1, 2].map some) := by decide +kernel
  have e2 : upperBounds [mk 1 10, mk 2 3] = .ok ([3, 10].map some) := by decide +kernel
  rw [e1, Except.ok.injEq] at h1
  rw [e2, Except.ok.injEq] at h2
  have inj : Function.Injective (List.map (some : Int → Option Int)) :=
    List.map_injective_iff.2 (Option.some_injective _)
  rw [← inj h1, ← inj h2] at hp
  have := hp.mem_iff (a := ((1 : Int), (3 : Int)))
  simp at this

/-- C260, proved part: each bound list alone is the sorted list of the bounds of the bands. -/
theorem C260_each_partial (bs : List LBand) (ps : List (Int × Int)) (h : List.Forall₂ Has bs ps) :
    ∃ lo hi : List Int, lowerBounds bs = .ok (lo.map some) ∧ upperBounds bs = .ok (hi.map some) ∧
      lo.Perm (ps.map Prod.fst) ∧ lo.Pairwise (· ≤ ·) ∧
      hi.Perm (ps.map Prod.snd) ∧ hi.Pairwise (· ≤ ·) := by
  refine ⟨_, _, ?_, ?_, pySorted_perm (fun a b => decide (a ≤ b)) _, sort_sorted _,
    pySorted_perm (fun a b => decide (a ≤ b)) _, sort_sorted _⟩
  · unfold lowerBounds
    rw [forall₂_min h, sortedBounds_map]
  · unfold upperBounds
    rw [forall₂_max h, sortedBounds_map]

/-- C260, proved part: two or more bands of which one has no index give an error. -/
theorem C260_missing_partial (bs : List LBand) (h : 2 ≤ bs.length) :
    ((∃ b ∈ bs, b.band.imin = none) → lowerBounds bs = .error .typeError) ∧
    ((∃ b ∈ bs, b.band.imax = none) → upperBounds bs = .error .typeError) := by
  refine ⟨?_, ?_⟩ <;> rintro ⟨b, hb, hn⟩
  · unfold lowerBounds sortedBounds
    rw [if_neg (by simp; omega), allSome_none _ (List.mem_map.2 ⟨b, hb, hn⟩)]
  · unfold upperBounds sortedBounds
    rw [if_neg (by simp; omega), allSome_none _ (List.mem_map.2 ⟨b, hb, hn⟩)]

/-- No band is inside another: of two bands one is not after the other at either end. -/
def Ordered (ps : List (Int × Int)) : Prop :=
  ∀ p ∈ ps, ∀ q ∈ ps, (p.1 ≤ q.1 ∧ p.2 ≤ q.2) ∨ (q.1 ≤ p.1 ∧ q.2 ≤ p.2)

theorem zip_sorted (ps : List (Int × Int)) (ho : Ordered ps) :
    ((pySorted (fun a b => decide (a ≤ b)) (ps.map Prod.fst)).zip
      (pySorted (fun a b => decide (a ≤ b)) (ps.map Prod.snd))).Perm ps := by
  have hp := pySorted_perm (fun p q : Int × Int => decide (p.1 + p.2 ≤ q.1 + q.2)) ps
  have hs := pySorted_pairwise (le := fun p q : Int × Int => decide (p.1 + p.2 ≤ q.1 + q.2))
    (by intro a b c; simp only [decide_eq_true_eq]; omega)
    (by intro a b; simp only [Bool.or_eq_true, decide_eq_true_eq]; omega) ps
  generalize pySorted (fun p q : Int × Int => decide (p.1 + p.2 ≤ q.1 + q.2)) ps = S at hp hs
  have hboth : S.Pairwise (fun p q => p.1 ≤ q.1 ∧ p.2 ≤ q.2) := by
    refine hs.imp_of_mem ?_
    intro p q hpm hqm h
    simp only [decide_eq_true_eq] at h
    rcases ho p (hp.mem_iff.1 hpm) q (hp.mem_iff.1 hqm) with h' | h'
    · exact h'
    · omega
  have h1 : pySorted (fun a b => decide (a ≤ b)) (ps.map Prod.fst) = S.map Prod.fst :=
    sort_eq (hp.symm.map _) (List.pairwise_map.2 (hboth.imp (fun h => h.1)))
  have h2 : pySorted (fun a b => decide (a ≤ b)) (ps.map Prod.snd) = S.map Prod.snd :=
    sort_eq (hp.symm.map _) (List.pairwise_map.2 (hboth.imp (fun h => h.2)))
  rw [h1, h2, List.zip_map']
  simpa using hp

/-- C260, proved part: the bounds belong together if no band lies inside another. -/
theorem C260_partial (bs : List LBand) (ps : List (Int × Int)) (h : List.Forall₂ Has bs ps)
    (ho : Ordered ps) :
    ∃ lo hi : List Int, lowerBounds bs = .ok (lo.map some) ∧ upperBounds bs = .ok (hi.map some) ∧
      (lo.zip hi).Perm ps := by
  refine ⟨_, _, ?_, ?_, zip_sorted ps ho⟩
  · unfold lowerBounds
    rw [forall₂_min h, sortedBounds_map]
  · unfold upperBounds
    rw [forall₂_max h, sortedBounds_map]

/-- Overlapping bands, given in falling order. -/
example : List.Forall₂ Has [mk 7 9, mk 2 5, mk 4 8] [(7, 9), (2, 5), (4, 8)] ∧
    Ordered [(7, 9), (2, 5), (4, 8)] :=
  ⟨.cons ⟨rfl, rfl⟩ (.cons ⟨rfl, rfl⟩ (.cons ⟨rfl, rfl⟩ .nil)), by
    intro p hp q hq
    simp only [List.mem_cons, List.not_mem_nil, or_false] at hp hq
    rcases hp with rfl | rfl | rfl <;> rcases hq with rfl | rfl | rfl <;> simp⟩

/-! ### C261 -/

/-- The order of the column: numbers upwards, missing ones last. -/
def LeLast : Option Int → Option Int → Prop
  | some a, some b => a ≤ b
  | _, none => True
  | none, some _ => False

instance : DecidableRel LeLast := fun a b => by
  cases a <;> cases b <;> unfold LeLast <;> infer_instance

theorem leLast_trans (a b c : Option Int) : LeLast a b → LeLast b c → LeLast a c := by
  cases a <;> cases b <;> cases c <;> simp only [LeLast, imp_self, implies_true, false_implies,
    true_implies]
  omega

theorem leLast_total (a b : Option Int) : LeLast a b ∨ LeLast b a := by
  cases a <;> cases b <;> simp only [LeLast, or_self, or_true, true_or]
  omega

/-- What pandas promises: each row number once, rows in order. -/
def SorterOk (s : FrameSorter) : Prop := ∀ keys : List (Option Int),
  (s keys).Perm (List.range keys.length) ∧
    ((s keys).filterMap (fun i => keys[i]?)).Pairwise LeLast

/-- A sorter that keeps the promise. -/
def exSorter : FrameSorter := fun keys =>
  pySorted (fun i j => decide (LeLast (keys.getD i none) (keys.getD j none))) (List.range keys.length)

theorem filterMap_get {α : Type} (keys : List α) (d : α) (l : List Nat)
    (h : ∀ i ∈ l, i < keys.length) :
    l.filterMap (fun i => keys[i]?) = l.map (fun i => keys.getD i d) := by
  induction l with
  | nil => rfl
  | cons i l ih =>
    have hi := h i (by simp)
    rw [List.filterMap_cons_some (f := fun i => keys[i]?) (b := keys[i])
      (by simp [hi]), List.map_cons, ih (fun j hj => h j (by simp [hj]))]
    simp [hi]

theorem exSorter_ok : SorterOk exSorter := by
  intro keys
  have hp : (exSorter keys).Perm (List.range keys.length) := pySorted_perm _ _
  refine ⟨hp, ?_⟩
  rw [filterMap_get keys none _ (by intro i hi; simpa using hp.mem_iff.1 hi), List.pairwise_map]
  have := pySorted_pairwise (le := fun i j => decide (LeLast (keys.getD i none) (keys.getD j none)))
    (by intro a b c; simp only [decide_eq_true_eq]; exact leLast_trans _ _ _)
    (by intro a b; simp only [Bool.or_eq_true, decide_eq_true_eq]; exact leLast_total _ _)
    (List.range keys.length)
  exact this.imp (by intro a b h; simpa using h)

theorem pick_range {α : Type} (rows : List α) :
    (List.range rows.length).filterMap (fun i => rows[i]?) = rows := by
  have key : ∀ (pre rows : List α), (List.range rows.length).filterMap
      (fun i => (pre ++ rows)[i + pre.length]?) = rows := by
    intro pre rows
    induction rows generalizing pre with
    | nil => rfl
    | cons r rows ih =>
      have := ih (pre ++ [r])
      rw [List.length_cons, List.range_succ_eq_map,
        List.filterMap_cons_some (f := fun i => (pre ++ r :: rows)[i + pre.length]?) (b := r)
          (by simp), List.filterMap_map]
      congr 1
      refine Eq.trans ?_ this
      apply List.filterMap_congr
      intro i _
      simp only [Function.comp_apply, List.append_assoc, List.singleton_append, List.length_append,
        List.length_singleton]
      congr 1
      omega
  simpa using key [] rows

theorem filterMap_map_key {α β : Type} (rows : List α) (key : α → β) (idx : List Nat) :
    idx.filterMap (fun i => (rows.map key)[i]?) = (idx.filterMap (fun i => rows[i]?)).map key := by
  rw [List.map_filterMap]
  apply List.filterMap_congr
  intro i _
  simp

/-- What the row of a band has to say. -/
def entries (b : LBand) : Option Int × Option Int × Option Int × ℚ × ℚ :=
  (b.level, b.band.imin, b.band.imax, b.band.fmin, b.band.fmax)

/-- What a row says, the level counted from 0. -/
def said (r : FrameRow) : Option Int × Option Int × Option Int × ℚ × ℚ :=
  (some (r.level - 1), r.lower, r.upper, r.fmin, r.fmax)

theorem rowsOf_ok (bs : List LBand) (h : ∀ b ∈ bs, b.level.isSome) :
    ∃ rows, rowsOf bs = .ok rows ∧ rows.map said = bs.map entries := by
  induction bs with
  | nil => exact ⟨[], rfl, rfl⟩
  | cons b bs ih =>
    obtain ⟨rows, h1, h2⟩ := ih (fun c hc => h c (by simp [hc]))
    obtain ⟨k, hk⟩ := Option.isSome_iff_exists.1 (h b (by simp))
    refine ⟨{ level := k + 1, lower := b.band.imin, upper := b.band.imax,
              fmin := b.band.fmin, fmax := b.band.fmax } :: rows, ?_, ?_⟩
    · unfold rowsOf rowOf
      rw [hk, h1]
    · simp only [List.map_cons, h2, said, entries, hk, Int.add_sub_cancel]

theorem rowsOf_err (bs : List LBand) (h : ∃ b ∈ bs, b.level = none) :
    rowsOf bs = .error .typeError := by
  induction bs with
  | nil => simp at h
  | cons b bs ih =>
    unfold rowsOf rowOf
    cases hl : b.level with
    | none => rfl
    | some k =>
      obtain ⟨c, hc, hn⟩ := h
      have : ∃ b ∈ bs, b.level = none := by
        rcases List.mem_cons.1 hc with rfl | hc
        · rw [hl] at hn; cases hn
        · exact ⟨c, hc, hn⟩
      rw [ih this]

/-- C261: the data frame has one row for each band, with the entries of that band, the level counted
from 1; rows come by rising lower index. The edges are the frequencies of the rows. -/
theorem C261_frame (s : FrameSorter) (hs : SorterOk s) (bs : List LBand)
    (h : ∀ b ∈ bs, b.level.isSome) :
    ∃ rows, bandsFrame s bs = .ok rows ∧ (rows.map said).Perm (bs.map entries) ∧
      rows.Pairwise (fun r r' => LeLast r.lower r'.lower) ∧
      bandEdges s bs = .ok (rows.map (fun r => (r.fmin, r.fmax))) := by
  obtain ⟨rows, h1, h2⟩ := rowsOf_ok bs h
  obtain ⟨p1, p2⟩ := hs (rows.map (fun r => r.lower))
  have hb : bandsFrame s bs =
      .ok ((s (rows.map (fun r => r.lower))).filterMap (fun i => rows[i]?)) := by
    unfold bandsFrame; rw [h1]
  refine ⟨_, hb, ?_, ?_, ?_⟩
  · rw [← h2]
    apply List.Perm.map
    have := p1.filterMap (fun i => rows[i]?)
    rw [List.length_map, pick_range] at this
    exact this
  · rw [filterMap_map_key, List.pairwise_map] at p2
    exact p2
  · unfold bandEdges; rw [hb]

/-- C261: without a decimation level there is no data frame. -/
theorem C261_missing (s : FrameSorter) (bs : List LBand) (h : ∃ b ∈ bs, b.level = none) :
    bandsFrame s bs = .error .typeError ∧ bandEdges s bs = .error .typeError := by
  have : bandsFrame s bs = .error .typeError := by unfold bandsFrame; rw [rowsOf_err bs h]
  exact ⟨this, by unfold bandEdges; rw [this]⟩

example : bandsFrame exSorter [mk 7 9, { level := some 2, band := { fmin := 1, fmax := 3, closed := .left } },
      mk 2 5] =
    .ok [⟨1, some 2, some 5, 2, 5⟩, ⟨1, some 7, some 9, 7, 9⟩, ⟨3, none, none, 1, 3⟩] := by
  decide +kernel

/-! ### C262 -/

theorem count_arange (lo hi k : Int) :
    ((List.range (hi + 1 - lo).toNat).map (fun (i : Nat) => lo + (i : Int))).count k =
      if lo ≤ k ∧ k ≤ hi then 1 else 0 := by
  have hn : ((List.range (hi + 1 - lo).toNat).map (fun (i : Nat) => lo + (i : Int))).Nodup := by
    refine List.Nodup.map ?_ List.nodup_range
    intro a b h
    simp only at h
    omega
  by_cases h : lo ≤ k ∧ k ≤ hi
  · rw [if_pos h]
    refine List.count_eq_one_of_mem hn (List.mem_map.2 ⟨(k - lo).toNat, ?_, ?_⟩)
    · rw [List.mem_range]; omega
    · omega
  · rw [if_neg h, List.count_eq_zero]
    intro hm
    obtain ⟨i, hi', rfl⟩ := List.mem_map.1 hm
    rw [List.mem_range] at hi'
    omega

/-- The harmonic is in the band. -/
def Covers (b : LBand) (k : Int) : Bool :=
  match b.band.imin, b.band.imax with
  | some lo, some hi => decide (lo ≤ k) && decide (k ≤ hi)
  | _, _ => false

theorem bandIndices_count (bs : List LBand)
    (h : ∀ b ∈ bs, b.band.imin.isSome ∧ b.band.imax.isSome) :
    ∃ l, bandIndices (bs.map (fun b => b.band)) = .ok l ∧
      ∀ k, l.count k = bs.countP (fun b => Covers b k) := by
  induction bs with
  | nil => exact ⟨[], rfl, fun k => rfl⟩
  | cons b bs ih =>
    obtain ⟨l, h1, h2⟩ := ih (fun c hc => h c (by simp [hc]))
    obtain ⟨lo, hlo⟩ := Option.isSome_iff_exists.1 (h b (by simp)).1
    obtain ⟨hi, hhi⟩ := Option.isSome_iff_exists.1 (h b (by simp)).2
    have hb : harmonicIndices b.band =
        .ok ((List.range (hi + 1 - lo).toNat).map (fun (k : Nat) => lo + (k : Int))) := by
      unfold harmonicIndices; rw [hlo, hhi]
    refine ⟨(List.range (hi + 1 - lo).toNat).map (fun (k : Nat) => lo + (k : Int)) ++ l, ?_, ?_⟩
    · rw [List.map_cons]
      unfold bandIndices
      rw [hb, h1]
    · intro k
      rw [List.count_append, h2, count_arange, List.countP_cons, Nat.add_comm]
      congr 1
      unfold Covers
      rw [hlo, hhi]
      simp

theorem bandIndices_err (bs : List LBand)
    (h : ∃ b ∈ bs, b.band.imin = none ∨ b.band.imax = none) :
    bandIndices (bs.map (fun b => b.band)) = .error .typeError := by
  induction bs with
  | nil => simp at h
  | cons b bs ih =>
    rw [List.map_cons]
    unfold bandIndices harmonicIndices
    cases hlo : b.band.imin with
    | none => rfl
    | some lo =>
      cases hhi : b.band.imax with
      | none => rfl
      | some hi =>
        obtain ⟨c, hc, hn⟩ := h
        have : ∃ b ∈ bs, b.band.imin = none ∨ b.band.imax = none := by
          rcases List.mem_cons.1 hc with rfl | hc
          · rw [hlo, hhi] at hn; simp at hn
          · exact ⟨c, hc, hn⟩
        rw [ih this]

/-- C262: the harmonic indices of a level are in order, and each is listed once for each band that has
it between its bounds. A band without bounds gives an error. -/
theorem C262_count (bs : List LBand) :
    ((∀ b ∈ bs, b.band.imin.isSome ∧ b.band.imax.isSome) →
      ∃ l, harmonicIndicesOf bs = .ok l ∧ l.Pairwise (· ≤ ·) ∧
        ∀ k, l.count k = bs.countP (fun b => Covers b k)) ∧
    ((∃ b ∈ bs, b.band.imin = none ∨ b.band.imax = none) →
      harmonicIndicesOf bs = .error .typeError) := by
  constructor
  · intro h
    obtain ⟨l, h1, h2⟩ := bandIndices_count bs h
    refine ⟨_, ?_, sort_sorted l, ?_⟩
    · unfold harmonicIndicesOf levelHarmonics; rw [h1]
    · intro k
      rw [← h2 k]
      exact (pySorted_perm _ l).count_eq k
  · intro h
    unfold harmonicIndicesOf levelHarmonics
    rw [bandIndices_err bs h]

/-- C262: no index is listed twice if no two bands share one. -/
theorem C262_once (bs : List LBand) (l : List Int) (h : harmonicIndicesOf bs = .ok l)
    (hd : bs.Pairwise (fun b c => ∀ k, ¬ (Covers b k = true ∧ Covers c k = true))) :
    l.Pairwise (· < ·) ∧ ∀ k, k ∈ l ↔ ∃ b ∈ bs, Covers b k = true := by
  have hall : ∀ b ∈ bs, b.band.imin.isSome ∧ b.band.imax.isSome := by
    intro b hb
    by_contra hc
    have : harmonicIndicesOf bs = .error .typeError := (C262_count bs).2 ⟨b, hb, by
      rcases not_and_or.1 hc with hc | hc
      · exact Or.inl (by simpa using hc)
      · exact Or.inr (by simpa using hc)⟩
    rw [this] at h; cases h
  obtain ⟨l', h1, h2, h3⟩ := (C262_count bs).1 hall
  rw [h, Except.ok.injEq] at h1
  subst h1
  have hle : ∀ k, l.count k ≤ 1 := by
    intro k
    rw [h3 k]
    clear h h2 h3 hall
    induction bs with
    | nil => simp
    | cons b bs ih =>
      rw [List.pairwise_cons] at hd
      rw [List.countP_cons]
      split
      · rename_i hb
        have : bs.countP (fun b => Covers b k) = 0 := by
          rw [List.countP_eq_zero]
          intro c hc hck
          exact hd.1 c hc k ⟨hb, hck⟩
        omega
      · have := ih hd.2
        omega
  have hnd : l.Nodup := List.nodup_iff_count_le_one.2 hle
  refine ⟨?_, ?_⟩
  · refine (h2.and hnd).imp ?_
    rintro a b ⟨h4, h5⟩
    omega
  · intro k
    rw [← List.count_pos_iff, h3 k, List.countP_pos_iff]

example : harmonicIndicesOf [mk 4 5, mk 1 3] = .ok [1, 2, 3, 4, 5] ∧
    harmonicIndicesOf [mk 2 4, mk 1 3] = .ok [1, 2, 2, 3, 3, 4] := by decide +kernel

/-! ### C263 -/

/-- C263: the frequencies of a level are the multiples of its frequency sample interval. -/
theorem C263_interval (rate : ℚ) (n : Nat) (hn : 1 ≤ n) (hr : rate ≠ 0) :
    ∃ fs d, fftFrequencies rate n = .ok fs ∧ sampleInterval rate n = .ok d ∧
      fs.length = n / 2 ∧ ∀ (i : Nat) (f : ℚ), fs[i]? = some f ↔ i < n / 2 ∧ f = i * d := by
  refine ⟨_, rate / n, C58_harmonics n rate hn hr, ?_, by simp, ?_⟩
  · unfold sampleInterval
    rw [if_neg (by omega)]
    simp
  · intro i f
    rw [List.getElem?_map]
    by_cases h : i < n / 2
    · simp only [List.getElem?_range h, Option.map_some, Option.some.injEq, h, true_and]
      rw [mul_div_assoc]
      exact eq_comm
    · rw [List.getElem?_eq_none (by simpa using h)]
      simp [h]

/-- What setting the indices does to a band. -/
structure IsSet (fs : List ℚ) (b c : LBand) : Prop where
  level : c.level = b.level
  fmin : c.band.fmin = b.band.fmin
  fmax : c.band.fmax = b.band.fmax
  bounds : ∃ lo hi, c.band.imin = some lo ∧ c.band.imax = some hi ∧ lo ≤ hi ∧
    ∀ k : Int, (lo ≤ k ∧ k ≤ hi) ↔ ∃ (i : Nat) (f : ℚ), k = i ∧ fs[i]? = some f ∧ Mem b.band f

theorem isSet_of (fs : List ℚ) (hs : fs.Pairwise (· ≤ ·)) (b : LBand) (x : Band ℚ)
    (h : setIndices b.band fs = .ok x) : IsSet fs b { b with band := x } := by
  have hb : b.band.fmin ≤ b.band.fmax := by
    by_contra hc
    have := (C26_total b.band fs).2 (not_le.1 hc)
    unfold setIndices at h
    rw [this] at h
    cases h
  obtain ⟨idx, hi⟩ := (C26_total b.band fs).1 hb
  have hmem := (C26_indices b.band fs idx hi).1
  have hh := C26_harmonics b.band x fs idx hs hi h
  by_cases hex : ∃ f ∈ fs, Mem b.band f
  · obtain ⟨lo, hi', h1, h2, h3, h4⟩ := (C26_set_indices b.band fs hb).2 hex
    rw [h, Except.ok.injEq] at h1
    subst h1
    obtain ⟨f, hf, hm⟩ := h2
    obtain ⟨g, hg, hm'⟩ := h3
    refine ⟨rfl, rfl, rfl, lo, hi', rfl, rfl, ?_, ?_⟩
    · have := (h4 lo f hf hm).2
      omega
    · intro k
      have hk : (lo ≤ k ∧ k ≤ (hi' : Int)) ↔ k ∈ idx.map Int.ofNat := by
        unfold harmonicIndices at hh
        simp only [Except.ok.injEq] at hh
        rw [← hh, List.mem_map]
        constructor
        · intro hk
          exact ⟨(k - lo).toNat, by rw [List.mem_range]; omega, by omega⟩
        · rintro ⟨i, hi1, rfl⟩
          rw [List.mem_range] at hi1
          omega
      rw [hk, List.mem_map]
      constructor
      · rintro ⟨i, hi1, rfl⟩
        obtain ⟨f, hf, hm⟩ := (hmem i).1 hi1
        exact ⟨i, f, rfl, hf, hm⟩
      · rintro ⟨i, f, rfl, hf, hm⟩
        exact ⟨i, (hmem i).2 ⟨f, hf, hm⟩, rfl⟩
  · rw [(C26_set_indices b.band fs hb).1 (by simpa using hex)] at h
    cases h

theorem setAll_isSet (fs : List ℚ) (hs : fs.Pairwise (· ≤ ·)) (bs cs : List LBand)
    (h : setAll fs bs = .ok cs) : List.Forall₂ (IsSet fs) bs cs := by
  induction bs generalizing cs with
  | nil => cases h; exact .nil
  | cons b bs ih =>
    unfold setAll at h
    split at h
    · cases h
    · rename_i x hx
      split at h
      · cases h
      · rename_i xs hxs
        cases h
        exact .cons (isSet_of fs hs b x hx) (ih xs hxs)

theorem forall₂_right {α β : Type} {R : α → β → Prop} {l : List α} {m : List β}
    (h : List.Forall₂ R l m) {y : β} (hy : y ∈ m) : ∃ x ∈ l, R x y := by
  induction h with
  | nil => simp at hy
  | cons h _ ih =>
    rcases List.mem_cons.1 hy with rfl | hy
    · exact ⟨_, by simp, h⟩
    · obtain ⟨x, hx, hr⟩ := ih hy
      exact ⟨x, by simp [hx], hr⟩

theorem forall₂_left {α β : Type} {R : α → β → Prop} {l : List α} {m : List β}
    (h : List.Forall₂ R l m) {x : α} (hx : x ∈ l) : ∃ y ∈ m, R x y :=
  forall₂_right h.flip hx

/-- Every band has a frequency of the level in it, so its indices can be set. -/
theorem setAll_total (fs : List ℚ) (bs : List LBand)
    (h : ∀ b ∈ bs, b.band.fmin ≤ b.band.fmax ∧ ∃ f ∈ fs, Mem b.band f) :
    ∃ cs, setAll fs bs = .ok cs := by
  induction bs with
  | nil => exact ⟨[], rfl⟩
  | cons b bs ih =>
    obtain ⟨cs, hc⟩ := ih (fun c hc => h c (by simp [hc]))
    obtain ⟨hb, he⟩ := h b (by simp)
    obtain ⟨lo, hi, h1, _⟩ := (C26_set_indices b.band fs hb).2 he
    exact ⟨_, by unfold setAll; rw [h1, hc]⟩

/-- One band ends where or before the other begins. -/
def Apart (b c : LBand) : Prop := b.band.fmax ≤ c.band.fmin ∨ c.band.fmax ≤ b.band.fmin

/-- The same, seen in frequencies and indices of entries of the frame. -/
def ApartE (e e' : Option Int × Option Int × Option Int × ℚ × ℚ) : Prop :=
  ∃ lo hi lo' hi', e.2.1 = some lo ∧ e.2.2.1 = some hi ∧ e'.2.1 = some lo' ∧ e'.2.2.1 = some hi' ∧
    lo ≤ hi ∧ lo' ≤ hi' ∧
    ((e.2.2.2.2 ≤ e'.2.2.2.1 ∧ hi < lo') ∨ (e'.2.2.2.2 ≤ e.2.2.2.1 ∧ hi' < lo))

theorem ApartE.symm {e e'} (h : ApartE e e') : ApartE e' e := by
  obtain ⟨lo, hi, lo', hi', h1, h2, h3, h4, h5, h6, h7⟩ := h
  exact ⟨lo', hi', lo, hi, h3, h4, h1, h2, h6, h5, h7.symm⟩

theorem before {fs : List ℚ} (hs : fs.Pairwise (· < ·)) {b c : LBand}
    (hb : b.band.closed = .left) (hc : c.band.closed = .left) (h : b.band.fmax ≤ c.band.fmin)
    {i j : Nat} {f g : ℚ} (hi : fs[i]? = some f) (hj : fs[j]? = some g) (hf : Mem b.band f)
    (hg : Mem c.band g) : i < j := by
  have hlt : f < g := by
    unfold Mem at hf hg
    rw [hb] at hf
    rw [hc] at hg
    simp at hf hg
    exact lt_of_lt_of_le hf.2 (le_trans h hg.1)
  by_contra hn
  rcases Nat.lt_or_eq_of_le (Nat.le_of_not_lt hn) with hlt' | rfl
  · obtain ⟨hi1, hi2⟩ := List.getElem?_eq_some_iff.1 hi
    obtain ⟨hj1, hj2⟩ := List.getElem?_eq_some_iff.1 hj
    have := List.pairwise_iff_getElem.1 hs j i hj1 hi1 hlt'
    rw [hi2, hj2] at this
    exact absurd hlt (not_lt.2 this.le)
  · rw [hi, Option.some.injEq] at hj
    subst hj
    exact lt_irrefl _ hlt

theorem apartE_of {fs : List ℚ} (hs : fs.Pairwise (· < ·)) {b c b' c' : LBand}
    (hb : b.band.closed = .left) (hc : c.band.closed = .left) (h : Apart b c)
    (h1 : IsSet fs b b') (h2 : IsSet fs c c') : ApartE (entries b') (entries c') := by
  obtain ⟨lo, hi, e1, e2, e3, e4⟩ := h1.bounds
  obtain ⟨lo', hi', e1', e2', e3', e4'⟩ := h2.bounds
  refine ⟨lo, hi, lo', hi', e1, e2, e1', e2', e3, e3', ?_⟩
  simp only [entries, h1.fmin, h1.fmax, h2.fmin, h2.fmax]
  rcases h with h | h
  · obtain ⟨i, f, rfl, hf, hm⟩ := (e4 hi).1 ⟨e3, le_refl _⟩
    obtain ⟨j, g, rfl, hg, hm'⟩ := (e4' lo').1 ⟨le_refl _, e3'⟩
    exact Or.inl ⟨h, by exact_mod_cast before hs hb hc h hf hg hm hm'⟩
  · obtain ⟨i, f, rfl, hf, hm⟩ := (e4 lo).1 ⟨le_refl _, e3⟩
    obtain ⟨j, g, rfl, hg, hm'⟩ := (e4' hi').1 ⟨e3', le_refl _⟩
    exact Or.inr ⟨h, by exact_mod_cast before hs hc hb h hg hf hm' hm⟩

theorem apartE_list {fs : List ℚ} (hs : fs.Pairwise (· < ·)) (bs cs : List LBand)
    (hl : ∀ b ∈ bs, b.band.closed = .left) (hd : bs.Pairwise Apart)
    (h : List.Forall₂ (IsSet fs) bs cs) :
    (cs.map entries).Pairwise ApartE := by
  induction h with
  | nil => exact .nil
  | @cons b c bs cs h1 h2 ih =>
    rw [List.pairwise_cons] at hd
    rw [List.map_cons, List.pairwise_cons]
    refine ⟨?_, ih (fun x hx => hl x (by simp [hx])) hd.2⟩
    intro e he
    obtain ⟨c', hc', rfl⟩ := List.mem_map.1 he
    obtain ⟨b', hb', hbc⟩ := forall₂_right h2 hc'
    exact apartE_of hs (hl b (by simp)) (hl b' (by simp [hb'])) (hd.1 b' hb') h1 hbc

/-- C263: for bands closed on the left that do not overlap, with indices from the frequencies of the
level, the band edges come with rising frequency, the bounds taken together are those of the bands,
and the harmonic indices are those of all frequencies in bands, once each. -/
theorem C263_level (s : FrameSorter) (hs : SorterOk s) (fs : List ℚ) (hf : fs.Pairwise (· < ·))
    (bs cs : List LBand) (hl : ∀ b ∈ bs, b.band.closed = .left) (hv : ∀ b ∈ bs, b.level.isSome)
    (hd : bs.Pairwise Apart) (h : setAll fs bs = .ok cs) :
    (∃ edges, bandEdges s cs = .ok edges ∧
      edges.Perm (bs.map (fun b => (b.band.fmin, b.band.fmax))) ∧
      edges.Pairwise (fun x y => x.2 ≤ y.1)) ∧
    (∃ (ps : List (Int × Int)) (lo hi : List Int), List.Forall₂ Has cs ps ∧ lowerBounds cs = .ok (lo.map some) ∧
      upperBounds cs = .ok (hi.map some) ∧ (lo.zip hi).Perm ps) ∧
    (∃ l, harmonicIndicesOf cs = .ok l ∧ l.Pairwise (· < ·) ∧
      ∀ k : Int, k ∈ l ↔ ∃ (i : Nat) (f : ℚ) (b : LBand), k = i ∧ fs[i]? = some f ∧ b ∈ bs ∧
        b.band.fmin ≤ f ∧ f < b.band.fmax) := by
  have hset := setAll_isSet fs (hf.imp le_of_lt) bs cs h
  have hap := apartE_list hf bs cs hl hd hset
  refine ⟨?_, ?_, ?_⟩
  · have hv' : ∀ c ∈ cs, c.level.isSome := by
      intro c hc
      obtain ⟨b, hb, hbc⟩ := forall₂_right hset hc
      rw [hbc.level]
      exact hv b hb
    obtain ⟨rows, h1, h2, h3, h4⟩ := C261_frame s hs cs hv'
    refine ⟨_, h4, ?_, ?_⟩
    · have hm : bs.map (fun b => (b.band.fmin, b.band.fmax)) =
          (cs.map entries).map (fun e => (e.2.2.2.1, e.2.2.2.2)) := by
        clear h1 h2 h3 h4 hap hv hv' hd hl h
        induction hset with
        | nil => rfl
        | cons h _ ih => simp only [List.map_cons, ih, entries, h.fmin, h.fmax]
      rw [hm]
      have := h2.map (fun e => (e.2.2.2.1, e.2.2.2.2))
      rw [List.map_map] at this
      exact this
    · have hr : (rows.map said).Pairwise ApartE :=
        (h2.pairwise_iff (fun {a b} => ApartE.symm)).2 hap
      rw [List.pairwise_map] at hr ⊢
      refine (h3.and hr).imp ?_
      rintro r r' ⟨hle, lo, hi, lo', hi', e1, e2, e3, e4, e5, e6, e7⟩
      simp only [said] at e1 e2 e3 e4 e7
      rw [e1, e3] at hle
      simp only [LeLast] at hle
      rcases e7 with e7 | e7
      · exact e7.1
      · omega
  · have hps : ∃ ps, List.Forall₂ Has cs ps := by
      clear hap hv hd hl h
      induction hset with
      | nil => exact ⟨[], .nil⟩
      | cons h _ ih =>
        obtain ⟨ps, hps⟩ := ih
        obtain ⟨lo, hi, e1, e2, _⟩ := h.bounds
        exact ⟨(lo, hi) :: ps, .cons ⟨e1, e2⟩ hps⟩
    obtain ⟨ps, hps⟩ := hps
    have ho : Ordered ps := by
      have hpw : ps.Pairwise (fun p q => (p.1 ≤ q.1 ∧ p.2 ≤ q.2) ∨ (q.1 ≤ p.1 ∧ q.2 ≤ p.2)) := by
        clear hset hv hd hl h
        induction hps with
        | nil => exact .nil
        | @cons c p cs ps h1 h2 ih =>
          rw [List.map_cons, List.pairwise_cons] at hap
          rw [List.pairwise_cons]
          refine ⟨?_, ih hap.2⟩
          intro q hq
          obtain ⟨c', hc', hq'⟩ := forall₂_right h2 hq
          obtain ⟨lo, hi, lo', hi', e1, e2, e3, e4, e5, e6, e7⟩ :=
            hap.1 _ (List.mem_map.2 ⟨c', hc', rfl⟩)
          simp only [entries] at e1 e2 e3 e4 e7
          rw [h1.1, Option.some.injEq] at e1
          rw [h1.2, Option.some.injEq] at e2
          rw [hq'.1, Option.some.injEq] at e3
          rw [hq'.2, Option.some.injEq] at e4
          omega
      haveI : Std.Symm (fun p q : Int × Int =>
          (p.1 ≤ q.1 ∧ p.2 ≤ q.2) ∨ (q.1 ≤ p.1 ∧ q.2 ≤ p.2)) := ⟨fun _ _ h => h.symm⟩
      intro p hp q hq
      exact List.Pairwise.forall_of_forall (R := fun p q : Int × Int =>
          (p.1 ≤ q.1 ∧ p.2 ≤ q.2) ∨ (q.1 ≤ p.1 ∧ q.2 ≤ p.2))
        (fun _ _ => Or.inl ⟨le_refl _, le_refl _⟩) hpw hp hq
    obtain ⟨lo, hi, h1, h2, h3⟩ := C260_partial cs ps hps ho
    exact ⟨ps, lo, hi, hps, h1, h2, h3⟩
  · have hall : ∀ c ∈ cs, c.band.imin.isSome ∧ c.band.imax.isSome := by
      intro c hc
      obtain ⟨b, hb, hbc⟩ := forall₂_right hset hc
      obtain ⟨lo, hi, e1, e2, _⟩ := hbc.bounds
      rw [e1, e2]
      exact ⟨rfl, rfl⟩
    obtain ⟨l, h1, _⟩ := (C262_count cs).1 hall
    have hdis : cs.Pairwise (fun b c => ∀ k, ¬ (Covers b k = true ∧ Covers c k = true)) := by
      rw [List.pairwise_map] at hap
      refine hap.imp ?_
      rintro b c ⟨lo, hi, lo', hi', e1, e2, e3, e4, e5, e6, e7⟩ k ⟨k1, k2⟩
      simp only [entries] at e1 e2 e3 e4 e7
      unfold Covers at k1 k2
      rw [e1, e2] at k1
      rw [e3, e4] at k2
      simp only [Bool.and_eq_true, decide_eq_true_eq] at k1 k2
      omega
    obtain ⟨h2, h3⟩ := C262_once cs l h1 hdis
    refine ⟨l, h1, h2, ?_⟩
    intro k
    rw [h3 k]
    constructor
    · rintro ⟨c, hc, hk⟩
      obtain ⟨b, hb, hbc⟩ := forall₂_right hset hc
      obtain ⟨lo, hi, e1, e2, _, e4⟩ := hbc.bounds
      unfold Covers at hk
      rw [e1, e2] at hk
      simp only [Bool.and_eq_true, decide_eq_true_eq] at hk
      obtain ⟨i, f, hi1, hi2, hm⟩ := (e4 k).1 hk
      unfold Mem at hm
      rw [hl b hb] at hm
      exact ⟨i, f, b, hi1, hi2, hb, hm.1, hm.2⟩
    · rintro ⟨i, f, b, hi1, hi2, hb, hm⟩
      obtain ⟨c, hc, hbc⟩ := forall₂_left hset hb
      obtain ⟨lo, hi, e1, e2, _, e4⟩ := hbc.bounds
      refine ⟨c, hc, ?_⟩
      unfold Covers
      rw [e1, e2]
      simp only [Bool.and_eq_true, decide_eq_true_eq]
      exact (e4 k).2 ⟨i, f, hi1, hi2, by unfold Mem; rw [hl b hb]; exact hm⟩

/-- A band by its frequencies. -/
def byFreq (lo hi : ℚ) : LBand :=
  { level := some 0, band := { fmin := lo, fmax := hi, closed := .left } }

/-- Two bands that share an edge, given in falling order, on the frequencies of 16 samples. -/
example : fftFrequencies 16 16 = .ok [0, 1, 2, 3, 4, 5, 6, 7] ∧
    setAll [0, 1, 2, 3, 4, 5, 6, 7] [byFreq 3 6, byFreq 1 3] =
      .ok [{ byFreq 3 6 with band := { fmin := 3, fmax := 6, closed := .left, imin := some 3, imax := some 5 } },
           { byFreq 1 3 with band := { fmin := 1, fmax := 3, closed := .left, imin := some 1, imax := some 2 } }] ∧
    [byFreq 3 6, byFreq 1 3].Pairwise Apart := by
  refine ⟨by decide +kernel, by decide +kernel, ?_⟩
  simp [Apart, byFreq]

/-! ### C264 -/

variable {D : Type}

/-- C264: a band or dictionary alone counts as a list of it; other single values are refused. -/
theorem C264_single (fromDict : D → Except PyErr LBand) (b : LBand) (d : D) :
    setBands fromDict (.one (.band b)) = .ok [b] ∧
    setBands fromDict (.one (.dict d)) = setBands fromDict (.list [.dict d]) ∧
    setBands fromDict (.one .other) = .error .typeError := ⟨rfl, rfl, rfl⟩

/-- An entry gives this band. -/
def Gives (fromDict : D → Except PyErr LBand) (i : Item D) (b : LBand) : Prop :=
  i = .band b ∨ ∃ d, i = .dict d ∧ fromDict d = .ok b

theorem cast_ok (fromDict : D → Except PyErr LBand) (i : Item D) (b : LBand) :
    cast fromDict i = .ok b ↔ Gives fromDict i b := by
  unfold Gives
  cases i <;> simp [cast]

/-- C264: a list is accepted iff every entry is a band or a dictionary of a band; the bands of the
level are then those of the entries, in the same order. -/
theorem C264_list (fromDict : D → Except PyErr LBand) (l : List (Item D)) (bs : List LBand) :
    setBands fromDict (.list l) = .ok bs ↔ List.Forall₂ (Gives fromDict) l bs := by
  change castAll fromDict l = .ok bs ↔ _
  induction l generalizing bs with
  | nil =>
    simp only [castAll, Except.ok.injEq, List.forall₂_nil_left_iff]
    exact eq_comm
  | cons i l ih =>
    unfold castAll
    rw [List.forall₂_cons_left_iff]
    cases hi : cast fromDict i with
    | error e =>
      simp only [reduceCtorEq, false_iff, not_exists]
      rintro b r ⟨hg, _⟩
      rw [(cast_ok fromDict i b).2 hg] at hi
      cases hi
    | ok b =>
      cases hc : castAll fromDict l with
      | error e =>
        simp only [reduceCtorEq, false_iff, not_exists]
        rintro b r ⟨_, hr, _⟩
        rw [(ih r).2 hr] at hc
        cases hc
      | ok cs =>
        simp only [Except.ok.injEq]
        constructor
        · rintro rfl
          exact ⟨b, cs, (cast_ok fromDict i b).1 hi, (ih cs).1 hc, rfl⟩
        · rintro ⟨b', r, hg, hr, rfl⟩
          have h1 := (cast_ok fromDict i b').2 hg
          rw [hi, Except.ok.injEq] at h1
          have h2 := (ih r).2 hr
          rw [hc, Except.ok.injEq] at h2
          rw [h1, h2]

/-- C264: adding entries one by one to a level without bands gives what assigning the list gives. -/
theorem C264_add (fromDict : D → Except PyErr LBand) (l : List (Item D)) (bs : List LBand) :
    l.foldlM (addBand fromDict) ([] : List LBand) = .ok bs ↔
      setBands fromDict (.list l) = .ok bs := by
  have key : ∀ (l : List (Item D)) (pre : List LBand),
      l.foldlM (addBand fromDict) pre = (castAll fromDict l).map (fun x => pre ++ x) := by
    intro l
    induction l with
    | nil => intro pre; simp [castAll, Except.map, pure, Except.pure]
    | cons i l ih =>
      intro pre
      rw [List.foldlM_cons]
      unfold addBand castAll
      cases cast fromDict i with
      | error e => rfl
      | ok b =>
        change l.foldlM (addBand fromDict) (pre ++ [b]) = _
        rw [ih]
        cases castAll fromDict l with
        | error e => rfl
        | ok cs => simp [Except.map]
  rw [key]
  change _ ↔ castAll fromDict l = .ok bs
  cases castAll fromDict l <;> simp [Except.map]

example : List.Forall₂ (Gives (fun d : Int => .ok (mk d (d + 1)))) [.band (mk 1 2), .dict 5]
    [mk 1 2, mk 5 6] := .cons (.inl rfl) (.cons (.inr ⟨5, rfl, rfl⟩) .nil)

end Verif.LevelBands
