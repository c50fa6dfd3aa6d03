import Verif.Model.TfMerge
import Verif.Lemmas.Sorted
import Verif.Lemmas.OD
import Mathlib.Data.List.Basic
import Mathlib.Data.List.Perm.Basic
import Mathlib.Data.List.Pairwise
import Mathlib.Data.List.Forall2
import Mathlib.Data.Nat.Basic
import Mathlib.Tactic.ByContra
import Mathlib.Tactic.SplitIfs

/-!
# Merging, comparing and naming transfer functions

`merge` of `mt_metadata/transfer_functions/core.py` (C166-C172), `__eq__` (C173) and the names and formats of files (C174,
C175).
-/

namespace Verif.TfMerge

open Verif.Tf

variable {P R : Type} [LinearOrder P]

/-! ## What merging should do -/

/-- The rows of a data set within bounds. -/
def within (d : Rows P R) (lo hi : Option P) : Rows P R :=
  d.filter fun r => decide ((∀ x, lo = some x → x ≤ r.1) ∧ (∀ x, hi = some x → r.1 ≤ x))

/-- The rows of an item that are to be merged. -/
def chosen : Item P R → Rows P R
  | .tf d => d
  | .dict d lo hi => within d lo hi
  | _ => []

/-- Items that `merge` takes. -/
def Valid : Item P R → Prop
  | .tf _ => True
  | .dict _ _ _ => True
  | _ => False

def Ascending (d : Rows P R) : Prop := d.Pairwise fun a b => a.1 ≤ b.1

def Descending (d : Rows P R) : Prop := d.Pairwise fun a b => b.1 ≤ a.1

/-- Some row has the least period. -/
def Least (d : Rows P R) (p : P) : Prop := p ∈ periods d ∧ ∀ q ∈ periods d, p ≤ q

/-- No two data sets begin with the same period. -/
def Distinct (l : List (Rows P R)) : Prop := l.Pairwise fun a b => ∀ p, Least a p → ¬ Least b p

/-- The periods of any two data sets do not overlap. -/
def Apart (l : List (Rows P R)) : Prop :=
  l.Pairwise fun a b => (∀ x ∈ a, ∀ y ∈ b, x.1 < y.1) ∨ (∀ x ∈ a, ∀ y ∈ b, y.1 < x.1)

/-! ## Slices -/

theorem inside_eq (lo hi : Option P) (p : P) :
    inside lo hi p = decide ((∀ x, lo = some x → x ≤ p) ∧ (∀ x, hi = some x → p ≤ x)) := by
  cases lo <;> cases hi <;> simp [inside]

theorem take_countP {α : Type} (r : α → Bool) (l : List α) (h : l.Pairwise fun a b => r b = true → r a = true) :
    l.take (l.countP r) = l.filter r ∧ l.drop (l.countP r) = l.filter fun x => !r x := by
  induction l with
  | nil => simp
  | cons a l ih =>
    rw [List.pairwise_cons] at h
    obtain ⟨h1, h2⟩ := ih h.2
    by_cases ha : r a = true
    · simp [ha, h1, h2]
    · have hn : ∀ b ∈ l, r b = false := fun b hb => by
        by_contra hc; exact ha (h.1 b hb (by simpa using hc))
      have h0 : l.countP r = 0 := by rw [List.countP_eq_zero]; intro b hb; simp [hn b hb]
      have hf : l.filter r = [] := by
        rw [List.filter_eq_nil_iff]; intro b hb; simp [hn b hb]
      have hf2 : (l.filter fun x => !r x) = l := by
        rw [List.filter_eq_self]; intro b hb; simp [hn b hb]
      simp [ha, h0, hf, hf2]

theorem slice_eq {α : Type} (q r : α → Bool) (l : List α) (hq : l.Pairwise fun a b => q b = true → q a = true)
    (hr : l.Pairwise fun a b => r b = true → r a = true)
    (h : (∀ x ∈ l, q x = true → r x = true) ∨ (∀ x ∈ l, r x = true → q x = true)) :
    (l.take (l.countP r)).drop (l.countP q) = l.filter fun x => r x && !q x := by
  rw [(take_countP r l hr).1]
  have h3 : (l.filter r).Pairwise fun a b => q b = true → q a = true := hq.filter r
  rcases h with h | h
  · have hc : l.countP q = (l.filter r).countP q := by
      rw [List.countP_filter]
      apply List.countP_congr
      intro x hx; simp only [Bool.and_eq_true]; exact ⟨fun e => ⟨e, h x hx e⟩, fun e => e.1⟩
    rw [hc, (take_countP q _ h3).2, List.filter_filter]
    apply List.filter_congr; intro x hx; rw [Bool.and_comm]
  · have hle : (l.filter r).length ≤ l.countP q := by
      rw [← List.countP_eq_length_filter]
      exact List.countP_mono_left h
    rw [List.drop_eq_nil_of_le hle]
    symm; rw [List.filter_eq_nil_iff]
    intro x hx hc
    simp only [Bool.and_eq_true, Bool.not_eq_true'] at hc
    have := h x hx hc.1; rw [hc.2] at this; cases this

omit [LinearOrder P] in
theorem countP_periods (d : Rows P R) (f : P → Bool) : (periods d).countP f = d.countP fun r => f r.1 := by
  unfold periods; rw [List.countP_map]; rfl

theorem incr_iff (d : Rows P R) : incr (periods d) = true ↔ Ascending d := by
  simp [incr, periods, Ascending, List.pairwise_map]

theorem decr_iff (d : Rows P R) : decr (periods d) = true ↔ Descending d := by
  simp [decr, periods, Descending, List.pairwise_map]

/-- Bounds on ascending periods. -/
theorem getSlice_ascending (d : Rows P R) (lo hi : Option P) (h : Ascending d) : getSlice d lo hi = within d lo hi := by
  have hi' : incr (periods d) = true := (incr_iff d).2 h
  have key : getSlice d lo hi =
      (d.take (match hi with | none => d.length | some x => d.countP fun r => decide (r.1 ≤ x))).drop
        (match lo with | none => 0 | some x => d.countP fun r => decide (r.1 < x)) := by
    cases lo <;> cases hi <;> simp [getSlice, loc, bound, hi', countP_periods]
  rw [key]
  have h1 : ∀ x : P, d.Pairwise fun a b => decide (b.1 ≤ x) = true → decide (a.1 ≤ x) = true := fun x =>
    h.imp fun {a b} hab hb => by simpa using le_trans hab (of_decide_eq_true hb)
  have h2 : ∀ x : P, d.Pairwise fun a b => decide (b.1 < x) = true → decide (a.1 < x) = true := fun x =>
    h.imp fun {a b} hab hb => by simpa using lt_of_le_of_lt hab (of_decide_eq_true hb)
  cases lo with
  | none =>
    cases hi with
    | none => simp [within]
    | some y =>
      simp only [List.drop_zero]
      rw [(take_countP _ d (h1 y)).1]
      unfold within
      apply List.filter_congr; intro r _; rw [Bool.eq_iff_iff]; simp
  | some x =>
    cases hi with
    | none =>
      simp only [List.take_length]
      rw [(take_countP _ d (h2 x)).2]
      unfold within
      apply List.filter_congr; intro r _; rw [Bool.eq_iff_iff]; simp [and_comm]
    | some y =>
      simp only
      rw [slice_eq (fun r : P × R => decide (r.1 < x)) (fun r => decide (r.1 ≤ y)) d (h2 x) (h1 y)]
      · unfold within
        apply List.filter_congr; intro r _; rw [Bool.eq_iff_iff]; simp [and_comm]
      · rcases le_total x y with hxy | hxy
        · left; intro r _ hr; simpa using le_of_lt (lt_of_lt_of_le (of_decide_eq_true hr) hxy)
        · by_cases he : x = y
          · left; intro r _ hr; rw [← he]; simpa using le_of_lt (of_decide_eq_true hr)
          · right; intro r _ hr
            simpa using lt_of_le_of_lt (of_decide_eq_true hr) (lt_of_le_of_ne hxy (Ne.symm he))

/-- Bounds on descending periods that are not all the same: the bounds are taken the other way round. -/
theorem getSlice_descending (d : Rows P R) (lo hi : Option P) (h : Descending d) (hn : ¬ Ascending d) :
    getSlice d lo hi = within d hi lo := by
  have hi' : incr (periods d) = false := by
    rw [← Bool.not_eq_true, incr_iff]; exact hn
  have hd' : decr (periods d) = true := (decr_iff d).2 h
  have key : getSlice d lo hi =
      (d.take (match hi with | none => d.length | some x => d.countP fun r => decide (x ≤ r.1))).drop
        (match lo with | none => 0 | some x => d.countP fun r => decide (x < r.1)) := by
    cases lo <;> cases hi <;> simp [getSlice, loc, bound, hi', hd', countP_periods]
  rw [key]
  have h1 : ∀ x : P, d.Pairwise fun a b => decide (x ≤ b.1) = true → decide (x ≤ a.1) = true := fun x =>
    h.imp fun {a b} hab hb => by simpa using le_trans (of_decide_eq_true hb) hab
  have h2 : ∀ x : P, d.Pairwise fun a b => decide (x < b.1) = true → decide (x < a.1) = true := fun x =>
    h.imp fun {a b} hab hb => by simpa using lt_of_lt_of_le (of_decide_eq_true hb) hab
  cases lo with
  | none =>
    cases hi with
    | none => simp [within]
    | some y =>
      simp only [List.drop_zero]
      rw [(take_countP _ d (h1 y)).1]
      unfold within
      apply List.filter_congr; intro r _; rw [Bool.eq_iff_iff]; simp [and_comm]
  | some x =>
    cases hi with
    | none =>
      simp only [List.take_length]
      rw [(take_countP _ d (h2 x)).2]
      unfold within
      apply List.filter_congr; intro r _; rw [Bool.eq_iff_iff]; simp
    | some y =>
      simp only
      rw [slice_eq (fun r : P × R => decide (x < r.1)) (fun r => decide (y ≤ r.1)) d (h2 x) (h1 y)]
      · unfold within
        apply List.filter_congr; intro r _; rw [Bool.eq_iff_iff]; simp
      · rcases le_total y x with hxy | hxy
        · left; intro r _ hr; simpa using le_of_lt (lt_of_le_of_lt hxy (of_decide_eq_true hr))
        · by_cases he : x = y
          · left; intro r _ hr; rw [← he]; simpa using le_of_lt (of_decide_eq_true hr)
          · right; intro r _ hr
            simpa using lt_of_lt_of_le (lt_of_le_of_ne hxy he) (of_decide_eq_true hr)

/-- Whatever the order, a slice only leaves out rows. -/
theorem getSlice_sublist (d : Rows P R) (lo hi : Option P) : (getSlice d lo hi).Sublist d := by
  unfold getSlice
  split
  · rename_i x hx
    unfold loc at hx
    split at hx
    · cases hx
    · split at hx
      · cases hx
      · cases hx; exact (List.drop_sublist _ _).trans (List.take_sublist _ _)
  · exact List.filter_sublist

theorem sortRows_perm (d : Rows P R) : (sortRows d).Perm d := pySorted_perm _ d

theorem sortRows_ascending (d : Rows P R) : Ascending (sortRows d) := by
  have := pySorted_pairwise (le := fun a b : P × R => decide (a.1 ≤ b.1))
    (fun a b c h1 h2 => by simpa using le_trans (of_decide_eq_true h1) (of_decide_eq_true h2))
    (fun a b => by simpa using le_total a.1 b.1) d
  exact this.imp fun {a b} h => of_decide_eq_true h

theorem sortRows_of_ascending (d : Rows P R) (h : Ascending d) : sortRows d = d :=
  pySorted_of_pairwise (h.imp fun {a b} h => by simpa using h)

theorem within_ascending (d : Rows P R) (lo hi : Option P) (h : Ascending d) : Ascending (within d lo hi) :=
  h.filter _

/-- Each item gives its chosen rows, ascending. -/
theorem prepare_ok (i : Item P R) (d : Rows P R) (h : (prepare i).2 = .ok d) : d.Perm (chosen i) ∧ Ascending d := by
  cases i with
  | tf e => cases h; exact ⟨sortRows_perm e, sortRows_ascending e⟩
  | dict e lo hi =>
    simp only [prepare] at h; cases h
    rw [getSlice_ascending _ lo hi (sortRows_ascending e)]
    exact ⟨(sortRows_perm e).filter _, within_ascending _ _ _ (sortRows_ascending e)⟩
  | badDict => cases h
  | other => cases h

theorem prepareAll_ok (l : List (Item P R)) (ds : List (Rows P R)) (h : (prepareAll l).2 = .ok ds) :
    List.Forall₂ (fun i d => d.Perm (chosen i) ∧ Ascending d) l ds := by
  induction l generalizing ds with
  | nil => simp only [prepareAll] at h; cases h; exact .nil
  | cons i l ih =>
    simp only [prepareAll] at h
    rcases hp : prepare i with ⟨i', e | d⟩
    · rw [hp] at h; cases h
    · rw [hp] at h; dsimp only at h
      rcases hq : prepareAll l with ⟨l', e | ds'⟩
      · rw [hq] at h; cases h
      · rw [hq] at h; cases h
        exact .cons (prepare_ok i d (by rw [hp])) (ih ds' (by rw [hq]))

theorem prepareAll_valid (l : List (Item P R)) (h : ∀ i ∈ l, Valid i) : ∃ ds, (prepareAll l).2 = .ok ds := by
  induction l with
  | nil => exact ⟨[], rfl⟩
  | cons i l ih =>
    obtain ⟨ds, hds⟩ := ih fun j hj => h j (List.mem_cons_of_mem _ hj)
    have hv := h i (List.mem_cons_self ..)
    have hp : ∃ d, (prepare i).2 = .ok d := by
      cases i with
      | tf e => exact ⟨_, rfl⟩
      | dict e lo hi => exact ⟨_, rfl⟩
      | badDict => exact hv.elim
      | other => exact hv.elim
    obtain ⟨d, hd⟩ := hp
    simp only [prepareAll]
    rcases hp : prepare i with ⟨i', e | d'⟩
    · rw [hp] at hd; cases hd
    · rcases hq : prepareAll l with ⟨l', e | ds'⟩
      · rw [hq] at hds; cases hds
      · exact ⟨_, rfl⟩

theorem prepareAll_invalid (l : List (Item P R)) (ds : List (Rows P R)) (h : (prepareAll l).2 = .ok ds) :
    ∀ i ∈ l, Valid i := by
  induction l generalizing ds with
  | nil => intro i hi; cases hi
  | cons i l ih =>
    simp only [prepareAll] at h
    rcases hp : prepare i with ⟨i', e | d⟩
    · rw [hp] at h; cases h
    · rw [hp] at h; dsimp only at h
      rcases hq : prepareAll l with ⟨l', e | ds'⟩
      · rw [hq] at h; cases h
      · intro j hj
        rcases List.mem_cons.1 hj with rfl | hj
        · cases j with
          | tf e => trivial
          | dict e lo hi => trivial
          | badDict => simp [prepare] at hp
          | other => simp [prepare] at hp
        · exact ih ds' (by rw [hq]) j hj

/-- `merge` combines the slice of the object and the prepared items. -/
theorem merge_ok (self : Rows P R) (others : List (Item P R)) (lo hi : Option P) (out : Rows P R)
    (h : (merge self others lo hi).2 = .ok out) :
    ∃ ds, (prepareAll others).2 = .ok ds ∧ combine (getSlice self lo hi :: ds) = .ok out := by
  unfold merge at h
  rcases hq : prepareAll others with ⟨l', e | ds⟩
  · rw [hq] at h; cases h
  · rw [hq] at h; exact ⟨ds, rfl, h⟩

theorem merge_eq (self : Rows P R) (others : List (Item P R)) (lo hi : Option P) (ds : List (Rows P R))
    (h : (prepareAll others).2 = .ok ds) :
    (merge self others lo hi).2 = combine (getSlice self lo hi :: ds) := by
  unfold merge
  rcases hq : prepareAll others with ⟨l', e | ds'⟩
  · rw [hq] at h; cases h
  · rw [hq] at h; cases h; rfl

/-! ## Combining -/

theorem mem_ofPairs {κ ν : Type} [DecidableEq κ] (l : List (κ × ν)) : ∀ x ∈ OD.ofPairs l, x ∈ l := by
  suffices hs : ∀ (l : List (κ × ν)) (d : OD κ ν), ∀ x ∈ l.foldl (fun d p => OD.set d p.1 p.2) d, x ∈ d ∨ x ∈ l by
    intro x hx
    rcases hs l [] x hx with h | h
    · cases h
    · exact h
  have hset : ∀ (d : OD κ ν) (k : κ) (v : ν), ∀ x ∈ d.set k v, x ∈ d ∨ x = (k, v) := by
    intro d k v
    induction d with
    | nil => intro x hx; simp [OD.set] at hx; right; exact hx
    | cons a d ih =>
      intro x hx
      obtain ⟨k', v'⟩ := a
      simp only [OD.set] at hx
      split at hx
      · rename_i he
        rcases List.mem_cons.1 hx with h | h
        · right; rw [h, he]
        · left; exact List.mem_cons_of_mem _ h
      · rcases List.mem_cons.1 hx with h | h
        · left; rw [h]; exact List.mem_cons_self ..
        · rcases ih x h with h | h
          · left; exact List.mem_cons_of_mem _ h
          · right; exact h
  intro l
  induction l with
  | nil => intro d x hx; left; exact hx
  | cons a l ih =>
    intro d x hx
    rcases ih _ x hx with h | h
    · rcases hset d a.1 a.2 x h with h | h
      · left; exact h
      · right; rw [h]; exact List.mem_cons_self ..
    · right; exact List.mem_cons_of_mem _ h

omit [LinearOrder P] in
theorem mem_pairs (l : List (Rows P R)) (x : P × Rows P R) (h : x ∈ pairs l) :
    x.2 ∈ l ∧ (periods x.2).head? = some x.1 := by
  unfold pairs at h
  obtain ⟨e, he, hx⟩ := List.mem_filterMap.1 h
  obtain ⟨p, hp, hx⟩ := Option.map_eq_some_iff.1 hx
  subst hx; exact ⟨he, hp⟩

/-- What is returned if the data sets can be combined. -/
theorem combine_ok (l : List (Rows P R)) (out : Rows P R) (h : combine l = .ok out) :
    (∃ d, l = [d] ∧ out = d) ∨
    ((∀ e ∈ l, e ≠ []) ∧ ((∀ e ∈ l, Ascending e) ∨ (∀ e ∈ l, Descending e)) ∧ (Ascending out ∨ Descending out) ∧
      out = joined (l.all fun e => incr (periods e)) l) := by
  unfold combine at h
  split at h
  · cases h
  · cases h; left; exact ⟨_, rfl, rfl⟩
  · rename_i d rest hne
    right
    split at h
    · cases h
    split at h
    · cases h
    rename_i hmono
    split at h
    · cases h
    rename_i hemp
    split at h
    · rename_i hout
      cases h
      refine ⟨fun e he hc => hemp ?_, ?_, ?_, rfl⟩
      · rw [List.any_eq_true]; exact ⟨e, he, by simp [hc]⟩
      · by_cases ha : ((d :: rest).all fun e => incr (periods e)) = true
        · left; rw [List.all_eq_true] at ha; exact fun e he => (incr_iff e).1 (ha e he)
        · right
          have : ((d :: rest).all fun e => decr (periods e)) = true := by
            by_contra hc; exact hmono ⟨by simpa using ha, by simpa using hc⟩
          rw [List.all_eq_true] at this; exact fun e he => (decr_iff e).1 (this e he)
      · rw [Bool.or_eq_true, incr_iff, decr_iff] at hout; exact hout
    · cases h

/-- Every row of the result comes from one of the data sets. -/
theorem combine_mem (l : List (Rows P R)) (out : Rows P R) (h : combine l = .ok out) :
    ∀ r ∈ out, ∃ d ∈ l, r ∈ d := by
  intro r hr
  rcases combine_ok l out h with ⟨d, rfl, rfl⟩ | ⟨_, _, _, ho⟩
  · exact ⟨out, List.mem_singleton.2 rfl, hr⟩
  · rw [ho] at hr; unfold joined at hr
    obtain ⟨e, he, hr⟩ := List.mem_flatten.1 hr
    obtain ⟨x, hx, rfl⟩ := List.mem_map.1 he
    have hx' := mem_ofPairs _ x ((pySorted_perm _ _).mem_iff.1 hx)
    exact ⟨x.2, (mem_pairs l x hx').1, hr⟩

theorem head_least (d : Rows P R) (h : Ascending d) (p : P) : (periods d).head? = some p ↔ d ≠ [] ∧ Least d p := by
  cases d with
  | nil => simp [periods]
  | cons a d =>
    unfold Ascending at h
    rw [List.pairwise_cons] at h
    simp only [periods, List.map_cons, List.head?_cons, Option.some.injEq, Least, ne_eq, reduceCtorEq,
      not_false_eq_true, true_and]
    constructor
    · rintro rfl
      refine ⟨List.mem_cons_self .., fun q hq => ?_⟩
      rcases List.mem_cons.1 hq with rfl | hq
      · exact le_refl _
      · obtain ⟨b, hb, rfl⟩ := List.mem_map.1 hq; exact h.1 b hb
    · rintro ⟨h1, h2⟩
      have h3 := h2 a.1 (List.mem_cons_self ..)
      rcases List.mem_cons.1 h1 with h4 | h4
      · exact h4.symm
      · obtain ⟨b, hb, rfl⟩ := List.mem_map.1 h4; exact le_antisymm (h.1 b hb) h3

/-- The first periods are different. -/
theorem pairs_wf (l : List (Rows P R)) (ha : ∀ e ∈ l, Ascending e) (hd : Distinct l) : OD.WF (pairs l) := by
  unfold OD.WF OD.keys pairs
  induction l with
  | nil => simp
  | cons a l ih =>
    unfold Distinct at hd
    rw [List.pairwise_cons] at hd
    have ih' := ih (fun e he => ha e (List.mem_cons_of_mem _ he)) hd.2
    rw [List.filterMap_cons]
    split
    · exact ih'
    · rename_i x hx
      obtain ⟨p, hp, rfl⟩ := Option.map_eq_some_iff.1 hx
      rw [List.map_cons, List.nodup_cons]
      refine ⟨fun hc => ?_, ih'⟩
      obtain ⟨y, hy, hyp⟩ := List.mem_map.1 hc
      obtain ⟨hyl, hyh⟩ := mem_pairs l y hy
      have h1 := ((head_least a (ha a (List.mem_cons_self ..)) p).1 hp).2
      have h2 := ((head_least y.2 (ha y.2 (List.mem_cons_of_mem _ hyl)) y.1).1 hyh).2
      rw [hyp] at h2
      exact hd.1 y.2 hyl p h1 h2

omit [LinearOrder P] in
theorem pairs_snd (l : List (Rows P R)) (h : ∀ e ∈ l, e ≠ []) : (pairs l).map Prod.snd = l := by
  unfold pairs
  induction l with
  | nil => rfl
  | cons a l ih =>
    have ih' := ih fun e he => h e (List.mem_cons_of_mem _ he)
    have h1 := h a (List.mem_cons_self ..)
    cases a with
    | nil => exact absurd rfl h1
    | cons b a => simp only [List.filterMap_cons, periods, List.map_cons, List.head?_cons, Option.map_some]
                  exact congrArg _ ih'

theorem joined_perm (b : Bool) (l : List (Rows P R)) (ha : ∀ e ∈ l, Ascending e) (hd : Distinct l)
    (hne : ∀ e ∈ l, e ≠ []) : (joined b l).Perm l.flatten := by
  unfold joined
  rw [OD.ofPairs_of_wf (pairs_wf l ha hd)]
  have h1 := (pySorted_perm (fun a c : P × Rows P R => if b then decide (a.1 ≤ c.1) else decide (c.1 ≤ a.1))
    (pairs l)).map Prod.snd
  rw [pairs_snd l hne] at h1
  exact h1.flatten

/-- Data sets with different first periods: nothing is lost. -/
theorem combine_perm_flatten (l : List (Rows P R)) (out : Rows P R) (ha : ∀ e ∈ l, Ascending e) (hd : Distinct l)
    (h : combine l = .ok out) : out.Perm l.flatten := by
  rcases combine_ok l out h with ⟨d, rfl, rfl⟩ | ⟨hne, _, _, ho⟩
  · simp
  · rw [ho]; exact joined_perm _ l ha hd hne

theorem least_perm {a b : Rows P R} (h : a.Perm b) (p : P) : Least a p ↔ Least b p := by
  have : ∀ q, q ∈ periods a ↔ q ∈ periods b := fun q => (h.map Prod.fst).mem_iff
  simp [Least, this]

theorem distinct_symm {l : List (Rows P R)} {a b : Rows P R} (hd : Distinct l) (ha : a ∈ l) (hb : b ∈ l)
    (hne : a ≠ b) : ∀ p, Least a p → ¬ Least b p := by
  have : Std.Symm fun a b : Rows P R => ∀ p, Least a p → ¬ Least b p := ⟨fun a b h p h1 h2 => h p h2 h1⟩
  exact List.Pairwise.forall hd ha hb hne

theorem forall₂_mem_right {α β : Type} {r : α → β → Prop} {l : List α} {m : List β} (h : List.Forall₂ r l m) :
    ∀ b ∈ m, ∃ a ∈ l, r a b := by
  induction h with
  | nil => intro b hb; cases hb
  | cons hab _ ih =>
    intro b hb
    rcases List.mem_cons.1 hb with rfl | hb
    · exact ⟨_, List.mem_cons_self .., hab⟩
    · obtain ⟨a, ha, h⟩ := ih b hb; exact ⟨a, List.mem_cons_of_mem _ ha, h⟩

theorem forall₂_mem_left {α β : Type} {r : α → β → Prop} {l : List α} {m : List β} (h : List.Forall₂ r l m) :
    ∀ a ∈ l, ∃ b ∈ m, r a b := by
  induction h with
  | nil => intro b hb; cases hb
  | cons hab _ ih =>
    intro b hb
    rcases List.mem_cons.1 hb with rfl | hb
    · exact ⟨_, List.mem_cons_self .., hab⟩
    · obtain ⟨a, ha, h⟩ := ih b hb; exact ⟨a, List.mem_cons_of_mem _ ha, h⟩

theorem distinct_forall₂ {l m : List (Rows P R)} (h : List.Forall₂ List.Perm l m) (hd : Distinct l) : Distinct m := by
  induction h with
  | nil => exact List.Pairwise.nil
  | cons hab hlm ih =>
    unfold Distinct at hd ⊢
    rw [List.pairwise_cons] at hd ⊢
    refine ⟨fun c hc p h1 h2 => ?_, ih hd.2⟩
    obtain ⟨e, he, hec⟩ := forall₂_mem_right hlm c hc
    exact hd.1 e he p ((least_perm hab p).2 h1) ((least_perm hec p).2 h2)

/-- The data sets that should be merged. -/
def wanted (self : Rows P R) (others : List (Item P R)) (lo hi : Option P) : List (Rows P R) :=
  within self lo hi :: others.map chosen

theorem forall₂_flip_map (l : List (Item P R)) (ds : List (Rows P R))
    (h : List.Forall₂ (fun i d => d.Perm (chosen i) ∧ Ascending d) l ds) :
    List.Forall₂ List.Perm (l.map chosen) ds ∧ ∀ d ∈ ds, Ascending d := by
  induction h with
  | nil => exact ⟨.nil, fun d hd => by cases hd⟩
  | cons hab _ ih =>
    refine ⟨.cons hab.1.symm ih.1, fun d hd => ?_⟩
    rcases List.mem_cons.1 hd with rfl | hd
    · exact hab.2
    · exact ih.2 d hd

/-- If the periods of the object ascend, the wanted data sets are combined, each ascending. -/
theorem merge_wanted (self : Rows P R) (others : List (Item P R)) (lo hi : Option P) (h : Ascending self)
    (hv : ∀ i ∈ others, Valid i) :
    ∃ l, List.Forall₂ List.Perm (wanted self others lo hi) l ∧ (∀ d ∈ l, Ascending d) ∧
      (merge self others lo hi).2 = combine l := by
  obtain ⟨ds, hds⟩ := prepareAll_valid others hv
  obtain ⟨h1, h2⟩ := forall₂_flip_map _ _ (prepareAll_ok others ds hds)
  refine ⟨getSlice self lo hi :: ds, .cons ?_ h1, ?_, merge_eq _ _ _ _ _ hds⟩
  · rw [getSlice_ascending _ _ _ h]
  · intro d hd
    rcases List.mem_cons.1 hd with rfl | hd
    · rw [getSlice_ascending _ _ _ h]; exact within_ascending _ _ _ h
    · exact h2 d hd

theorem merge_valid (self : Rows P R) (others : List (Item P R)) (lo hi : Option P) (out : Rows P R)
    (h : (merge self others lo hi).2 = .ok out) : ∀ i ∈ others, Valid i := by
  obtain ⟨ds, hds, _⟩ := merge_ok _ _ _ _ _ h
  exact prepareAll_invalid others ds hds

/-! ## C166: bounds -/

/-- **C166** The merged periods are within the bounds of the transfer functions they come from. -/
def C166_claim : Prop :=
  ∀ (P R : Type) [LinearOrder P] (self : Rows P R) (others : List (Item P R)) (lo hi : Option P) (out : Rows P R),
    (merge self others lo hi).2 = .ok out → ∀ r ∈ out, ∃ d ∈ wanted self others lo hi, r ∈ d

/-- Periods 3, 2, 1 from 2 on are 2 and 1. -/
theorem C166_refuted : ¬ C166_claim := by
  intro h
  obtain ⟨d, hd, hr⟩ := h ℕ ℕ [(3, 0), (2, 0), (1, 0)] [] (some 2) none [(2, 0), (1, 0)] (by decide +kernel) (1, 0)
    (by decide)
  revert hr hd
  simp only [wanted, List.map_nil, List.mem_singleton]
  rintro rfl hr
  revert hr; decide

/-- If the periods of the object ascend; those of the others may be in any order. -/
theorem C166_partial (self : Rows P R) (others : List (Item P R)) (lo hi : Option P) (out : Rows P R)
    (ha : Ascending self) (h : (merge self others lo hi).2 = .ok out) :
    ∀ r ∈ out, ∃ d ∈ wanted self others lo hi, r ∈ d := by
  obtain ⟨l, h1, _, h3⟩ := merge_wanted self others lo hi ha (merge_valid _ _ _ _ _ h)
  rw [h3] at h
  intro r hr
  obtain ⟨d, hd, hrd⟩ := combine_mem l out h r hr
  obtain ⟨e, he, hed⟩ := forall₂_mem_right h1 d hd
  exact ⟨e, he, hed.mem_iff.2 hrd⟩

/-- If they descend, the bounds of the object are taken the other way round: with a least period given, the periods that
are *not longer* are merged. -/
theorem C166_descending (self : Rows P R) (others : List (Item P R)) (lo hi : Option P) (out : Rows P R)
    (hd : Descending self) (hn : ¬ Ascending self) (h : (merge self others lo hi).2 = .ok out) :
    ∀ r ∈ out, ∃ d ∈ wanted self others hi lo, r ∈ d := by
  obtain ⟨ds, hds, hc⟩ := merge_ok _ _ _ _ _ h
  obtain ⟨h1, _⟩ := forall₂_flip_map _ _ (prepareAll_ok others ds hds)
  rw [getSlice_descending _ _ _ hd hn] at hc
  intro r hr
  obtain ⟨d, hd, hrd⟩ := combine_mem _ out hc r hr
  rcases List.mem_cons.1 hd with rfl | hd
  · exact ⟨_, List.mem_cons_self .., hrd⟩
  · obtain ⟨e, he, hed⟩ := forall₂_mem_right h1 d hd
    exact ⟨e, List.mem_cons_of_mem _ he, hed.mem_iff.2 hrd⟩

/-- Whatever the order, no row is made up. -/
theorem C166_rows (self : Rows P R) (others : List (Item P R)) (lo hi : Option P) (out : Rows P R)
    (h : (merge self others lo hi).2 = .ok out) :
    ∀ r ∈ out, r ∈ self ∨ ∃ i ∈ others, r ∈ chosen i := by
  obtain ⟨ds, hds, hc⟩ := merge_ok _ _ _ _ _ h
  obtain ⟨h1, _⟩ := forall₂_flip_map _ _ (prepareAll_ok others ds hds)
  intro r hr
  obtain ⟨d, hd, hrd⟩ := combine_mem _ out hc r hr
  rcases List.mem_cons.1 hd with rfl | hd
  · left; exact (getSlice_sublist self lo hi).subset hrd
  · right
    obtain ⟨e, he, hed⟩ := forall₂_mem_right h1 d hd
    obtain ⟨i, hi, rfl⟩ := List.mem_map.1 he
    exact ⟨i, hi, hed.mem_iff.2 hrd⟩

/-- Bounds on the object and on an unordered item. -/
example : (merge [(1, 'a'), (2, 'b'), (3, 'c')] [.dict [(9, 'z'), (5, 'x'), (4, 'w'), (6, 'y')] (some 5) (some 6)]
    none (some 2)).2 = .ok [(1, 'a'), (2, 'b'), (5, 'x'), (6, 'y')] := by decide +kernel

/-! ## C167: no period is lost -/

/-- **C167** Every period within bounds is in the result, with its numbers. -/
def C167_claim : Prop :=
  ∀ (P R : Type) [LinearOrder P] (self : Rows P R) (others : List (Item P R)) (lo hi : Option P) (out : Rows P R),
    Ascending self → (merge self others lo hi).2 = .ok out → ∀ d ∈ wanted self others lo hi, ∀ r ∈ d, r ∈ out

/-- Two transfer functions that both begin with period 1: only the second one is kept. -/
theorem C167_refuted : ¬ C167_claim := by
  intro h
  have := h ℕ ℕ [(1, 7), (2, 7)] [.tf [(1, 8), (2, 8), (3, 8)]] none none [(1, 8), (2, 8), (3, 8)]
    (by simp [Ascending]) (by decide +kernel) [(1, 7), (2, 7)] (by simp [wanted, within]) (2, 7) (by simp)
  revert this; decide

/-- If the least periods are different, the result has exactly the wanted rows. -/
theorem C167_partial (self : Rows P R) (others : List (Item P R)) (lo hi : Option P) (out : Rows P R)
    (ha : Ascending self) (hd : Distinct (wanted self others lo hi)) (h : (merge self others lo hi).2 = .ok out) :
    out.Perm (wanted self others lo hi).flatten := by
  obtain ⟨l, h1, h2, h3⟩ := merge_wanted self others lo hi ha (merge_valid _ _ _ _ _ h)
  rw [h3] at h
  exact (combine_perm_flatten l out h2 (distinct_forall₂ h1 hd) h).trans (List.Perm.flatten_congr h1).symm

theorem foldl_set_mem {κ ν : Type} [DecidableEq κ] (l : List (κ × ν)) (d : OD κ ν) :
    ∀ x ∈ l.foldl (fun d p => OD.set d p.1 p.2) d, x ∈ l ∨ (x ∈ d ∧ (OD.WF d → x.1 ∉ l.map Prod.fst)) := by
  have hset : ∀ (d : OD κ ν) (k : κ) (v : ν), ∀ x ∈ d.set k v, (x ∈ d ∧ (OD.WF d → x.1 ≠ k)) ∨ x = (k, v) := by
    intro d k v
    induction d with
    | nil => intro x hx; simp [OD.set] at hx; right; exact hx
    | cons a d ih =>
      intro x hx
      obtain ⟨k', v'⟩ := a
      simp only [OD.set] at hx
      split at hx
      · rename_i he
        rcases List.mem_cons.1 hx with h | h
        · right; rw [h, he]
        · left; refine ⟨List.mem_cons_of_mem _ h, fun hw hc => ?_⟩
          unfold OD.WF at hw
          rw [OD.keys_cons, List.nodup_cons] at hw
          apply hw.1; dsimp only; rw [he, ← hc]; exact List.mem_map_of_mem h
      · rename_i he
        rcases List.mem_cons.1 hx with h | h
        · left; rw [h]; exact ⟨List.mem_cons_self .., fun _ => he⟩
        · rcases ih x h with h | h
          · left
            refine ⟨List.mem_cons_of_mem _ h.1, fun hw => h.2 ?_⟩
            unfold OD.WF at hw ⊢
            rw [OD.keys_cons, List.nodup_cons] at hw; exact hw.2
          · right; exact h
  induction l generalizing d with
  | nil => intro x hx; right; exact ⟨hx, fun _ => by simp⟩
  | cons a l ih =>
    intro x hx
    rcases ih _ x hx with h | ⟨h, h'⟩
    · left; exact List.mem_cons_of_mem _ h
    · rcases hset d a.1 a.2 x h with h1 | h1
      · right
        refine ⟨h1.1, fun hw => ?_⟩
        rw [List.map_cons, List.mem_cons, not_or]
        exact ⟨h1.2 hw, h' (hw.set _ _)⟩
      · left; rw [h1]; exact List.mem_cons_self ..

theorem ofPairs_last {κ ν : Type} [DecidableEq κ] (l1 l2 : List (κ × ν)) (k : κ) (v : ν) (h : k ∈ l2.map Prod.fst) :
    ∀ x ∈ OD.ofPairs (l1 ++ (k, v) :: l2), x ∈ l1 ++ l2 := by
  intro x hx
  have e : OD.ofPairs (l1 ++ (k, v) :: l2) = l2.foldl (fun d p => OD.set d p.1 p.2) ((OD.ofPairs l1).set k v) := by
    simp [OD.ofPairs, List.foldl_append]
  rw [e] at hx
  rcases foldl_set_mem l2 _ x hx with h1 | ⟨h1, h2⟩
  · exact List.mem_append_right _ h1
  · have h3 := h2 ((OD.WF_ofPairs l1).set _ _)
    have h4 : x ∈ OD.ofPairs (l1 ++ [(k, v)]) := by simpa [OD.ofPairs, List.foldl_append] using h1
    rcases List.mem_append.1 (mem_ofPairs _ x h4) with h5 | h5
    · exact List.mem_append_left _ h5
    · rw [List.mem_singleton] at h5; subst h5; exact absurd h h3

/-- Of several data sets with the same least period all but the last are left out, silently. -/
theorem combine_lost (pre mid post : List (Rows P R)) (a b out : Rows P R) (p : P)
    (ha : (periods a).head? = some p) (hb : (periods b).head? = some p)
    (h : combine (pre ++ a :: (mid ++ b :: post)) = .ok out) :
    ∀ r ∈ out, ∃ d ∈ pre ++ (mid ++ b :: post), r ∈ d := by
  intro r hr
  rcases combine_ok _ out h with ⟨d, hd, _⟩ | ⟨_, _, _, ho⟩
  · have := congrArg List.length hd; simp at this; omega
  · rw [ho] at hr; unfold joined at hr
    obtain ⟨e, he, hr⟩ := List.mem_flatten.1 hr
    obtain ⟨x, hx, rfl⟩ := List.mem_map.1 he
    have hx' := (pySorted_perm _ _).mem_iff.1 hx
    have e1 : pairs (pre ++ a :: (mid ++ b :: post)) = pairs pre ++ (p, a) :: pairs (mid ++ b :: post) := by
      simp [pairs, List.filterMap_append, ha, hb]
    rw [e1] at hx'
    have h2 := ofPairs_last _ _ p a (by
      refine List.mem_map.2 ⟨(p, b), ?_, rfl⟩
      simp [pairs, List.filterMap_append, hb]) x hx'
    have h3 : x ∈ pairs (pre ++ (mid ++ b :: post)) := by
      simp only [pairs, List.filterMap_append] at h2 ⊢; exact h2
    exact ⟨x.2, (mem_pairs _ x h3).1, hr⟩

/-- Merged with a transfer function that has the same least period, nothing of the object is left. -/
theorem C167_lost (self : Rows P R) (i : Item P R) (lo hi : Option P) (out : Rows P R) (p : P) (ha : Ascending self)
    (h1 : Least (within self lo hi) p) (h2 : Least (chosen i) p) (h : (merge self [i] lo hi).2 = .ok out) :
    ∀ r ∈ out, r ∈ chosen i := by
  obtain ⟨ds, hds, hc⟩ := merge_ok _ _ _ _ _ h
  have h3 := prepareAll_ok [i] ds hds
  cases h3 with
  | cons hid hl =>
    cases hl
    rename_i d
    rw [getSlice_ascending _ _ _ ha] at hc
    have hne : ∀ {e : Rows P R}, Least e p → e ≠ [] := fun hl he => by
      subst he; have := hl.1; simp [periods] at this
    have hd := (least_perm hid.1 p).2 h2
    intro r hr
    obtain ⟨e, he, hre⟩ := combine_lost [] [] [] (within self lo hi) d out p
      ((head_least _ (within_ascending _ _ _ ha) p).2 ⟨hne h1, h1⟩) ((head_least _ hid.2 p).2 ⟨hne hd, hd⟩) hc r hr
    simp only [List.nil_append, List.mem_singleton] at he
    subst he
    exact hid.1.mem_iff.1 hre

open Classical in
/-- For several ascending data sets with different first periods. -/
theorem combine_eq (l : List (Rows P R)) (hl : 2 ≤ l.length) (ha : ∀ e ∈ l, Ascending e) (hd : Distinct l) :
    combine l = if ∃ e ∈ l, e = [] then .error .valueError
      else if Ascending (joined true l) ∨ Descending (joined true l) then .ok (joined true l)
      else .error .valueError := by
  have hall : (l.all fun e => incr (periods e)) = true := by
    rw [List.all_eq_true]; exact fun e he => (incr_iff e).2 (ha e he)
  match l, hl with
  | d :: e :: rest, _ =>
    unfold combine
    simp only [hall]
    by_cases hemp : ∃ f ∈ d :: e :: rest, f = []
    · rw [if_pos hemp]
      have hany : ((d :: e :: rest).any fun f => f.isEmpty) = true := by
        obtain ⟨f, hf, rfl⟩ := hemp; rw [List.any_eq_true]; exact ⟨[], hf, rfl⟩
      simp only [hany]
      split <;> simp
    · rw [if_neg hemp]
      have hany : ((d :: e :: rest).any fun f => f.isEmpty) = false := by
        rw [← Bool.not_eq_true, List.any_eq_true]
        rintro ⟨f, hf, hfe⟩; exact hemp ⟨f, hf, by simpa using hfe⟩
      have hper : ((e :: rest).all fun f => decide (periods f = periods d)) = false := by
        rw [← Bool.not_eq_true, List.all_eq_true]
        intro hc
        have h1 := of_decide_eq_true (hc e (List.mem_cons_self ..))
        have hdne : d ≠ [] := fun h => hemp ⟨d, List.mem_cons_self .., h⟩
        have hene : e ≠ [] := fun h => hemp ⟨e, by simp, h⟩
        obtain ⟨p, hp⟩ : ∃ p, (periods d).head? = some p := by
          cases d with
          | nil => exact absurd rfl hdne
          | cons x d => exact ⟨x.1, rfl⟩
        unfold Distinct at hd
        rw [List.pairwise_cons] at hd
        exact hd.1 e (List.mem_cons_self ..) p ((head_least d (ha d (by simp)) p).1 hp).2
          ((head_least e (ha e (by simp)) p).1 (by rw [h1]; exact hp)).2
      simp only [hany, hper, Bool.true_eq_false, Bool.false_eq_true, if_false, false_and]
      by_cases ho : Ascending (joined true (d :: e :: rest)) ∨ Descending (joined true (d :: e :: rest))
      · rw [if_pos ho, if_pos (by rw [Bool.or_eq_true, incr_iff, decr_iff]; exact ho)]
      · rw [if_neg ho, if_neg (by rw [Bool.or_eq_true, incr_iff, decr_iff]; exact ho)]

/-- The dictionary in order: first periods ascend and are different. -/
theorem sorted_strict (d : List (P × Rows P R)) (h : OD.WF d) :
    (pySorted (fun a b : P × Rows P R => if true then decide (a.1 ≤ b.1) else decide (b.1 ≤ a.1)) d).Pairwise
      fun a b => a.1 < b.1 := by
  have h1 := pySorted_pairwise (le := fun a b : P × Rows P R => if true then decide (a.1 ≤ b.1) else decide (b.1 ≤ a.1))
    (fun a b c h1 h2 => by
      simp only [if_true, decide_eq_true_eq] at *; exact le_trans h1 h2)
    (fun a b => by simpa using le_total a.1 b.1) d
  have h2 : ((pySorted (fun a b : P × Rows P R => if true then decide (a.1 ≤ b.1) else decide (b.1 ≤ a.1)) d).map
      Prod.fst).Nodup := ((pySorted_perm _ d).map Prod.fst).nodup_iff.2 h
  rw [List.Nodup, List.pairwise_map] at h2
  exact (h1.and h2).imp fun {a b} h => lt_of_le_of_ne (by simpa using h.1) h.2

/-- If the data sets ascend, so does the result. -/
theorem combine_ascending (l : List (Rows P R)) (out : Rows P R) (ha : ∀ e ∈ l, Ascending e)
    (h : combine l = .ok out) : Ascending out := by
  rcases combine_ok l out h with ⟨d, rfl, rfl⟩ | ⟨_, _, hout, ho⟩
  · exact ha _ (List.mem_singleton.2 rfl)
  · rcases hout with h1 | h1
    · exact h1
    have hall : (l.all fun e => incr (periods e)) = true := by
      rw [List.all_eq_true]; exact fun e he => (incr_iff e).2 (ha e he)
    rw [hall] at ho
    unfold joined at ho
    have hs := sorted_strict _ (OD.WF_ofPairs (pairs l))
    have hm : ∀ x ∈ pySorted (fun a b : P × Rows P R => if true then decide (a.1 ≤ b.1) else decide (b.1 ≤ a.1))
        (OD.ofPairs (pairs l)), x.2 ∈ l ∧ (periods x.2).head? = some x.1 := fun x hx =>
      mem_pairs l x (mem_ofPairs _ x ((pySorted_perm _ _).mem_iff.1 hx))
    generalize pySorted (fun a b : P × Rows P R => if true then decide (a.1 ≤ b.1) else decide (b.1 ≤ a.1))
        (OD.ofPairs (pairs l)) = s at ho hs hm
    match s with
    | [] => subst ho; exact List.Pairwise.nil
    | [x] => subst ho; simpa using ha _ (hm x (by simp)).1
    | x :: y :: s =>
      exfalso
      rw [List.pairwise_cons] at hs
      have hxy := hs.1 y (by simp)
      have hx := (hm x (by simp)).2
      have hy := (hm y (by simp)).2
      obtain ⟨x1, x2⟩ := x
      obtain ⟨y1, y2⟩ := y
      cases x2 with
      | nil => simp [periods] at hx
      | cons a x2 =>
        cases y2 with
        | nil => simp [periods] at hy
        | cons b y2 =>
          simp only [periods, List.map_cons, List.head?_cons, Option.some.injEq] at hx hy
          subst hx hy ho
          unfold Descending at h1
          simp only [List.map_cons, List.flatten_cons, List.cons_append, List.pairwise_cons] at h1
          exact absurd (h1.1 b (by simp)) (not_le.2 hxy)

theorem apart_distinct {l : List (Rows P R)} (h : Apart l) : Distinct l :=
  h.imp fun {a b} h p h1 h2 => by
    obtain ⟨x, hx, rfl⟩ := List.mem_map.1 h1.1
    obtain ⟨y, hy, hyx⟩ := List.mem_map.1 h2.1
    rcases h with h | h
    · have := h x hx y hy; rw [hyx] at this; exact lt_irrefl _ this
    · have := h x hx y hy; rw [hyx] at this; exact lt_irrefl _ this

theorem apart_forall₂ {l m : List (Rows P R)} (h : List.Forall₂ List.Perm l m) (hd : Apart l) : Apart m := by
  induction h with
  | nil => exact List.Pairwise.nil
  | cons hab hlm ih =>
    unfold Apart at hd ⊢
    rw [List.pairwise_cons] at hd ⊢
    refine ⟨fun c hc => ?_, ih hd.2⟩
    obtain ⟨e, he, hec⟩ := forall₂_mem_right hlm c hc
    rcases hd.1 e he with h | h
    · left; exact fun x hx y hy => h x (hab.mem_iff.2 hx) y (hec.mem_iff.2 hy)
    · right; exact fun x hx y hy => h x (hab.mem_iff.2 hx) y (hec.mem_iff.2 hy)

/-- Data sets that are apart are put one after the other. -/
theorem joined_apart (l : List (Rows P R)) (ha : ∀ e ∈ l, Ascending e) (h : Apart l) : Ascending (joined true l) := by
  have hw := pairs_wf l ha (apart_distinct h)
  unfold joined Ascending
  rw [OD.ofPairs_of_wf hw, List.pairwise_flatten]
  have hm : ∀ x ∈ pySorted (fun a b : P × Rows P R => if true then decide (a.1 ≤ b.1) else decide (b.1 ≤ a.1))
      (pairs l), x.2 ∈ l ∧ (periods x.2).head? = some x.1 := fun x hx =>
    mem_pairs l x ((pySorted_perm _ _).mem_iff.1 hx)
  refine ⟨fun e he => ?_, ?_⟩
  · obtain ⟨x, hx, rfl⟩ := List.mem_map.1 he; exact ha _ (hm x hx).1
  · rw [List.pairwise_map]
    refine List.Pairwise.imp_of_mem ?_ (sorted_strict _ hw)
    intro x y hx hy hxy a hxa b hyb
    obtain ⟨h1, h2⟩ := hm x hx
    obtain ⟨h3, h4⟩ := hm y hy
    have hne : x.2 ≠ y.2 := fun hc => by
      rw [hc, h4] at h2; rw [Option.some.inj h2] at hxy; exact lt_irrefl _ hxy
    have hsym : Std.Symm fun a b : Rows P R =>
        (∀ x ∈ a, ∀ y ∈ b, x.1 < y.1) ∨ (∀ x ∈ a, ∀ y ∈ b, y.1 < x.1) :=
      ⟨fun a b h => h.symm.imp (fun h x hx y hy => h y hy x hx) (fun h x hx y hy => h y hy x hx)⟩
    rcases List.Pairwise.forall h h1 h3 hne with h | h
    · exact le_of_lt (h a hxa b hyb)
    · exfalso
      have lx := ((head_least _ (ha _ h1) _).1 h2).2.1
      have ly := ((head_least _ (ha _ h3) _).1 h4).2.1
      obtain ⟨u, hu, hu1⟩ := List.mem_map.1 lx
      obtain ⟨v, hv, hv1⟩ := List.mem_map.1 ly
      have := h u hu v hv
      rw [hu1, hv1] at this
      exact lt_asymm this hxy

/-! ## C168: transfer functions that do not overlap can be merged -/

/-- **C168** Transfer functions whose periods do not overlap can be merged. -/
def C168_claim : Prop :=
  ∀ (P R : Type) [LinearOrder P] (self : Rows P R) (others : List (Item P R)) (lo hi : Option P),
    (∀ i ∈ others, Valid i) → (∀ d ∈ wanted self others lo hi, d ≠ []) → Apart (wanted self others lo hi) →
    ∃ out, (merge self others lo hi).2 = .ok out

/-- Periods 2, 1 cannot be merged with 3, 4. -/
theorem C168_refuted : ¬ C168_claim := by
  intro h
  obtain ⟨out, ho⟩ := h ℕ ℕ [(2, 0), (1, 0)] [.tf [(3, 0), (4, 0)]] none none (by simp [Valid])
    (by simp [wanted, within, chosen]) (by
      simp only [Apart, wanted, within, chosen, List.map_cons, List.map_nil]
      refine List.Pairwise.cons ?_ (List.pairwise_singleton _ _)
      intro d hd; rw [List.mem_singleton] at hd; subst hd
      left; decide)
  have : (merge [(2, 0), (1, 0)] [.tf [(3, 0), (4, 0)]] none none).2 =
    (.error .valueError : Except PyErr (Rows ℕ ℕ)) := by decide +kernel
  rw [this] at ho; cases ho

/-- If the periods of the object ascend: the result has all rows, ascending. -/
theorem C168_partial (self : Rows P R) (others : List (Item P R)) (lo hi : Option P) (ha : Ascending self)
    (hv : ∀ i ∈ others, Valid i) (hne : ∀ d ∈ wanted self others lo hi, d ≠ [])
    (hd : Apart (wanted self others lo hi)) :
    ∃ out, (merge self others lo hi).2 = .ok out ∧ out.Perm (wanted self others lo hi).flatten ∧ Ascending out := by
  obtain ⟨l, h1, h2, h3⟩ := merge_wanted self others lo hi ha hv
  have hl := apart_forall₂ h1 hd
  have hex : ∃ out, combine l = .ok out := by
    by_cases hlen : 2 ≤ l.length
    · rw [combine_eq l hlen h2 (apart_distinct hl), if_neg, if_pos (Or.inl (joined_apart l h2 hl))]
      · exact ⟨_, rfl⟩
      · rintro ⟨e, he, rfl⟩
        obtain ⟨d, hd1, hd2⟩ := forall₂_mem_right h1 [] he
        exact hne d hd1 hd2.eq_nil
    · match l, hlen, h1 with
      | [], _, h1 => cases h1
      | [d], _, _ => exact ⟨d, rfl⟩
      | _ :: _ :: _, hlen, _ => simp at hlen
  obtain ⟨out, ho⟩ := hex
  rw [← h3] at ho
  refine ⟨out, ho, C167_partial self others lo hi out ha (apart_distinct hd) ho, ?_⟩
  rw [h3] at ho
  exact combine_ascending l out h2 ho

/-- Three transfer functions, one without order. -/
example : (merge [(4, 'd'), (5, 'e')] [.tf [(8, 'h'), (7, 'g')], .dict [(1, 'a'), (2, 'b'), (9, 'i')] none (some 3)]
    none none).2 = .ok [(1, 'a'), (2, 'b'), (4, 'd'), (5, 'e'), (7, 'g'), (8, 'h')] := by decide +kernel

example : Apart (wanted [(4, 'd'), (5, 'e')] [.tf [(8, 'h'), (7, 'g')],
    .dict [(1, 'a'), (2, 'b'), (9, 'i')] none (some 3)] none none) := by
  have : wanted [(4, 'd'), (5, 'e')] [.tf [(8, 'h'), (7, 'g')], .dict [(1, 'a'), (2, 'b'), (9, 'i')] none (some 3)]
    none none = [[(4, 'd'), (5, 'e')], [(8, 'h'), (7, 'g')], [(1, 'a'), (2, 'b')]] := by simp [wanted, within, chosen]
  rw [this]; unfold Apart; decide

/-- An object whose periods descend cannot be merged with anything that has several periods. -/
theorem C168_never (self : Rows P R) (others : List (Item P R)) (lo hi : Option P) (hs : Descending self)
    (h1 : ∃ a ∈ within self hi lo, ∃ b ∈ within self hi lo, a.1 ≠ b.1) (hv : ∀ i ∈ others, Valid i)
    (h2 : ∃ i ∈ others, ∃ a ∈ chosen i, ∃ b ∈ chosen i, a.1 ≠ b.1) :
    (merge self others lo hi).2 = .error .valueError := by
  obtain ⟨ds, hds⟩ := prepareAll_valid others hv
  obtain ⟨hf, hasc⟩ := forall₂_flip_map _ _ (prepareAll_ok others ds hds)
  rw [merge_eq _ _ _ _ _ hds]
  have both : ∀ d : Rows P R, Ascending d → Descending d → ∀ a ∈ d, ∀ b ∈ d, a.1 = b.1 := by
    intro d hd1 hd2 a ha b hb
    have hsym : Std.Symm fun a b : P × R => a.1 = b.1 := ⟨fun a b h => h.symm⟩
    have h12 : d.Pairwise fun a b => a.1 = b.1 := (hd1.and hd2).imp fun {a b} h => le_antisymm h.1 h.2
    exact List.Pairwise.forall_of_forall (R := fun a b : P × R => a.1 = b.1) (fun _ _ => rfl) h12 ha hb
  have hnot : ¬ Ascending self := fun hc => by
    obtain ⟨a, ha, b, hb, hab⟩ := h1
    exact hab (both self hc hs a (List.mem_of_mem_filter ha) b (List.mem_of_mem_filter hb))
  rw [getSlice_descending _ _ _ hs hnot]
  obtain ⟨a, ha, b, hb, hab⟩ := h1
  obtain ⟨i, hi', c, hc, c', hc', hcc⟩ := h2
  obtain ⟨d, hd, hid⟩ := forall₂_mem_left hf (chosen i) (List.mem_map_of_mem hi')
  rcases hcomb : combine (within self hi lo :: ds) with e | out
  · cases ds with
    | nil => cases hd
    | cons d' ds =>
      unfold combine at hcomb
      dsimp only at hcomb
      split at hcomb
      · exact hcomb.symm
      split at hcomb
      · exact hcomb.symm
      split at hcomb
      · exact hcomb.symm
      split at hcomb
      · cases hcomb
      · exact hcomb.symm
  · exfalso
    rcases combine_ok _ out hcomb with ⟨d', hd', _⟩ | ⟨_, hm, _⟩
    · cases hd'; cases hd
    · rcases hm with hm | hm
      · have hwd : Descending (within self hi lo) := hs.filter _
        exact hab (both _ (hm _ (List.mem_cons_self ..)) hwd a ha b hb)
      · exact hcc (both d (hasc d hd) (hm d (List.mem_cons_of_mem _ hd)) c (hid.mem_iff.1 hc) c' (hid.mem_iff.1 hc'))

example : (merge [(3, 'c'), (2, 'b'), (1, 'a')] [.tf [(7, 'x'), (8, 'y')]] none none).2 = .error .valueError := by
  decide +kernel

/-! ## C169: order of the items -/

/-- **C169** The result does not depend on the order of the items. -/
def C169_claim : Prop :=
  ∀ (P R : Type) [LinearOrder P] (self : Rows P R) (others others' : List (Item P R)) (lo hi : Option P),
    Ascending self → (∀ i ∈ others, Valid i) → others.Perm others' →
    (merge self others lo hi).2 = (merge self others' lo hi).2

theorem C169_refuted : ¬ C169_claim := by
  intro h
  have := h ℕ ℕ [(5, 0)] [.tf [(1, 1), (2, 1)], .tf [(1, 2), (3, 2)]] [.tf [(1, 2), (3, 2)], .tf [(1, 1), (2, 1)]]
    none none (by simp [Ascending]) (by simp [Valid]) (List.Perm.swap _ _ _)
  revert this; decide +kernel

omit [LinearOrder P] in
theorem pairs_perm {l m : List (Rows P R)} (h : l.Perm m) : (pairs l).Perm (pairs m) := h.filterMap _

theorem distinct_perm {l m : List (Rows P R)} (h : l.Perm m) (hd : Distinct l) : Distinct m := by
  have hsym : Std.Symm fun a b : Rows P R => ∀ p, Least a p → ¬ Least b p := ⟨fun a b h p h1 h2 => h p h2 h1⟩
  exact (h.pairwise_iff (fun {a b} h p h1 h2 => h p h2 h1)).1 hd

theorem joined_of_perm {l m : List (Rows P R)} (h : l.Perm m) (ha : ∀ e ∈ l, Ascending e) (hd : Distinct l) :
    joined true l = joined true m := by
  have hw := pairs_wf l ha hd
  have hw' := pairs_wf m (fun e he => ha e (h.mem_iff.2 he)) (distinct_perm h hd)
  unfold joined
  rw [OD.ofPairs_of_wf hw, OD.ofPairs_of_wf hw']
  congr 2
  refine List.Perm.eq_of_pairwise (le := fun a b : P × Rows P R => a.1 < b.1) ?_ (sorted_strict _ hw)
    (sorted_strict _ hw') ?_
  · intro a b _ _ h1 h2; exact absurd h1 (lt_asymm h2)
  · exact (pySorted_perm _ _).trans ((pairs_perm h).trans (pySorted_perm _ _).symm)

theorem prepareAll_map (l : List (Item P R)) (h : ∀ i ∈ l, Valid i) (ds : List (Rows P R))
    (hd : (prepareAll l).2 = .ok ds) : l.map (fun i => (prepare i).2) = ds.map .ok := by
  induction l generalizing ds with
  | nil => simp only [prepareAll] at hd; cases hd; rfl
  | cons i l ih =>
    simp only [prepareAll] at hd
    rcases hp : prepare i with ⟨i', e | d⟩
    · rw [hp] at hd; cases hd
    · rw [hp] at hd; dsimp only at hd
      rcases hq : prepareAll l with ⟨l', e | ds'⟩
      · rw [hq] at hd; cases hd
      · rw [hq] at hd; cases hd
        rw [List.map_cons, List.map_cons, hp, ih (fun j hj => h j (List.mem_cons_of_mem _ hj)) ds' (by rw [hq])]

/-- If the least periods are different. -/
theorem C169_partial (self : Rows P R) (others others' : List (Item P R)) (lo hi : Option P) (ha : Ascending self)
    (hv : ∀ i ∈ others, Valid i) (hp : others.Perm others') (hd : Distinct (wanted self others lo hi)) :
    (merge self others lo hi).2 = (merge self others' lo hi).2 := by
  have hv' : ∀ i ∈ others', Valid i := fun i hi => hv i (hp.mem_iff.2 hi)
  obtain ⟨ds, hds⟩ := prepareAll_valid others hv
  obtain ⟨ds', hds'⟩ := prepareAll_valid others' hv'
  have hperm : ds.Perm ds' := by
    have h1 := (hp.map fun i => (prepare i).2)
    rw [prepareAll_map _ hv ds hds, prepareAll_map _ hv' ds' hds'] at h1
    have h2 := h1.filterMap fun x => x.toOption
    simpa [List.filterMap_map, Function.comp_def, Except.toOption] using h2
  obtain ⟨h1, h2⟩ := forall₂_flip_map _ _ (prepareAll_ok others ds hds)
  rw [merge_eq _ _ _ _ _ hds, merge_eq _ _ _ _ _ hds']
  have hasc : ∀ e ∈ getSlice self lo hi :: ds, Ascending e := by
    intro d hd
    rcases List.mem_cons.1 hd with rfl | hd
    · rw [getSlice_ascending _ _ _ ha]; exact within_ascending _ _ _ ha
    · exact h2 d hd
  have hdis : Distinct (getSlice self lo hi :: ds) := by
    refine distinct_forall₂ (l := wanted self others lo hi) (.cons ?_ h1) hd
    rw [getSlice_ascending _ _ _ ha]
  have hpc : (getSlice self lo hi :: ds).Perm (getSlice self lo hi :: ds') := hperm.cons _
  by_cases hlen : 2 ≤ (getSlice self lo hi :: ds).length
  · rw [combine_eq _ hlen hasc hdis, combine_eq _ (hpc.length_eq ▸ hlen) (fun e he => hasc e (hpc.mem_iff.2 he))
      (distinct_perm hpc hdis), joined_of_perm hpc hasc hdis]
    congr 1
    simp only [hpc.mem_iff]
  · have : ds = [] := by
      cases ds with
      | nil => rfl
      | cons a ds => simp at hlen
    subst this
    rw [List.nil_perm.1 hperm]

/-! ## C170: the items -/

/-- **C170** Merging leaves the transfer functions that are merged as they are. -/
def C170_claim : Prop :=
  ∀ (P R : Type) [LinearOrder P] (self : Rows P R) (others : List (Item P R)) (lo hi : Option P),
    (merge self others lo hi).1 = others

/-- The transfer function in a dictionary is sorted. -/
theorem C170_refuted : ¬ C170_claim := by
  intro h
  have := h ℕ ℕ [(5, 0)] [.dict [(2, 0), (1, 0)] none none] none none
  have h2 : (merge [(5, 0)] [.dict [(2, 0), (1, 0)] none none] none none).1 =
    [(.dict [(1, 0), (2, 0)] none none : Item ℕ ℕ)] := rfl
  rw [h2] at this
  injection this with h3 _
  injection h3 with h4 _ _
  revert h4; decide

/-- What may happen to an item: its rows are sorted, and only if it is in a dictionary. -/
def Touched : Item P R → Item P R → Prop
  | .dict d lo hi, .dict d' lo' hi' => lo = lo' ∧ hi = hi' ∧ (d' = d ∨ (d'.Perm d ∧ Ascending d'))
  | .dict _ _ _, _ => False
  | i, j => i = j

theorem prepareAll_touched (l : List (Item P R)) : List.Forall₂ Touched l (prepareAll l).1 := by
  have hrefl : ∀ i : Item P R, Touched i i := by
    intro i; cases i <;> simp [Touched]
  have hp : ∀ i : Item P R, Touched i (prepare i).1 := by
    intro i
    cases i with
    | tf d => simp [Touched, prepare]
    | dict d lo hi => exact ⟨rfl, rfl, Or.inr ⟨sortRows_perm d, sortRows_ascending d⟩⟩
    | badDict => simp [Touched, prepare]
    | other => simp [Touched, prepare]
  induction l with
  | nil => exact .nil
  | cons i l ih =>
    have hi := hp i
    simp only [prepareAll]
    rcases hq : prepare i with ⟨i', e | d⟩
    · rw [hq] at hi
      exact .cons hi (List.forall₂_same.2 fun j _ => hrefl j)
    · rw [hq] at hi
      dsimp only
      rcases hr : prepareAll l with ⟨l', e | ds'⟩
      · rw [hr] at ih; exact .cons hi ih
      · rw [hr] at ih; exact .cons hi ih

theorem merge_items (self : Rows P R) (others : List (Item P R)) (lo hi : Option P) :
    (merge self others lo hi).1 = (prepareAll others).1 := by
  unfold merge
  rcases hq : prepareAll others with ⟨l', e | ds⟩ <;> rfl

/-- Nothing but the order of the periods of transfer functions in dictionaries changes. -/
theorem C170_sorted (self : Rows P R) (others : List (Item P R)) (lo hi : Option P) :
    List.Forall₂ Touched others (merge self others lo hi).1 := by
  rw [merge_items]; exact prepareAll_touched others

/-- If those in dictionaries ascend, nothing changes. -/
theorem C170_partial (self : Rows P R) (others : List (Item P R)) (lo hi : Option P)
    (h : ∀ d lo hi, .dict d lo hi ∈ others → Ascending d) : (merge self others lo hi).1 = others := by
  rw [merge_items]
  induction others with
  | nil => rfl
  | cons i l ih =>
    have ih' := ih fun d lo hi hm => h d lo hi (List.mem_cons_of_mem _ hm)
    have hi : (prepare i).1 = i := by
      cases i with
      | dict d lo hi => simp only [prepare, sortRows_of_ascending d (h d lo hi (List.mem_cons_self ..))]
      | tf d => rfl
      | badDict => rfl
      | other => rfl
    simp only [prepareAll]
    rcases hq : prepare i with ⟨i', e | d⟩
    · rw [hq] at hi; simp only at hi; rw [hi]
    · rw [hq] at hi; simp only at hi; rw [hi]
      dsimp only
      rcases hr : prepareAll l with ⟨l', e | ds'⟩
      · rw [hr] at ih'; simp only at ih'; rw [ih']
      · rw [hr] at ih'; simp only at ih'; rw [ih']

/-! ## C171: order of the merged periods -/

/-- **C171** Merged periods ascend and each is there once. -/
def C171_claim : Prop :=
  ∀ (P R : Type) [LinearOrder P] (self : Rows P R) (others : List (Item P R)) (lo hi : Option P) (out : Rows P R),
    Ascending self → (periods self).Nodup → (∀ i ∈ others, (periods (chosen i)).Nodup) →
    (merge self others lo hi).2 = .ok out → (periods out).Pairwise (· < ·)

/-- Periods 1, 2 and 2, 3 give 1, 2, 2, 3. -/
theorem C171_refuted : ¬ C171_claim := by
  intro h
  have := h ℕ ℕ [(1, 0), (2, 0)] [.tf [(2, 1), (3, 1)]] none none [(1, 0), (2, 0), (2, 1), (3, 1)]
    (by simp [Ascending]) (by decide) (by simp [chosen, periods]) (by decide +kernel)
  revert this; decide

/-- They ascend if those of the object do, and are different if those of the parts are and there are no common ones. -/
theorem C171_partial (self : Rows P R) (others : List (Item P R)) (lo hi : Option P) (out : Rows P R)
    (ha : Ascending self) (h : (merge self others lo hi).2 = .ok out) :
    Ascending out ∧ ((periods (wanted self others lo hi).flatten).Nodup → (periods out).Pairwise (· < ·)) := by
  have hasc : Ascending out := by
    obtain ⟨l, _, h2, h3⟩ := merge_wanted self others lo hi ha (merge_valid _ _ _ _ _ h)
    rw [h3] at h; exact combine_ascending l out h2 h
  refine ⟨hasc, fun hn => ?_⟩
  have hd : Distinct (wanted self others lo hi) := by
    have hn' := hn
    simp only [periods, List.map_flatten] at hn'
    rw [List.Nodup, List.pairwise_flatten] at hn'
    have h2 := hn'.2
    rw [List.pairwise_map] at h2
    exact h2.imp fun {a b} h p h1 h2 => h p h1.1 p h2.1 rfl
  have hp := C167_partial self others lo hi out ha hd h
  have hnd : (periods out).Nodup := (hp.map Prod.fst).nodup_iff.2 hn
  have h1 : (periods out).Pairwise (· ≤ ·) := by
    unfold periods; rw [List.pairwise_map]; exact hasc
  exact (h1.and hnd).imp fun {a b} h => lt_of_le_of_ne h.1 h.2

/-! ## C172: in place or not -/

/-- **C172** Merging in place changes the object to what would have been returned; it is unchanged if a new one is
returned or an exception is raised. -/
theorem C172_inplace (self : Rows P R) (others : List (Item P R)) (lo hi : Option P) :
    (∀ out, (mergeInto self others lo hi false).2 = .ok (some out) ↔
      (merge self others lo hi).2 = .ok out) ∧
    (∀ out, (merge self others lo hi).2 = .ok out → mergeInto self others lo hi true = (out, .ok none)) ∧
    (mergeInto self others lo hi false).1 = self ∧
    (∀ e b, (merge self others lo hi).2 = .error e → mergeInto self others lo hi b = (self, .error e)) := by
  unfold mergeInto
  rcases h : (merge self others lo hi).2 with e | d <;> simp

/-! ## C173: comparing -/

section Eq
open Classical
variable {M : Type}

/-- **C173** Objects that compare as equal have the same periods and the same transfer functions and errors. -/
def C173_claim : Prop :=
  ∀ (a b : Obj ℚ ℕ), eq (fun x y => x != y) a (some b) = .ok true →
    a.tf.ds.periods = b.tf.ds.periods ∧ get a.tf .tf = get b.tf .tf ∧ get a.tf .tfError = get b.tf .tfError

def std : Names := ⟨"ex".toList, "ey".toList, "hx".toList, "hy".toList, "hz".toList⟩

omit [LinearOrder P] in
theorem getLoc_ok (d : DS P) (v : Var) (o i : List Str) (ho : known d o = true) (hi : known d i = true) :
    getLoc d v o i = .ok ((List.range d.periods.length).map fun k => o.map fun o => i.map fun i => d.arr v k o i) := by
  simp [getLoc, ho, hi]

/-- All numbers zero, all errors `x`. -/
def flat (p : List ℚ) (x : ℂ) : Obj ℚ ℕ :=
  ⟨⟨std, { periods := p, labels := std.all, arr := fun v _ _ _ => if v = .err then some x else some 0 }⟩, 0, 0⟩

/-- All numbers one, all errors `x`. -/
def ones (x : ℂ) : Obj ℚ ℕ :=
  ⟨⟨std, { periods := [1], labels := std.all, arr := fun v _ _ _ => if v = .err then some x else some 1 }⟩, 0, 0⟩

theorem hasTf_flat (p : List ℚ) (x : ℂ) : hasTf (flat p x).tf = .ok false := by
  have h1 : known (flat p x).tf.ds (flat p x).tf.names.exeyhz = true := rfl
  have h2 : known (flat p x).tf.ds (flat p x).tf.names.hxhy = true := rfl
  have h3 : (flat p x).tf.ds.labels.contains (flat p x).tf.names.ex = true := rfl
  simp only [hasTf, getLoc_ok _ _ _ _ h1 h2, h3, Bool.true_or, if_true]
  have : allZero ((List.range (flat p x).tf.ds.periods.length).map fun k => (flat p x).tf.names.exeyhz.map fun o =>
      (flat p x).tf.names.hxhy.map fun i => (flat p x).tf.ds.arr .tf k o i) = true := by
    simp [allZero, flat]
  rw [this]; rfl

/-- Without a transfer function the periods are not compared. -/
theorem C173_refuted : ¬ C173_claim := by
  intro h
  have := (h (flat [1] 0) (flat [1, 2] 0) (by simp only [eq, Tf.get, guarded, hasTf_flat]; rfl)).1
  revert this; decide

theorem get_ones (x : ℂ) : get (ones x).tf .tf = .ok (some [[[some 1, some 1], [some 1, some 1], [some 1, some 1]]]) ∧
    get (ones x).tf .tfError = .ok (some [[[some x, some x], [some x, some x], [some x, some x]]]) := by
  have h1 : known (ones x).tf.ds (ones x).tf.names.exeyhz = true := rfl
  have h2 : known (ones x).tf.ds (ones x).tf.names.hxhy = true := rfl
  have h3 : (ones x).tf.ds.labels.contains (ones x).tf.names.ex = true := rfl
  have h4 : hasTf (ones x).tf = .ok true := by
    simp only [hasTf, getLoc_ok _ _ _ _ h1 h2, h3, Bool.true_or, if_true]
    have : allZero ((List.range (ones x).tf.ds.periods.length).map fun k => (ones x).tf.names.exeyhz.map fun o =>
        (ones x).tf.names.hxhy.map fun i => (ones x).tf.ds.arr .tf k o i) = false := by
      simp [allZero, ones, Names.exeyhz, Names.hxhy]
    rw [this]; rfl
  simp only [Tf.get, h4, guarded, getLoc_ok _ _ _ _ h1 h2]
  constructor <;> simp [ones, Names.exeyhz, Names.hxhy, List.range_succ]

/-- Errors are not compared, even with the same periods and transfer functions. -/
theorem C173_errors : eq (fun x y => x != y) (ones 0) (some (ones 1)) = .ok true ∧
    get (ones 0).tf .tfError ≠ get (ones 1).tf .tfError := by
  refine ⟨?_, ?_⟩
  · simp only [eq, (get_ones 0).1, (get_ones 1).1]
    have : sameTf (ones 0).tf (ones 1).tf [[[some 1, some 1], [some 1, some 1], [some 1, some 1]]]
        [[[some 1, some 1], [some 1, some 1], [some 1, some 1]]] := ⟨rfl, rfl, rfl, rfl⟩
    rw [decide_eq_true this]; simp [ones]
  · rw [(get_ones 0).2, (get_ones 1).2]; simp

omit [LinearOrder P] in
/-- Objects that compare as equal have metadata that do, and the same transfer functions, at the same periods unless there
are none. -/
theorem C173_partial (ne : M → M → Bool) (a b : Obj P M) (h : eq ne a (some b) = .ok true) :
    ne a.station b.station = false ∧ ne a.survey b.survey = false ∧ get a.tf .tf = get b.tf .tf ∧
    (get a.tf .tf ≠ .ok none → a.tf.ds.periods = b.tf.ds.periods ∧ a.tf.names = b.tf.names) := by
  unfold eq at h
  dsimp only at h
  split at h
  · cases h
  · cases h
  · cases h
  · rename_i x y hx hy
    simp only [Except.ok.injEq, Bool.and_eq_true, Bool.not_eq_true', decide_eq_true_eq] at h
    obtain ⟨⟨h1, h2⟩, h3, h4, h5, h6⟩ := h
    refine ⟨h1, h2, by rw [hx, hy, h6], fun _ => ⟨h5, ?_⟩⟩
    have e : a.tf.names = b.tf.names := by
      rcases ha : a.tf.names with ⟨a1, a2, a3, a4, a5⟩
      rcases hb : b.tf.names with ⟨b1, b2, b3, b4, b5⟩
      rw [ha, hb] at h3 h4
      simp only [Names.exeyhz, Names.hxhy, List.cons.injEq, and_true] at h3 h4
      obtain ⟨rfl, rfl, rfl⟩ := h3
      obtain ⟨rfl, rfl⟩ := h4
      rfl
    exact e
  · rename_i hx hy
    simp only [Except.ok.injEq, Bool.and_eq_true, Bool.not_eq_true'] at h
    exact ⟨h.1, h.2, by rw [hx, hy], fun hc => absurd hx hc⟩
  · cases h

omit [LinearOrder P] in
/-- Conversely, such objects compare as equal. -/
theorem C173_same (ne : M → M → Bool) (a b : Obj P M) (h1 : ne a.station b.station = false)
    (h2 : ne a.survey b.survey = false) (h3 : a.tf.names = b.tf.names) (h4 : a.tf.ds.periods = b.tf.ds.periods)
    (x : Option (List (List (List Val)))) (h5 : get a.tf .tf = .ok x) (h6 : get b.tf .tf = .ok x) :
    eq ne a (some b) = .ok true := by
  unfold eq
  cases x with
  | none => simp [h5, h6, h1, h2]
  | some x =>
    simp only [h5, h6, h1, h2]
    have : sameTf a.tf b.tf x x := ⟨by rw [h3], by rw [h3], h4, rfl⟩
    rw [decide_eq_true this]; rfl

omit [LinearOrder P] in
/-- Comparing with an object of another class raises. -/
theorem C173_other (ne : M → M → Bool) (a : Obj P M) : eq ne a none = .error .attributeError := rfl

end Eq

/-! ## C174, C175: names of files -/

/-- **C174** A file that is written is read in the format in which it was written. -/
def C174_claim : Prop :=
  ∀ (dir station : Str) (a : Args) (d name : Str) (k : Kind), write dir station a = .ok (d, name, k) →
    readKind name none = .ok k

/-- `write(fn_basename="a.xml")` writes an EDI file of that name. -/
theorem C174_refuted : ¬ C174_claim := by
  intro h
  have := h "/d".toList "mt01".toList { base := some "a.xml".toList } "/d".toList "a.xml".toList .edi (by decide +kernel)
  revert this; decide +kernel

theorem suffix_dotted (s t : Str) (hs : s ≠ []) (ht : t ≠ []) (hd : '.' ∉ t) : suffix (s ++ '.' :: t) = '.' :: t := by
  have h1 : ((s ++ '.' :: t).reverse.takeWhile (· != '.')).reverse = t := by
    rw [List.reverse_append, List.reverse_cons, List.append_assoc, List.takeWhile_append_of_pos]
    · simp
    · intro c hc
      have : c ≠ '.' := fun e => hd (e ▸ List.mem_reverse.1 hc)
      simpa using this
  have h2 : (s ++ '.' :: t).contains '.' = true := by simp
  unfold suffix
  rw [if_pos h2]
  simp only [h1]
  rw [if_neg ht, if_neg]
  intro hc
  have : s.length = 0 := by
    have h3 : (s ++ '.' :: t).length = s.length + (t.length + 1) := by simp
    rw [h3] at hc; omega
  exact hs (List.length_eq_zero_iff.1 this)

/-- The keys of `_read_write_dict`. -/
theorem kindOf_mem (t : Str) (k : Kind) (h : kindOf t = some k) :
    t ∈ ["edi".toList, "xml".toList, "emtfxml".toList, "j".toList, "zmm".toList, "zrr".toList, "zss".toList,
      "avg".toList] := by
  unfold kindOf at h
  by_cases h1 : t = "edi".toList
  · simp [h1]
  rw [if_neg h1] at h
  by_cases h2 : t = "xml".toList
  · simp [h2]
  rw [if_neg h2] at h
  by_cases h3 : t = "emtfxml".toList
  · simp [h3]
  rw [if_neg h3] at h
  by_cases h4 : t = "j".toList
  · simp [h4]
  rw [if_neg h4] at h
  by_cases h5 : t = "zmm".toList
  · simp [h5]
  rw [if_neg h5] at h
  by_cases h6 : t = "zrr".toList
  · simp [h6]
  rw [if_neg h6] at h
  by_cases h7 : t = "zss".toList
  · simp [h7]
  rw [if_neg h7] at h
  by_cases h8 : t = "avg".toList
  · simp [h8]
  rw [if_neg h8] at h; cases h

theorem typeOf_dotted (s t : Str) (k : Kind) (hs : s ≠ []) (h : kindOf t = some k) : typeOf (s ++ '.' :: t) = t := by
  have hm := kindOf_mem t k h
  have h1 : t ≠ [] ∧ '.' ∉ t ∧ t.map Char.toLower = t := by
    revert hm; revert t
    intro t _ hm
    simp only [List.mem_cons, List.not_mem_nil, or_false] at hm
    rcases hm with rfl | rfl | rfl | rfl | rfl | rfl | rfl | rfl <;> decide
  unfold typeOf
  rw [suffix_dotted s t hs h1.1 h1.2.1]
  simp only [List.map_cons, List.drop_succ_cons, List.drop_zero]
  exact h1.2.2

/-- What is needed: a full name is given, or the name has no suffix or the one of the type, or it is that of the station. -/
def Agrees (station : Str) (a : Args) : Prop :=
  a.fn ≠ none ∨ (∃ b, a.base = some b ∧ suffix b = []) ∨ (∃ b, a.base = some b ∧ a.fileType = some (typeOf b)) ∨
    (∃ b, a.base = some b ∧ a.fileType = none) ∨ (a.base = none ∧ station ≠ [])

theorem C174_partial (dir station : Str) (a : Args) (d name : Str) (k : Kind) (hs : Agrees station a)
    (h : write dir station a = .ok (d, name, k)) : readKind name none = .ok k := by
  obtain ⟨fn, sd, base, ft⟩ := a
  unfold write at h
  have fin : ∀ (t : Str), kindOf t = some k → typeOf name = t → readKind name none = .ok k := by
    intro t h1 h2
    simp [readKind, h2, h1]
  have drop : ∀ (d' : Str) (n : Str) (t : Option Str),
      (match kindOf (t.getD (typeOf n)) with
        | none => (Except.error .valueError : Except PyErr (Str × Str × Kind))
        | some .j => .error .notImplementedError
        | some k => .ok (d', n, k)) = .ok (d, name, k) → n = name ∧ kindOf (t.getD (typeOf n)) = some k := by
    intro d' n t h
    split at h
    · cases h
    · cases h
    · rename_i h' ; cases h; exact ⟨rfl, h'⟩
  cases fn with
  | some f =>
    dsimp only at h
    by_cases hsuf : suffix f.2 = []
    · exfalso
      rw [if_pos hsuf] at h
      have ht : typeOf f.2 = [] := by simp [typeOf, hsuf]
      split at h
      · cases h
      · rename_i n hn
        have := (drop _ _ _ h).2
        rw [ht] at this
        revert this; simp [kindOf]
    · rw [if_neg hsuf] at h
      dsimp only at h
      obtain ⟨rfl, h2⟩ := drop _ _ _ h
      exact fin _ h2 rfl
  | none =>
    dsimp only at h
    rcases hs with hs | ⟨b, hb, hs⟩ | ⟨b, hb, hs⟩ | ⟨b, hb, hs⟩ | ⟨hb, hs⟩
    · exact absurd rfl hs
    · simp only at hb; subst hb
      dsimp only at h
      rw [if_pos hs] at h
      by_cases hne : b = []
      · rw [if_pos hne] at h; cases h
      · rw [if_neg hne] at h
        dsimp only at h
        obtain ⟨rfl, h2⟩ := drop _ _ _ h
        cases ft with
        | none =>
          exfalso
          have : typeOf (dotted b none) = "none".toList := by
            unfold typeOf dotted
            rw [Option.getD_none, suffix_dotted b "None".toList hne (by decide) (by decide)]; decide
          simp only [Option.getD_none, this] at h2
          rw [show kindOf "none".toList = none from by decide] at h2; cases h2
        | some t => exact fin t h2 (typeOf_dotted b t k hne h2)
    · simp only at hb hs; subst hb hs
      dsimp only at h
      by_cases hsuf : suffix b = []
      · exfalso
        rw [if_pos hsuf] at h
        have ht : typeOf b = [] := by simp [typeOf, hsuf]
        split at h
        · cases h
        · have := (drop _ _ _ h).2
          rw [ht] at this
          revert this; simp [kindOf]
      · rw [if_neg hsuf] at h
        dsimp only at h
        obtain ⟨rfl, h2⟩ := drop _ _ _ h
        exact fin _ h2 rfl
    · simp only at hb hs; subst hb hs
      dsimp only at h
      by_cases hsuf : suffix b = []
      · rw [if_pos hsuf] at h
        by_cases hne : b = []
        · rw [if_pos hne] at h; cases h
        · rw [if_neg hne] at h
          dsimp only at h
          obtain ⟨rfl, h2⟩ := drop _ _ _ h
          exact fin _ h2 rfl
      · rw [if_neg hsuf] at h
        dsimp only at h
        obtain ⟨rfl, h2⟩ := drop _ _ _ h
        exact fin _ h2 rfl
    · simp only at hb; subst hb
      dsimp only at h
      obtain ⟨rfl, h2⟩ := drop _ _ _ h
      cases ft with
      | none =>
        exact fin _ h2 rfl
      | some t => exact fin t h2 (typeOf_dotted station t k hs h2)

/-- The eight names of types. -/
theorem C174_types (name : Str) :
    readKind name (some "edi".toList) = .ok .edi ∧ readKind name (some "xml".toList) = .ok .xml ∧
    readKind name (some "emtfxml".toList) = .ok .xml ∧ readKind name (some "j".toList) = .ok .j ∧
    readKind name (some "zmm".toList) = .ok .zmm ∧ readKind name (some "zrr".toList) = .ok .zmm ∧
    readKind name (some "zss".toList) = .ok .zmm ∧ readKind name (some "avg".toList) = .ok .avg := by
  refine ⟨rfl, rfl, rfl, rfl, rfl, rfl, rfl, rfl⟩

/-- Without a type, the suffix in small or capital letters is the type. -/
theorem C174_suffix (s t : Str) (k : Kind) (hs : s ≠ []) (ht : '.' ∉ t) (h : readKind [] (some (t.map Char.toLower)) = .ok k) :
    readKind (s ++ '.' :: t) none = .ok k := by
  have hne : t ≠ [] := by rintro rfl; revert h; cases k <;> decide
  have e : typeOf (s ++ '.' :: t) = t.map Char.toLower := by
    unfold typeOf
    rw [suffix_dotted s t hs hne ht]
    rfl
  unfold readKind at h ⊢
  rw [Option.getD_none, e]
  exact h

example : readKind "MT.01.ZRR".toList none = .ok .zmm := by decide +kernel

/-- **C175** All file types of the documentation can be written. -/
def C175_claim : Prop :=
  ∀ (dir station : Str) (t : Str),
    t ∈ ["edi".toList, "xml".toList, "zmm".toList, "avg".toList, "j".toList] →
    ∃ k, write dir station { fileType := some t } = .ok (dir, station ++ '.' :: t, k)

/-- There are no J files to write. -/
theorem C175_refuted : ¬ C175_claim := by
  intro h
  obtain ⟨k, hk⟩ := h [] [] "j".toList (by simp)
  revert hk; cases k <;> decide +kernel

/-- The others are written under the name of the station, in their format. -/
theorem C175_partial (dir station : Str) :
    write dir station { fileType := some "edi".toList } = .ok (dir, station ++ ".edi".toList, .edi) ∧
    write dir station { fileType := some "xml".toList } = .ok (dir, station ++ ".xml".toList, .xml) ∧
    write dir station { fileType := some "zmm".toList } = .ok (dir, station ++ ".zmm".toList, .zmm) ∧
    write dir station { fileType := some "avg".toList } = .ok (dir, station ++ ".avg".toList, .avg) := by
  refine ⟨rfl, rfl, rfl, rfl⟩

/-- A full path decides on directory, name and type, whatever the other arguments, except that `save_dir` is used if it is
given. -/
theorem C175_path (dir station d name : Str) (a : Args) (ha : a.fn = some (d, name)) (hs : suffix name ≠ []) (k : Kind)
    (hk : kindOf (typeOf name) = some k) (hj : k ≠ .j) :
    write dir station a = .ok (a.saveDir.getD d, name, k) := by
  unfold write
  simp only [ha, if_neg hs, Option.getD_some, hk]

/-- A full path with a suffix in small or capital letters. -/
theorem C175_suffix (dir station d s t : Str) (a : Args) (hs : s ≠ []) (ht : '.' ∉ t) (ha : a.fn = some (d, s ++ '.' :: t)) (k : Kind)
    (hk : readKind [] (some (t.map Char.toLower)) = .ok k) (hj : k ≠ .j) :
    write dir station a = .ok (a.saveDir.getD d, s ++ '.' :: t, k) := by
  have hne : t ≠ [] := by rintro rfl; revert hk; cases k <;> decide
  have h1 := C174_suffix s t k hs ht hk
  refine C175_path dir station d _ a ha ?_ k ?_ hj
  · rw [suffix_dotted s t hs hne ht]; simp
  · unfold readKind at h1
    rw [Option.getD_none] at h1
    cases hc : kindOf (typeOf (s ++ '.' :: t)) with
    | none => rw [hc] at h1; cases h1
    | some k' => rw [hc] at h1; cases h1; rfl

example : write [] [] { fn := some ("/data".toList, "MT.01.EDI".toList), fileType := some "xml".toList } =
    .ok ("/data".toList, "MT.01.EDI".toList, .edi) := by decide +kernel

end Verif.TfMerge
