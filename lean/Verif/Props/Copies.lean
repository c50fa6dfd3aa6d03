import Verif.Model.Copies
import Verif.Lemmas.OD

/-! # C384-C387: copies of metadata objects -/

namespace Verif.Copies

/-- What is seen of a value: the tree of its parts, to some depth. -/
inductive Tree where
  | none
  | plain (n : Nat)
  | raw (n : Nat)
  | cut
  | node (l : List (Name × Tree))

/-- What is seen of a value. -/
def view : Nat → Heap → Val → Tree
  | _, _, .none => .none
  | _, _, .plain n => .plain n
  | _, _, .raw n => .raw n
  | 0, _, .ref _ => .cut
  | k + 1, h, .ref a => .node ((h[a]?.getD []).map (fun p => (p.1, view k h p.2)))

/-- An object is at a place between two. -/
def Ok (lo hi : Nat) (v : Val) : Prop := ∀ b, v = .ref b → lo ≤ b ∧ b < hi

/-- The parts of all these objects are between two places. -/
def Within (lo hi : Nat) (t : Heap) : Prop := ∀ c ∈ t, ∀ p ∈ c, Ok lo hi p.2

/-- The parts of all objects are objects. -/
def Heap.Closed (h : Heap) : Prop := Within 0 h.length h

theorem Ok.mono {lo hi lo' hi' : Nat} {v : Val} (h : Ok lo hi v) (h1 : lo' ≤ lo) (h2 : hi ≤ hi') : Ok lo' hi' v :=
  fun b e => ⟨Nat.le_trans h1 (h b e).1, Nat.lt_of_lt_of_le (h b e).2 h2⟩

theorem view_append (h t : Heap) (hc : h.Closed) (k : Nat) (v : Val) (hv : Ok 0 h.length v) : view k (h ++ t) v = view k h v := by
  induction k generalizing v with
  | zero => cases v <;> rfl
  | succ k ih =>
    cases v with
    | none => rfl
    | plain n => rfl
    | raw n => rfl
    | ref a =>
      have ha := (hv a rfl).2
      show Tree.node _ = Tree.node _
      rw [List.getElem?_append_left ha]
      congr 1
      apply List.map_congr_left
      intro p hp
      rw [ih p.2]
      rw [List.getElem?_eq_getElem ha, Option.getD_some] at hp
      exact hc _ (List.getElem_mem ha) p hp

theorem closed_append {h t : Heap} (hc : h.Closed) (ht : Within h.length (h ++ t).length t) : (h ++ t).Closed := by
  intro c hm p hp
  rcases List.mem_append.1 hm with hm | hm
  · exact (hc c hm p hp).mono (Nat.zero_le _) (by simp)
  · exact (ht c hm p hp).mono (Nat.zero_le _) (Nat.le_refl _)

/-- What a way to copy has to do. -/
def Good (f : Heap → Val → Except Fail (Heap × Val)) : Prop := ∀ h v h' v', h.Closed → Ok 0 h.length v → f h v = .ok (h', v') →
  ∃ t, h' = h ++ t ∧ Within h.length h'.length t ∧ Ok h.length h'.length v' ∧ ∀ k, view k h' v' = view k h v

theorem deepL_good (f : Heap → Val → Except Fail (Heap × Val)) (hf : Good f) (c : Cell) (h h' : Heap) (c' : Cell) (hc : h.Closed)
    (ho : ∀ p ∈ c, Ok 0 h.length p.2) (e : deepL f h c = .ok (h', c')) :
    ∃ t, h' = h ++ t ∧ Within h.length h'.length t ∧ (∀ p ∈ c', Ok h.length h'.length p.2) ∧
      ∀ k, c'.map (fun p => (p.1, view k h' p.2)) = c.map (fun p => (p.1, view k h p.2)) := by
  induction c generalizing h h' c' with
  | nil =>
    cases e
    exact ⟨[], by simp, (fun _ m => nomatch m), (fun _ m => nomatch m), fun _ => rfl⟩
  | cons x r ih =>
    obtain ⟨k, v⟩ := x
    unfold deepL at e
    split at e
    · cases e
    · rename_i h1 v1 e1
      split at e
      · cases e
      · rename_i h2 r2 e2
        cases e
        obtain ⟨t1, rfl, w1, o1, s1⟩ := hf _ _ _ _ hc (ho (k, v) (by simp)) e1
        have c1 := closed_append hc w1
        obtain ⟨t2, rfl, w2, o2, s2⟩ := ih (h ++ t1) _ _ c1 (fun p hp => (ho p (List.mem_cons_of_mem _ hp)).mono (Nat.le_refl _) (by simp)) e2
        have l1 : h.length ≤ (h ++ t1).length := by simp
        have l2 : (h ++ t1).length ≤ (h ++ t1 ++ t2).length := by simp
        refine ⟨t1 ++ t2, List.append_assoc _ _ _, ?_, ?_, ?_⟩
        · intro d hd p hp
          rcases List.mem_append.1 hd with hd | hd
          · exact (w1 d hd p hp).mono (Nat.le_refl _) l2
          · exact (w2 d hd p hp).mono l1 (Nat.le_refl _)
        · intro p hp
          rcases List.mem_cons.1 hp with rfl | hp
          · exact o1.mono (Nat.le_refl _) l2
          · exact (o2 p hp).mono l1 (Nat.le_refl _)
        · intro k'
          rw [List.map_cons, List.map_cons, s2 k']
          congr 1
          · show (k, view k' (h ++ t1 ++ t2) v1) = (k, view k' h v)
            rw [view_append _ _ c1 _ _ (o1.mono (Nat.zero_le _) (Nat.le_refl _)), s1]
          · apply List.map_congr_left
            intro p hp
            rw [view_append _ _ hc _ _ (ho p (List.mem_cons_of_mem _ hp))]

theorem deep_good (n : Nat) : Good (deep n) := by
  induction n with
  | zero =>
    intro h v h' v' hc ho e
    cases v with
    | none => cases e; exact ⟨[], by simp, (fun _ m => nomatch m), (fun _ m => nomatch m), fun k => by cases k <;> rfl⟩
    | plain n => cases e; exact ⟨[], by simp, (fun _ m => nomatch m), (fun _ m => nomatch m), fun k => by cases k <;> rfl⟩
    | raw n => cases e
    | ref a => cases e
  | succ n ih =>
    intro h v h' v' hc ho e
    cases v with
    | none => cases e; exact ⟨[], by simp, (fun _ m => nomatch m), (fun _ m => nomatch m), fun k => by cases k <;> rfl⟩
    | plain n => cases e; exact ⟨[], by simp, (fun _ m => nomatch m), (fun _ m => nomatch m), fun k => by cases k <;> rfl⟩
    | raw n => cases e
    | ref a =>
      have ha := (ho a rfl).2
      unfold deep at e
      rw [List.getElem?_eq_getElem ha] at e
      simp only at e
      split at e
      · cases e
      · rename_i h1 c1 e1
        cases e
        obtain ⟨t, rfl, w, o, s⟩ := deepL_good _ ih _ _ _ _ hc (hc _ (List.getElem_mem ha)) e1
        have cl := closed_append hc w
        have ll : (h ++ t).length ≤ (h ++ t ++ [c1]).length := by simp
        refine ⟨t ++ [c1], List.append_assoc _ _ _, ?_, ?_, ?_⟩
        · intro d hd p hp
          rcases List.mem_append.1 hd with hd | hd
          · exact (w d hd p hp).mono (Nat.le_refl _) ll
          · rw [List.mem_singleton] at hd
            subst hd
            exact (o p hp).mono (Nat.le_refl _) ll
        · rintro b ⟨⟩
          simp
        · intro k
          cases k with
          | zero => rfl
          | succ k =>
            show Tree.node _ = Tree.node _
            rw [List.getElem?_append_right (Nat.le_refl _), Nat.sub_self, List.getElem?_eq_getElem ha]
            show Tree.node (c1.map _) = Tree.node (h[a].map _)
            rw [← s k]
            congr 1
            apply List.map_congr_left
            intro p hp
            rw [view_append _ _ cl _ _ ((o p hp).mono (Nat.zero_le _) (Nat.le_refl _))]

/-! ### Two regions -/

/-- Parts of objects in a region are in the region. -/
def Keeps (R : Nat → Prop) (h : Heap) : Prop := ∀ i, R i → ∀ c, h[i]? = some c → ∀ p ∈ c, ∀ b, p.2 = .ref b → R b

/-- Two heaps are the same in a region. -/
def Agree (R : Nat → Prop) (h g : Heap) : Prop := ∀ i, R i → h[i]? = g[i]?

theorem resolve_in {R : Nat → Prop} {h : Heap} (hk : Keeps R h) (p : List Name) (a b : Nat) (ha : R a) (e : resolve h a p = some b) : R b := by
  induction p generalizing a with
  | nil => cases e; exact ha
  | cons k p ih =>
    unfold resolve at e
    split at e
    · cases e
    · rename_i c hc
      split at e
      · rename_i d hd
        exact ih d (hk a ha c hc _ (OD.mem_of_get? hd) d rfl) e
      · cases e

theorem resolve_agree {R : Nat → Prop} {h g : Heap} (hk : Keeps R h) (hg : Agree R h g) (p : List Name) (a : Nat) (ha : R a) :
    resolve h a p = resolve g a p := by
  induction p generalizing a with
  | nil => rfl
  | cons k p ih =>
    unfold resolve
    rw [← hg a ha]
    split
    · rfl
    · rename_i c hc
      split
      · rename_i d hd
        exact ih d (hk a ha c hc _ (OD.mem_of_get? hd) d rfl)
      · rfl

theorem view_agree {R : Nat → Prop} {h g : Heap} (hk : Keeps R h) (hg : Agree R h g) (k : Nat) (v : Val) (hv : ∀ b, v = .ref b → R b) :
    view k h v = view k g v := by
  induction k generalizing v with
  | zero => cases v <;> rfl
  | succ k ih =>
    cases v with
    | none => rfl
    | plain n => rfl
    | raw n => rfl
    | ref a =>
      have ha := hv a rfl
      show Tree.node _ = Tree.node _
      rw [← hg a ha]
      congr 1
      apply List.map_congr_left
      intro p hp
      rw [ih p.2]
      intro b hb
      cases hc : h[a]? with
      | none => rw [hc] at hp; cases hp
      | some c =>
        rw [hc] at hp
        exact hk a ha c hc p hp b hb

theorem mem_set {d : Cell} {k : Name} {v : Val} {p : Name × Val} (h : p ∈ OD.set d k v) : p ∈ d ∨ p.2 = v := by
  induction d with
  | nil =>
    rw [show OD.set ([] : Cell) k v = [(k, v)] from rfl, List.mem_singleton] at h
    exact .inr (by rw [h])
  | cons x d ih =>
    obtain ⟨k', v'⟩ := x
    unfold OD.set at h
    split at h
    · rcases List.mem_cons.1 h with rfl | h
      · exact .inr rfl
      · exact .inl (List.mem_cons_of_mem _ h)
    · rcases List.mem_cons.1 h with rfl | h
      · exact .inl (by simp)
      · rcases ih h with h | h
        · exact .inl (List.mem_cons_of_mem _ h)
        · exact .inr h

theorem assign_keeps {R : Nat → Prop} {h : Heap} (hk : Keeps R h) (a : Nat) (p : List Name) (k : Name) (n : Nat) : Keeps R (assign h a p k n) := by
  unfold assign
  split
  · exact hk
  · rename_i b _
    intro i hi c hc q hq d hd
    rw [List.getElem?_modify] at hc
    cases e : h[i]? with
    | none => rw [e] at hc; cases hc
    | some c0 =>
      rw [e] at hc
      by_cases hb : b = i
      · simp only [hb, if_true, Option.map_eq_map, Option.map_some, Option.some.injEq] at hc
        subst hc
        rcases mem_set hq with hq | hq
        · exact hk i hi c0 e q hq d hd
        · rw [hq] at hd
          cases hd
      · simp only [hb, if_false, Option.map_eq_map, Option.map_some, Option.some.injEq, id] at hc
        subst hc
        exact hk i hi c0 e q hq d hd

theorem assign_out {R : Nat → Prop} {h : Heap} (hk : Keeps (fun i => ¬ R i) h) (a : Nat) (ha : ¬ R a) (p : List Name) (k : Name) (n : Nat) :
    Agree R (assign h a p k n) h := by
  intro i hi
  unfold assign
  split
  · rfl
  · rename_i b hb
    have := resolve_in hk p a b ha hb
    have hne : b ≠ i := fun e => this (e ▸ hi)
    simp [List.getElem?_modify, hne]

theorem assign_agree {R : Nat → Prop} {h g : Heap} (hk : Keeps R h) (hg : Agree R h g) (a : Nat) (ha : R a) (p : List Name) (k : Name) (n : Nat) :
    Agree R (assign h a p k n) (assign g a p k n) := by
  intro i hi
  unfold assign
  rw [← resolve_agree hk hg p a ha]
  split
  · exact hg i hi
  · rw [List.getElem?_modify, List.getElem?_modify, hg i hi]

/-- An assignment: to the copy or not, through a dotted name, of a name, a value. -/
abbrev Op := Bool × List Name × Name × Nat

/-- Assignments one after another. -/
def runOps (a b : Nat) (h : Heap) (l : List Op) : Heap :=
  l.foldl (fun h o => assign h (if o.1 then b else a) o.2.1 o.2.2.1 o.2.2.2) h

theorem run_agree {R : Nat → Prop} (a b : Nat) (ha : R a) (hb : ¬ R b) (l : List Op) (h g : Heap) (h1 : Keeps R h)
    (h2 : Keeps (fun i => ¬ R i) h) (hg : Agree R h g) : Agree R (runOps a b h l) (runOps a b g (l.filter (fun o => !o.1))) ∧ Keeps R (runOps a b h l) := by
  induction l generalizing h g with
  | nil => exact ⟨hg, h1⟩
  | cons o l ih =>
    obtain ⟨w, p, k, n⟩ := o
    cases w with
    | true =>
      refine ih (assign h b p k n) g (assign_keeps h1 _ _ _ _) (assign_keeps h2 _ _ _ _) ?_
      intro i hi
      rw [assign_out h2 b hb p k n i hi, hg i hi]
    | false =>
      exact ih (assign h a p k n) (assign g a p k n) (assign_keeps h1 _ _ _ _) (assign_keeps h2 _ _ _ _) (assign_agree h1 hg a ha p k n)

theorem run_swap (a b : Nat) (h : Heap) (l : List Op) : runOps a b h l = runOps b a h (l.map (fun o => (!o.1, o.2))) := by
  unfold runOps
  rw [List.foldl_map]
  congr 1
  funext h o
  cases o.1 <;> rfl

/-- An object of some depth at most, all of whose parts can be copied. -/
def Fits : Nat → Heap → Val → Prop
  | _, _, .none => True
  | _, _, .plain _ => True
  | _, _, .raw _ => False
  | 0, _, .ref _ => False
  | n + 1, h, .ref a => ∃ c, h[a]? = some c ∧ ∀ p ∈ c, Fits n h p.2

theorem fits_append (n : Nat) (h t : Heap) (v : Val) (hv : Fits n h v) : Fits n (h ++ t) v := by
  induction n generalizing v with
  | zero => cases v <;> exact hv
  | succ n ih =>
    cases v with
    | none => exact hv
    | plain n => exact hv
    | raw n => exact hv
    | ref a =>
      obtain ⟨c, hc, hp⟩ := hv
      exact ⟨c, by rw [List.getElem?_append_left (List.getElem?_eq_some_iff.1 hc).1, hc], fun p m => ih p.2 (hp p m)⟩

theorem deepL_ok (n : Nat) (hf : ∀ h v, h.Closed → Ok 0 h.length v → Fits n h v → ∃ h' v', deep n h v = .ok (h', v')) (c : Cell) (h : Heap)
    (hc : h.Closed) (ho : ∀ p ∈ c, Ok 0 h.length p.2) (hp : ∀ p ∈ c, Fits n h p.2) : ∃ h' c', deepL (deep n) h c = .ok (h', c') := by
  induction c generalizing h with
  | nil => exact ⟨_, _, rfl⟩
  | cons x r ih =>
    obtain ⟨k, v⟩ := x
    obtain ⟨h1, v1, e1⟩ := hf h v hc (ho (k, v) (by simp)) (hp (k, v) (by simp))
    obtain ⟨t1, rfl, w1, _, _⟩ := deep_good n _ _ _ _ hc (ho (k, v) (by simp)) e1
    obtain ⟨h2, r2, e2⟩ := ih (h ++ t1) (closed_append hc w1)
      (fun p m => (ho p (List.mem_cons_of_mem _ m)).mono (Nat.le_refl _) (by simp))
      (fun p m => fits_append n h t1 p.2 (hp p (List.mem_cons_of_mem _ m)))
    refine ⟨h2, (k, v1) :: r2, ?_⟩
    unfold deepL
    rw [e1]
    simp only
    rw [e2]

theorem deep_ok (n : Nat) : ∀ h v, h.Closed → Ok 0 h.length v → Fits n h v → ∃ h' v', deep n h v = .ok (h', v') := by
  induction n with
  | zero =>
    intro h v _ _ hv
    cases v with
    | none => exact ⟨_, _, rfl⟩
    | plain n => exact ⟨_, _, rfl⟩
    | raw n => exact hv.elim
    | ref a => exact hv.elim
  | succ n ih =>
    intro h v hc ho hv
    cases v with
    | none => exact ⟨_, _, rfl⟩
    | plain n => exact ⟨_, _, rfl⟩
    | raw n => exact hv.elim
    | ref a =>
      obtain ⟨c, ha, hp⟩ := hv
      obtain ⟨h1, c1, e⟩ := deepL_ok n ih c h hc (hc c (List.mem_of_getElem? ha)) hp
      refine ⟨h1 ++ [c1], .ref h1.length, ?_⟩
      unfold deep
      rw [ha]
      simp only
      rw [e]

theorem mem_writeAll (u c : Cell) (p : Name × Val) (h : p ∈ writeAll c u) : p ∈ c ∨ ∃ q ∈ u, q.2 = p.2 := by
  unfold writeAll at h
  induction u generalizing c with
  | nil => exact .inl h
  | cons x u ih =>
    rw [List.foldl_cons] at h
    rcases ih _ h with h | ⟨q, hq, e⟩
    · rcases mem_set h with h | h
      · exact .inl h
      · exact .inr ⟨x, by simp, h.symm⟩
    · exact .inr ⟨q, List.mem_cons_of_mem _ hq, e⟩

theorem mem_full (b : Bool) (c u : Cell) (p : Name × Val) (h : p ∈ fullUpdate b c u) : p ∈ u ∨ p.2 = .none ∨ OD.get? c .mth5 = some p.2 := by
  have h1 : ∀ q : Name × Val, q ∈ (match OD.get? c .hdf5 with
      | some v => if b && decide (v ≠ Val.none) then OD.set u Name.hdf5 Val.none else u
      | none => u) → q ∈ u ∨ q.2 = .none := by
    intro q hq
    split at hq
    · split at hq
      · exact mem_set hq
      · exact .inl hq
    · exact .inl hq
  unfold fullUpdate at h
  simp only at h
  split at h
  · rename_i v hv
    split at h
    · rcases mem_set h with h | h
      · rcases h1 p h with h | h
        · exact .inl h
        · exact .inr (.inl h)
      · exact .inr (.inr (by rw [hv, h]))
    · rcases h1 p h with h | h
      · exact .inl h
      · exact .inr (.inl h)
  · rcases h1 p h with h | h
    · exact .inl h
    · exact .inr (.inl h)

variable (rebuild : Heap → Nat → Except Fail (Heap × Nat)) (check : Name → Val → Val)

/-- What a deep copy is. -/
theorem copy_deep (fuel : Nat) (h : Heap) (a : Nat) (c u : Cell) (hc : h.Closed) (ha : h[a]? = some c) (hf : Fits (fuel + 1) h (.ref a)) :
    ∃ t c1, copy rebuild check fuel h a u true = .ok (h ++ t ++ [writeAll c1 (fullUpdate true c u)], (h ++ t).length) ∧
      deepL (deep fuel) h c = .ok (h ++ t, c1) ∧
      Within h.length (h ++ t).length t ∧ (∀ p ∈ c1, Ok h.length (h ++ t).length p.2) ∧
      ∀ k, c1.map (fun p => (p.1, view k (h ++ t) p.2)) = c.map (fun p => (p.1, view k h p.2)) := by
  obtain ⟨c', ha', hp⟩ := hf
  rw [ha] at ha'
  cases ha'
  obtain ⟨h1, c1, e⟩ := deepL_ok fuel (deep_ok fuel) c h hc (hc c (List.mem_of_getElem? ha)) hp
  obtain ⟨t, rfl, w, o, s⟩ := deepL_good _ (deep_good fuel) _ _ _ _ hc (hc c (List.mem_of_getElem? ha)) e
  refine ⟨t, c1, ?_, e, w, o, s⟩
  unfold copy
  rw [ha]
  simp only [if_true]
  rw [e]

/-! ### C384: deep copies -/

/-- C384: an object can be copied, and of any assignments to the object and to its copy, one after another, the object has just those to it
and the copy just those to it. -/
theorem C384_own (fuel : Nat) (h : Heap) (a : Nat) (c u : Cell) (hc : h.Closed) (ha : h[a]? = some c) (hf : Fits (fuel + 1) h (.ref a))
    (hm : ∀ b, OD.get? c .mth5 ≠ some (.ref b)) (hu : ∀ p ∈ u, ∀ b, p.2 ≠ .ref b) :
    ∃ h' b, copy rebuild check fuel h a u true = .ok (h', b) ∧ ∀ (ops : List Op) (k : Nat),
      view k (runOps a b h' ops) (.ref a) = view k (runOps a b h (ops.filter (fun o => !o.1))) (.ref a) ∧
      view k (runOps a b h' ops) (.ref b) = view k (runOps a b h' (ops.filter (fun o => o.1))) (.ref b) := by
  obtain ⟨t, c1, e, _, w, o, _⟩ := copy_deep rebuild check fuel h a c u hc ha hf
  refine ⟨_, _, e, ?_⟩
  have hal : a < h.length := (List.getElem?_eq_some_iff.1 ha).1
  generalize hn : writeAll c1 (fullUpdate true c u) = nc
  have onc : ∀ p ∈ nc, Ok h.length (h ++ t).length p.2 := by
    intro p hp
    rw [← hn] at hp
    rcases mem_writeAll _ _ _ hp with hp | ⟨q, hq, e⟩
    · exact o p hp
    · intro b hb
      rw [← e] at hb
      rcases mem_full _ _ _ _ hq with hq | hq | hq
      · exact absurd hb (hu q hq b)
      · rw [hq] at hb
        cases hb
      · rw [hb] at hq
        exact absurd hq (hm b)
  have k1 : Keeps (fun i => i < h.length) (h ++ t ++ [nc]) := by
    intro i hi d hd p hp b hb
    rw [List.append_assoc, List.getElem?_append_left hi] at hd
    exact (hc d (List.mem_of_getElem? hd) p hp b hb).2
  have k2 : Keeps (fun i => ¬ i < h.length) (h ++ t ++ [nc]) := by
    intro i hi d hd p hp b hb
    rw [List.append_assoc, List.getElem?_append_right (Nat.le_of_not_lt hi)] at hd
    have hd := List.mem_of_getElem? hd
    rcases List.mem_append.1 hd with hd | hd
    · exact Nat.not_lt.2 (w d hd p hp b hb).1
    · rw [List.mem_singleton] at hd
      subst hd
      exact Nat.not_lt.2 (onc p hp b hb).1
  have k3 : Keeps (fun i => ¬ ¬ i < h.length) (h ++ t ++ [nc]) := by
    intro i hi d hd p hp b hb
    exact Decidable.not_not.2 (k1 i (Decidable.not_not.1 hi) d hd p hp b hb)
  have hb : ¬ (h ++ t).length < h.length := by simp
  intro ops k
  constructor
  · obtain ⟨g1, g2⟩ := run_agree a (h ++ t).length hal hb ops _ h k1 k2
      (fun i hi => by rw [List.append_assoc, List.getElem?_append_left hi])
    exact view_agree g2 g1 k _ (fun b e => by cases e; exact hal)
  · rw [run_swap, run_swap (l := ops.filter _)]
    obtain ⟨g1, g2⟩ := run_agree (R := fun i => ¬ i < h.length) (h ++ t).length a hb (Decidable.not_not.2 hal) (ops.map (fun o => (!o.1, o.2))) _ _ k2 k3
      (fun i _ => rfl)
    rw [List.filter_map] at g1
    have e2 : ((fun o : Op => !o.1) ∘ fun o : Op => ((!o.1, o.2) : Op)) = fun o => o.1 := by
      funext o
      cases h : o.1 <;> simp [h]
    rw [e2] at g1
    exact view_agree g2 g1 k _ (fun b e => by cases e; exact hb)

theorem set_same (d : Cell) (k : Name) (v : Val) (h : OD.get? d k = some v) : OD.set d k v = d := by
  induction d with
  | nil => cases h
  | cons x d ih =>
    obtain ⟨k', v'⟩ := x
    rw [OD.get?_cons] at h
    unfold OD.set
    by_cases e : k' = k
    · rw [if_pos e] at h
      cases h
      rw [if_pos e]
    · rw [if_neg e] at h
      rw [if_neg e, ih h]

theorem deepL_get (n : Nat) (c c' : Cell) (h h' : Heap) (e : deepL (deep n) h c = .ok (h', c')) (k : Name) :
    (∀ m, OD.get? c k = some (.plain m) → OD.get? c' k = some (.plain m)) ∧ (OD.get? c k = some .none → OD.get? c' k = some .none) ∧
      ∀ m, OD.get? c k ≠ some (.raw m) := by
  induction c generalizing h c' with
  | nil => exact ⟨(fun _ e => nomatch e), (fun e => nomatch e), fun _ e => nomatch e⟩
  | cons x r ih =>
    obtain ⟨k', v⟩ := x
    unfold deepL at e
    split at e
    · cases e
    · rename_i h1 v1 e1
      split at e
      · cases e
      · rename_i h2 r2 e2
        cases e
        have i := ih _ _ e2
        simp only [OD.get?_cons]
        by_cases hk : k' = k
        · simp only [hk, if_true, Option.some.injEq]
          refine ⟨?_, ?_, ?_⟩
          · rintro m rfl
            cases n <;> cases e1 <;> rfl
          · rintro rfl
            cases n <;> cases e1 <;> rfl
          · intro m hm
            cases hm
            cases n <;> cases e1
        · simpa only [hk, if_false] using i

/-- C384: a copy without an update looks the same as the object, to any depth, but for HDF5 references. -/
theorem C384_same (fuel : Nat) (h : Heap) (a : Nat) (c : Cell) (hc : h.Closed) (ha : h[a]? = some c) (hf : Fits (fuel + 1) h (.ref a))
    (hm : ∀ b, OD.get? c .mth5 ≠ some (.ref b)) (hh : OD.get? c .hdf5 = none ∨ OD.get? c .hdf5 = some .none) :
    ∃ h' b, copy rebuild check fuel h a [] true = .ok (h', b) ∧ ∀ k, view k h' (.ref b) = view k h (.ref a) := by
  obtain ⟨t, c1, e, e1, w, o, s⟩ := copy_deep rebuild check fuel h a c [] hc ha hf
  refine ⟨_, _, e, ?_⟩
  have hw : writeAll c1 (fullUpdate true c []) = c1 := by
    have hg := deepL_get fuel _ _ _ _ e1 .mth5
    cases hv : OD.get? c .mth5 with
    | none => rcases hh with hh | hh <;> simp [fullUpdate, hh, hv, writeAll]
    | some v =>
      cases v with
      | none => rcases hh with hh | hh <;> simp [fullUpdate, hh, hv, writeAll]
      | plain m =>
        have := set_same _ _ _ (hg.1 m hv)
        rcases hh with hh | hh <;> simp [fullUpdate, hh, hv, writeAll, OD.set, this]
      | raw m => exact absurd hv (hg.2.2 m)
      | ref b => exact absurd hv (hm b)
  rw [hw]
  intro k
  cases k with
  | zero => rfl
  | succ k =>
    show Tree.node _ = Tree.node _
    rw [List.getElem?_append_right (Nat.le_refl _), Nat.sub_self, ha]
    show Tree.node (c1.map _) = Tree.node (c.map _)
    rw [← s k]
    congr 1
    apply List.map_congr_left
    intro p hp
    rw [view_append _ _ (closed_append hc w) _ _ ((o p hp).mono (Nat.zero_le _) (Nat.le_refl _))]

/-- A station with a location. -/
def exH : Heap := [[(.other 0, .plain 5), (.other 1, .ref 1), (.mth5, .plain 9)], [(.other 2, .plain 7)]]

example : exH.Closed ∧ Fits 3 exH (.ref 0) ∧
    copy (fun _ _ => .error .dangling) (fun _ v => v) 2 exH 0 [(.other 0, .plain 6)] true =
      .ok (exH ++ [[(.other 2, .plain 7)], [(.other 0, .plain 6), (.other 1, .ref 2), (.mth5, .plain 9)]], 3) := by
  refine ⟨?_, ⟨_, rfl, ?_⟩, by decide⟩
  · intro c hc p hp b hb
    simp [exH] at hc
    rcases hc with rfl | rfl <;> simp at hp
    · rcases hp with rfl | rfl | rfl <;> cases hb
      decide
    · subst hp
      cases hb
  · intro p hp
    simp at hp
    rcases hp with rfl | rfl | rfl
    · trivial
    · refine ⟨_, rfl, ?_⟩
      intro p hp
      simp at hp
      subst hp
      trivial
    · trivial

/-! ### C385: updates -/

/-- C385: the copy has the values of the update. -/
def C385_claim : Prop := ∀ (rebuild : Heap → Nat → Except Fail (Heap × Nat)) (check : Name → Val → Val) (fuel : Nat) (h : Heap) (a : Nat) (u : Cell) (d : Bool)
  (h' : Heap) (b : Nat) (k : Name) (v : Val), copy rebuild check fuel h a u d = .ok (h', b) → OD.get? u k = some v →
  OD.get? (h'[b]?.getD []) k = some v

theorem get_writeAll (u c : Cell) (hu : OD.WF u) (k : Name) : OD.get? (writeAll c u) k = (OD.get? u k).or (OD.get? c k) := by
  unfold writeAll
  induction u generalizing c with
  | nil => rfl
  | cons x u ih =>
    obtain ⟨k', v⟩ := x
    have hu' : k' ∉ OD.keys u ∧ OD.WF u := List.nodup_cons.1 hu
    rw [List.foldl_cons, ih _ hu'.2, OD.get?_cons, OD.get?_set]
    by_cases e : k' = k
    · subst e
      rw [(OD.get?_eq_none_iff u k').2 hu'.1]
      simp
    · simp [e, Ne.symm e]

theorem wf_full (d : Bool) (c u : Cell) (hu : OD.WF u) : OD.WF (fullUpdate d c u) := by
  unfold fullUpdate
  simp only
  have h1 : OD.WF (match OD.get? c .hdf5 with
      | some v => if d && decide (v ≠ Val.none) then OD.set u Name.hdf5 Val.none else u
      | none => u) := by
    split
    · split
      · exact hu.set _ _
      · exact hu
    · exact hu
  split
  · split
    · exact h1.set _ _
    · exact h1
  · exact h1

theorem get_full_other (d : Bool) (c u : Cell) (k : Name) (h1 : k ≠ .hdf5) (h2 : k ≠ .mth5) : OD.get? (fullUpdate d c u) k = OD.get? u k := by
  unfold fullUpdate
  simp only
  cases OD.get? c .mth5 <;> cases OD.get? c .hdf5 <;> simp only <;> repeat' split
  all_goals simp [OD.get?_set, h1, h2, Ne.symm h1, Ne.symm h2]

theorem get_full_mth5 (d : Bool) (c u : Cell) (v : Val) (h : OD.get? c .mth5 = some v) (hv : v ≠ .none) :
    OD.get? (fullUpdate d c u) .mth5 = some v := by
  unfold fullUpdate
  simp only [h]
  rw [if_pos hv, OD.get?_set_self]

theorem get_full_mth5_free (d : Bool) (c u : Cell) (h : OD.get? c .mth5 = none ∨ OD.get? c .mth5 = some .none) :
    OD.get? (fullUpdate d c u) .mth5 = OD.get? u .mth5 := by
  unfold fullUpdate
  rcases h with h | h <;> simp only [h] <;> cases OD.get? c .hdf5 <;> simp only [ne_eq, not_true, if_false] <;> repeat' split
  all_goals simp [OD.get?_set]

theorem get_full_hdf5 (c u : Cell) (v : Val) (h : OD.get? c .hdf5 = some v) (hv : v ≠ .none) :
    OD.get? (fullUpdate true c u) .hdf5 = some .none := by
  unfold fullUpdate
  simp only [h]
  rw [if_pos (by simp [hv])]
  cases OD.get? c .mth5 <;> simp only <;> repeat' split
  all_goals simp [OD.get?_set]

theorem get_full_hdf5_free (d : Bool) (c u : Cell) (h : d = false ∨ OD.get? c .hdf5 = none ∨ OD.get? c .hdf5 = some .none) :
    OD.get? (fullUpdate d c u) .hdf5 = OD.get? u .hdf5 := by
  unfold fullUpdate
  rcases h with h | h | h <;> simp only [h] <;> cases OD.get? c .mth5 <;> cases OD.get? c .hdf5 <;> simp <;> repeat' split
  all_goals simp [OD.get?_set]

/-- The copy itself, unless it is rebuilt. -/
theorem copy_get (fuel : Nat) (h : Heap) (a : Nat) (c u : Cell) (d : Bool) (h' : Heap) (b : Nat) (ha : h[a]? = some c) (hu : OD.WF u)
    (hf : d = true → deepL (deep fuel) h c ≠ .error .uncopyable) (e : copy rebuild check fuel h a u d = .ok (h', b)) (k : Name) (v : Val)
    (hk : OD.get? (fullUpdate d c u) k = some v) : OD.get? (h'[b]?.getD []) k = some v := by
  unfold copy at e
  rw [ha] at e
  simp only at e
  split at e
  · rename_i hd
    have hf := hf hd
    split at e
    · cases e
      rw [List.getElem?_append_right (Nat.le_refl _), Nat.sub_self]
      show OD.get? (writeAll _ _) k = _
      rw [get_writeAll _ _ (wf_full d c u hu), hk]
      rfl
    · rename_i hx
      exact absurd hx hf
    · cases e
  · cases e
    rw [List.getElem?_append_right (Nat.le_refl _), Nat.sub_self]
    show OD.get? (writeAll _ _) k = _
    rw [get_writeAll _ _ (wf_full d c u hu), hk]
    rfl

/-- C385 (part): so it is for all names but the reference and the type, if the object can be copied as it is. -/
theorem C385_given_partial (fuel : Nat) (h : Heap) (a : Nat) (c u : Cell) (d : Bool) (h' : Heap) (b : Nat) (ha : h[a]? = some c) (hu : OD.WF u)
    (hf : d = true → deepL (deep fuel) h c ≠ .error .uncopyable) (e : copy rebuild check fuel h a u d = .ok (h', b)) (k : Name) (v : Val)
    (h1 : k ≠ .hdf5) (h2 : k ≠ .mth5) (hk : OD.get? u k = some v) : OD.get? (h'[b]?.getD []) k = some v :=
  copy_get rebuild check fuel h a c u d h' b ha hu hf e k v (by rw [get_full_other d c u k h1 h2, hk])

/-- C385 (part): the type stays that of the object, if it has one, whatever the update says; else it is that of the update. -/
theorem C385_type_partial (fuel : Nat) (h : Heap) (a : Nat) (c u : Cell) (d : Bool) (h' : Heap) (b : Nat) (ha : h[a]? = some c) (hu : OD.WF u)
    (hf : d = true → deepL (deep fuel) h c ≠ .error .uncopyable) (e : copy rebuild check fuel h a u d = .ok (h', b)) :
    (∀ v, OD.get? c .mth5 = some v → v ≠ .none → OD.get? (h'[b]?.getD []) .mth5 = some v) ∧
    (OD.get? c .mth5 = none ∨ OD.get? c .mth5 = some .none → ∀ v, OD.get? u .mth5 = some v → OD.get? (h'[b]?.getD []) .mth5 = some v) :=
  ⟨fun v hv hn => copy_get rebuild check fuel h a c u d h' b ha hu hf e _ v (get_full_mth5 d c u v hv hn),
   fun hc v hv => copy_get rebuild check fuel h a c u d h' b ha hu hf e _ v (by rw [get_full_mth5_free d c u hc, hv])⟩

/-- C385 (part): a deep copy has no reference if the object has one, whatever the update says; else it has that of the update. -/
theorem C385_reference_partial (fuel : Nat) (h : Heap) (a : Nat) (c u : Cell) (d : Bool) (h' : Heap) (b : Nat) (ha : h[a]? = some c) (hu : OD.WF u)
    (hf : d = true → deepL (deep fuel) h c ≠ .error .uncopyable) (e : copy rebuild check fuel h a u d = .ok (h', b)) :
    (∀ v, d = true → OD.get? c .hdf5 = some v → v ≠ .none → OD.get? (h'[b]?.getD []) .hdf5 = some .none) ∧
    (d = false ∨ OD.get? c .hdf5 = none ∨ OD.get? c .hdf5 = some .none → ∀ v, OD.get? u .hdf5 = some v → OD.get? (h'[b]?.getD []) .hdf5 = some v) :=
  ⟨fun v hd hv hn => copy_get rebuild check fuel h a c u d h' b ha hu hf e _ _ (by subst hd; exact get_full_hdf5 c u v hv hn),
   fun hc v hv => copy_get rebuild check fuel h a c u d h' b ha hu hf e _ v (by rw [get_full_hdf5_free d c u hc, hv])⟩

theorem keys_assignAll (u c : Cell) : OD.keys (assignAll check c u) = OD.keys c := by
  unfold assignAll
  induction u generalizing c with
  | nil => rfl
  | cons x u ih =>
    rw [List.foldl_cons, ih]
    split
    · rename_i h
      exact OD.keys_set_of_mem _ h
    · rfl

/-- C385 (part): an object with an HDF5 reference is rebuilt from its dictionary; then names that the new object does not have are not in the
copy. -/
theorem C385_rebuilt_partial (fuel : Nat) (h : Heap) (a : Nat) (c u : Cell) (h1 : Heap) (b : Nat) (cb : Cell) (ha : h[a]? = some c)
    (hf : deepL (deep fuel) h c = .error .uncopyable) (hr : rebuild h a = .ok (h1, b)) (hb : h1[b]? = some cb) :
    ∃ h', copy rebuild check fuel h a u true = .ok (h', b) ∧ OD.keys (h'[b]?.getD []) = OD.keys cb := by
  refine ⟨h1.modify b (fun d => assignAll check d (fullUpdate true c u)), ?_, ?_⟩
  · unfold copy
    rw [ha]
    simp only [if_true]
    rw [hf]
    simp only
    rw [hr]
  · simp [List.getElem?_modify, hb, keys_assignAll]

/-- C385 is false: the type of the object comes after the update. -/
theorem C385_refuted : ¬ C385_claim := by
  intro h
  have := h (fun _ _ => .error .dangling) (fun _ v => v) 2 exH 0 [(.mth5, .plain 4)] true _ _ .mth5 (.plain 4) rfl rfl
  revert this
  decide

/-- A station with a reference. -/
def exR : Heap := [[(.other 0, .plain 5), (.hdf5, .raw 1)]]

example : deepL (deep 2) exR (exR.head!) = .error .uncopyable := by decide

/-! ### C386: copies that are not deep -/

/-- C386: assignments to a copy that is not deep leave the object alone. -/
def C386_claim : Prop := ∀ (rebuild : Heap → Nat → Except Fail (Heap × Nat)) (check : Name → Val → Val) (fuel : Nat) (h : Heap) (a : Nat)
  (h' : Heap) (b : Nat) (p : List Name) (k : Name) (n : Nat), h.Closed → copy rebuild check fuel h a [] false = .ok (h', b) →
  ∀ i, view i (assign h' b p k n) (.ref a) = view i h (.ref a)

/-- C386 (part): so it is for the attributes of the copy itself. -/
theorem C386_top_partial (fuel : Nat) (h : Heap) (a : Nat) (u : Cell) (h' : Heap) (b : Nat) (k : Name) (n : Nat) (hc : h.Closed)
    (e : copy rebuild check fuel h a u false = .ok (h', b)) (i : Nat) : view i (assign h' b [] k n) (.ref a) = view i h (.ref a) := by
  unfold copy at e
  cases ha : h[a]? with
  | none => rw [ha] at e; cases e
  | some c =>
    rw [ha] at e
    simp only [Bool.false_eq_true, if_false] at e
    cases e
    have hal : a < h.length := (List.getElem?_eq_some_iff.1 ha).1
    have ag : Agree (fun i => i < h.length) h (assign (h ++ [writeAll c (fullUpdate false c u)]) h.length [] k n) := by
      intro j hj
      unfold assign resolve
      have hne : h.length ≠ j := Nat.ne_of_gt hj
      simp [List.getElem?_modify, hne, List.getElem?_append_left hj]
    refine (view_agree (R := fun i => i < h.length) ?_ ag i _ (fun b e => by cases e; exact hal)).symm
    intro j _ d hd p hp b hb
    exact (hc d (List.mem_of_getElem? hd) p hp b hb).2

/-- C386 (part): other parts are those of the object: a dotted name leads to the same object from both. -/
theorem C386_shared_partial (fuel : Nat) (h : Heap) (a : Nat) (c u : Cell) (h' : Heap) (b : Nat) (ha : h[a]? = some c) (hu : OD.WF u)
    (e : copy rebuild check fuel h a u false = .ok (h', b)) (k : Name) (p : List Name) (h1 : k ≠ .hdf5) (h2 : k ≠ .mth5)
    (hk : OD.get? u k = none) : resolve h' b (k :: p) = resolve h' a (k :: p) := by
  unfold copy at e
  rw [ha] at e
  simp only [Bool.false_eq_true, if_false] at e
  cases e
  have hal : a < h.length := (List.getElem?_eq_some_iff.1 ha).1
  unfold resolve
  rw [List.getElem?_append_right (Nat.le_refl _), Nat.sub_self, List.getElem?_append_left hal, ha]
  simp only [List.getElem?_cons_zero]
  rw [get_writeAll _ _ (wf_full false c u hu), get_full_other false c u k h1 h2, hk]
  rfl

/-- C386 is false: the location of the copy is that of the object. -/
theorem C386_refuted : ¬ C386_claim := by
  intro h
  have := h (fun _ _ => .error .dangling) (fun _ v => v) 2 exH 0 _ _ [.other 1] (.other 2) 8
    (by
      intro c hc p hp b hb
      simp [exH] at hc
      rcases hc with rfl | rfl <;> simp at hp
      · rcases hp with rfl | rfl | rfl <;> cases hb
        decide
      · subst hp
        cases hb) rfl 2
  have e1 : view 2 exH (.ref 0) = .node [(.other 0, .plain 5), (.other 1, .node [(.other 2, .plain 7)]), (.mth5, .plain 9)] := rfl
  rw [e1] at this
  revert this
  intro this
  have e2 : view 2 (assign [[(.other 0, .plain 5), (.other 1, .ref 1), (.mth5, .plain 9)], [(.other 2, .plain 7)],
    [(.other 0, .plain 5), (.other 1, .ref 1), (.mth5, .plain 9)]] 2 [.other 1] (.other 2) 8) (.ref 0) =
    .node [(.other 0, .plain 5), (.other 1, .node [(.other 2, .plain 8)]), (.mth5, .plain 9)] := rfl
  have := e2.symm.trans this
  injection this with this
  simp at this

/-! ### C387: merging -/

/-- C387: assignments to an object into which another one has been merged leave the other one alone. -/
def C387_claim : Prop := ∀ (h : Heap) (a b : Nat) (p : List Name) (k : Name) (n : Nat), a ≠ b → h.Closed →
  ∀ i, view i (assign (extend h a b) a p k n) (.ref b) = view i (extend h a b) (.ref b)

/-- C387 (part): the items of the other one are not copied: each name of an item leads to the same object from both. -/
theorem C387_shared_partial (h : Heap) (a b : Nat) (c d : Cell) (hab : a ≠ b) (ha : h[a]? = some c) (hb : h[b]? = some d) (hd : OD.WF d) (k : Name)
    (hk : k ∈ OD.keys d) (p : List Name) : resolve (extend h a b) a (k :: p) = resolve (extend h a b) b (k :: p) := by
  unfold extend
  rw [hb]
  simp only
  have ea : (h.modify a (fun c => d.foldl (fun e p => OD.set e p.1 p.2) c))[a]? = some (writeAll c d) := by
    simp [List.getElem?_modify, ha, writeAll]
  have eb : (h.modify a (fun c => d.foldl (fun e p => OD.set e p.1 p.2) c))[b]? = some d := by
    simp [List.getElem?_modify, hb, hab]
  unfold resolve
  rw [ea, eb]
  simp only
  rw [get_writeAll _ _ hd]
  obtain ⟨v, hv⟩ := Option.isSome_iff_exists.1 ((OD.get?_isSome_iff d k).2 hk)
  rw [hv]
  rfl

/-- C387 (part): items that the other one does not have stay as they were. -/
theorem C387_kept_partial (h : Heap) (a b : Nat) (c d : Cell) (ha : h[a]? = some c) (hb : h[b]? = some d) (hd : OD.WF d) (k : Name)
    (hk : k ∉ OD.keys d) : OD.get? ((extend h a b)[a]?.getD []) k = OD.get? c k := by
  unfold extend
  rw [hb]
  simp only [List.getElem?_modify, ha, if_true]
  show OD.get? (writeAll c d) k = _
  rw [get_writeAll _ _ hd, (OD.get?_eq_none_iff d k).2 hk]
  rfl

/-- C387 (part): a new item by itself, or one that is put in its place, is not the other's. -/
theorem C387_top_partial (h : Heap) (a b : Nat) (hab : a ≠ b) (k : Name) (n : Nat) : (assign (extend h a b) a [] k n)[b]? = (extend h a b)[b]? := by
  unfold assign resolve
  simp [List.getElem?_modify, hab]

/-- Two lists of runs. -/
def exM : Heap := [[], [(.other 0, .ref 2)], [(.other 1, .plain 3)]]

/-- C387 is false: a run of the other station is changed. -/
theorem C387_refuted : ¬ C387_claim := by
  intro h
  have := h exM 0 1 [.other 0] (.other 1) 4 (by decide)
    (by
      intro c hc p hp b hb
      simp [exM] at hc
      rcases hc with rfl | rfl | rfl <;> simp at hp
      · subst hp
        cases hb
        decide
      · subst hp
        cases hb) 2
  have e1 : view 2 (extend exM 0 1) (.ref 1) = .node [(.other 0, .node [(.other 1, .plain 3)])] := rfl
  have e2 : view 2 (assign (extend exM 0 1) 0 [.other 0] (.other 1) 4) (.ref 1) = .node [(.other 0, .node [(.other 1, .plain 4)])] := rfl
  have := e2.symm.trans (this.trans e1)
  injection this with this
  simp at this

end Verif.Copies
