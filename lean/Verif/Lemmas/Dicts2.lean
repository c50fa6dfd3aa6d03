import Verif.Lemmas.Dicts

/-! Lemmas for C13: inserting prefix-free paths. -/

set_option linter.unusedSectionVars false

namespace Verif.Dicts
open OD
variable {β : Type}

theorem good_iff {P : Str → Prop} (d : Dict β) :
    Good P d ↔ WF d ∧ ∀ p ∈ d, P p.1 ∧ TreeGood P p.2 := by
  induction d with
  | nil => simp [Good, WF]
  | cons p d ih =>
    obtain ⟨k, t⟩ := p
    simp only [Good, ih, WF, keys_cons, List.nodup_cons, List.mem_cons, forall_eq_or_imp]
    constructor
    · rintro ⟨h1, h2, h3, h4, h5⟩; exact ⟨⟨h2, h4⟩, ⟨h1, h3⟩, h5⟩
    · rintro ⟨⟨h2, h4⟩, ⟨h1, h3⟩, h5⟩; exact ⟨h1, h2, h3, h4, h5⟩

theorem mem_kidsPaths (d : Dict β) (q : List Str) (v : β) :
    (q, v) ∈ kidsPaths d ↔ ∃ k t p, (k, t) ∈ d ∧ q = k :: p ∧ (p, v) ∈ treePaths t := by
  induction d with
  | nil => simp [kidsPaths]
  | cons e d ih =>
    obtain ⟨k, t⟩ := e
    simp only [kidsPaths, List.mem_append, List.mem_map, ih, List.mem_cons, Prod.mk.injEq]
    constructor
    · rintro (⟨⟨p, w⟩, hp, rfl, rfl⟩ | ⟨k', t', p, h1, h2, h3⟩)
      · exact ⟨k, t, p, Or.inl ⟨rfl, rfl⟩, rfl, hp⟩
      · exact ⟨k', t', p, Or.inr h1, h2, h3⟩
    · rintro ⟨k', t', p, ⟨rfl, rfl⟩ | h1, h2, h3⟩
      · exact Or.inl ⟨(p, v), h3, h2.symm, rfl⟩
      · exact Or.inr ⟨k', t', p, h1, h2, h3⟩

theorem walk_of_mem {P : Str → Prop} (p : List Str) (t : Tree β) (v : β) (h : TreeGood P t)
    (hm : (p, v) ∈ treePaths t) : walk t p = some (.leaf v) := by
  induction p generalizing t with
  | nil =>
    cases t with
    | leaf w => simp [treePaths] at hm; simp [walk, hm]
    | node kids => exact absurd rfl (kidsPaths_ne_nil kids _ hm)
  | cons k ks ih =>
    cases t with
    | leaf w => simp [treePaths] at hm
    | node kids =>
      obtain ⟨k', t', p', hmem, e, hp⟩ := (mem_kidsPaths kids _ _).1 hm
      simp only [List.cons.injEq] at e
      obtain ⟨rfl, rfl⟩ := e
      have hg := (good_iff kids).1 h.2
      simp only [walk, get?_of_mem hg.1 hmem]
      exact ih t' (hg.2 _ hmem).2 hp

theorem kidsPaths_append (d e : Dict β) : kidsPaths (d ++ e) = kidsPaths d ++ kidsPaths e := by
  induction d with
  | nil => simp [kidsPaths]
  | cons p d ih => obtain ⟨k, t⟩ := p; simp [kidsPaths, ih]

theorem kidsPaths_set_perm (d : Dict β) (k : Str) (t t' : Tree β) (x : List Str × β)
    (hg : get? d k = some t) (hp : (treePaths t').Perm (x :: treePaths t)) :
    (kidsPaths (OD.set d k t')).Perm ((k :: x.1, x.2) :: kidsPaths d) := by
  induction d with
  | nil => simp at hg
  | cons e d ih =>
    obtain ⟨k', s⟩ := e
    by_cases hk : k' = k
    · subst hk
      simp only [get?_cons, if_true, Option.some.injEq] at hg
      subst hg
      simp only [OD.set, if_true, kidsPaths]
      have := (hp.map (fun p => (k' :: p.1, p.2))).append_right (kidsPaths d)
      simpa using this
    · simp only [get?_cons, if_neg hk] at hg
      simp only [OD.set, if_neg hk, kidsPaths]
      exact ((ih hg).append_left _).trans List.perm_middle

theorem treeGood_of_get? {P : Str → Prop} {d : Dict β} (h : Good P d) {k : Str} {t : Tree β}
    (hg : get? d k = some t) : P k ∧ TreeGood P t :=
  ((good_iff d).1 h).2 (k, t) (mem_of_get? hg)

theorem good_set {P : Str → Prop} {d : Dict β} (h : Good P d) {k : Str} (hk : P k) {t : Tree β}
    (ht : TreeGood P t) : Good P (OD.set d k t) := by
  rw [good_iff] at h ⊢
  refine ⟨h.1.set k t, ?_⟩
  rintro ⟨k', s⟩ hm
  have := get?_of_mem (h.1.set k t) hm
  rw [get?_set] at this
  split at this
  · next e => subst e; simp only [Option.some.injEq] at this; subst this; exact ⟨hk, ht⟩
  · exact h.2 _ (mem_of_get? this)

theorem set_ne_nil (d : Dict β) (k : Str) (t : Tree β) : OD.set d k t ≠ [] := by
  cases d with
  | nil => simp [OD.set]
  | cons p d => simp only [OD.set]; split <;> simp

theorem insertAt_perm {P : Str → Prop} (v : β) (ks : List Str) : ∀ (k : Str) (d : Dict β),
    Good P d → (∀ a ∈ k :: ks, P a) → (∀ q ∈ kidsPaths d, Incomparable (k :: ks) q.1) →
    ∃ d', insertAt k ks (.leaf v) d = .ok d' ∧ Good P d' ∧ d' ≠ [] ∧
      (kidsPaths d').Perm ((k :: ks, v) :: kidsPaths d) := by
  induction ks with
  | nil =>
    intro k d hd hP hinc
    have hk : k ∉ keys d := by
      intro hm
      obtain ⟨t, ht⟩ := Option.isSome_iff_exists.1 ((get?_isSome_iff d k).2 hm)
      have hne := treePaths_ne t (treeGood_of_get? hd ht).2
      obtain ⟨⟨p, w⟩, hp⟩ := List.exists_mem_of_ne_nil _ hne
      have := hinc (k :: p, w) ((mem_kidsPaths d _ _).2 ⟨k, t, p, mem_of_get? ht, rfl, hp⟩)
      exact this.1 (by simp)
    refine ⟨OD.set d k (.leaf v), rfl, good_set hd (hP k (by simp)) trivial, set_ne_nil _ _ _, ?_⟩
    rw [set_of_not_mem _ hk, kidsPaths_append]
    simpa [kidsPaths, treePaths] using List.perm_append_comm
  | cons k' ks ih =>
    intro k d hd hP hinc
    have hP' : ∀ a ∈ k' :: ks, P a := fun a ha => hP a (List.mem_cons_of_mem _ ha)
    have hPk : P k := hP k (by simp)
    simp only [insertAt]
    cases hg : get? d k with
    | none =>
      obtain ⟨e', he, hgood, hne, hperm⟩ := ih k' [] (by simp [Good]) hP' (by simp [kidsPaths])
      refine ⟨OD.set d k (.node e'), by simp [he, bind, Except.bind, pure, Except.pure],
        good_set hd hPk ⟨hne, hgood⟩, set_ne_nil _ _ _, ?_⟩
      have hk := (get?_eq_none_iff d k).1 hg
      rw [set_of_not_mem _ hk, kidsPaths_append]
      have h1 : kidsPaths [(k, Tree.node e')] = [(k :: k' :: ks, v)] := by
        have : kidsPaths e' = [(k' :: ks, v)] := by
          have := hperm; simp only [kidsPaths] at this; exact List.perm_singleton.1 this
        simp [kidsPaths, treePaths, this]
      rw [h1]
      exact List.perm_append_comm
    | some t =>
      cases t with
      | leaf w =>
        exfalso
        have := hinc ([k], w) ((mem_kidsPaths d _ _).2
          ⟨k, .leaf w, [], mem_of_get? hg, rfl, by simp [treePaths]⟩)
        exact this.2 (by simp)
      | node e =>
        have hge := (treeGood_of_get? hd hg).2
        obtain ⟨e', he, hgood, hne, hperm⟩ := ih k' e hge.2 hP' (by
          rintro ⟨q, w⟩ hq
          have := hinc (k :: q, w) ((mem_kidsPaths d _ _).2
            ⟨k, .node e, q, mem_of_get? hg, rfl, by simpa [treePaths] using hq⟩)
          constructor
          · intro hpre; exact this.1 (by simpa using hpre)
          · intro hpre; exact this.2 (by simpa using hpre))
        refine ⟨OD.set d k (.node e'), by simp [he, bind, Except.bind, pure, Except.pure],
          good_set hd hPk ⟨hne, hgood⟩, set_ne_nil _ _ _, ?_⟩
        exact kidsPaths_set_perm d k (.node e) (.node e') (k' :: ks, v) hg
          (by simpa [treePaths] using hperm)

theorem insertAll_perm {P : Str → Prop} (l : List (List Str × β)) : ∀ (d : Dict β), Good P d →
    (∀ p ∈ l, p.1 ≠ [] ∧ ∀ a ∈ p.1, P a) →
    (l.map Prod.fst).Pairwise Incomparable →
    (∀ p ∈ l, ∀ q ∈ kidsPaths d, Incomparable p.1 q.1) →
    ∃ d', insertAll l d = .ok d' ∧ Good P d' ∧ (kidsPaths d').Perm (l ++ kidsPaths d) := by
  induction l with
  | nil => intro d hd _ _ _; exact ⟨d, rfl, hd, by simp⟩
  | cons p l ih =>
    intro d hd hP hpw hinc
    obtain ⟨q, v⟩ := p
    cases q with
    | nil => exact absurd rfl (hP ([], v) (by simp)).1
    | cons k ks =>
      simp only [List.map_cons, List.pairwise_cons] at hpw
      obtain ⟨d1, h1, hg1, _, hp1⟩ := insertAt_perm v ks k d hd
        (hP (k :: ks, v) (by simp)).2 (hinc (k :: ks, v) (by simp))
      obtain ⟨d2, h2, hg2, hp2⟩ := ih d1 hg1 (fun p hp => hP p (by simp [hp])) hpw.2 (by
        intro p hp q hq
        rcases List.mem_cons.1 (hp1.mem_iff.1 hq) with rfl | hq
        · have := hpw.1 p.1 (List.mem_map_of_mem hp)
          exact ⟨this.2, this.1⟩
        · exact hinc p (by simp [hp]) q hq)
      refine ⟨d2, ?_, hg2, ?_⟩
      · unfold insertAll at h2 ⊢
        simp only [List.foldlM_cons, h1, bind, Except.bind]
        exact h2
      · refine hp2.trans ?_
        refine (hp1.append_left l).trans ?_
        exact List.perm_middle

end Verif.Dicts
