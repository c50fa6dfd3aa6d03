import Verif.Lemmas.Dicts2

/-!
Properties C11-C13: flat and nested dictionaries (mt_metadata/base/helpers.py).

`structureD sep (asLeaves f)` is `structure_dict(f, sep)`; `flatten sep [] d` is `flatten_dict(d, sep=sep)`.
-/

namespace Verif.Dicts
open OD
variable {β : Type}

/-- A flat dictionary as an argument of `structure_dict`: its values are not mappings. -/
def asLeaves (f : OD Str β) : OD Str (Tree β) := f.map (fun p => (p.1, .leaf p.2))

/-! ### C11 -/

/-- C11: structuring the flattened dictionary gives back the dictionary, key order included. -/
theorem C11_structure_flatten (d : Dict β) (h : Good (Plain '.') d) :
    structureD '.' (asLeaves (flatten '.' [] d)) = .ok d := by
  rw [flatten_eq '.' d h]
  unfold structureD asLeaves
  rw [List.map_map]
  have := structureD_eq_insertAll (kidsPaths d) (kidsPaths_ne_nil d)
    (fun p hp k hk => (kidsPaths_keys d h p hp k hk).2) []
  simp only [Function.comp_def]
  rw [this, insertAll_kidsPaths d [] h (by simp)]
  rfl

/-- Sample: a dictionary three levels deep. -/
def sampleDict : Dict Nat :=
  [("id".toList, .leaf 1),
   ("location".toList, .node [("latitude".toList, .leaf 2),
      ("declination".toList, .node [("value".toList, .leaf 3), ("model".toList, .leaf 4)])]),
   ("end".toList, .leaf 5)]

theorem sampleDict_good (sep : Char) (hs : sep = '.' ∨ sep = '/') :
    Good (Plain sep) sampleDict := by
  rcases hs with rfl | rfl <;>
    simp [sampleDict, Good, TreeGood, Plain]

example : Good (Plain '.') sampleDict := sampleDict_good '.' (Or.inl rfl)

/-! ### C12 -/

/-- C12, full statement: the round trip works for every separator not occurring in the keys. -/
def C12_claim (β : Type) : Prop :=
  ∀ (sep : Char) (d : Dict β), Good (Plain sep) d →
    structureD sep (asLeaves (flatten sep [] d)) = .ok d

/-- C12 is false of the code: below the first level the recursion falls back to ".". With
"/" as separator the three-level sample comes back with a key "declination/value". -/
theorem C12_refuted : ¬ C12_claim Nat := by
  intro hc
  have h := hc '/' [("a".toList, .node [("b".toList, .node [("c".toList, .leaf 1)])])]
    (by simp [Good, TreeGood, Plain])
  have hf : flatten '/' [] [("a".toList, Tree.node [("b".toList, .node [("c".toList, .leaf 1)])])]
      = [("a/b/c".toList, 1)] := by
    simp [flatten, flattenKids, flattenTree, OD.ofPairs, OD.set]
  rw [hf] at h
  have s1 : splitOnce '/' "a/b/c".toList = ("a".toList, some "b/c".toList) := by decide
  have s2 : splitOnce '.' "b/c".toList = ("b/c".toList, none) := by decide
  have h2 : ∀ (v : Tree Nat), recSplit '.' "b/c".toList v [] = .ok [("b/c".toList, v)] := by
    intro v
    rw [recSplit]
    split
    · next h => rw [s2] at h; simp only [Prod.mk.injEq] at h; rw [← h.1]; rfl
    · next h => rw [s2] at h; simp at h
  have h1 : ∀ (v : Tree Nat), recSplit '/' "a/b/c".toList v [] =
      .ok [("a".toList, .node [("b/c".toList, v)])] := by
    intro v
    rw [recSplit]
    split
    · next h => rw [s1] at h; simp at h
    · next k r h =>
      rw [s1] at h; simp only [Prod.mk.injEq, Option.some.injEq] at h
      obtain ⟨rfl, rfl⟩ := h
      simp only [get?_nil, h2]
      rfl
  simp only [structureD, asLeaves, List.map_cons, List.map_nil, List.foldlM_cons, List.foldlM_nil,
    h1] at h
  simp [bind, Except.bind, pure, Except.pure] at h

/-- Nested at most two levels deep, second-level keys free of ".". -/
def Shallow (d : Dict β) : Prop :=
  ∀ k t, (k, t) ∈ d → match t with
    | .leaf _ => True
    | .node kids => ∀ k' t', (k', t') ∈ kids → '.' ∉ k' ∧ ∃ v, t' = .leaf v

/-- C12, partial: any separator works for dictionaries at most two levels deep.
Missing: depth three and more with a separator other than ".", where it is false. -/
theorem C12_separator_partial (sep : Char) (d : Dict β) (h : Good (Plain sep) d)
    (hs : Shallow d) : structureD sep (asLeaves (flatten sep [] d)) = .ok d := by
  have hpaths : ∀ p ∈ kidsPaths d, ∃ k ks, p.1 = k :: ks ∧ sep ∉ k ∧
      (ks = [] ∨ ∃ k', ks = [k'] ∧ '.' ∉ k') := by
    rintro ⟨q, v⟩ hq
    obtain ⟨k, t, p, hm, rfl, hp⟩ := (mem_kidsPaths d _ _).1 hq
    refine ⟨k, p, rfl, (kidsPaths_keys d h _ hq k (by simp)).2, ?_⟩
    have := hs k t hm
    cases t with
    | leaf w => simp [treePaths] at hp; exact Or.inl hp.1
    | node kids =>
      obtain ⟨k', t', p', hm', rfl, hp'⟩ := (mem_kidsPaths kids _ _).1 hp
      obtain ⟨hdot, w, rfl⟩ := this k' t' hm'
      simp [treePaths] at hp'
      exact Or.inr ⟨k', by rw [hp'.1], hdot⟩
  have hrec : ∀ p ∈ kidsPaths d, ∀ acc : Dict β,
      recSplit sep (join sep p.1) (.leaf p.2) acc = match p.1 with
        | [] => .ok acc
        | k :: ks => insertAt k ks (.leaf p.2) acc := by
    intro p hp acc
    obtain ⟨k, ks, hk, hsep, hcase⟩ := hpaths p hp
    rw [hk]
    rcases hcase with rfl | ⟨k', rfl, hdot⟩
    · rw [show join sep [k] = k from rfl, recSplit]
      have s1 := splitOnce_plain sep k hsep
      split
      · next h => rw [s1] at h; simp only [Prod.mk.injEq] at h; simp [insertAt, h.1]
      · next h => rw [s1] at h; simp at h
    · have s1 : splitOnce sep (join sep [k, k']) = (k, some k') := splitOnce_join sep k k' hsep
      rw [recSplit]
      split
      · next h => rw [s1] at h; simp at h
      · next h =>
        rw [s1] at h; simp only [Prod.mk.injEq, Option.some.injEq] at h
        obtain ⟨rfl, rfl⟩ := h
        have hr : ∀ (v : Tree β) e, recSplit '.' k' v e = insertAt k' [] v e := fun v e =>
          recSplit_join k' [] (by simpa using hdot) v e
        simp only [hr, insertAt, splitOnce_plain '.' k' hdot]
        cases get? acc k with
        | none => rfl
        | some t => cases t <;> simp
  rw [flatten_eq sep d h]
  unfold structureD asLeaves
  rw [List.map_map, List.foldlM_map]
  have key : ∀ (l : List (List Str × β)), (∀ p ∈ l, p ∈ kidsPaths d) → ∀ acc : Dict β,
      l.foldlM (fun acc p => recSplit sep (join sep p.1) (.leaf p.2) acc) acc =
        insertAll l acc := by
    intro l
    induction l with
    | nil => intro _ acc; rfl
    | cons p l ih =>
      intro hl acc
      unfold insertAll at ih ⊢
      simp only [List.foldlM_cons]
      rw [hrec p (hl p (by simp)) acc]
      congr 1
      funext acc'
      exact ih (fun q hq => hl q (by simp [hq])) acc'
  have := key (kidsPaths d) (fun _ hp => hp) []
  simp only [Function.comp_apply]
  rw [this, insertAll_kidsPaths d [] h (by simp)]
  rfl

example : Good (Plain '/') ([("a".toList, .node [("b".toList, .leaf 1)]),
      ("c".toList, .leaf 2)] : Dict Nat) ∧
    Shallow ([("a".toList, .node [("b".toList, .leaf 1)]), ("c".toList, .leaf 2)] : Dict Nat) := by
  constructor
  · simp [Good, TreeGood, Plain]
  · intro k t h
    simp only [List.mem_cons, Prod.mk.injEq, List.not_mem_nil, or_false] at h
    rcases h with ⟨rfl, rfl⟩ | ⟨rfl, rfl⟩
    · intro k' t' h'
      simp only [List.mem_cons, Prod.mk.injEq, List.not_mem_nil, or_false] at h'
      obtain ⟨rfl, rfl⟩ := h'
      exact ⟨by decide, 1, rfl⟩
    · trivial

/-! ### C13 -/

/-- C13: a flat dictionary with prefix-free dotted keys is structured without error, no value is
lost or misplaced, and flattening gives back the same pairs (possibly grouped differently). -/
theorem C13_flatten_structure (l : List (List Str × β))
    (hk : ∀ p ∈ l, p.1 ≠ [] ∧ ∀ k ∈ p.1, Plain '.' k)
    (hpf : (l.map Prod.fst).Pairwise Incomparable) :
    ∃ d, structureD '.' (asLeaves (l.map (fun p => (join '.' p.1, p.2)))) = .ok d ∧
      (∀ p v, (p, v) ∈ l → walk (.node d) p = some (.leaf v)) ∧
      (∀ p v, walk (.node d) p = some (.leaf v) → (p, v) ∈ l) ∧
      (flatten '.' [] d).Perm (l.map (fun p => (join '.' p.1, p.2))) := by
  obtain ⟨d, hd, hg, hp⟩ := insertAll_perm (P := Plain '.') l [] (by simp [Good]) hk hpf
    (by simp [kidsPaths])
  simp only [kidsPaths, List.append_nil] at hp
  refine ⟨d, ?_, ?_, ?_, ?_⟩
  · unfold structureD asLeaves
    rw [List.map_map]
    have := structureD_eq_insertAll l (fun p hp => (hk p hp).1)
      (fun p hp k hk' => ((hk p hp).2 k hk').2) []
    simp only [Function.comp_def]
    rw [this, hd]
  · intro p v hm
    have hm' := hp.mem_iff.2 hm
    obtain ⟨k, t, p', hmem, rfl, hp'⟩ := (mem_kidsPaths d _ _).1 hm'
    have hg' := (good_iff d).1 hg
    simp only [walk, get?_of_mem hg'.1 hmem]
    exact walk_of_mem p' t v (hg'.2 _ hmem).2 hp'
  · intro p v hw
    apply hp.mem_iff.1
    have gen : ∀ (p : List Str) (t : Tree β), walk t p = some (.leaf v) → (p, v) ∈ treePaths t := by
      intro p
      induction p with
      | nil => intro t ht; simp [walk] at ht; subst ht; simp [treePaths]
      | cons k ks ih =>
        intro t ht
        cases t with
        | leaf w => simp [walk] at ht
        | node kids =>
          simp only [walk] at ht
          cases hgk : get? kids k with
          | none => rw [hgk] at ht; simp at ht
          | some s =>
            rw [hgk] at ht
            exact (mem_kidsPaths kids _ _).2 ⟨k, s, ks, mem_of_get? hgk, rfl, ih s ht⟩
    simpa [treePaths] using gen p (.node d) hw
  · rw [flatten_eq '.' d hg]
    exact hp.map _

/-- Why prefix-freeness is needed: `a` and `a.b` together raise. -/
theorem C13_prefix_raises (v w : β) :
    structureD '.' (asLeaves [("a".toList, v), ("a.b".toList, w)]) = .error .typeError := by
  have e1 : ∀ t (d : Dict β), recSplit '.' "a".toList t d = insertAt "a".toList [] t d :=
    fun t d => recSplit_join "a".toList [] (by decide) t d
  have e2 : ∀ t (d : Dict β), recSplit '.' "a.b".toList t d = insertAt "a".toList ["b".toList] t d :=
    fun t d => recSplit_join "a".toList ["b".toList] (by decide) t d
  simp only [structureD, asLeaves, List.map_cons, List.map_nil, List.foldlM_cons, e1, e2]
  rfl

example : let l : List (List Str × Nat) :=
    [(["a".toList, "x".toList], 1), (["b".toList], 2), (["a".toList, "y".toList], 3)]
    (∀ p ∈ l, p.1 ≠ [] ∧ ∀ k ∈ p.1, Plain '.' k) ∧ (l.map Prod.fst).Pairwise Incomparable := by
  simp [Plain, Incomparable]

end Verif.Dicts
