import Verif.Model.Nomen
import Verif.Lemmas.OD

/-! # Names of channels of transfer functions: C351-C358 -/

namespace Verif.Nomen

/-- The names are those of the dictionary. -/
def Agree (n : Names) (d : Dict) : Prop :=
  d.get? "ex" = some n.ex ∧ d.get? "ey" = some n.ey ∧ d.get? "hx" = some n.hx ∧ d.get? "hy" = some n.hy ∧ d.get? "hz" = some n.hz

instance (n : Names) (d : Dict) : Decidable (Agree n d) := by unfold Agree; infer_instance

/-- The dictionary has all five names. -/
def Full (d : Dict) : Prop := ∀ c ∈ ["ex", "ey", "hx", "hy", "hz"], (d.get? c).isSome

instance (d : Dict) : Decidable (Full d) := by unfold Full; infer_instance

theorem agree_full {n : Names} {d : Dict} (h : Agree n d) : Full d := by
  obtain ⟨h1, h2, h3, h4, h5⟩ := h
  intro c hc
  simp only [List.mem_cons, List.not_mem_nil, or_false] at hc
  rcases hc with rfl | rfl | rfl | rfl | rfl <;> simp [*]

theorem full_agree {d : Dict} (h : Full d) : Agree (unpacked d) d := by
  have e : ∀ c ∈ ["ex", "ey", "hx", "hy", "hz"], d.get? c = some ((d.get? c).getD c) := by
    intro c hc
    cases hg : d.get? c with
    | none => have := h c hc; rw [hg] at this; cases this
    | some v => rfl
  exact ⟨e _ (by simp), e _ (by simp), e _ (by simp), e _ (by simp), e _ (by simp)⟩

theorem agree_eq {n m : Names} {d : Dict} (h : Agree n d) (g : Agree m d) : n = m := by
  obtain ⟨h1, h2, h3, h4, h5⟩ := h
  obtain ⟨g1, g2, g3, g4, g5⟩ := g
  rw [h1] at g1; rw [h2] at g2; rw [h3] at g3; rw [h4] at g4; rw [h5] at g5
  cases n; cases m
  simp only [Option.some.injEq] at g1 g2 g3 g4 g5
  simp [*]

theorem unpack_none {d : Dict} {n n' : Names} (h : unpack d n = (n', none)) : Agree n' d := by
  unfold unpack at h
  cases h1 : d.get? "ex" with
  | none => simp [h1] at h
  | some a =>
    cases h2 : d.get? "ey" with
    | none => simp [h1, h2] at h
    | some b =>
      cases h3 : d.get? "hx" with
      | none => simp [h1, h2, h3] at h
      | some c =>
        cases h4 : d.get? "hy" with
        | none => simp [h1, h2, h3, h4] at h
        | some e =>
          cases h5 : d.get? "hz" with
          | none => simp [h1, h2, h3, h4, h5] at h
          | some f =>
            simp only [h1, h2, h3, h4, h5, Prod.mk.injEq, and_true] at h
            subst h
            exact ⟨h1, h2, h3, h4, h5⟩

theorem unpack_agree {d : Dict} {m : Names} (n : Names) (h : Agree m d) : unpack d n = (m, none) := by
  obtain ⟨h1, h2, h3, h4, h5⟩ := h
  simp only [unpack, h1, h2, h3, h4, h5]

theorem get?_completed (ks : List String) (d : Dict) (k : String) :
    (completed ks d).get? k = match d.get? k with
      | some v => some v
      | none => if k ∈ ks then some k else none := by
  unfold completed
  induction ks generalizing d with
  | nil => cases h : d.get? k <;> simp [h]
  | cons c ks ih =>
    rw [List.foldl_cons, ih]
    unfold complete
    cases hc : d.get? c with
    | some v =>
      by_cases hk : k = c
      · subst hk; simp [hc]
      · simp [hk]
    | none =>
      by_cases hk : k = c
      · subst hk; simp [hc]
      · simp only [OD.get?_set_ne _ _ hk, List.mem_cons, hk, false_or]

theorem completed_wf (ks : List String) {d : Dict} (h : d.WF) : (completed ks d).WF := by
  unfold completed
  induction ks generalizing d with
  | nil => exact h
  | cons c ks ih =>
    rw [List.foldl_cons]
    apply ih
    unfold complete
    cases d.get? c with
    | some v => exact h
    | none => exact h.set _ _

theorem completed_mem {ks : List String} {d : Dict} (h : ∀ k ∈ ks, (d.get? k).isSome) : completed ks d = d := by
  unfold completed
  induction ks generalizing d with
  | nil => rfl
  | cons c ks ih =>
    rw [List.foldl_cons]
    have h1 := h c (by simp)
    have : complete d c = d := by
      unfold complete
      cases hc : d.get? c with
      | some v => rfl
      | none => rw [hc] at h1; cases h1
    rw [this]
    exact ih fun k hk => h k (by simp [hk])

theorem completed_self (d : Dict) : completed (OD.keys d) d = d :=
  completed_mem fun k hk => (OD.get?_isSome_iff d k).2 hk

theorem at_set (s : State) (a b : Nat) (d : Dict) (h : a < s.dicts.length) :
    (s.dicts.set a d).getD b [] = if b = a then d else s.at b := by
  unfold State.at
  by_cases e : b = a
  · subst e; simp [List.getD, h]
  · simp only [List.getD, if_neg e]
    rw [List.getElem?_set_ne (fun q => e q.symm)]

theorem at_append (s : State) (b : Nat) (d : Dict) :
    (s.dicts ++ [d]).getD b [] = if b = s.dicts.length then d else s.at b := by
  unfold State.at List.getD
  by_cases e : b = s.dicts.length
  · subst e; simp
  · rw [if_neg e]
    by_cases l : b < s.dicts.length
    · rw [List.getElem?_append_left l]
    · have g : s.dicts.length + 1 ≤ b := by omega
      rw [List.getElem?_eq_none (by simpa using g), List.getElem?_eq_none (by omega)]

/-! ## What is always so -/

structure Inv (s : State) : Prop where
  pos : 0 < s.dicts.length
  wf : ∀ a, (s.at a).WF
  full : Full (s.at 0)
  tf : ∀ t ∈ s.tfs, t.dict < s.dicts.length
  zmm : ∀ z ∈ s.zmms, z.dict < s.dicts.length
  cache : ∀ p ∈ s.cache, p.1.WF

theorem full_set {d : Dict} (h : Full d) (k v : String) : Full (d.set k v) := by
  intro c hc
  rw [OD.get?_set]
  split
  · rfl
  · exact h c hc

theorem inv_start : Inv start where
  pos := by decide
  wf a := by
    match a with
    | 0 => show (defaults).keys.Nodup; decide
    | a + 1 => exact OD.WF_nil
  full := by decide
  tf t h := by cases h
  zmm z h := by cases h
  cache p h := by cases h

theorem template_wf {c : List (Dict × List String)} (hc : ∀ p ∈ c, p.1.WF) {d : Dict} (hd : d.WF) (n : Names) :
    ∀ p ∈ (template c d n).1, p.1.WF := by
  unfold template
  split
  · exact hc
  · intro p hp
    rcases List.mem_append.1 hp with h | h
    · exact hc p h
    · rw [List.mem_singleton.1 h]; exact hd

theorem inv_fill {s : State} (h : Inv s) {a : Nat} (ha : a < s.dicts.length) : Inv (fill s a).1 ∧ Full ((fill s a).1.at a) ∧
    (fill s a).2 = unpacked ((fill s a).1.at a) ∧ (fill s a).1.dicts.length = s.dicts.length := by
  have e : ∀ b, (fill s a).1.at b = if b = a then completed (OD.keys (s.at 0)) (s.at a) else s.at b := fun b => at_set s a b _ ha
  have l : (fill s a).1.dicts.length = s.dicts.length := by simp [fill]
  have f : Full (completed (OD.keys (s.at 0)) (s.at a)) := by
    intro c hc
    rw [get?_completed]
    split
    · rfl
    · rw [if_pos ((OD.get?_isSome_iff _ _).1 (h.full c hc))]; rfl
  refine ⟨⟨by rw [l]; exact h.pos, ?_, ?_, by rw [l]; exact h.tf, by rw [l]; exact h.zmm, h.cache⟩, ?_, ?_, l⟩
  · intro b
    rw [e]
    split
    · exact completed_wf _ (h.wf a)
    · exact h.wf b
  · rw [e]
    split
    · exact f
    · exact h.full
  · rw [e, if_pos rfl]; exact f
  · rw [e, if_pos rfl]; rfl

theorem mem_set_or {α : Type} {l : List α} {i : Nat} {a b : α} (h : b ∈ l.set i a) : b ∈ l ∨ b = a := by
  rcases List.mem_or_eq_of_mem_set h with h | h
  · exact Or.inl h
  · exact Or.inr h

theorem inv_step {s : State} (h : Inv s) (o : Op) : Inv (step s o).1 := by
  cases o with
  | dict l =>
    have e : ∀ b, (step s (.dict l)).1.at b = if b = s.dicts.length then OD.ofPairs l else s.at b := fun b => at_append s b _
    have n : (step s (.dict l)).1.dicts.length = s.dicts.length + 1 := by simp [step]
    refine ⟨by omega, ?_, ?_, ?_, ?_, h.cache⟩
    · intro b
      rw [e]
      split
      · exact OD.WF_ofPairs l
      · exact h.wf b
    · rw [e, if_neg (by have := h.pos; omega)]; exact h.full
    · intro t ht; have := h.tf t ht; omega
    · intro t ht; have := h.zmm t ht; omega
  | write a k v =>
    by_cases ha : a < s.dicts.length
    · have e : ∀ b, (step s (.write a k v)).1.at b = if b = a then (s.at a).set k v else s.at b := by
        intro b
        simp only [step, if_pos ha]
        exact at_set s a b _ ha
      have n : (step s (.write a k v)).1.dicts.length = s.dicts.length := by simp [step, ha]
      refine ⟨by rw [n]; exact h.pos, ?_, ?_, ?_, ?_, ?_⟩
      · intro b
        rw [e]
        split
        · exact (h.wf a).set _ _
        · exact h.wf b
      · rw [e]
        split
        · rename_i h0; subst h0; exact full_set h.full k v
        · exact h.full
      · rw [n]; simp only [step, if_pos ha]; exact h.tf
      · rw [n]; simp only [step, if_pos ha]; exact h.zmm
      · simp only [step, if_pos ha]; exact h.cache
    · simp only [step, if_neg ha]; exact h
  | newTf a p =>
    by_cases ha : a.getD 0 < s.dicts.length
    · simp only [step, if_pos ha, newTf]
      rcases hu : unpack (s.at 0) ⟨"", "", "", "", ""⟩ with ⟨n, _ | e⟩
      · rcases hv : unpack (s.at (a.getD 0)) n with ⟨n', _ | e⟩
        · simp only [hv]
          refine ⟨h.pos, h.wf, h.full, ?_, h.zmm, ?_⟩
          · intro t ht
            rcases List.mem_append.1 ht with ht | ht
            · exact h.tf t ht
            · rw [List.mem_singleton.1 ht]; exact ha
          · cases p
            · exact template_wf h.cache (h.wf _) _
            · exact template_wf h.cache (h.wf _) _
        · simp only [hv]
          cases p
          · exact h
          · exact ⟨h.pos, h.wf, h.full, h.tf, h.zmm, template_wf h.cache (h.wf _) _⟩
      · exact h
    · simp only [step, if_neg ha]; exact h
  | assign i a =>
    simp only [step]
    split
    · exact h
    · split
      · rename_i ha
        refine ⟨h.pos, h.wf, h.full, ?_, h.zmm, h.cache⟩
        intro t ht
        rcases mem_set_or ht with ht | rfl
        · exact h.tf t ht
        · exact ha
      · exact h
  | renew i =>
    simp only [step]
    split
    · exact h
    · rename_i t ht
      refine ⟨h.pos, h.wf, h.full, ?_, h.zmm, template_wf h.cache (h.wf _) _⟩
      intro u hu
      rcases mem_set_or hu with hu | rfl
      · exact h.tf u hu
      · exact h.tf t (List.mem_of_getElem? ht)
  | inverse i =>
    simp only [step]
    split
    · exact h
    · rename_i t ht
      split
      · refine ⟨h.pos, h.wf, h.full, ?_, h.zmm, h.cache⟩
        intro u hu
        rcases mem_set_or hu with hu | rfl
        · exact h.tf u hu
        · exact h.tf t (List.mem_of_getElem? ht)
      · exact h
  | copy i =>
    simp only [step]
    split
    · exact h
    · rename_i t ht
      have e := fun b => at_append s b (s.at t.dict)
      refine ⟨by simp, ?_, ?_, ?_, ?_, h.cache⟩
      · intro b
        show OD.WF ((s.dicts ++ [s.at t.dict]).getD b [])
        rw [e]
        split
        · exact h.wf _
        · exact h.wf b
      · show Full ((s.dicts ++ [s.at t.dict]).getD 0 [])
        rw [e, if_neg (by have := h.pos; omega)]; exact h.full
      · intro u hu
        simp only [List.length_append, List.length_singleton]
        rcases List.mem_append.1 hu with hu | hu
        · have := h.tf u hu; omega
        · rw [List.mem_singleton.1 hu]; show s.dicts.length < _; omega
      · intro z hz
        have := h.zmm z hz
        simp only [List.length_append, List.length_singleton]; omega
  | newZmm =>
    obtain ⟨f, _, _, l⟩ := inv_fill h h.pos
    simp only [step]
    refine ⟨f.pos, f.wf, f.full, f.tf, ?_, f.cache⟩
    intro z hz
    rcases List.mem_append.1 hz with hz | hz
    · exact f.zmm z hz
    · rw [List.mem_singleton.1 hz]; exact f.pos
  | assignZmm i a =>
    simp only [step]
    split
    · exact h
    · split
      · rename_i ha
        obtain ⟨f, _, _, l⟩ := inv_fill h ha
        refine ⟨f.pos, f.wf, f.full, f.tf, ?_, f.cache⟩
        intro z hz
        rcases mem_set_or hz with hz | rfl
        · exact f.zmm z hz
        · show a < (fill s a).1.dicts.length
          rw [l]; exact ha
      · exact h

theorem after_snoc (h : List Op) (o : Op) : after (h ++ [o]) = (step (after h) o).1 := by
  unfold after; rw [List.foldl_append]; rfl

theorem inv_after (h : List Op) : Inv (after h) := by
  suffices ∀ (h : List Op) (s : State), Inv s → Inv (h.foldl (fun s o => (step s o).1) s) from this h start inv_start
  intro h
  induction h with
  | nil => exact fun s hs => hs
  | cons o h ih => exact fun s hs => ih _ (inv_step hs o)

theorem fill_at {s : State} {a : Nat} (ha : a < s.dicts.length) (b : Nat) :
    (fill s a).1.at b = if b = a then completed (OD.keys (s.at 0)) (s.at a) else s.at b := at_set s a b _ ha

/-- The default dictionary stays unless it is written to. -/
theorem at_zero {s : State} (h : Inv s) {o : Op} (ho : ∀ k v, o ≠ .write 0 k v) : (step s o).1.at 0 = s.at 0 := by
  have hf : ∀ a, a < s.dicts.length → (fill s a).1.at 0 = s.at 0 := by
    intro a ha
    rw [fill_at ha]
    split
    · rename_i h0; subst h0; exact completed_self _
    · rfl
  cases o with
  | dict l => exact (at_append s 0 _).trans (if_neg (by have := h.pos; omega))
  | write a k v =>
    simp only [step]
    split
    · rename_i ha
      refine (at_set s a 0 _ ha).trans (if_neg ?_)
      rintro rfl
      exact ho k v rfl
    · rfl
  | newTf a p =>
    simp only [step]
    split
    · unfold newTf
      split
      · rfl
      · split
        · split <;> rfl
        · rfl
    · rfl
  | assign i a =>
    simp only [step]
    split
    · rfl
    · split <;> rfl
  | renew i =>
    simp only [step]
    split <;> rfl
  | inverse i =>
    simp only [step]
    split
    · rfl
    · split <;> rfl
  | copy i =>
    simp only [step]
    split
    · rfl
    · exact (at_append s 0 _).trans (if_neg (by have := h.pos; omega))
  | newZmm => exact hf 0 h.pos
  | assignZmm i a =>
    simp only [step]
    split
    · rfl
    · split
      · rename_i ha; exact hf a ha
      · rfl

theorem at_zero_after {h : List Op} (hw : ∀ o ∈ h, ∀ k v, o ≠ .write 0 k v) : (after h).at 0 = defaults := by
  suffices ∀ (h : List Op) (s : State), Inv s → (∀ o ∈ h, ∀ k v, o ≠ .write 0 k v) → (h.foldl (fun s o => (step s o).1) s).at 0 = s.at 0 from
    this h start inv_start hw
  intro h
  induction h with
  | nil => exact fun s _ _ => rfl
  | cons o h ih =>
    intro s hs hw
    exact (ih _ (inv_step hs o) fun q hq => hw q (by simp [hq])).trans (at_zero hs (hw o (by simp)))

/-! ## C351: new objects -/

/-- The names of the standard. -/
def standard : Names := ⟨"ex", "ey", "hx", "hy", "hz"⟩

/-- New objects have the standard names, whatever was done before. -/
def C351_claim : Prop := ∀ (h : List Op) (p : Bool),
  (∃ t, (step (after h) (.newTf none p)).1.tfs = (after h).tfs ++ [t] ∧ t.names = standard) ∧
  ∃ z, (step (after h) .newZmm).1.zmms = (after h).zmms ++ [z] ∧ z.names = standard

theorem new_tf {s : State} (h : Inv s) (p : Bool) : (step s (.newTf none p)).2 = none ∧
    ∃ t, (step s (.newTf none p)).1.tfs = s.tfs ++ [t] ∧ t.dict = 0 ∧ Agree t.names (s.at 0) := by
  have hu := unpack_agree ⟨"", "", "", "", ""⟩ (full_agree h.full)
  have hv := unpack_agree (unpacked (s.at 0)) (full_agree h.full)
  simp only [step, Option.getD_none, if_pos h.pos, newTf, hu, hv]
  exact ⟨trivial, _, rfl, rfl, full_agree h.full⟩

theorem new_zmm {s : State} (h : Inv s) : (step s .newZmm).2 = none ∧
    ∃ z, (step s .newZmm).1.zmms = s.zmms ++ [z] ∧ z.dict = 0 ∧ Agree z.names (s.at 0) := by
  refine ⟨rfl, _, rfl, rfl, ?_⟩
  show Agree (unpacked (completed (OD.keys (s.at 0)) (s.at 0))) (s.at 0)
  rw [completed_self]
  exact full_agree h.full

/-- C351: new objects have the names that the default dictionary has then; making one never fails. -/
theorem C351_names_partial (h : List Op) (p : Bool) :
    ((step (after h) (.newTf none p)).2 = none ∧ ∃ t, (step (after h) (.newTf none p)).1.tfs = (after h).tfs ++ [t] ∧ t.dict = 0 ∧
      Agree t.names ((after h).at 0)) ∧
    (step (after h) .newZmm).2 = none ∧ ∃ z, (step (after h) .newZmm).1.zmms = (after h).zmms ++ [z] ∧ z.dict = 0 ∧
      Agree z.names ((after h).at 0) :=
  ⟨new_tf (inv_after h) p, new_zmm (inv_after h)⟩

/-- C351: they are the standard names if nothing was written to the default dictionary, not even through an object that has it. -/
theorem C351_unwritten_partial {h : List Op} (hw : ∀ o ∈ h, ∀ k v, o ≠ .write 0 k v) (p : Bool) :
    (∃ t, (step (after h) (.newTf none p)).1.tfs = (after h).tfs ++ [t] ∧ t.names = standard) ∧
    ∃ z, (step (after h) .newZmm).1.zmms = (after h).zmms ++ [z] ∧ z.names = standard := by
  obtain ⟨⟨_, t, h1, _, h2⟩, _, z, h3, _, h4⟩ := C351_names_partial h p
  rw [at_zero_after hw] at h2 h4
  have e : Agree standard defaults := by decide
  exact ⟨⟨t, h1, agree_eq h2 e⟩, z, h3, agree_eq h4 e⟩

/-- `tf = TF(); tf.channel_nomenclature["ex"] = "e1"`. -/
def exWrite : List Op := [.newTf none false, .write 0 "ex" "e1"]

/-- C351 is false: the names written to the dictionary of one object are those of all later ones. -/
theorem C351_refuted : ¬ C351_claim := by
  intro h
  obtain ⟨⟨t, h1, h2⟩, _⟩ := h exWrite false
  have e : (step (after exWrite) (.newTf none false)).1.tfs = (after exWrite).tfs ++ [⟨0, ⟨"e1", "ey", "hx", "hy", "hz"⟩, [], ["e1", "ey", "hz", "hx", "hy"]⟩] := by
    decide
  rw [e] at h1
  have := List.append_cancel_left h1
  rw [← (List.cons.inj this).1] at h2
  exact absurd h2 (by decide)

/-- A program that changes names in its own dictionary only. -/
example : ∀ o ∈ [Op.dict [("ex", "e1")], .newTf none true, .newZmm, .assignZmm 0 1, .write 1 "ey" "e2", .inverse 0],
    ∀ k v, o ≠ Op.write 0 k v := by
  intro o ho k v
  simp only [List.mem_cons, List.not_mem_nil, or_false] at ho
  rcases ho with rfl | rfl | rfl | rfl | rfl | rfl <;> simp

/-! ## C352: assigning names to a ZMM object -/

/-- The dictionary assigned to a ZMM object is not changed by that. -/
def C352_claim : Prop := ∀ (h : List Op) (i a : Nat), ((step (after h) (.assignZmm i a)).1.at a) = (after h).at a

/-- C352: what it has stays, what it lacks of the names of the default dictionary is added, with itself as value; other dictionaries
stay as they are. The object has the names of the completed dictionary. -/
theorem C352_added_partial {h : List Op} {i a : Nat} (hi : i < (after h).zmms.length) (ha : a < (after h).dicts.length) :
    (step (after h) (.assignZmm i a)).2 = none ∧
    (∀ k v, ((after h).at a).get? k = some v → ((step (after h) (.assignZmm i a)).1.at a).get? k = some v) ∧
    (∀ k, ((after h).at a).get? k = none → ((step (after h) (.assignZmm i a)).1.at a).get? k =
      if k ∈ ((after h).at 0).keys then some k else none) ∧
    (∀ b, b ≠ a → (step (after h) (.assignZmm i a)).1.at b = (after h).at b) ∧
    ∃ z, (step (after h) (.assignZmm i a)).1.zmms = (after h).zmms.set i z ∧ z.dict = a ∧
      Agree z.names ((step (after h) (.assignZmm i a)).1.at a) := by
  obtain ⟨z, hz⟩ : ∃ z, (after h).zmms[i]? = some z := ⟨_, List.getElem?_eq_getElem hi⟩
  simp only [step, hz, if_pos ha]
  obtain ⟨_, f, u, _⟩ := inv_fill (inv_after h) ha
  have e : ∀ b, State.at { (fill (after h) a).1 with zmms := (fill (after h) a).1.zmms.set i ⟨a, (fill (after h) a).2⟩ } b =
      if b = a then completed (OD.keys ((after h).at 0)) ((after h).at a) else (after h).at b := fun b => fill_at ha b
  refine ⟨trivial, ?_, ?_, ?_, _, rfl, rfl, ?_⟩
  · intro k v hk
    rw [e, if_pos rfl, get?_completed, hk]
  · intro k hk
    rw [e, if_pos rfl, get?_completed, hk]
  · intro b hb
    rw [e, if_neg hb]
  · rw [u]
    exact full_agree f

/-- C352: a dictionary that has all names of the default dictionary is not changed. -/
theorem C352_full_partial {h : List Op} (i a : Nat) (hf : ∀ k ∈ ((after h).at 0).keys, (((after h).at a).get? k).isSome) :
    (step (after h) (.assignZmm i a)).1.at a = (after h).at a := by
  simp only [step]
  split
  · rfl
  · split
    · rename_i ha
      refine (fill_at ha a).trans ?_
      rw [if_pos rfl]
      exact completed_mem hf
    · rfl

/-- A ZMM object and a dictionary of two names. -/
def exFill : List Op := [.newZmm, .dict [("ex", "e1"), ("ey", "e2")]]

/-- C352 is false: a dictionary of two names has five afterwards. -/
theorem C352_refuted : ¬ C352_claim := by
  intro h
  exact absurd (h exFill 0 1) (by decide)

example : (step (after exFill) (.assignZmm 0 1)).1.at 1 = [("ex", "e1"), ("ey", "e2"), ("hx", "hx"), ("hy", "hy"), ("hz", "hz")] := by decide

/-! ## C353: the names in use -/

/-- The names in use are those of the dictionary that the object returns as its nomenclature. -/
def C353_claim : Prop := ∀ h : List Op, (∀ t ∈ (after h).tfs, Agree t.names ((after h).at t.dict)) ∧
  ∀ z ∈ (after h).zmms, Agree z.names ((after h).at z.dict)

/-- Programs that write to no dictionary and in which no exception is raised. -/
inductive Clean : State → Prop
  | start : Clean start
  | step {s : State} (o : Op) : Clean s → (∀ a k v, o ≠ .write a k v) → (step s o).2 = none → Clean (step s o).1

theorem fill_grow {s : State} {a : Nat} (ha : a < s.dicts.length) {b : Nat} {k v : String} (hk : (s.at b).get? k = some v) :
    ((fill s a).1.at b).get? k = some v := by
  rw [fill_at ha]
  split
  · rename_i h; subst h; rw [get?_completed, hk]
  · exact hk

/-- Without writing, dictionaries only grow. -/
theorem at_grow {s : State} (h : Inv s) {o : Op} (ho : ∀ a k v, o ≠ .write a k v) {b : Nat} {k v : String}
    (hk : (s.at b).get? k = some v) : ((step s o).1.at b).get? k = some v := by
  have hb : b ≠ s.dicts.length := by
    rintro rfl
    unfold State.at List.getD at hk
    rw [List.getElem?_eq_none (Nat.le_refl _)] at hk
    cases hk
  have ha : ∀ d, OD.get? ((s.dicts ++ [d]).getD b []) k = some v := by
    intro d
    rw [at_append, if_neg hb]
    exact hk
  cases o with
  | dict l => exact ha _
  | write a k v => exact absurd rfl (ho a k v)
  | newTf a p =>
    simp only [step]
    split
    · unfold newTf
      split
      · exact hk
      · split
        · split <;> exact hk
        · exact hk
    · exact hk
  | assign i a =>
    simp only [step]
    split
    · exact hk
    · split <;> exact hk
  | renew i =>
    simp only [step]
    split <;> exact hk
  | inverse i =>
    simp only [step]
    split
    · exact hk
    · split <;> exact hk
  | copy i =>
    simp only [step]
    split
    · exact hk
    · exact ha _
  | newZmm => exact fill_grow h.pos hk
  | assignZmm i a =>
    simp only [step]
    split
    · exact hk
    · split
      · rename_i ha; exact fill_grow ha hk
      · exact hk

theorem agree_grow {s : State} (h : Inv s) {o : Op} (ho : ∀ a k v, o ≠ .write a k v) {b : Nat} {n : Names} (hn : Agree n (s.at b)) :
    Agree n ((step s o).1.at b) := by
  obtain ⟨h1, h2, h3, h4, h5⟩ := hn
  exact ⟨at_grow h ho h1, at_grow h ho h2, at_grow h ho h3, at_grow h ho h4, at_grow h ho h5⟩

structure Good (s : State) : Prop where
  inv : Inv s
  tf : ∀ t ∈ s.tfs, Agree t.names (s.at t.dict)
  zmm : ∀ z ∈ s.zmms, Agree z.names (s.at z.dict)
  cache : ∀ p ∈ s.cache, ∃ n, Agree n p.1 ∧ p.2 = n.all

theorem agree_perm {n : Names} {d e : Dict} (hd : d.WF) (h : d.Perm e) (hn : Agree n d) : Agree n e := by
  unfold Agree at hn ⊢
  simp only [← OD.get?_perm hd h]
  exact hn

theorem template_good {s : State} (h : Good s) {d : Dict} {n : Names} (hn : Agree n d) :
    (template s.cache d n).2 = n.all ∧ ∀ p ∈ (template s.cache d n).1, ∃ n, Agree n p.1 ∧ p.2 = n.all := by
  unfold template
  split
  · rename_i p hp
    have hm := List.mem_of_find?_eq_some hp
    have hq := List.find?_some hp
    simp only [sameKey] at hq
    obtain ⟨m, h1, h2⟩ := h.cache p hm
    have := agree_eq (agree_perm (h.inv.cache p hm) (List.isPerm_iff.1 hq) h1) hn
    subst this
    exact ⟨h2, h.cache⟩
  · refine ⟨rfl, ?_⟩
    intro p hp
    rcases List.mem_append.1 hp with hp | hp
    · exact h.cache p hp
    · rw [List.mem_singleton.1 hp]
      exact ⟨n, hn, rfl⟩

/-- What a successful `TF(…)` does. -/
theorem newTf_ok {s : State} {a : Option Nat} {p : Bool} (h : (step s (.newTf a p)).2 = none) :
    ∃ n m, Agree n (s.at 0) ∧ Agree m (s.at (a.getD 0)) ∧ (step s (.newTf a p)).1 =
      { s with
        cache := (if p then template s.cache (s.at 0) n else template s.cache (s.at (a.getD 0)) m).1
        tfs := s.tfs ++ [⟨a.getD 0, m, [], (if p then template s.cache (s.at 0) n else template s.cache (s.at (a.getD 0)) m).2⟩] } := by
  simp only [step] at h ⊢
  split at h
  · rename_i ha
    rw [if_pos ha]
    unfold newTf at h ⊢
    rcases hu : unpack (s.at 0) ⟨"", "", "", "", ""⟩ with ⟨n, _ | e⟩
    · rcases hv : unpack (s.at (a.getD 0)) n with ⟨m, _ | e⟩
      · refine ⟨n, m, unpack_none hu, unpack_none hv, ?_⟩
        simp only [hv]
      · simp only [hu, hv] at h
        cases h
    · simp only [hu] at h
      cases h
  · cases h

theorem good_step {s : State} (h : Good s) {o : Op} (ho : ∀ a k v, o ≠ .write a k v) (he : (step s o).2 = none) : Good (step s o).1 := by
  have g1 : ∀ t ∈ s.tfs, Agree t.names ((step s o).1.at t.dict) := fun t ht => agree_grow h.inv ho (h.tf t ht)
  have g2 : ∀ z ∈ s.zmms, Agree z.names ((step s o).1.at z.dict) := fun z hz => agree_grow h.inv ho (h.zmm z hz)
  have hi := inv_step h.inv o
  cases o with
  | dict l => exact ⟨hi, g1, g2, h.cache⟩
  | write a k v => exact absurd rfl (ho a k v)
  | newTf a p =>
    obtain ⟨n, m, hn, hm, e⟩ := newTf_ok he
    rw [e] at g1 g2 hi ⊢
    refine ⟨hi, ?_, g2, ?_⟩
    · intro t ht
      rcases List.mem_append.1 ht with ht | ht
      · exact g1 t ht
      · rw [List.mem_singleton.1 ht]; exact hm
    · cases p
      · exact (template_good h hm).2
      · exact (template_good h hn).2
  | assign i a =>
    simp only [step] at he hi g1 g2 ⊢
    split at he
    · cases he
    · rename_i t ht
      split at he
      · rename_i ha
        simp only [ht, if_pos ha] at hi g1 g2 ⊢
        refine ⟨hi, ?_, g2, h.cache⟩
        intro u hu
        rcases mem_set_or hu with hu | rfl
        · exact g1 u hu
        · exact unpack_none (Prod.ext rfl he)
      · cases he
  | renew i =>
    simp only [step] at he hi g1 g2 ⊢
    split at he
    · cases he
    · rename_i t ht
      simp only [ht] at hi g1 g2 ⊢
      have hm := h.tf t (List.mem_of_getElem? ht)
      refine ⟨hi, ?_, g2, (template_good h hm).2⟩
      intro u hu
      rcases mem_set_or hu with hu | rfl
      · exact g1 u hu
      · exact hm
  | inverse i =>
    simp only [step] at he hi g1 g2 ⊢
    split at he
    · cases he
    · rename_i t ht
      simp only [ht] at hi g1 g2 ⊢
      have hm := h.tf t (List.mem_of_getElem? ht)
      split
      · rename_i hz
        simp only [if_pos hz] at hi g1 g2
        refine ⟨hi, ?_, g2, h.cache⟩
        intro u hu
        rcases mem_set_or hu with hu | rfl
        · exact g1 u hu
        · exact hm
      · exact h
  | copy i =>
    simp only [step] at he hi g1 g2 ⊢
    split at he
    · cases he
    · rename_i t ht
      simp only [ht] at hi g1 g2 ⊢
      have hm := h.tf t (List.mem_of_getElem? ht)
      refine ⟨hi, ?_, g2, h.cache⟩
      intro u hu
      rcases List.mem_append.1 hu with hu | hu
      · exact g1 u hu
      · rw [List.mem_singleton.1 hu]
        show Agree t.names ((s.dicts ++ [s.at t.dict]).getD s.dicts.length [])
        rw [at_append, if_pos rfl]
        exact hm
  | newZmm =>
    obtain ⟨_, f, u, _⟩ := inv_fill h.inv h.inv.pos
    refine ⟨hi, g1, ?_, h.cache⟩
    intro z hz
    simp only [step] at hz
    rcases List.mem_append.1 hz with hz | hz
    · exact g2 z hz
    · rw [List.mem_singleton.1 hz]
      show Agree (fill s 0).2 ((fill s 0).1.at 0)
      rw [u]
      exact full_agree f
  | assignZmm i a =>
    simp only [step] at he hi g1 g2 ⊢
    split at he
    · cases he
    · rename_i z hz
      split at he
      · rename_i ha
        simp only [hz, if_pos ha] at hi g1 g2 ⊢
        obtain ⟨_, f, u, _⟩ := inv_fill h.inv ha
        refine ⟨hi, g1, ?_, h.cache⟩
        intro y hy
        rcases mem_set_or hy with hy | rfl
        · exact g2 y hy
        · show Agree (fill s a).2 ((fill s a).1.at a)
          rw [u]
          exact full_agree f
      · cases he

theorem good_clean {s : State} (h : Clean s) : Good s := by
  induction h with
  | start => exact ⟨inv_start, fun _ h => (by cases h), fun _ h => (by cases h), fun _ h => (by cases h)⟩
  | step o _ ho he ih => exact good_step ih ho he

/-- C353: so it is after all programs that write to no dictionary and in which no exception is raised, also if objects share dictionaries. -/
theorem C353_clean_partial {s : State} (h : Clean s) : (∀ t ∈ s.tfs, Agree t.names (s.at t.dict)) ∧ ∀ z ∈ s.zmms, Agree z.names (s.at z.dict) :=
  ⟨(good_clean h).tf, (good_clean h).zmm⟩

/-- C353: writing to a dictionary changes the names of no object. -/
theorem C353_written_partial (s : State) (a : Nat) (k v : String) : (step s (.write a k v)).1.tfs = s.tfs ∧ (step s (.write a k v)).1.zmms = s.zmms := by
  simp only [step]
  split <;> exact ⟨rfl, rfl⟩

/-- C353 is false: the name written is in the dictionary and not in use. -/
theorem C353_refuted : ¬ C353_claim := by
  intro h
  have := (h exWrite).1 ⟨0, standard, [], ["ex", "ey", "hz", "hx", "hy"]⟩ (by decide)
  exact absurd this (by decide)

/-- Two objects that have a dictionary in common, which is completed for one of them. -/
theorem exClean : Clean (after [.dict [("ex", "e1"), ("ey", "e2")], .newZmm, .assignZmm 0 1, .newTf (some 1) false, .inverse 0, .newTf none true]) := by
  have w : ∀ {s : State} (o : Op), Clean s → (∀ a k v, o ≠ .write a k v) → (step s o).2 = none → Clean (step s o).1 := fun o => Clean.step o
  refine w _ (w _ (w _ (w _ (w _ (w _ Clean.start ?_ ?_) ?_ ?_) ?_ ?_) ?_ ?_) ?_ ?_) ?_ ?_
  all_goals first | decide | (intro a k v h; cases h)

/-! ## C354: assigning names that are incomplete -/

/-- An assignment that is refused changes nothing. -/
def C354_claim : Prop := ∀ (h : List Op) (i a : Nat) (e : PyErr), (step (after h) (.assign i a)).2 = some e → (step (after h) (.assign i a)).1 = after h

def Names.list (n : Names) : List String := [n.ex, n.ey, n.hx, n.hy, n.hz]

/-- C354: names are taken in the order ex, ey, hx, hy, hz up to the first that the dictionary does not have; from there on they stay; the
dictionary is that of the object in any case. -/
theorem C354_taken_partial {s : State} {i a : Nat} {t : Tf} (ht : s.tfs[i]? = some t) (ha : a < s.dicts.length) :
    ((step s (.assign i a)).2 = none ↔ ∀ c ∈ ["ex", "ey", "hx", "hy", "hz"], ((s.at a).get? c).isSome) ∧
    ((step s (.assign i a)).2 = none ∨ (step s (.assign i a)).2 = some .keyError) ∧
    ∃ n, (step s (.assign i a)).1 = { s with tfs := s.tfs.set i { t with dict := a, names := n } } ∧
      ∃ new : List String, n.list = new ++ t.names.list.drop new.length ∧
        new.map some = (["ex", "ey", "hx", "hy", "hz"].map (s.at a).get?).takeWhile Option.isSome := by
  simp only [step, ht, if_pos ha]
  unfold unpack
  cases h1 : (s.at a).get? "ex" with
  | none => exact ⟨by simp [h1], by simp, _, rfl, [], rfl, by simp [h1]⟩
  | some x1 =>
    cases h2 : (s.at a).get? "ey" with
    | none => exact ⟨by simp [h1, h2], by simp, _, rfl, [x1], rfl, by simp [h1, h2]⟩
    | some x2 =>
      cases h3 : (s.at a).get? "hx" with
      | none => exact ⟨by simp [h1, h2, h3], by simp, _, rfl, [x1, x2], rfl, by simp [h1, h2, h3]⟩
      | some x3 =>
        cases h4 : (s.at a).get? "hy" with
        | none => exact ⟨by simp [h1, h2, h3, h4], by simp, _, rfl, [x1, x2, x3], rfl, by simp [h1, h2, h3, h4]⟩
        | some x4 =>
          cases h5 : (s.at a).get? "hz" with
          | none => exact ⟨by simp [h1, h2, h3, h4, h5], by simp, _, rfl, [x1, x2, x3, x4], rfl, by simp [h1, h2, h3, h4, h5]⟩
          | some x5 => exact ⟨by simp [h1, h2, h3, h4, h5], by simp, _, rfl, [x1, x2, x3, x4, x5], rfl, by simp [h1, h2, h3, h4, h5]⟩

/-- A transfer function and a dictionary without hz. -/
def exShort : List Op := [.newTf none false, .dict [("ex", "e1"), ("ey", "e2"), ("hx", "b1"), ("hy", "b2")]]

/-- C354 is false: the names before the missing one have changed. -/
theorem C354_refuted : ¬ C354_claim := by
  intro h
  exact absurd (h exShort 0 1 .keyError (by decide)) (by decide)

example : ((step (after exShort) (.assign 0 1)).1.tfs.map fun t => (t.dict, t.names)) = [(1, ⟨"e1", "e2", "b1", "b2", "hz"⟩)] := by decide

/-! ## C355: the names in a new data set -/

/-- The data set of a new transfer function has the names of the object. -/
def C355_claim : Prop := ∀ (h : List Op) (a : Option Nat) (p : Bool) (t : Tf), (step (after h) (.newTf a p)).1.tfs = (after h).tfs ++ [t] →
  t.coords = [t.names.ex, t.names.ey, t.names.hz, t.names.hx, t.names.hy]

/-- C355: if nothing was written to a dictionary and no exception was raised before, and if names and periods are not both given. -/
theorem C355_clean_partial {s : State} (h : Clean s) {a : Option Nat} {p : Bool} (hp : a = none ∨ p = false) {t : Tf}
    (ht : (step s (.newTf a p)).1.tfs = s.tfs ++ [t]) : t.coords = [t.names.ex, t.names.ey, t.names.hz, t.names.hx, t.names.hy] := by
  cases he : (step s (.newTf a p)).2 with
  | none =>
    obtain ⟨n, m, hn, hm, e⟩ := newTf_ok he
    rw [e] at ht
    have := (List.cons.inj (List.append_cancel_left ht)).1
    subst this
    cases p with
    | false => exact (template_good (good_clean h) hm).1
    | true =>
      rcases hp with rfl | hp
      · have := agree_eq hn hm
        subst this
        exact (template_good (good_clean h) hn).1
      · cases hp
  | some e =>
    have : (step s (.newTf a p)).1.tfs = s.tfs := by
      simp only [step] at he ⊢
      split at he
      · rename_i ha
        rw [if_pos ha]
        unfold newTf at he ⊢
        rcases hu : unpack (s.at 0) ⟨"", "", "", "", ""⟩ with ⟨n, _ | e⟩
        · rcases hv : unpack (s.at (a.getD 0)) n with ⟨m, _ | e⟩
          · simp only [hu, hv] at he; cases he
          · simp only [hv]; split <;> rfl
        · rfl
      · rename_i ha
        rw [if_neg ha]
    rw [this] at ht
    have := congrArg List.length ht
    simp at this

/-- C355: with periods, the data set has the default names whatever names are given. -/
theorem C355_periods_partial {s : State} (h : Clean s) {a : Option Nat} {t : Tf} (ht : (step s (.newTf a true)).1.tfs = s.tfs ++ [t])
    (he : (step s (.newTf a true)).2 = none) : t.coords = ["ex", "ey", "hz", "hx", "hy"] ∧ Agree t.names (s.at (a.getD 0)) := by
  have h0 : s.at 0 = defaults := by
    clear he ht
    induction h with
    | start => rfl
    | step o hc ho he ih => rw [at_zero (good_clean hc).inv (fun k v => ho 0 k v)]; exact ih
  obtain ⟨n, m, hn, hm, e⟩ := newTf_ok he
  rw [e] at ht
  have := (List.cons.inj (List.append_cancel_left ht)).1
  subst this
  refine ⟨?_, hm⟩
  have hc := (template_good (good_clean h) hn).1
  rw [h0] at hn
  have e : n = standard := agree_eq hn (by decide)
  rw [e] at hc
  show (template s.cache (s.at 0) n).2 = _
  rw [e]
  exact hc

/-- A name is written, and the object gets a new data set. -/
def exCache : List Op := [.newTf none false, .write 0 "ex" "e1", .renew 0]

/-- C355 is false: the template made then has the old name; the objects of the new name get it. -/
theorem C355_refuted : ¬ C355_claim := by
  intro h
  have := h exCache none false ⟨0, ⟨"e1", "ey", "hx", "hy", "hz"⟩, [], ["ex", "ey", "hz", "hx", "hy"]⟩ (by decide)
  exact absurd this (by decide)

/-! ## C356: the names in the data set after an assignment -/

/-- After names are assigned, the data set has them. -/
def C356_claim : Prop := ∀ (s : State) (i a : Nat), Clean s → (step s (.assign i a)).2 = none → ∀ t, (step s (.assign i a)).1.tfs[i]? = some t →
  t.coords = [t.names.ex, t.names.ey, t.names.hz, t.names.hx, t.names.hy]

/-- C356: the data set stays as it is. -/
theorem C356_kept_partial {s : State} {i a : Nat} {t u : Tf} (ht : s.tfs[i]? = some t) (hu : (step s (.assign i a)).1.tfs[i]? = some u) :
    u.coords = t.coords := by
  simp only [step, ht] at hu
  split at hu
  · rw [List.getElem?_set_self (List.getElem?_eq_some_iff.1 ht).1] at hu
    cases hu
    rfl
  · rw [ht] at hu; cases hu; rfl

/-- C356: once there is a new data set, it has the names. -/
theorem C356_renewed_partial {s : State} (h : Clean s) {i a : Nat} {u : Tf} (h1 : (step s (.assign i a)).2 = none)
    (hu : (step (step s (.assign i a)).1 (.renew i)).1.tfs[i]? = some u) :
    Agree u.names ((step s (.assign i a)).1.at a) ∧ u.coords = [u.names.ex, u.names.ey, u.names.hz, u.names.hx, u.names.hy] := by
  have hg := good_clean (h.step (.assign i a) (by intro a k v h; cases h) h1)
  cases ht : s.tfs[i]? with
  | none => simp only [step, ht] at h1; cases h1
  | some t =>
    obtain ⟨hi, _⟩ := List.getElem?_eq_some_iff.1 ht
    by_cases ha : a < s.dicts.length
    · obtain ⟨_, _, n, e, _⟩ := C354_taken_partial ht ha
      rw [e] at hg hu ⊢
      simp only [step, List.getElem?_set_self hi, List.set_set, Option.some.injEq] at hu
      subst hu
      have hm := hg.tf { t with dict := a, names := n } (List.mem_of_getElem? (List.getElem?_set_self hi))
      exact ⟨hm, (template_good hg hm).1⟩
    · simp only [step, ht, if_neg ha] at h1; cases h1

theorem exAssign : Clean (after [.newTf none false, .dict [("ex", "e1"), ("ey", "e2"), ("hx", "b1"), ("hy", "b2"), ("hz", "b3")]]) := by
  have w : ∀ {s : State} (o : Op), Clean s → (∀ a k v, o ≠ .write a k v) → (step s o).2 = none → Clean (step s o).1 := fun o => Clean.step o
  refine w _ (w _ Clean.start ?_ ?_) ?_ ?_
  all_goals first | decide | (intro a k v h; cases h)

/-- C356 is false: it has those of before. -/
theorem C356_refuted : ¬ C356_claim := by
  intro h
  have := h _ 0 1 exAssign (by decide) ⟨1, ⟨"e1", "e2", "b1", "b2", "b3"⟩, [], ["ex", "ey", "hz", "hx", "hy"]⟩ (by decide)
  exact absurd this (by decide)

/-! ## C357: from names to components -/

/-- The inverse nomenclature gives for every name its component. -/
def C357_claim : Prop := ∀ (s : State) (i : Nat), Clean s → ∀ t, (step s (.inverse i)).1.tfs[i]? = some t → (s.at t.dict).values.Nodup →
  ∀ k v, (s.at t.dict).get? k = some v → t.inverse.get? v = some k

theorem get?_inverted {d : Dict} (h : d.values.Nodup) (hd : d.WF) {k v : String} (hk : d.get? k = some v) : (inverted d).get? v = some k := by
  have hw : OD.WF (d.map fun p => (p.2, p.1)) := by
    unfold OD.WF OD.keys
    rw [List.map_map]
    exact h
  unfold inverted
  rw [OD.ofPairs_of_wf hw]
  exact OD.get?_of_mem hw (List.mem_map.2 ⟨(k, v), OD.mem_of_get? hk, rfl⟩)

theorem no_inverse {h : List Op} (hn : ∀ o ∈ h, ∀ i, o ≠ .inverse i) : ∀ t ∈ (after h).tfs, t.inverse = [] := by
  suffices ∀ (h : List Op) (s : State), (∀ o ∈ h, ∀ i, o ≠ .inverse i) → (∀ t ∈ s.tfs, t.inverse = []) →
      ∀ t ∈ (h.foldl (fun s o => (step s o).1) s).tfs, t.inverse = [] from this h start hn (by intro t h; cases h)
  intro h
  induction h with
  | nil => exact fun s _ hs => hs
  | cons o h ih =>
    intro s hn hs
    refine ih _ (fun q hq => hn q (by simp [hq])) ?_
    have ho := hn o (by simp)
    cases o with
    | inverse i => exact absurd rfl (ho i)
    | dict l => exact hs
    | write a k v =>
      simp only [step]
      split <;> exact hs
    | newTf a p =>
      simp only [step]
      split
      · unfold newTf
        split
        · exact hs
        · split
          · split <;> exact hs
          · intro t ht
            rcases List.mem_append.1 ht with ht | ht
            · exact hs t ht
            · rw [List.mem_singleton.1 ht]
      · exact hs
    | assign i a =>
      simp only [step]
      split
      · exact hs
      · rename_i t ht
        split
        · intro u hu
          rcases mem_set_or hu with hu | rfl
          · exact hs u hu
          · exact hs t (List.mem_of_getElem? ht)
        · exact hs
    | renew i =>
      simp only [step]
      split
      · exact hs
      · rename_i t ht
        intro u hu
        rcases mem_set_or hu with hu | rfl
        · exact hs u hu
        · exact hs t (List.mem_of_getElem? ht)
    | copy i =>
      simp only [step]
      split
      · exact hs
      · rename_i t ht
        intro u hu
        rcases List.mem_append.1 hu with hu | hu
        · exact hs u hu
        · rw [List.mem_singleton.1 hu]; exact hs t (List.mem_of_getElem? ht)
    | newZmm => exact hs
    | assignZmm i a =>
      simp only [step]
      split
      · exact hs
      · split <;> exact hs

/-- C357: the first time it is asked for, if the names differ from each other. -/
theorem C357_first_partial {h : List Op} (hn : ∀ o ∈ h, ∀ i, o ≠ .inverse i) {i : Nat} {t : Tf}
    (ht : (step (after h) (.inverse i)).1.tfs[i]? = some t) (hv : ((after h).at t.dict).values.Nodup) {k v : String}
    (hk : ((after h).at t.dict).get? k = some v) : t.inverse.get? v = some k := by
  cases hu : (after h).tfs[i]? with
  | none => simp only [step, hu] at ht; cases ht
  | some u =>
    have hz := no_inverse hn u (List.mem_of_getElem? hu)
    simp only [step, hu, hz, List.isEmpty_nil, if_true] at ht
    rw [List.getElem?_set_self (List.getElem?_eq_some_iff.1 hu).1] at ht
    cases ht
    exact get?_inverted hv ((inv_after h).wf _) hk

/-- C357: once it has been asked for, it stays, whatever names are assigned. -/
theorem C357_kept_partial {s : State} {i : Nat} {t : Tf} (ht : s.tfs[i]? = some t) (hz : t.inverse ≠ []) : (step s (.inverse i)).1 = s := by
  simp only [step, ht]
  rw [if_neg (by simpa using hz)]

/-- C357 is false: the inverse of the names of before is kept. -/
theorem C357_refuted : ¬ C357_claim := by
  intro h
  have hc : Clean (step (step (after [.newTf none false, .dict [("ex", "e1"), ("ey", "e2"), ("hx", "b1"), ("hy", "b2"), ("hz", "b3")]])
      (.inverse 0)).1 (.assign 0 1)).1 :=
    ((exAssign.step _ (by intro a k v h; cases h) (by decide))).step _ (by intro a k v h; cases h) (by decide)
  have := h _ 0 hc ⟨1, ⟨"e1", "e2", "b1", "b2", "b3"⟩, [("hx", "hx"), ("hy", "hy"), ("hz", "hz"), ("ex", "ex"), ("ey", "ey")],
    ["ex", "ey", "hz", "hx", "hy"]⟩ (by decide) (by decide) "ex" "e1" (by decide)
  exact absurd this (by decide)

/-! ## C358: copies -/

/-- C358: a copy has the names of the original and a dictionary of its own, with the same items. -/
theorem C358_copy {h : List Op} {i : Nat} {t : Tf} (ht : (after h).tfs[i]? = some t) :
    ∃ u, (step (after h) (.copy i)).1.tfs = (after h).tfs ++ [u] ∧ u.names = t.names ∧ u.coords = t.coords ∧ u.inverse = t.inverse ∧
      (step (after h) (.copy i)).1.at u.dict = (after h).at t.dict ∧ (∀ x ∈ (after h).tfs, x.dict ≠ u.dict) ∧
      ∀ z ∈ (after h).zmms, z.dict ≠ u.dict := by
  simp only [step, ht]
  refine ⟨_, rfl, rfl, rfl, rfl, ?_, ?_, ?_⟩
  · exact (at_append _ _ _).trans (if_pos rfl)
  · intro x hx
    have := (inv_after h).tf x hx
    show x.dict ≠ (after h).dicts.length
    omega
  · intro x hx
    have := (inv_after h).zmm x hx
    show x.dict ≠ (after h).dicts.length
    omega

/-- C358: names written to the dictionary of the copy are in no other nomenclature. -/
theorem C358_apart {h : List Op} {i : Nat} {t : Tf} (ht : (after h).tfs[i]? = some t) (k v : String) :
    ∀ u, (step (after h) (.copy i)).1.tfs = (after h).tfs ++ [u] → ∀ x ∈ (after h).tfs,
      (step (step (after h) (.copy i)).1 (.write u.dict k v)).1.at x.dict = (after h).at x.dict := by
  intro u hu x hx
  have hl := (inv_after h).tf x hx
  simp only [step, ht] at hu ⊢
  have := (List.cons.inj (List.append_cancel_left hu)).1
  subst this
  simp only [List.length_append, List.length_singleton, Nat.lt_add_one, if_true]
  have e := at_append (after h) x.dict ((after h).at t.dict)
  unfold State.at at e ⊢
  simp only
  unfold List.getD at e ⊢
  rw [List.getElem?_set_ne (by omega), e, if_neg (by omega)]

example : ((after [.newTf none false, .copy 0, .write 1 "ex" "e1"]).at 0, (after [.newTf none false, .copy 0, .write 1 "ex" "e1"]).at 1) =
    (defaults, [("hx", "hx"), ("hy", "hy"), ("hz", "hz"), ("ex", "e1"), ("ey", "ey")]) := by decide

end Verif.Nomen
