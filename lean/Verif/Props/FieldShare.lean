import Verif.Model.FieldShare

/-! # C411: what is done with the fields of one object and what others say -/

namespace Verif.FieldShare

/-- C411: whatever is done with what `get_all_fields` of other objects gives, the names of the fields of an object, and which of them are
required, stay as they are. -/
def C411_claim : Prop := ∀ (L : Lib) (heap : Nat → Bool) (l : List Op) (o : Nat), (∀ p ∈ l, p.obj ≠ o) →
  names L (steps L ⟨heap, fun _ => []⟩ l) o = (L.tree (L.cls o)).map (·.1) ∧
    required L (steps L ⟨heap, fun _ => []⟩ l) o = ((L.tree (L.cls o)).filter (fun p => heap p.2)).map (·.1)

theorem step_fields (L : Lib) (m : Mem) (p : Op) (o : Nat) (h : p.obj ≠ o) : (step L m p).fields o = m.fields o := by
  cases p with
  | ask x => exact if_neg (fun e => h e.symm)
  | mark x n b =>
    have hx : ¬ o = x := fun e => h e.symm
    cases e : look (fieldsOf L m x) n <;> simp only [step, e, ask, if_neg hx]
  | drop x n => exact if_neg (fun e => h e.symm)

theorem steps_fields (L : Lib) (l : List Op) (m : Mem) (o : Nat) (h : ∀ p ∈ l, p.obj ≠ o) : (steps L m l).fields o = m.fields o := by
  induction l generalizing m with
  | nil => rfl
  | cons p l ih =>
    have := ih (step L m p) (fun q hq => h q (List.mem_cons_of_mem _ hq))
    exact this.trans (step_fields L m p o (h p List.mem_cons_self))

/-- C411 (part): the names stay as they are. -/
theorem C411_names_partial (L : Lib) (m : Mem) (l : List Op) (o : Nat) (h : ∀ p ∈ l, p.obj ≠ o) : names L (steps L m l) o = names L m o := by
  unfold names fieldsOf
  rw [steps_fields L l m o h]

/-- Every summary an object has is one of its class. -/
def Sub (L : Lib) (m : Mem) : Prop := ∀ o p, p ∈ m.fields o → p ∈ L.tree (L.cls o)

theorem fieldsOf_sub {L : Lib} {m : Mem} (h : Sub L m) (o : Nat) {p : Str × Nat} (hp : p ∈ fieldsOf L m o) : p ∈ L.tree (L.cls o) := by
  unfold fieldsOf at hp
  by_cases e : m.fields o = []
  · rwa [if_pos e] at hp
  · rw [if_neg e] at hp
    exact h o p hp

theorem ask_sub {L : Lib} {m : Mem} (h : Sub L m) (o : Nat) : Sub L (ask L m o) := by
  intro x p hp
  simp only [ask] at hp
  by_cases e : x = o
  · rw [if_pos e] at hp
    rw [e]
    exact fieldsOf_sub h o hp
  · rw [if_neg e] at hp
    exact h x p hp

theorem look_mem {l : List (Str × Nat)} {n : Str} {i : Nat} (h : look l n = some i) : (n, i) ∈ l := by
  obtain ⟨p, hp, rfl⟩ := Option.map_eq_some_iff.1 h
  have h1 := List.mem_of_find?_eq_some hp
  have h2 := List.find?_some hp
  rw [beq_iff_eq] at h2
  rw [← h2]
  exact h1

theorem step_sub {L : Lib} {m : Mem} (h : Sub L m) (p : Op) : Sub L (step L m p) := by
  cases p with
  | ask o => exact ask_sub h o
  | mark o n b =>
    cases e : look (fieldsOf L m o) n with
    | none =>
      simp only [step, e]
      exact ask_sub h o
    | some i =>
      simp only [step, e]
      exact fun x p hp => ask_sub h o x p hp
  | drop o n =>
    intro x q hq
    simp only [step] at hq
    by_cases e : x = o
    · rw [if_pos e] at hq
      rw [e]
      exact fieldsOf_sub h o (List.mem_filter.1 hq).1
    · rw [if_neg e] at hq
      exact h x q hq

/-- What an operation may write: nothing, or the entry of a field of its class. -/
def Writes (L : Lib) : Op → Nat → Prop
  | .mark o n _, i => (n, i) ∈ L.tree (L.cls o)
  | _, _ => False

theorem step_heap {L : Lib} {m : Mem} (h : Sub L m) (p : Op) (j : Nat) (hj : ¬ Writes L p j) : (step L m p).heap j = m.heap j := by
  cases p with
  | ask o => rfl
  | mark o n b =>
    cases e : look (fieldsOf L m o) n with
    | none => simp only [step, e, ask]
    | some i =>
      simp only [step, e]
      refine if_neg (fun c => hj ?_)
      rw [c]
      exact fieldsOf_sub h o (look_mem e)
  | drop o n => rfl

theorem steps_heap {L : Lib} (l : List Op) {m : Mem} (h : Sub L m) (j : Nat) (hj : ∀ p ∈ l, ¬ Writes L p j) : (steps L m l).heap j = m.heap j := by
  induction l generalizing m with
  | nil => rfl
  | cons p l ih =>
    have := ih (step_sub h p) (fun q hq => hj q (List.mem_cons_of_mem _ hq))
    exact this.trans (step_heap h p j (hj p List.mem_cons_self))

/-- C411 (part): the claim if no summary of a class the other objects have is one of the class of the object; so it is, too, if the others
are only asked, or fields are taken out of their dictionaries. -/
theorem C411_apart_partial (L : Lib) (heap : Nat → Bool) (l : List Op) (o : Nat) (h : ∀ p ∈ l, p.obj ≠ o)
    (hs : ∀ x n b, Op.mark x n b ∈ l → ∀ i k, (n, i) ∈ L.tree (L.cls x) → (k, i) ∉ L.tree (L.cls o)) :
    names L (steps L ⟨heap, fun _ => []⟩ l) o = (L.tree (L.cls o)).map (·.1) ∧
      required L (steps L ⟨heap, fun _ => []⟩ l) o = ((L.tree (L.cls o)).filter (fun p => heap p.2)).map (·.1) := by
  have hsub : Sub L ⟨heap, fun _ => []⟩ := fun o p hp => by cases hp
  refine ⟨C411_names_partial L _ l o h, ?_⟩
  unfold required fieldsOf
  rw [steps_fields L l _ o h, if_pos rfl]
  congr 1
  apply List.filter_congr
  rintro ⟨k, i⟩ hp
  refine steps_heap l hsub i (fun p hpl hw => ?_)
  cases p with
  | ask x => exact hw
  | drop x n => exact hw
  | mark x n b => exact hs x n b hpl i k hw hp

/-- C411 (part): an entry that is set with one object is so for every object whose class has the same summary. -/
theorem C411_shared_partial (L : Lib) (m : Mem) (o x : Nat) (n k : Str) (b : Bool) (i : Nat) (hxo : o ≠ x) (hl : look (fieldsOf L m o) n = some i)
    (hk : (k, i) ∈ fieldsOf L m x) (hn : ((fieldsOf L m x).map (·.1)).Nodup) : k ∈ required L (step L m (.mark o n b)) x ↔ b = true := by
  have hf : fieldsOf L (step L m (.mark o n b)) x = fieldsOf L m x := by
    unfold fieldsOf
    rw [step_fields L m (.mark o n b) x hxo]
  have hh : (step L m (.mark o n b)).heap i = b := by
    simp only [step, hl, if_true]
  unfold required
  rw [hf]
  simp only [List.mem_map, List.mem_filter]
  constructor
  · rintro ⟨⟨k', j⟩, ⟨h1, h2⟩, rfl⟩
    have : j = i := by
      have key : ∀ (l : List (Str × Nat)), (l.map (·.1)).Nodup → (k', j) ∈ l → (k', i) ∈ l → j = i := by
        intro l
        induction l with
        | nil => intro _ h; cases h
        | cons p l ih =>
          intro hnd ha hb
          rw [List.map_cons, List.nodup_cons] at hnd
          rcases List.mem_cons.1 ha with ha | ha <;> rcases List.mem_cons.1 hb with hb | hb
          · rw [← ha] at hb
            exact ((Prod.mk.injEq _ _ _ _).mp hb).2.symm
          · exact absurd (List.mem_map.2 ⟨_, hb, by rw [← ha]⟩) hnd.1
          · exact absurd (List.mem_map.2 ⟨_, ha, by rw [← hb]⟩) hnd.1
          · exact ih hnd.2 ha hb
      exact key _ hn h1 hk
    rw [this, hh] at h2
    exact h2
  · intro hb
    exact ⟨(k, i), ⟨hk, by rw [hh]; exact hb⟩, rfl⟩

/-- C411 (part): a dictionary of which all is taken out is whole again when it is asked for next. -/
theorem C411_emptied_partial (L : Lib) (m : Mem) (o : Nat) (n : Str) (h : ∀ p ∈ fieldsOf L m o, p.1 = n) :
    names L (step L m (.drop o n)) o = (L.tree (L.cls o)).map (·.1) := by
  have : (step L m (.drop o n)).fields o = [] := by
    simp only [step, if_true, List.filter_eq_nil_iff]
    intro p hp
    simp [h p hp]
  unfold names fieldsOf
  rw [if_pos this]

/-- A location (class 1) in a station (class 0); objects 0 and 1 are stations, 2 is a location. -/
def exLib : Lib := ⟨fun o => if o = 2 then 1 else 0, fun c => if c = 0 then [(['i', 'd'], 0), (['l', '.', 'x'], 1)] else [(['x'], 1), (['y'], 2)]⟩
def exHeap : Nat → Bool := fun i => i == 0

/-- C411 is false: an entry set with one station is so for all stations, and for the class of the field. -/
theorem C411_refuted : ¬ C411_claim := by
  intro h
  have := (h exLib exHeap [.mark 0 ['i', 'd'] false] 1 (by decide)).2
  exact absurd this (by decide)

example : required exLib ⟨exHeap, fun _ => []⟩ 2 = [] ∧ required exLib (steps exLib ⟨exHeap, fun _ => []⟩ [.mark 0 ['l', '.', 'x'] true]) 2 = [['x']] := by
  decide
example : names exLib (steps exLib ⟨exHeap, fun _ => []⟩ [.drop 0 ['i', 'd']]) 0 = [['l', '.', 'x']] ∧
    names exLib (steps exLib ⟨exHeap, fun _ => []⟩ [.drop 0 ['i', 'd'], .drop 0 ['l', '.', 'x']]) 0 = [['i', 'd'], ['l', '.', 'x']] := by
  decide
/-- The hypotheses of `C411_apart_partial` hold for a field that the location does not have. -/
example : ∀ i k, (['i', 'd'], i) ∈ exLib.tree (exLib.cls 0) → (k, i) ∉ exLib.tree (exLib.cls 2) := by
  intro i k h1 h2
  have : i = 0 := by simpa [exLib] using h1
  subst this
  simp [exLib] at h2

end Verif.FieldShare
