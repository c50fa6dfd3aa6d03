import Verif.Model.AttrNames
import Verif.Lemmas.OD
import Verif.Lemmas.Text

/-! # C308 – C313: attributes by dotted names -/

namespace Verif.AttrNames
open Verif.Text

variable {β : Type}

/-- The value at a path of attributes. -/
def At : List Str → Obj β → Option (Obj β)
  | [], o => some o
  | _ :: _, .leaf _ => none
  | k :: ks, .node kids => (OD.get? kids k).bind (At ks)

/-- The object itself, not a value, at a path. -/
def Holds (q : List Str) (o : Obj β) : Prop := ∃ kids, At q o = some (.node kids)

/-! ## Walking -/

theorem splitC_split1 (c : Char) (s : Str) :
    splitC c s = (split1 c s).1 :: (match (split1 c s).2 with | none => [] | some r => splitC c r) := by
  induction s with
  | nil => rfl
  | cons x s ih =>
    by_cases hx : x = c
    · subst hx
      rw [splitC_cons_self]
      simp only [split1, if_true]
    · have e1 : (split1 c (x :: s)).1 = x :: (split1 c s).1 := by simp only [split1, if_neg hx]
      have e2 : (split1 c (x :: s)).2 = (split1 c s).2 := by simp only [split1, if_neg hx]
      rw [e1, e2, splitC_cons_ne s hx, ih]
      rfl

/-- The walk along the parts of a name. -/
def walk : List Str → Obj β → Except PyErr (Option (Obj β))
  | [], o => .ok (some o)
  | [k], o => .ok (getLast o k)
  | k :: k' :: ks, o => (getAttr o k).bind (walk (k' :: ks))

theorem splitGet_some (sep : Char) (o : Obj β) (name rest : Str) (h : (split1 sep name).2 = some rest) :
    splitGet sep o name = (getAttr o (split1 sep name).1).bind fun sub => splitGet '.' sub rest := by
  rw [splitGet]
  split
  · rename_i r hr
    rw [hr] at h
    injection h with h
    subst h
    rfl
  · rename_i hr
    rw [hr] at h; cases h

theorem splitGet_none (sep : Char) (o : Obj β) (name : Str) (h : (split1 sep name).2 = none) :
    splitGet sep o name = .ok (getLast o (split1 sep name).1) := by
  rw [splitGet]
  split
  · rename_i r hr
    rw [hr] at h; cases h
  · rfl

theorem getName_walk (o : Obj β) (name : Str) : getName o name = walk (splitC '.' name) o := by
  unfold getName
  induction hn : name.length using Nat.strongRecOn generalizing name o with
  | ind n ih =>
    rw [splitC_split1]
    cases h : (split1 '.' name).2 with
    | none => rw [splitGet_none _ _ _ h]; rfl
    | some rest =>
      rw [splitGet_some _ _ _ _ h]
      have hlt := split1_lt '.' name rest h
      have hne := splitC_ne_nil '.' rest
      have : ∀ sub : Obj β, splitGet '.' sub rest = walk (splitC '.' rest) sub :=
        fun sub => ih rest.length (by omega) sub rest rfl
      simp only [this]
      cases hr : splitC '.' rest with
      | nil => exact absurd hr hne
      | cons k ks => rfl

theorem getAttr_at (o : Obj β) (k : Str) :
    getAttr o k = (match At [k] o with | some v => .ok v | none => .error .attributeError) := by
  cases o with
  | leaf b => rfl
  | node kids =>
    simp only [getAttr, At]
    cases OD.get? kids k <;> rfl

theorem getLast_at (o : Obj β) (k : Str) : getLast o k = At [k] o := by
  unfold getLast
  rw [getAttr_at]
  cases At [k] o <;> rfl

theorem At_cons (k : Str) (ks : List Str) (o : Obj β) : At (k :: ks) o = (At [k] o).bind (At ks) := by
  cases o with
  | leaf b => rfl
  | node kids =>
    simp only [At]
    cases OD.get? kids k <;> rfl

theorem At_append (p q : List Str) (o : Obj β) : At (p ++ q) o = (At p o).bind (At q) := by
  induction p generalizing o with
  | nil => rfl
  | cons k p ih =>
    rw [List.cons_append, At_cons, At_cons k p]
    cases At [k] o with
    | none => rfl
    | some v => exact ih v

theorem walk_at (p : List Str) (k : Str) (o : Obj β) :
    walk (p ++ [k]) o = (match At p o with | none => .error .attributeError | some h => .ok (At [k] h)) := by
  induction p generalizing o with
  | nil => simp only [List.nil_append, walk, getLast_at, At]
  | cons a p ih =>
    have e : ∀ l : List Str, l ≠ [] → walk (a :: l) o = (getAttr o a).bind (walk l) := by
      intro l hl
      cases l with
      | nil => exact absurd rfl hl
      | cons _ _ => rfl
    rw [List.cons_append, e _ (by simp), getAttr_at, At_cons a p]
    cases At [a] o with
    | none => rfl
    | some v => exact ih v

/-- The parts of a name: those before the last, and the last. -/
theorem parts_split (name : Str) : ∃ p k, splitC '.' name = p ++ [k] := by
  have h := splitC_ne_nil '.' name
  exact ⟨(splitC '.' name).dropLast, (splitC '.' name).getLast h, (List.dropLast_concat_getLast h).symm⟩

/-! ## Changing -/

theorem set_set (d : OD Str (Obj β)) (k : Str) (v : Obj β) : (OD.set (OD.set d k v) k v) = OD.set d k v := by
  induction d with
  | nil => simp [OD.set]
  | cons e d ih =>
    obtain ⟨k', v'⟩ := e
    by_cases h : k' = k
    · simp [OD.set, h]
    · simp [OD.set, h, ih]

/-- The outcome of an assignment along a path. -/
theorem descend_ok (store : Store β) (path : List Str) (v x : Obj β) (hx : store path v = .ok x) (p : List Str)
    (k : Str) (o : Obj β) :
    (Holds p o → ∃ o', descend store path v (p ++ [k]) o = .ok o' ∧
      (∃ kids, At p o = some (.node kids) ∧ At p o' = some (.node (OD.set kids k x))) ∧
      (∀ q, ¬ p <+: q → ¬ q <+: p → At q o' = At q o) ∧
      (∀ q, q <+: p → (Holds q o' ∧ Holds q o))) ∧
    (¬ Holds p o → descend store path v (p ++ [k]) o = .error .attributeError) := by
  induction p generalizing o with
  | nil =>
    cases o with
    | leaf b =>
      constructor
      · rintro ⟨kids, h⟩
        simp only [At, Option.some.injEq] at h
        cases h
      · intro _; rfl
    | node kids =>
      constructor
      · intro _
        refine ⟨.node (OD.set kids k x), ?_, ⟨kids, rfl, rfl⟩, ?_, ?_⟩
        · simp only [List.nil_append, descend, setAttr, hx, Except.bind, set_set]
        · intro q hq; exact absurd List.nil_prefix hq
        · intro q hq
          have : q = [] := List.prefix_nil.1 hq
          subst this
          exact ⟨⟨_, rfl⟩, ⟨_, rfl⟩⟩
      · intro h; exact absurd ⟨kids, rfl⟩ h
  | cons a p ih =>
    have e : descend store path v (a :: p ++ [k]) o = (getAttr o a).bind fun sub =>
        (descend store path v (p ++ [k]) sub).bind fun sub' => .ok (put o a sub') := by
      cases hp : p ++ [k] with
      | nil => simp at hp
      | cons b l => rw [List.cons_append, hp]; rfl
    rw [e]
    cases o with
    | leaf b =>
      constructor
      · rintro ⟨kids, h⟩; cases h
      · intro _; rfl
    | node kids =>
      cases hg : OD.get? kids a with
      | none =>
        have h1 : getAttr (Obj.node kids) a = .error .attributeError := by simp only [getAttr, hg]
        constructor
        · rintro ⟨kids', h⟩
          simp only [At, hg, Option.bind] at h
          cases h
        · intro _; rw [h1]; rfl
      | some sub =>
        have h1 : getAttr (Obj.node kids) a = .ok sub := by simp only [getAttr, hg]
        have hA : ∀ q, At (a :: q) (Obj.node kids) = At q sub := by
          intro q; simp only [At, hg, Option.bind]
        have hH : Holds (a :: p) (Obj.node kids) ↔ Holds p sub := by
          unfold Holds; rw [hA]
        obtain ⟨ih1, ih2⟩ := ih sub
        constructor
        · intro h
          obtain ⟨sub', hs, ⟨kids1, h2, h3⟩, h4, h5⟩ := ih1 (hH.1 h)
          have hB : ∀ q, At (a :: q) (put (Obj.node kids) a sub') = At q sub' := by
            intro q; simp only [put, At, OD.get?_set_self, Option.bind]
          refine ⟨put (Obj.node kids) a sub', ?_, ⟨kids1, ?_, ?_⟩, ?_, ?_⟩
          · rw [h1]; simp only [Except.bind, hs]
          · rw [hA]; exact h2
          · rw [hB]; exact h3
          · intro q hq hq'
            cases q with
            | nil => exact absurd List.nil_prefix hq'
            | cons b q =>
              by_cases hb : b = a
              · subst hb
                rw [hA, hB]
                exact h4 q (fun h => hq (List.cons_prefix_cons.2 ⟨rfl, h⟩))
                  (fun h => hq' (List.cons_prefix_cons.2 ⟨rfl, h⟩))
              · simp only [put, At, OD.get?_set_ne kids sub' hb]
          · intro q hq
            cases q with
            | nil => exact ⟨⟨_, rfl⟩, ⟨_, rfl⟩⟩
            | cons b q =>
              obtain ⟨rfl, hq2⟩ := List.cons_prefix_cons.1 hq
              unfold Holds
              rw [hA, hB]
              exact h5 q hq2
        · intro h
          have := ih2 (fun h' => h (hH.2 h'))
          rw [h1]; simp only [Except.bind, this]

theorem descend_err (store : Store β) (path : List Str) (v : Obj β) (e : PyErr) (hx : store path v = .error e)
    (p : List Str) (k : Str) (o : Obj β) :
    (Holds p o → descend store path v (p ++ [k]) o = .error e) ∧
    (¬ Holds p o → descend store path v (p ++ [k]) o = .error .attributeError) := by
  induction p generalizing o with
  | nil =>
    cases o with
    | leaf b => exact ⟨fun ⟨kids, h⟩ => (by simp only [At, Option.some.injEq] at h; cases h), fun _ => rfl⟩
    | node kids =>
      refine ⟨fun _ => ?_, fun h => absurd ⟨kids, rfl⟩ h⟩
      simp only [List.nil_append, descend, setAttr, hx, Except.bind]
  | cons a p ih =>
    have e' : descend store path v (a :: p ++ [k]) o = (getAttr o a).bind fun sub =>
        (descend store path v (p ++ [k]) sub).bind fun sub' => .ok (put o a sub') := by
      cases hp : p ++ [k] with
      | nil => simp at hp
      | cons b l => rw [List.cons_append, hp]; rfl
    rw [e', getAttr_at]
    have hH : Holds (a :: p) o ↔ ∃ sub, At [a] o = some sub ∧ Holds p sub := by
      unfold Holds
      rw [At_cons]
      cases At [a] o with
      | none => exact ⟨fun ⟨_, h⟩ => (by cases h), fun ⟨_, h, _⟩ => (by cases h)⟩
      | some s => exact ⟨fun h => ⟨s, rfl, h⟩, fun ⟨s', h, h'⟩ => by injection h with h; rw [h]; exact h'⟩
    cases hs : At [a] o with
    | none =>
      refine ⟨fun h => ?_, fun _ => rfl⟩
      obtain ⟨s, h, _⟩ := hH.1 h
      rw [hs] at h; cases h
    | some s =>
      obtain ⟨i1, i2⟩ := ih s
      have : Holds (a :: p) o ↔ Holds p s := by
        rw [hH]
        constructor
        · rintro ⟨s', h, h'⟩
          rw [hs] at h; injection h with h; rw [h]; exact h'
        · exact fun h => ⟨s, hs, h⟩
      rw [this]
      exact ⟨fun h => by simp only [Except.bind, i1 h], fun h => by simp only [Except.bind, i2 h]⟩

/-- `update_attribute` is the assignment along the parts of the name. -/
theorem updateAttr_descend (store : Store β) (o : Obj β) (name : Str) (v : Obj β) :
    updateAttr store o name v = descend store (splitC '.' name) v (splitC '.' name) o := by
  unfold updateAttr
  by_cases h : '.' ∈ name
  · rw [if_pos h]
  · rw [if_neg h, splitC_none h]
    simp only [descend]
    cases o with
    | leaf b => rfl
    | node kids =>
      simp only [setAttr]
      cases hs : store [name] v with
      | error e => rfl
      | ok x => simp only [Except.bind, hs, set_set]

/-! ## C308: reading back -/

/-- C308: an attribute is updated just when the object that holds it is there and the value is accepted, and
then it is read back as stored. -/
theorem C308_read (store : Store β) (o : Obj β) (name : Str) (v x : Obj β)
    (hs : store (splitC '.' name) v = .ok x) :
    (Holds (splitC '.' name).dropLast o → ∃ o', updateAttr store o name v = .ok o' ∧
      getName o' name = .ok (some x)) ∧
    (¬ Holds (splitC '.' name).dropLast o → updateAttr store o name v = .error .attributeError) := by
  rw [updateAttr_descend]
  obtain ⟨p, k, hp⟩ := parts_split name
  have hd : (splitC '.' name).dropLast = p := by rw [hp, List.dropLast_concat]
  obtain ⟨h1, h2⟩ := descend_ok store (splitC '.' name) v x hs p k o
  rw [hd]
  constructor
  · intro h
    obtain ⟨o', h3, ⟨kids, _, h4⟩, _⟩ := h1 h
    refine ⟨o', ?_, ?_⟩
    · rw [← h3]; congr 1
    · rw [getName_walk, hp, walk_at, h4]
      simp only [At, OD.get?_set_self, Option.bind]
  · intro h
    rw [← h2 h]; congr 1

/-- C308: a value that is not accepted leaves the error of the validation. -/
theorem C308_rejected (store : Store β) (o : Obj β) (name : Str) (v : Obj β) (e : PyErr)
    (hs : store (splitC '.' name) v = .error e) :
    updateAttr store o name v = .error e ∨ updateAttr store o name v = .error .attributeError := by
  rw [updateAttr_descend]
  obtain ⟨p, k, hp⟩ := parts_split name
  obtain ⟨h1, h2⟩ := descend_err store (splitC '.' name) v e hs p k o
  by_cases h : Holds p o
  · exact .inl (by rw [← h1 h]; congr 1)
  · exact .inr (by rw [← h2 h]; congr 1)

/-! ## C309: other attributes -/

/-- C309: every other attribute is as before: one whose name does not begin with that one, or the other way
round. -/
theorem C309_others (store : Store β) (o o' : Obj β) (name other : Str) (v : Obj β)
    (h : updateAttr store o name v = .ok o') (h1 : ¬ splitC '.' name <+: splitC '.' other)
    (h2 : ¬ splitC '.' other <+: splitC '.' name) : getName o' other = getName o other := by
  rw [updateAttr_descend] at h
  obtain ⟨p, k, hp⟩ := parts_split name
  obtain ⟨q, j, hq⟩ := parts_split other
  cases hs : store (splitC '.' name) v with
  | error e =>
    obtain ⟨e1, e2⟩ := descend_err store (splitC '.' name) v e hs p k o
    have h : descend store (splitC '.' name) v (p ++ [k]) o = .ok o' := by rw [← h]; congr 1; exact hp.symm
    by_cases hh : Holds p o
    · rw [e1 hh] at h; cases h
    · rw [e2 hh] at h; cases h
  | ok x =>
    obtain ⟨e1, e2⟩ := descend_ok store (splitC '.' name) v x hs p k o
    have h : descend store (splitC '.' name) v (p ++ [k]) o = .ok o' := by rw [← h]; congr 1; exact hp.symm
    by_cases hh : Holds p o
    · obtain ⟨o'', h3, ⟨kids, h4, h5⟩, h6, h7⟩ := e1 hh
      rw [h] at h3
      injection h3 with h3
      subst h3
      rw [hp, hq] at h1 h2
      -- values at paths that do not go through the attribute
      have key : ∀ r, ¬ p ++ [k] <+: r → ¬ r <+: p ++ [k] → At r o' = At r o := by
        intro r hr hr'
        by_cases hpr : p <+: r
        · obtain ⟨t, rfl⟩ := hpr
          cases t with
          | nil => exact absurd ⟨[k], by simp⟩ hr'
          | cons b t =>
            have hb : b ≠ k := by
              rintro rfl
              exact hr ⟨t, by simp⟩
            rw [At_append, At_append, h4, h5]
            simp only [Option.bind, At, OD.get?_set_ne kids x hb]
        · refine h6 r hpr ?_
          intro hrp
          exact hr' (hrp.trans ⟨[k], rfl⟩)
      rw [getName_walk, getName_walk, hq, walk_at, walk_at]
      have hjoin : ∀ w : Obj β, At (q ++ [j]) w = (At q w).bind (At [j]) := fun w => At_append q [j] w
      have hv := key (q ++ [j]) h1 h2
      rw [hjoin, hjoin] at hv
      by_cases hqp : q <+: p
      · obtain ⟨⟨k1, a1⟩, ⟨k2, a2⟩⟩ := h7 q hqp
        rw [a1, a2] at hv ⊢
        exact congrArg Except.ok hv
      · have : At q o' = At q o := by
          refine key q ?_ ?_
          · intro hc
            exact h1 (hc.trans ⟨[j], rfl⟩)
          · intro hc
            rcases List.prefix_concat_iff.1 hc with e | e
            · exact h1 ⟨[j], by rw [e]⟩
            · exact hqp e
        rw [this] at hv ⊢
    · rw [e2 hh] at h; cases h

/-! ## C310, C311: names that do not exist -/

/-- C310, full statement: `update_attribute` raises AttributeError if the name does not exist. -/
def C310_claim : Prop :=
  ∀ (store : Store Unit) (o : Obj Unit) (name : Str) (v : Obj Unit), At (splitC '.' name) o = none →
    updateAttr store o name v = .error .attributeError

/-- C310 fails for the last part: a new attribute is made. -/
theorem C310_refuted : ¬ C310_claim := by
  intro h
  have := h (fun _ x => .ok x) (.node []) ['a'] (.leaf ()) rfl
  have e : updateAttr (fun _ x => .ok x) (.node []) ['a'] (.leaf ()) =
    .ok (Obj.node [(['a'], Obj.leaf ())]) := rfl
  rw [e] at this
  cases this

/-- C310: it is raised if an object on the way is missing or a value; the object is made for the last part
only. -/
theorem C310_way_partial (store : Store β) (o : Obj β) (name : Str) (v : Obj β)
    (h : ¬ Holds (splitC '.' name).dropLast o) : updateAttr store o name v = .error .attributeError := by
  obtain ⟨p, k, hp⟩ := parts_split name
  have hd : (splitC '.' name).dropLast = p := by rw [hp, List.dropLast_concat]
  rw [hd] at h
  rw [updateAttr_descend]
  cases hs : store (splitC '.' name) v with
  | error e => rw [← (descend_err store _ v e hs p k o).2 h]; congr 1
  | ok x => rw [← (descend_ok store _ v x hs p k o).2 h]; congr 1

/-- C311, full statement: `get_attr_from_name` raises for a name that does not exist. -/
def C311_claim : Prop :=
  ∀ (o : Obj Unit) (name : Str), At (splitC '.' name) o = none → ∃ e, getName o name = .error e

/-- C311 fails for the last part: the value is `None`. -/
theorem C311_refuted : ¬ C311_claim := by
  intro h
  obtain ⟨e, he⟩ := h (.node []) ['a'] rfl
  have : getName (.node [] : Obj Unit) ['a'] = .ok none := by
    rw [getName_walk]; rfl
  rw [this] at he
  cases he

/-- C311: the value that is there; `None` if only the last part is missing; AttributeError if more is. -/
theorem C311_cases_partial (o : Obj β) (name : Str) :
    (∀ v, At (splitC '.' name) o = some v → getName o name = .ok (some v)) ∧
    (At (splitC '.' name) o = none → (At (splitC '.' name).dropLast o).isSome →
      getName o name = .ok none) ∧
    (At (splitC '.' name).dropLast o = none → getName o name = .error .attributeError) := by
  obtain ⟨p, k, hp⟩ := parts_split name
  have hd : (splitC '.' name).dropLast = p := by rw [hp, List.dropLast_concat]
  rw [getName_walk, hd, hp, walk_at, At_append]
  cases At p o with
  | none => exact ⟨fun v h => (by cases h), fun _ h => (by cases h), fun _ => rfl⟩
  | some h =>
    refine ⟨fun v e => ?_, fun e _ => ?_, fun e => (by cases e)⟩
    · exact congrArg Except.ok e
    · exact congrArg Except.ok e

/-! ## C312: set_attr_from_name -/

/-- C312, full statement: `set_attr_from_name` sets the attribute as `update_attribute` does. -/
def C312_claim : Prop :=
  ∀ (store : Store Unit) (o : Obj Unit) (name : Str) (v : Obj Unit), setName o name v = updateAttr store o name v

/-- C312 fails: nothing is set. -/
theorem C312_refuted : ¬ C312_claim := by
  intro h
  have := h (fun _ x => .ok x) (.node []) ['a'] (.leaf ())
  have e1 : setName (.node [] : Obj Unit) ['a'] (.leaf ()) = .ok (.node []) := rfl
  have e2 : updateAttr (fun _ x => .ok x) (.node []) ['a'] (.leaf ()) =
    .ok (Obj.node [(['a'], Obj.leaf ())]) := rfl
  rw [e1, e2] at this
  injection this with this
  injection this with this
  cases this

/-- C312: the object stays as it is, whatever the name and value; `recursive_split_setattr`, which it was to
call, does what `update_attribute` does. -/
theorem C312_nothing_partial (o : Obj β) (name : Str) (v : Obj β) : setName o name v = .ok o := rfl

theorem splitSet_some (store : Store β) (sep : Char) (pre : List Str) (o : Obj β) (name rest : Str) (v : Obj β)
    (h : (split1 sep name).2 = some rest) :
    splitSet store sep pre o name v = (getAttr o (split1 sep name).1).bind fun sub =>
      (splitSet store '.' (pre ++ [(split1 sep name).1]) sub rest v).bind fun sub' =>
        .ok (put o (split1 sep name).1 sub') := by
  rw [splitSet]
  split
  · rename_i r hr
    rw [hr] at h
    injection h with h
    subst h
    rfl
  · rename_i hr
    rw [hr] at h; cases h

theorem splitSet_none (store : Store β) (sep : Char) (pre : List Str) (o : Obj β) (name : Str) (v : Obj β)
    (h : (split1 sep name).2 = none) : splitSet store sep pre o name v =
      setAttr store (pre ++ [(split1 sep name).1]) o (split1 sep name).1 v := by
  rw [splitSet]
  split
  · rename_i r hr
    rw [hr] at h; cases h
  · rfl

theorem splitSet_descend (store : Store β) (pre : List Str) (o : Obj β) (name : Str) (v : Obj β) :
    splitSet store '.' pre o name v = descend store (pre ++ splitC '.' name) v (splitC '.' name) o := by
  induction hn : name.length using Nat.strongRecOn generalizing name o pre with
  | ind n ih =>
    have hc := splitC_split1 '.' name
    cases h : (split1 '.' name).2 with
    | none =>
      rw [h] at hc
      rw [splitSet_none _ _ _ _ _ _ h, hc]
      simp only [descend]
      cases o with
      | leaf b => rfl
      | node kids =>
        simp only [setAttr]
        cases hs : store (pre ++ [(split1 '.' name).1]) v with
        | error e => rfl
        | ok x => simp only [Except.bind, hs, set_set]
    | some rest =>
      rw [h] at hc
      have hlt := split1_lt '.' name rest h
      have hne := splitC_ne_nil '.' rest
      rw [splitSet_some _ _ _ _ _ _ _ h]
      have : ∀ sub : Obj β, splitSet store '.' (pre ++ [(split1 '.' name).1]) sub rest v =
          descend store (pre ++ splitC '.' name) v (splitC '.' rest) sub := by
        intro sub
        rw [ih rest.length (by omega) (pre ++ [(split1 '.' name).1]) sub rest rfl, hc]
        congr 1
        simp
      simp only [this]
      cases hr : splitC '.' rest with
      | nil => exact absurd hr hne
      | cons k ks =>
        simp only [hr] at hc
        have : ∀ pth, descend store pth v (splitC '.' name) o = (getAttr o (split1 '.' name).1).bind fun sub =>
            (descend store pth v (k :: ks) sub).bind fun sub' => .ok (put o (split1 '.' name).1 sub') := by
          intro pth; rw [hc]; rfl
        rw [this]

/-- C312: the helper and `update_attribute` agree. -/
theorem C312_helper_partial (store : Store β) (o : Obj β) (name : Str) (v : Obj β) :
    splitSet store '.' [] o name v = updateAttr store o name v := by
  rw [splitSet_descend, updateAttr_descend, List.nil_append]

/-! ## C313: other separators -/

/-- C313, full statement: with another separator `recursive_split_getattr` walks along the parts between
it. -/
def C313_claim : Prop :=
  ∀ (sep : Char) (o : Obj Unit) (name : Str), '.' ∉ name → ∀ v, At (splitC sep name) o = some v →
    splitGet sep o name = .ok (some v)

/-- C313 fails for two separators: the second is taken for part of a name. -/
theorem C313_refuted : ¬ C313_claim := by
  intro h
  have := h '/' (.node [(['a'], .node [(['b'], .node [(['c'], .leaf ())])])]) ['a', '/', 'b', '/', 'c']
    (by decide) (.leaf ()) rfl
  rw [splitGet_some _ _ _ ['b', '/', 'c'] rfl] at this
  have e : (getAttr (Obj.node [(['a'], .node [(['b'], .node [(['c'], Obj.leaf ())])])])
      (split1 '/' ['a', '/', 'b', '/', 'c']).1) = .ok (.node [(['b'], .node [(['c'], Obj.leaf ())])]) := rfl
  rw [e] at this
  simp only [Except.bind] at this
  rw [splitGet_none _ _ _ rfl] at this
  injection this with this
  cases this

/-- C313: with one separator at most it does. -/
theorem C313_one_partial (sep : Char) (o : Obj β) (name : Str) (hd : '.' ∉ name)
    (h : (splitC sep name).length ≤ 2) : ∀ v, At (splitC sep name) o = some v →
      splitGet sep o name = .ok (some v) := by
  intro v hv
  have hc := splitC_split1 sep name
  cases hr : (split1 sep name).2 with
  | none =>
    rw [hr] at hc
    rw [hc] at hv
    rw [splitGet_none _ _ _ hr, getLast_at, hv]
  | some rest =>
    rw [hr] at hc
    have hrest : splitC sep rest = [rest] := by
      have hl : (splitC sep rest).length ≤ 1 := by
        rw [hc] at h
        simpa using h
      cases hs : splitC sep rest with
      | nil => exact absurd hs (splitC_ne_nil sep rest)
      | cons k ks =>
        cases ks with
        | cons _ _ => rw [hs] at hl; simp at hl
        | nil =>
          have := join_splitC sep rest
          rw [hs] at this
          simp only [join] at this
          rw [this]
    have hdr : '.' ∉ rest := by
      intro hm
      apply hd
      have hj := join_splitC sep name
      rw [hc] at hj
      simp only [hrest, join] at hj
      rw [← hj]
      simp [hm]
    simp only [hrest] at hc
    rw [hc, At_cons] at hv
    rw [splitGet_some _ _ _ _ hr, getAttr_at]
    cases ha : At [(split1 sep name).1] o with
    | none => rw [ha] at hv; cases hv
    | some s =>
      rw [ha] at hv
      simp only [Option.bind] at hv
      have : splitGet '.' s rest = .ok (At [rest] s) := by
        show getName s rest = _
        rw [getName_walk, splitC_none hdr]
        simp only [walk, getLast_at]
      simp only [Except.bind, this, hv]

/-! ## Concrete cases -/

/-- A station: a location with a latitude and an elevation, and an id. -/
def station : Obj Nat :=
  .node [("loc".toList, .node [("lat".toList, .leaf 1), ("elev".toList, .leaf 2)]), ("id".toList, .leaf 3)]

example : At (splitC '.' "loc.lat".toList) station = some (.leaf 1) := rfl

example : ∃ o', updateAttr (fun _ x => .ok x) station "loc.lat".toList (.leaf 7) = .ok o' ∧
    getName o' "loc.lat".toList = .ok (some (.leaf 7)) :=
  (C308_read (fun _ x => .ok x) station "loc.lat".toList (.leaf 7) _ rfl).1 ⟨_, rfl⟩

example : ¬ splitC '.' "loc.lat".toList <+: splitC '.' "loc.elev".toList := by decide +kernel

end Verif.AttrNames
