import Verif.Model.Applied
import Verif.Lemmas.Sorted

/-!
C48, C95: the applied filters of a channel.
-/

namespace Verif.Applied

/-- Ordered by stage. -/
def Ordered (l : List AF) : Prop := l.Pairwise (fun a b => a.stage.getD 0 ≤ b.stage.getD 0)

/-- An `AppliedFilter` object always carries a name in normal form. -/
def Normal (f : AF) : Prop := ∃ s, f.name = norm s

theorem sort_perm (l : List AF) : (sortFilters l).Perm l := pySorted_perm _ l

theorem sort_ordered (l : List AF) : Ordered (sortFilters l) := by
  have h := pySorted_pairwise (le := fun a b : AF => decide (key a ≤ key b))
    (by intro a b c h1 h2; simp only [decide_eq_true_eq] at *; omega)
    (by intro a b; simp only [decide_eq_true_eq, Bool.or_eq_true]; omega) l
  exact h.imp (by intro a b h; exact of_decide_eq_true h)

theorem sort_id {l : List AF} (h : Ordered l) : sortFilters l = l :=
  pySorted_of_pairwise (h.imp (by intro a b h; exact decide_eq_true h))

/-- The statement of C48. -/
def C48_claim : Prop :=
  ∀ ops : List Op, (∀ f, Op.addObj f ∈ ops → Normal f) → Ordered (run ops) ∧ ((run ops).map (·.name)).Nodup

def low : AF where
  name := "b".toList
  applied := true
  stage := some 1

/-- C48 is false: an object with a lower stage is put last. -/
theorem C48_refuted : ¬ C48_claim := by
  intro h
  have := (h [.addName "a".toList true (some 2), .addObj low] (by
    intro f hf
    simp only [List.mem_cons, reduceCtorEq, Op.addObj.injEq, List.not_mem_nil, or_false, false_or] at hf
    subst hf
    exact ⟨"b".toList, by decide⟩)).1
  have e : run [.addName "a".toList true (some 2), .addObj low] =
      [⟨"a".toList, true, some 2⟩, low] := by decide
  rw [e] at this
  simp [Ordered, low] at this

/-- C48 is false in a second way: the same name given twice with a capital letter is stored twice. -/
theorem C48_duplicate_refuted : ¬ C48_claim := by
  intro h
  have := (h [.addName "A".toList true none, .addName "A".toList true none] (by simp)).2
  revert this
  decide

/-- C48: after a removal or an addition by name that is not ignored the filters are ordered, whatever
happened before. -/
theorem C48_ordered_partial (l : List AF) :
    (∀ n r, Ordered (remove l n r)) ∧
    (∀ n a s l', n ∉ l.map (·.name) → addName l n a s = .ok l' → Ordered l') := by
  constructor
  · intro n r
    exact sort_ordered _
  · intro n a s l' hn h
    unfold addName at h
    rw [if_neg (by simpa using hn)] at h
    cases hm : mkName n with
    | error e => rw [hm] at h; cases h
    | ok m =>
      rw [hm] at h
      simp only [Except.ok.injEq] at h
      subst h
      exact sort_ordered _

theorem step_ordered {l : List AF} (h : Ordered l) (op : Op) (hop : ∀ f, op ≠ .addObj f) :
    Ordered (step l op) := by
  cases op with
  | addObj f => exact absurd rfl (hop f)
  | remove n r => exact sort_ordered _
  | addName n a s =>
    simp only [step, addName]
    split
    · next l' hl =>
      split at hl
      · simp only [Except.ok.injEq] at hl; subst hl; exact h
      · split at hl
        · cases hl
        · simp only [Except.ok.injEq] at hl; subst hl; exact sort_ordered _
    · exact h

/-- C48: a channel whose filters are added by name only always has them ordered. -/
theorem C48_ordered_by_name_partial (ops : List Op) (h : ∀ f, Op.addObj f ∉ ops) : Ordered (run ops) := by
  unfold run
  have : ∀ l, Ordered l → Ordered (ops.foldl step l) := by
    induction ops with
    | nil => intro l hl; exact hl
    | cons op t ih =>
      intro l hl
      rw [List.foldl_cons]
      refine ih (fun f hf => h f (List.mem_cons_of_mem _ hf)) _ (step_ordered hl op ?_)
      intro f hf
      exact h f (hf ▸ List.mem_cons_self)
  exact this [] List.Pairwise.nil

/-- C48: adding a new object keeps the order exactly when no stored stage exceeds its stage, the default being the
number of filters including it. -/
theorem C48_object_partial (l : List AF) (f : AF) (h : Ordered l) (hn : f.name ∉ l.map (·.name)) :
    Ordered (addObj l f) ↔ ∀ g ∈ l, g.stage.getD 0 ≤ f.stage.getD (l.length + 1) := by
  unfold addObj
  rw [if_neg (by simpa using hn)]
  unfold Ordered at *
  rw [List.pairwise_append]
  simp only [List.pairwise_cons, List.not_mem_nil, false_implies, implies_true, List.Pairwise.nil,
    and_self, true_and, List.mem_cons, or_false, forall_eq]
  cases hs : f.stage with
  | none => simp [h]
  | some s => simp [h, hs]

/-! ### distinct names -/

theorem removeLoop_eq (name : Str) (reset : Bool) (l acc : List AF) :
    (removeLoop name reset acc l).map (·.name) = acc.map (·.name) ++ (l.map (·.name)).filter (· ≠ name) := by
  induction l generalizing acc with
  | nil => simp [removeLoop]
  | cons f t ih =>
    rw [removeLoop]
    by_cases h : f.name = name
    · rw [if_pos h, ih]
      simp [h]
    · rw [if_neg h, ih]
      cases reset <;> simp [h]

/-- C95: what `remove_filter` leaves: exactly the other filters, in the stored order when that was by stage or
when stages are reset. -/
theorem C95_remove (l : List AF) (name : Str) (reset : Bool) :
    ((remove l name reset).map (·.name)).Perm ((l.map (·.name)).filter (· ≠ name)) ∧
    get (remove l name reset) name = none := by
  have hp : ((remove l name reset).map (·.name)).Perm ((l.map (·.name)).filter (· ≠ name)) := by
    have := (sort_perm (removeLoop name reset [] l)).map (·.name)
    rw [removeLoop_eq] at this
    simpa [remove] using this
  refine ⟨hp, ?_⟩
  unfold get
  rw [List.find?_eq_none]
  intro f hf
  have := hp.subset (List.mem_map_of_mem (f := (·.name)) hf)
  simpa using (List.mem_filter.1 this).2

/-- The stages `k+1, k+2, …`. -/
def numbered (k : Nat) : List AF → List AF
  | [] => []
  | f :: l => { f with stage := some (k + 1) } :: numbered (k + 1) l

theorem removeLoop_reset (name : Str) (l acc : List AF) :
    removeLoop name true acc l = acc ++ numbered acc.length (l.filter (fun f => f.name ≠ name)) := by
  induction l generalizing acc with
  | nil => simp [removeLoop, numbered]
  | cons f t ih =>
    rw [removeLoop]
    by_cases h : f.name = name
    · rw [if_pos h, ih]
      simp [h]
    · rw [if_neg h, ih]
      simp [h, numbered]

theorem numbered_ordered (k : Nat) (l : List AF) :
    Ordered (numbered k l) ∧ ∀ f ∈ numbered k l, (k : Int) + 1 ≤ f.stage.getD 0 := by
  induction l generalizing k with
  | nil => exact ⟨List.Pairwise.nil, by simp [numbered]⟩
  | cons f t ih =>
    obtain ⟨h1, h2⟩ := ih (k + 1)
    constructor
    · refine List.Pairwise.cons ?_ h1
      intro g hg
      have := h2 g hg
      simp only [Option.getD_some]
      push_cast at this
      omega
    · intro g hg
      rw [numbered, List.mem_cons] at hg
      rcases hg with rfl | hg
      · simp
      · have := h2 g hg
        push_cast at this
        omega

/-- C95: resetting numbers the remaining filters 1, 2, … in their stored order and changes nothing else. -/
theorem C95_reset (l : List AF) (name : Str) :
    (remove l name true).map (fun f => (f.name, f.applied)) =
      (l.filter (fun f => f.name ≠ name)).map (fun f => (f.name, f.applied)) ∧
    ∀ (i : Nat) (f : AF), (remove l name true)[i]? = some f → f.stage = some (i + 1) := by
  have e : remove l name true = numbered 0 (l.filter (fun f => f.name ≠ name)) := by
    unfold remove
    rw [removeLoop_reset]
    exact sort_id (numbered_ordered 0 _).1
  rw [e]
  generalize l.filter (fun f => f.name ≠ name) = m
  constructor
  · generalize 0 = k
    induction m generalizing k with
    | nil => rfl
    | cons f t ih => simp [numbered, ih]
  · suffices ∀ (k i : Nat) (f : AF), (numbered k m)[i]? = some f → f.stage = some ((k : Int) + i + 1) by
      intro i f h
      have := this 0 i f h
      simpa using this
    induction m with
    | nil => intro k i f h; simp [numbered] at h
    | cons g t ih =>
      intro k i f h
      cases i with
      | zero =>
        simp [numbered] at h
        subst h
        simp
      | succ i =>
        simp only [numbered, List.getElem?_cons_succ] at h
        rw [ih (k + 1) i f h]
        push_cast
        congr 1
        omega

/-- C95: without resetting, an ordered channel keeps the other filters as they are. -/
theorem C95_keep (l : List AF) (name : Str) (h : Ordered l) :
    remove l name false = l.filter (fun f => f.name ≠ name) := by
  have e : ∀ acc, removeLoop name false acc l = acc ++ l.filter (fun f => f.name ≠ name) := by
    clear h
    induction l with
    | nil => intro acc; simp [removeLoop]
    | cons f t ih =>
      intro acc
      rw [removeLoop]
      by_cases h : f.name = name
      · rw [if_pos h, ih]; simp [h]
      · rw [if_neg h, ih]; simp [h]
  unfold remove
  rw [e, List.nil_append]
  exact sort_id (h.filter _)

theorem step_nodup {l : List AF} (h : (l.map (·.name)).Nodup) (op : Op)
    (hop : ∀ n a s, op = .addName n a s → norm n = n) : ((step l op).map (·.name)).Nodup := by
  cases op with
  | addObj f =>
    simp only [step, addObj]
    split
    · exact h
    · next hn =>
      have hn' : f.name ∉ l.map (·.name) := by simpa using hn
      rw [List.map_append, List.nodup_append]
      refine ⟨h, by simp, ?_⟩
      intro a ha b hb
      cases hs : f.stage <;> simp [hs] at hb <;> (subst hb; exact fun e => hn' (e ▸ ha))
  | remove n r =>
    exact ((C95_remove l n r).1.nodup_iff).2 (h.filter _)
  | addName n a s =>
    have hn := hop n a s rfl
    simp only [step, addName]
    split
    · next l' hl =>
      split at hl
      · simp only [Except.ok.injEq] at hl; subst hl; exact h
      · next hc =>
        have hc' : n ∉ l.map (·.name) := by simpa using hc
        split at hl
        · cases hl
        · next m hm =>
          have : m = n := by
            unfold mkName at hm
            split at hm
            · cases hm
            · simp only [Except.ok.injEq] at hm; rw [← hm, hn]
          subst this
          simp only [Except.ok.injEq] at hl
          subst hl
          rw [((sort_perm _).map _).nodup_iff, List.map_append, List.nodup_append]
          refine ⟨h, by simp, ?_⟩
          intro x hx y hy
          simp only [List.map_cons, List.map_nil, List.mem_cons, List.not_mem_nil, or_false] at hy
          subst hy
          exact fun e => hc' (e ▸ hx)
    · exact h

/-- `m` is `n` in lower case with every slash spelled out. -/
inductive Spelled : Str → Str → Prop
  | nil : Spelled [] []
  | slash {n m : Str} : Spelled n m → Spelled ('/' :: n) (' ' :: 'p' :: 'e' :: 'r' :: ' ' :: m)
  | char (c : Char) {n m : Str} : c ≠ '/' → Spelled n m → Spelled (c :: n) (c.toLower :: m)

theorem spelled_norm (n : Str) : Spelled n (norm n) := by
  induction n with
  | nil => exact .nil
  | cons c t ih =>
    by_cases h : c = '/'
    · subst h
      exact .slash ih
    · have : norm (c :: t) = c.toLower :: norm t := by simp [norm, h]
      rw [this]
      exact .char c h ih

theorem Spelled.unique {n m k : Str} (h1 : Spelled n m) (h2 : Spelled n k) : m = k := by
  induction h1 generalizing k with
  | nil => cases h2; rfl
  | slash _ ih =>
    cases h2 with
    | slash h => rw [ih h]
    | char c hc h => exact absurd rfl hc
  | char c hc _ ih =>
    cases h2 with
    | slash h => exact absurd rfl hc
    | char _ _ h => rw [ih h]

theorem spelled_plain (n : Str) (h : ∀ c ∈ n, c ≠ '/' ∧ c.toLower = c) : Spelled n n := by
  induction n with
  | nil => exact .nil
  | cons c t ih =>
    have := Spelled.char c (h c (by simp)).1 (ih fun d hd => h d (List.mem_cons_of_mem _ hd))
    rwa [(h c (by simp)).2] at this

/-- C48: names stay distinct as long as names are given in lower case without a slash. -/
theorem C48_distinct_partial (ops : List Op)
    (h : ∀ n a s, Op.addName n a s ∈ ops → ∀ c ∈ n, c ≠ '/' ∧ c.toLower = c) : ((run ops).map (·.name)).Nodup := by
  unfold run
  have : ∀ l : List AF, (l.map (·.name)).Nodup → ((ops.foldl step l).map (·.name)).Nodup := by
    induction ops with
    | nil => intro l hl; exact hl
    | cons op t ih =>
      intro l hl
      rw [List.foldl_cons]
      refine ih (fun n a s hm => h n a s (List.mem_cons_of_mem _ hm)) _ (step_nodup hl op ?_)
      intro n a s e
      exact (spelled_norm n).unique (spelled_plain n (h n a s (e ▸ List.mem_cons_self)))
  exact this [] (by simp)

/-- C48: a filter added by name is found again under the name in lower case with slashes spelled out. -/
theorem C48_found_partial (l l' : List AF) (n : Str) (a : Bool) (s : Option Int)
    (hn : n ∉ l.map (·.name)) (h : addName l n a s = .ok l') :
    ∃ f m, Spelled n m ∧ get l' m = some f ∧ f.name = m := by
  suffices h : ∃ f, get l' (norm n) = some f ∧ f.name = norm n by
    obtain ⟨f, h⟩ := h
    exact ⟨f, norm n, spelled_norm n, h⟩
  unfold addName at h
  rw [if_neg (by simpa using hn)] at h
  cases hm : mkName n with
  | error e => rw [hm] at h; cases h
  | ok m =>
    have e : m = norm n := by
      unfold mkName at hm
      split at hm
      · cases hm
      · simp only [Except.ok.injEq] at hm; exact hm.symm
    rw [hm] at h
    simp only [Except.ok.injEq] at h
    subst h
    have hmem : norm n ∈ (sortFilters (l ++ [⟨m, a, some (s.getD (l.length + 1))⟩])).map (·.name) := by
      rw [((sort_perm _).map _).mem_iff]
      simp [e]
    cases hg : get _ (norm n) with
    | none =>
      unfold get at hg
      rw [List.find?_eq_none] at hg
      obtain ⟨f, hf, hfn⟩ := List.mem_map.1 hmem
      exact absurd (by simpa using hfn) (hg f hf)
    | some f =>
      refine ⟨f, rfl, ?_⟩
      unfold get at hg
      simpa using List.find?_some hg

example : run [.addName "V/m".toList true (some 2), .addName "lp".toList false (some 1),
    .addName "hp".toList true none, .remove "lp".toList true] =
    [⟨"v per m".toList, true, some 1⟩, ⟨"hp".toList, true, some 2⟩] := by decide
example : norm "low pass".toList = "low pass".toList := by decide

end Verif.Applied
