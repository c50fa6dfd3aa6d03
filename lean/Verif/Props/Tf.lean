import Verif.Model.Tf
import Mathlib.Data.List.Nodup
import Mathlib.Tactic.IntervalCases

/-! # The arrays of a transfer function object (C135-C139) -/

namespace Verif.Tf
open Classical

variable {P : Type}

/-! ## What is expected

The arrays a user sees, each on its own, by period number, row and column. -/

structure Spec (P : Type) where
  periods : List P
  z : ℕ → ℕ → ℕ → Val
  t : ℕ → ℕ → ℕ → Val
  zErr : ℕ → ℕ → ℕ → Val
  tErr : ℕ → ℕ → ℕ → Val
  zMod : ℕ → ℕ → ℕ → Val
  tMod : ℕ → ℕ → ℕ → Val
  isp : ℕ → ℕ → ℕ → Val
  res : ℕ → ℕ → ℕ → Val

/-- All numbers of an array are zero. -/
def Zero (n r c : ℕ) (f : ℕ → ℕ → ℕ → Val) : Prop := ∀ k < n, ∀ i < r, ∀ j < c, f k i j = some 0

/-- All numbers of an array are zero or `nan`. -/
def ZeroNan (n r c : ℕ) (f : ℕ → ℕ → ℕ → Val) : Prop := ∀ k < n, ∀ i < r, ∀ j < c, f k i j = some 0 ∨ f k i j = none

/-- The numbers as a list of lists of lists. -/
def table (n r c : ℕ) (f : ℕ → ℕ → ℕ → Val) : List (List (List Val)) :=
  (List.range n).map fun k => (List.range r).map fun i => (List.range c).map fun j => f k i j

/-- The rows of the transfer function: two of the impedance, one of the tipper. -/
def rows (z t : ℕ → ℕ → ℕ → Val) : ℕ → ℕ → ℕ → Val := fun k i j => if i < 2 then z k i j else t k 0 j

/-- The array of a property, `none` for Python's `None`. -/
noncomputable def Spec.get (σ : Spec P) : AType → Option (List (List (List Val)))
  | .impedance => if Zero σ.periods.length 2 2 σ.z then none else some (table σ.periods.length 2 2 σ.z)
  | .impedanceError => if Zero σ.periods.length 2 2 σ.z then none else some (table σ.periods.length 2 2 σ.zErr)
  | .impedanceModelError => if Zero σ.periods.length 2 2 σ.z then none else some (table σ.periods.length 2 2 σ.zMod)
  | .tipper => if ZeroNan σ.periods.length 1 2 σ.t then none else some (table σ.periods.length 1 2 σ.t)
  | .tipperError => if ZeroNan σ.periods.length 1 2 σ.t then none else some (table σ.periods.length 1 2 σ.tErr)
  | .tipperModelError => if ZeroNan σ.periods.length 1 2 σ.t then none else some (table σ.periods.length 1 2 σ.tMod)
  | .tf => if Zero σ.periods.length 3 2 (rows σ.z σ.t) then none else some (table σ.periods.length 3 2 (rows σ.z σ.t))
  | .tfError => if Zero σ.periods.length 3 2 (rows σ.z σ.t) then none else some (table σ.periods.length 3 2 (rows σ.zErr σ.tErr))
  | .tfModelError => if Zero σ.periods.length 3 2 (rows σ.z σ.t) then none else some (table σ.periods.length 3 2 (rows σ.zMod σ.tMod))
  | .isp => if Zero σ.periods.length 2 2 σ.isp then none else some (table σ.periods.length 2 2 σ.isp)
  | .res => if Zero σ.periods.length 3 3 σ.res then none else some (table σ.periods.length 3 3 σ.res)

/-- Storing an array. -/
def Spec.store (σ : Spec P) (t : AType) (f : ℕ → ℕ → ℕ → Val) : Spec P :=
  match t with
  | .impedance => { σ with z := f }
  | .impedanceError => { σ with zErr := f }
  | .impedanceModelError => { σ with zMod := f }
  | .tipper => { σ with t := f }
  | .tipperError => { σ with tErr := f }
  | .tipperModelError => { σ with tMod := f }
  | .tf => { σ with z := f, t := fun k _ j => f k 2 j }
  | .tfError => { σ with zErr := f, tErr := fun k _ j => f k 2 j }
  | .tfModelError => { σ with zMod := f, tMod := fun k _ j => f k 2 j }
  | .isp => { σ with isp := f }
  | .res => { σ with res := f }

/-- The root of the modulus of a product. -/
noncomputable def rootOf (x y : Val) : Val := x.bind fun a => y.map fun b => ((Real.sqrt ‖a * b‖ : ℝ) : ℂ)

/-- Errors from covariances. -/
noncomputable def Spec.errors (σ : Spec P) : Spec P :=
  { σ with zErr := fun k i j => rootOf (σ.res k i i) (σ.isp k j j)
           tErr := fun k _ j => rootOf (σ.res k 2 2) (σ.isp k j j) }

/-- After an assignment of a covariance. -/
noncomputable def Spec.after (σ : Spec P) (t : AType) : Spec P × Option PyErr :=
  if t = .isp ∨ t = .res then
    if ¬ Zero σ.periods.length 2 2 σ.isp ∧ ¬ Zero σ.periods.length 3 3 σ.res then (σ.errors, none)
    else if (t = .isp ∧ ¬ Zero σ.periods.length 3 3 σ.res) ∨ (t = .res ∧ ¬ Zero σ.periods.length 2 2 σ.isp) then
      (σ, some .attributeError)
    else (σ, none)
  else (σ, none)

/-- Rows and columns of an array. -/
def size : AType → ℕ × ℕ
  | .impedance | .impedanceError | .impedanceModelError | .isp => (2, 2)
  | .tipper | .tipperError | .tipperModelError => (1, 2)
  | .tf | .tfError | .tfModelError => (3, 2)
  | .res => (3, 3)

/-- Nothing assigned yet. -/
def Spec.zero (ps : List P) : Spec P where
  periods := ps
  z := fun _ _ _ => some 0
  t := fun _ _ _ => some 0
  zErr := fun _ _ _ => some 0
  tErr := fun _ _ _ => some 0
  zMod := fun _ _ _ => some 0
  tMod := fun _ _ _ => some 0
  isp := fun _ _ _ => some 0
  res := fun _ _ _ => some 0

/-- What a user does. -/
inductive Op (P : Type)
  | set (t : AType) (a : Nd)
  | setNone (t : AType)
  | period (v : List P)

/-- One operation on the arrays. The model errors of the whole transfer function cannot be assigned. -/
noncomputable def Spec.step (one : P) (σ : Spec P) : Op P → Spec P × Option PyErr
  | .set t a =>
    if t = .tfModelError then (σ, some .keyError)
    else if (a.r, a.c) = size t ∧ a.n = σ.periods.length then (σ.store t a.val).after t
    else (σ, some .valueError)
  | .setNone t => σ.after t
  | .period v =>
    if σ.periods = [one] then
      (Spec.zero v, none)
    else if v.length = σ.periods.length then ({ σ with periods := v }, none)
    else (σ, some .valueError)

noncomputable def step (one : P) (s : TF P) : Op P → TF P × Option PyErr
  | .set t a => set s t (.nd a)
  | .setNone t => set s t .none
  | .period v => setPeriod one s v

/-! ## The arrays in the data set -/

/-- `a` at the labels holds `f`. -/
def Block (a : Arr) (outs ins : List Str) (f : ℕ → ℕ → ℕ → Val) : Prop :=
  ∀ k i o j x, outs[i]? = some o → ins[j]? = some x → a k o x = f k i j

structure Rel (s : TF P) (σ : Spec P) : Prop where
  nodup : s.names.all.Nodup
  labels : s.ds.labels = s.names.all
  periods : s.ds.periods = σ.periods
  z : Block (s.ds.arr .tf) s.names.exey s.names.hxhy σ.z
  t : Block (s.ds.arr .tf) [s.names.hz] s.names.hxhy σ.t
  zErr : Block (s.ds.arr .err) s.names.exey s.names.hxhy σ.zErr
  tErr : Block (s.ds.arr .err) [s.names.hz] s.names.hxhy σ.tErr
  zMod : Block (s.ds.arr .modErr) s.names.exey s.names.hxhy σ.zMod
  tMod : Block (s.ds.arr .modErr) [s.names.hz] s.names.hxhy σ.tMod
  isp : Block (s.ds.arr .isp) s.names.hxhy s.names.hxhy σ.isp
  res : Block (s.ds.arr .res) s.names.exeyhz s.names.exeyhz σ.res

theorem pos_self {l : List Str} (h : l.Nodup) {i : ℕ} {x : Str} (hx : l[i]? = some x) : pos l x = some i := by
  unfold pos
  induction l generalizing i with
  | nil => simp at hx
  | cons y l ih =>
    rw [List.nodup_cons] at h
    cases i with
    | zero =>
      simp only [List.getElem?_cons_zero, Option.some.injEq] at hx
      subst hx
      rw [List.findIdx?_cons]
      simp
    | succ i =>
      simp only [List.getElem?_cons_succ] at hx
      have hm : x ∈ l := List.mem_of_getElem? hx
      have hne : ¬ y = x := fun e => h.1 (e ▸ hm)
      rw [List.findIdx?_cons]
      simp [hne, ih h.2 hx]

theorem pos_none {l : List Str} {x : Str} (h : x ∉ l) : pos l x = none := by
  unfold pos
  rw [List.findIdx?_eq_none_iff]
  intro y hy
  have : y ≠ x := fun e => h (e ▸ hy)
  simp [this]

/-- What `.loc[...] = v` does. -/
theorem setLoc_ok {d d' : DS P} {v : Var} {outs ins : List Str} {a : ℕ → ℕ → ℕ → Val}
    (h : setLoc d v outs ins a = .ok d') : d'.periods = d.periods ∧ d'.labels = d.labels ∧
      (∀ w, w ≠ v → d'.arr w = d.arr w) ∧
      (outs.Nodup → ins.Nodup → Block (d'.arr v) outs ins a) ∧
      ∀ k o i, o ∉ outs ∨ i ∉ ins → d'.arr v k o i = d.arr v k o i := by
  unfold setLoc at h
  split at h
  · cases h
    refine ⟨rfl, rfl, ?_, ?_, ?_⟩
    · intro w hw
      funext k o i
      simp [hw]
    · intro h1 h2 k i o j x ho hx
      simp only [ne_eq, not_true_eq_false, if_false, pos_self h1 ho, pos_self h2 hx]
    · intro k o i hoi
      rcases hoi with hoi | hoi
      · simp [pos_none hoi]
      · simp only [ne_eq, not_true_eq_false, if_false, pos_none hoi]
        cases pos outs o <;> rfl
  · cases h

theorem Block.frame {a b : Arr} {outs ins : List Str} {f : ℕ → ℕ → ℕ → Val} (h : Block a outs ins f)
    (hf : ∀ k, ∀ o ∈ outs, ∀ i ∈ ins, b k o i = a k o i) : Block b outs ins f := by
  intro k i o j x ho hx
  rw [hf k o (List.mem_of_getElem? ho) x (List.mem_of_getElem? hx)]
  exact h k i o j x ho hx

/-- The numbers at labels. -/
theorem getLoc_block {d : DS P} {v : Var} {outs ins : List Str} {f : ℕ → ℕ → ℕ → Val} (h : Block (d.arr v) outs ins f)
    (ho : ∀ x ∈ outs, x ∈ d.labels) (hi : ∀ x ∈ ins, x ∈ d.labels) :
    getLoc d v outs ins = .ok (table d.periods.length outs.length ins.length f) := by
  unfold getLoc
  have hk : (known d outs && known d ins) = true := by
    simp only [known, Bool.and_eq_true, List.all_eq_true, List.contains_iff_mem]
    exact ⟨ho, hi⟩
  rw [if_pos hk]
  congr 1
  unfold table
  refine List.map_congr_left (fun k _ => ?_)
  apply List.ext_getElem?
  intro i
  simp only [List.getElem?_map]
  by_cases hi' : i < outs.length
  · rw [List.getElem?_eq_getElem hi', List.getElem?_range hi']
    simp only [Option.map_some, Option.some.injEq]
    apply List.ext_getElem?
    intro j
    simp only [List.getElem?_map]
    by_cases hj : j < ins.length
    · rw [List.getElem?_eq_getElem hj, List.getElem?_range hj]
      simp only [Option.map_some, Option.some.injEq]
      exact h k i _ j _ (List.getElem?_eq_getElem hi') (List.getElem?_eq_getElem hj)
    · rw [List.getElem?_eq_none (by omega), List.getElem?_eq_none (by simp; omega)]
      rfl
  · rw [List.getElem?_eq_none (by omega), List.getElem?_eq_none (by simp; omega)]
    rfl

theorem allZero_table (n r c : ℕ) (f : ℕ → ℕ → ℕ → Val) : allZero (table n r c f) = true ↔ Zero n r c f := by
  simp [allZero, table, Zero]

theorem allZero_nan (n r c : ℕ) (f : ℕ → ℕ → ℕ → Val) : allZero (nanToNum (table n r c f)) = true ↔ ZeroNan n r c f := by
  simp only [allZero, nanToNum, table, ZeroNan, List.map_map, List.all_map, List.all_eq_true, List.mem_range, Function.comp,
    decide_eq_true_eq]
  constructor
  · intro h k hk i hi j hj
    have := h k hk i hi j hj
    cases hf : f k i j with
    | none => exact Or.inr rfl
    | some x => rw [hf] at this; simp at this; left; rw [this]
  · intro h k hk i hi j hj
    rcases h k hk i hi j hj with h | h <;> rw [h] <;> rfl

theorem not_decide {b : Bool} {p : Prop} (h : b = true ↔ p) : (!b) = decide (¬ p) := by
  by_cases hp : p
  · simp [hp, h.2 hp]
  · have : b = false := by
      cases b
      · rfl
      · exact absurd (h.1 rfl) hp
    simp [hp, this]

theorem guarded_eq {p : Prop} {x : List (List (List Val))} :
    guarded (.ok (decide (¬ p))) (.ok x) = .ok (if p then none else some x) := by
  by_cases h : p <;> simp [h, guarded]

section
variable {s : TF P} {σ : Spec P}

theorem Rel.lab (h : Rel s σ) : ∀ x ∈ s.names.all, x ∈ s.ds.labels := by rw [h.labels]; exact fun _ hx => hx

theorem mem_hxhy (m : Names) : ∀ x ∈ m.hxhy, x ∈ m.all := by
  intro x hx; simp [Names.hxhy] at hx; simp [Names.all]; tauto
theorem mem_exey (m : Names) : ∀ x ∈ m.exey, x ∈ m.all := by
  intro x hx; simp [Names.exey] at hx; simp [Names.all]; tauto
theorem mem_exeyhz (m : Names) : ∀ x ∈ m.exeyhz, x ∈ m.all := by
  intro x hx; simp [Names.exeyhz] at hx; simp [Names.all]; tauto
theorem mem_hz (m : Names) : ∀ x ∈ [m.hz], x ∈ m.all := by
  intro x hx; simp at hx; simp [Names.all]; tauto

/-- Rows of impedance and tipper together. -/
theorem rows_block {a : Arr} {m : Names} {f g : ℕ → ℕ → ℕ → Val} (h1 : Block a m.exey m.hxhy f)
    (h2 : Block a [m.hz] m.hxhy g) : Block a m.exeyhz m.hxhy (rows f g) := by
  intro k i o j x ho hx
  match i, ho with
  | 0, ho => exact (h1 k 0 o j x ho hx).trans (by simp [rows])
  | 1, ho => exact (h1 k 1 o j x ho hx).trans (by simp [rows])
  | 2, ho => exact (h2 k 0 o j x ho hx).trans (by simp [rows])
  | i + 3, ho => simp [Names.exeyhz] at ho

theorem split_block {a : Arr} {m : Names} {f : ℕ → ℕ → ℕ → Val} (h : Block a m.exeyhz m.hxhy f) :
    Block a m.exey m.hxhy f ∧ Block a [m.hz] m.hxhy (fun k _ j => f k 2 j) := by
  constructor
  · intro k i o j x ho hx
    match i, ho with
    | 0, ho => exact h k 0 o j x ho hx
    | 1, ho => exact h k 1 o j x ho hx
    | i + 2, ho => simp [Names.exey] at ho
  · intro k i o j x ho hx
    match i, ho with
    | 0, ho => exact h k 2 o j x ho hx
    | i + 1, ho => simp at ho

theorem Rel.hasZ_eq (h : Rel s σ) : hasZ s = .ok (decide (¬ Zero σ.periods.length 2 2 σ.z)) := by
  unfold hasZ
  rw [if_pos (by simp [h.labels, Names.all]), getLoc_block h.z (fun x hx => h.lab x (mem_exey _ x hx)) (fun x hx => h.lab x (mem_hxhy _ x hx)),
    h.periods]
  exact congrArg Except.ok (not_decide (allZero_table _ _ _ _))

theorem Rel.hasT_eq (h : Rel s σ) : hasT s = .ok (decide (¬ ZeroNan σ.periods.length 1 2 σ.t)) := by
  unfold hasT
  rw [if_pos (by simp [h.labels, Names.all]), getLoc_block h.t (fun x hx => h.lab x (mem_hz _ x hx)) (fun x hx => h.lab x (mem_hxhy _ x hx)),
    h.periods]
  exact congrArg Except.ok (not_decide (allZero_nan _ _ _ _))

theorem Rel.hasTf_eq (h : Rel s σ) : hasTf s = .ok (decide (¬ Zero σ.periods.length 3 2 (rows σ.z σ.t))) := by
  unfold hasTf
  rw [if_pos (by simp [h.labels, Names.all]), getLoc_block (rows_block h.z h.t) (fun x hx => h.lab x (mem_exeyhz _ x hx)) (fun x hx => h.lab x (mem_hxhy _ x hx)),
    h.periods]
  exact congrArg Except.ok (not_decide (allZero_table _ _ _ _))

theorem Rel.hasIsp_eq (h : Rel s σ) : hasIsp s = .ok (decide (¬ Zero σ.periods.length 2 2 σ.isp)) := by
  unfold hasIsp
  rw [getLoc_block h.isp (fun x hx => h.lab x (mem_hxhy _ x hx)) (fun x hx => h.lab x (mem_hxhy _ x hx)), h.periods]
  exact congrArg Except.ok (not_decide (allZero_table _ _ _ _))

theorem Rel.hasRes_eq (h : Rel s σ) : hasRes s = .ok (decide (¬ Zero σ.periods.length 3 3 σ.res)) := by
  unfold hasRes
  rw [getLoc_block h.res (fun x hx => h.lab x (mem_exeyhz _ x hx)) (fun x hx => h.lab x (mem_exeyhz _ x hx)), h.periods]
  exact congrArg Except.ok (not_decide (allZero_table _ _ _ _))

/-- The properties return the arrays. -/
theorem Rel.get_eq (h : Rel s σ) (t : AType) : get s t = .ok (σ.get t) := by
  have l1 : ∀ x ∈ s.names.hxhy, x ∈ s.ds.labels := fun x hx => h.lab x (mem_hxhy _ x hx)
  have l2 : ∀ x ∈ s.names.exey, x ∈ s.ds.labels := fun x hx => h.lab x (mem_exey _ x hx)
  have l3 : ∀ x ∈ s.names.exeyhz, x ∈ s.ds.labels := fun x hx => h.lab x (mem_exeyhz _ x hx)
  have l4 : ∀ x ∈ [s.names.hz], x ∈ s.ds.labels := fun x hx => h.lab x (mem_hz _ x hx)
  cases t <;> unfold get Spec.get
  · rw [h.hasTf_eq, getLoc_block (rows_block h.z h.t) l3 l1, h.periods]; exact guarded_eq
  · rw [h.hasZ_eq, getLoc_block h.z l2 l1, h.periods]; exact guarded_eq
  · rw [h.hasT_eq, getLoc_block h.t l4 l1, h.periods]; exact guarded_eq
  · rw [h.hasIsp_eq, getLoc_block h.isp l1 l1, h.periods]; exact guarded_eq
  · rw [h.hasRes_eq, getLoc_block h.res l3 l3, h.periods]; exact guarded_eq
  · rw [h.hasZ_eq, getLoc_block h.zErr l2 l1, h.periods]; exact guarded_eq
  · rw [h.hasZ_eq, getLoc_block h.zMod l2 l1, h.periods]; exact guarded_eq
  · rw [h.hasT_eq, getLoc_block h.tErr l4 l1, h.periods]; exact guarded_eq
  · rw [h.hasT_eq, getLoc_block h.tMod l4 l1, h.periods]; exact guarded_eq
  · rw [h.hasTf_eq, getLoc_block (rows_block h.zErr h.tErr) l3 l1, h.periods]; exact guarded_eq
  · rw [h.hasTf_eq, getLoc_block (rows_block h.zMod h.tMod) l3 l1, h.periods]; exact guarded_eq

/-- Facts about distinct names. -/
theorem names_facts {m : Names} (h : m.all.Nodup) : m.hxhy.Nodup ∧ m.exey.Nodup ∧ m.exeyhz.Nodup ∧
    (∀ x ∈ m.exey, x ∉ [m.hz]) ∧ (∀ x ∈ [m.hz], x ∉ m.exey) := by
  simp only [Names.all, Names.hxhy, Names.exey, Names.exeyhz, List.nodup_cons, List.mem_cons, List.not_mem_nil, or_false,
    not_or, List.nodup_nil, and_true, not_false_eq_true] at *
  refine ⟨by tauto, by tauto, by tauto, ?_, ?_⟩
  · rintro x (rfl | rfl) <;> tauto
  · rintro x rfl
    exact ⟨fun e => h.1.2.1 e.symm, fun e => h.2.1.1 e.symm⟩

/-- Storing an array. -/
theorem Rel.setArray (h : Rel s σ) (t : AType) (a : Nd) :
    (t = .tfModelError → Tf.setArray s t (.nd a) = .error .keyError) ∧
    (t ≠ .tfModelError → ¬ ((a.r, a.c) = size t ∧ a.n = σ.periods.length) → Tf.setArray s t (.nd a) = .error .valueError) ∧
    (t ≠ .tfModelError → (a.r, a.c) = size t ∧ a.n = σ.periods.length →
      ∃ s', Tf.setArray s t (.nd a) = .ok s' ∧ Rel s' (σ.store t a.val)) := by
  have hp := h.periods
  obtain ⟨n1, n2, n3, n4, n5⟩ := names_facts h.nodup
  refine ⟨?_, ?_, ?_⟩
  · rintro rfl; rfl
  · intro ht hs
    have hv : validNd s t a = .error .valueError := by
      unfold validNd
      cases t <;> simp [size] at hs ht <;> simp only [shape, hp] <;> split <;> simp_all
    cases t <;> simp only [Tf.setArray, chIn, chOut, hv] <;> exact absurd rfl ht
  · intro ht hs
    have hv : validNd s t a = .ok () := by
      unfold validNd
      cases t <;> simp [size] at hs ht <;> simp [shape, hp, hs]
    have hk : ∀ outs ins, (∀ x ∈ outs, x ∈ s.names.all) → (∀ x ∈ ins, x ∈ s.names.all) → ∀ v f, ∃ d,
        setLoc s.ds v outs ins f = .ok d := by
      intro outs ins ho hi v f
      unfold setLoc
      rw [if_pos]
      · exact ⟨_, rfl⟩
      · simp only [known, Bool.and_eq_true, List.all_eq_true, List.contains_iff_mem]
        exact ⟨fun x hx => h.lab x (ho x hx), fun x hx => h.lab x (hi x hx)⟩
    have m1 := mem_hxhy s.names
    have m2 := mem_exey s.names
    have m3 := mem_exeyhz s.names
    have m4 := mem_hz s.names
    cases t with
    | tfModelError => exact absurd rfl ht
    | tf =>
      obtain ⟨d, hd⟩ := hk s.names.exeyhz s.names.hxhy m3 m1 .tf a.val
      obtain ⟨e1, e2, e3, e4, e5⟩ := setLoc_ok hd
      obtain ⟨b1, b2⟩ := split_block (e4 n3 n1)
      refine ⟨{ s with ds := d }, by simp [Tf.setArray, chIn, chOut, hv, varOf, hd], h.nodup, e2.trans h.labels, e1.trans hp, b1, b2, ?_, ?_, ?_, ?_, ?_, ?_⟩
      all_goals simp only [e3 _ (by decide : Var.err ≠ .tf), e3 _ (by decide : Var.modErr ≠ .tf), e3 _ (by decide : Var.isp ≠ .tf), e3 _ (by decide : Var.res ≠ .tf)]
      exacts [h.zErr, h.tErr, h.zMod, h.tMod, h.isp, h.res]
    | impedance =>
      obtain ⟨d, hd⟩ := hk s.names.exey s.names.hxhy m2 m1 .tf a.val
      obtain ⟨e1, e2, e3, e4, e5⟩ := setLoc_ok hd
      refine ⟨{ s with ds := d }, by simp [Tf.setArray, chIn, chOut, hv, varOf, hd], h.nodup, e2.trans h.labels, e1.trans hp, e4 n2 n1,
        h.t.frame (fun k o ho i _ => e5 k o i (.inl (n5 o ho))), ?_, ?_, ?_, ?_, ?_, ?_⟩
      all_goals simp only [e3 _ (by decide : Var.err ≠ .tf), e3 _ (by decide : Var.modErr ≠ .tf), e3 _ (by decide : Var.isp ≠ .tf), e3 _ (by decide : Var.res ≠ .tf)]
      exacts [h.zErr, h.tErr, h.zMod, h.tMod, h.isp, h.res]
    | tipper =>
      obtain ⟨d, hd⟩ := hk [s.names.hz] s.names.hxhy m4 m1 .tf a.val
      obtain ⟨e1, e2, e3, e4, e5⟩ := setLoc_ok hd
      refine ⟨{ s with ds := d }, by simp [Tf.setArray, chIn, chOut, hv, varOf, hd], h.nodup, e2.trans h.labels, e1.trans hp,
        h.z.frame (fun k o ho i _ => e5 k o i (.inl (n4 o ho))), e4 (by simp) n1, ?_, ?_, ?_, ?_, ?_, ?_⟩
      all_goals simp only [e3 _ (by decide : Var.err ≠ .tf), e3 _ (by decide : Var.modErr ≠ .tf), e3 _ (by decide : Var.isp ≠ .tf), e3 _ (by decide : Var.res ≠ .tf)]
      exacts [h.zErr, h.tErr, h.zMod, h.tMod, h.isp, h.res]
    | isp =>
      obtain ⟨d, hd⟩ := hk s.names.hxhy s.names.hxhy m1 m1 .isp a.val
      obtain ⟨e1, e2, e3, e4, e5⟩ := setLoc_ok hd
      refine ⟨{ s with ds := d }, by simp [Tf.setArray, chIn, chOut, hv, varOf, hd], h.nodup, e2.trans h.labels, e1.trans hp, ?_, ?_, ?_, ?_, ?_, ?_, e4 n1 n1, ?_⟩
      all_goals simp only [e3 _ (by decide : Var.tf ≠ .isp), e3 _ (by decide : Var.err ≠ .isp), e3 _ (by decide : Var.modErr ≠ .isp), e3 _ (by decide : Var.res ≠ .isp)]
      exacts [h.z, h.t, h.zErr, h.tErr, h.zMod, h.tMod, h.res]
    | res =>
      obtain ⟨d, hd⟩ := hk s.names.exeyhz s.names.exeyhz m3 m3 .res a.val
      obtain ⟨e1, e2, e3, e4, e5⟩ := setLoc_ok hd
      refine ⟨{ s with ds := d }, by simp [Tf.setArray, chIn, chOut, hv, varOf, hd], h.nodup, e2.trans h.labels, e1.trans hp, ?_, ?_, ?_, ?_, ?_, ?_, ?_, e4 n3 n3⟩
      all_goals simp only [e3 _ (by decide : Var.tf ≠ .res), e3 _ (by decide : Var.err ≠ .res), e3 _ (by decide : Var.modErr ≠ .res), e3 _ (by decide : Var.isp ≠ .res)]
      exacts [h.z, h.t, h.zErr, h.tErr, h.zMod, h.tMod, h.isp]
    | impedanceError =>
      obtain ⟨d, hd⟩ := hk s.names.exey s.names.hxhy m2 m1 .err a.val
      obtain ⟨e1, e2, e3, e4, e5⟩ := setLoc_ok hd
      refine ⟨{ s with ds := d }, by simp [Tf.setArray, chIn, chOut, hv, varOf, hd], h.nodup, e2.trans h.labels, e1.trans hp, ?_, ?_, e4 n2 n1,
        h.tErr.frame (fun k o ho i _ => e5 k o i (.inl (n5 o ho))), ?_, ?_, ?_, ?_⟩
      all_goals simp only [e3 _ (by decide : Var.tf ≠ .err), e3 _ (by decide : Var.modErr ≠ .err), e3 _ (by decide : Var.isp ≠ .err), e3 _ (by decide : Var.res ≠ .err)]
      exacts [h.z, h.t, h.zMod, h.tMod, h.isp, h.res]
    | tipperError =>
      obtain ⟨d, hd⟩ := hk [s.names.hz] s.names.hxhy m4 m1 .err a.val
      obtain ⟨e1, e2, e3, e4, e5⟩ := setLoc_ok hd
      refine ⟨{ s with ds := d }, by simp [Tf.setArray, chIn, chOut, hv, varOf, hd], h.nodup, e2.trans h.labels, e1.trans hp, ?_, ?_,
        h.zErr.frame (fun k o ho i _ => e5 k o i (.inl (n4 o ho))), e4 (by simp) n1, ?_, ?_, ?_, ?_⟩
      all_goals simp only [e3 _ (by decide : Var.tf ≠ .err), e3 _ (by decide : Var.modErr ≠ .err), e3 _ (by decide : Var.isp ≠ .err), e3 _ (by decide : Var.res ≠ .err)]
      exacts [h.z, h.t, h.zMod, h.tMod, h.isp, h.res]
    | tfError =>
      obtain ⟨d, hd⟩ := hk s.names.exeyhz s.names.hxhy m3 m1 .err a.val
      obtain ⟨e1, e2, e3, e4, e5⟩ := setLoc_ok hd
      obtain ⟨b1, b2⟩ := split_block (e4 n3 n1)
      refine ⟨{ s with ds := d }, by simp [Tf.setArray, chIn, chOut, hv, varOf, hd], h.nodup, e2.trans h.labels, e1.trans hp, ?_, ?_, b1, b2, ?_, ?_, ?_, ?_⟩
      all_goals simp only [e3 _ (by decide : Var.tf ≠ .err), e3 _ (by decide : Var.modErr ≠ .err), e3 _ (by decide : Var.isp ≠ .err), e3 _ (by decide : Var.res ≠ .err)]
      exacts [h.z, h.t, h.zMod, h.tMod, h.isp, h.res]
    | impedanceModelError =>
      obtain ⟨d, hd⟩ := hk s.names.exey s.names.hxhy m2 m1 .modErr a.val
      obtain ⟨e1, e2, e3, e4, e5⟩ := setLoc_ok hd
      refine ⟨{ s with ds := d }, by simp [Tf.setArray, chIn, chOut, hv, varOf, hd], h.nodup, e2.trans h.labels, e1.trans hp, ?_, ?_, ?_, ?_, e4 n2 n1,
        h.tMod.frame (fun k o ho i _ => e5 k o i (.inl (n5 o ho))), ?_, ?_⟩
      all_goals simp only [e3 _ (by decide : Var.tf ≠ .modErr), e3 _ (by decide : Var.err ≠ .modErr), e3 _ (by decide : Var.isp ≠ .modErr), e3 _ (by decide : Var.res ≠ .modErr)]
      exacts [h.z, h.t, h.zErr, h.tErr, h.isp, h.res]
    | tipperModelError =>
      obtain ⟨d, hd⟩ := hk [s.names.hz] s.names.hxhy m4 m1 .modErr a.val
      obtain ⟨e1, e2, e3, e4, e5⟩ := setLoc_ok hd
      refine ⟨{ s with ds := d }, by simp [Tf.setArray, chIn, chOut, hv, varOf, hd], h.nodup, e2.trans h.labels, e1.trans hp, ?_, ?_, ?_, ?_,
        h.zMod.frame (fun k o ho i _ => e5 k o i (.inl (n4 o ho))), e4 (by simp) n1, ?_, ?_⟩
      all_goals simp only [e3 _ (by decide : Var.tf ≠ .modErr), e3 _ (by decide : Var.err ≠ .modErr), e3 _ (by decide : Var.isp ≠ .modErr), e3 _ (by decide : Var.res ≠ .modErr)]
      exacts [h.z, h.t, h.zErr, h.tErr, h.isp, h.res]

theorem errOf_eq (x y : Val) : errOf x y = rootOf x y := by
  cases x <;> cases y <;> rfl

/-- Computing the errors. -/
theorem Rel.computeErr (h : Rel s σ) :
    (¬ Zero σ.periods.length 2 2 σ.isp ∧ ¬ Zero σ.periods.length 3 3 σ.res → ∃ s', Tf.computeErr s = .ok s' ∧ Rel s' σ.errors) ∧
    (¬ (¬ Zero σ.periods.length 2 2 σ.isp ∧ ¬ Zero σ.periods.length 3 3 σ.res) → Tf.computeErr s = .error .attributeError) := by
  have hnd := h.nodup
  constructor
  · rintro ⟨h1, h2⟩
    unfold Tf.computeErr
    rw [h.hasRes_eq, h.hasIsp_eq]
    simp only [h1, h2, not_false_eq_true, decide_true]
    refine ⟨_, rfl, h.nodup, h.labels, h.periods, h.z, h.t, ?_, ?_, h.zMod, h.tMod, h.isp, h.res⟩
    · have i0 : ∀ k, s.ds.arr .isp k s.names.hx s.names.hx = σ.isp k 0 0 := fun k => h.isp k 0 _ 0 _ rfl rfl
      have i1 : ∀ k, s.ds.arr .isp k s.names.hy s.names.hy = σ.isp k 1 1 := fun k => h.isp k 1 _ 1 _ rfl rfl
      have r0 : ∀ k, s.ds.arr .res k s.names.ex s.names.ex = σ.res k 0 0 := fun k => h.res k 0 _ 0 _ rfl rfl
      have r1 : ∀ k, s.ds.arr .res k s.names.ey s.names.ey = σ.res k 1 1 := fun k => h.res k 1 _ 1 _ rfl rfl
      simp only [Names.all, List.nodup_cons, List.mem_cons, List.not_mem_nil, or_false, not_or, List.nodup_nil, and_true,
        not_false_eq_true] at hnd
      intro k i o j x ho hx
      simp only [Spec.errors, ← errOf_eq]
      match i, j, ho, hx with
      | 0, 0, ho, hx => cases ho; cases hx; simp [hnd, i0, r0]
      | 0, 1, ho, hx =>
        cases ho; cases hx
        have : ¬ s.names.hy = s.names.hx := fun e => hnd.2.2.2 e.symm
        simp [hnd, i1, r0, this]
      | 1, 0, ho, hx =>
        cases ho; cases hx
        have : ¬ s.names.ey = s.names.ex := fun e => hnd.1.1 e.symm
        simp [hnd, i0, r1, this]
      | 1, 1, ho, hx =>
        cases ho; cases hx
        have a1 : ¬ s.names.ey = s.names.ex := fun e => hnd.1.1 e.symm
        have a2 : ¬ s.names.hy = s.names.hx := fun e => hnd.2.2.2 e.symm
        simp [hnd, i1, r1, a1, a2]
      | i + 2, _, ho, _ => simp [Names.exey] at ho
      | _, j + 2, _, hx => simp [Names.hxhy] at hx
    · have i0 : ∀ k, s.ds.arr .isp k s.names.hx s.names.hx = σ.isp k 0 0 := fun k => h.isp k 0 _ 0 _ rfl rfl
      have i1 : ∀ k, s.ds.arr .isp k s.names.hy s.names.hy = σ.isp k 1 1 := fun k => h.isp k 1 _ 1 _ rfl rfl
      have r2 : ∀ k, s.ds.arr .res k s.names.hz s.names.hz = σ.res k 2 2 := fun k => h.res k 2 _ 2 _ rfl rfl
      simp only [Names.all, List.nodup_cons, List.mem_cons, List.not_mem_nil, or_false, not_or, List.nodup_nil, and_true,
        not_false_eq_true] at hnd
      intro k i o j x ho hx
      simp only [Spec.errors, ← errOf_eq]
      match i, j, ho, hx with
      | 0, 0, ho, hx => cases ho; cases hx; simp [i0, r2]
      | 0, 1, ho, hx =>
        cases ho; cases hx
        have : ¬ s.names.hy = s.names.hx := fun e => hnd.2.2.2 e.symm
        simp [i1, r2, this]
      | i + 1, _, ho, _ => simp at ho
      | _, j + 2, _, hx => simp [Names.hxhy] at hx
  · intro hn
    unfold Tf.computeErr
    rw [h.hasRes_eq, h.hasIsp_eq]
    by_cases h1 : Zero σ.periods.length 2 2 σ.isp <;> by_cases h2 : Zero σ.periods.length 3 3 σ.res
    · simp [h1, h2]
    · simp [h1, h2]
    · simp [h1, h2]
    · exact absurd ⟨h1, h2⟩ hn

/-- The end of a setter. -/
theorem Rel.set_after {s' : TF P} {x : Input P} {t : AType} {σ' : Spec P} (hs : Tf.setArray s t x = .ok s') (h : Rel s' σ') :
    Rel (Tf.set s t x).1 (σ'.after t).1 ∧ (Tf.set s t x).2 = (σ'.after t).2 := by
  obtain ⟨c1, c2⟩ := h.computeErr
  unfold Tf.set Spec.after
  rw [hs]
  by_cases ht : t = .isp
  · subst ht
    simp only [h.hasRes_eq]
    by_cases h2 : Zero σ'.periods.length 3 3 σ'.res
    · simp [h2]; exact h
    · by_cases h1 : Zero σ'.periods.length 2 2 σ'.isp
      · simp [h2, h1, c2 (by tauto)]; exact h
      · obtain ⟨s2, e, r⟩ := c1 ⟨h1, h2⟩
        simp [h2, h1, e]; exact r
  · by_cases ht2 : t = .res
    · subst ht2
      simp only [h.hasIsp_eq]
      by_cases h1 : Zero σ'.periods.length 2 2 σ'.isp
      · simp [h1]; exact h
      · by_cases h2 : Zero σ'.periods.length 3 3 σ'.res
        · simp [h2, h1, c2 (by tauto)]; exact h
        · obtain ⟨s2, e, r⟩ := c1 ⟨h1, h2⟩
          simp [h2, h1, e]; exact r
    · rw [if_neg (by tauto)]
      cases t <;> first | exact absurd rfl ht | exact absurd rfl ht2 | exact ⟨h, rfl⟩

/-- One step. -/
theorem Rel.step (one : P) (h : Rel s σ) (op : Op P) :
    Rel (Tf.step one s op).1 (σ.step one op).1 ∧ (Tf.step one s op).2 = (σ.step one op).2 := by
  cases op with
  | set t a =>
    obtain ⟨h1, h2, h3⟩ := h.setArray t a
    unfold Tf.step Spec.step
    by_cases ht : t = .tfModelError
    · simp only [ht, if_true]
      have := h1 ht
      rw [ht] at this
      unfold Tf.set
      rw [this]
      exact ⟨h, rfl⟩
    · by_cases hs : (a.r, a.c) = size t ∧ a.n = σ.periods.length
      · obtain ⟨s', e, r⟩ := h3 ht hs
        simp only [ht, if_false]
        rw [if_pos hs]
        exact Rel.set_after e r
      · simp only [ht, if_false]
        rw [if_neg hs]
        unfold Tf.set
        rw [h2 ht hs]
        exact ⟨h, rfl⟩
  | setNone t => exact Rel.set_after rfl h
  | period v =>
    unfold Tf.step Spec.step setPeriod
    rw [h.periods]
    by_cases hp : σ.periods = [one]
    · simp only [hp, if_true]
      refine ⟨⟨h.nodup, rfl, rfl, ?_, ?_, ?_, ?_, ?_, ?_, ?_, ?_⟩, trivial⟩ <;> intro k i o j x _ _ <;> rfl
    · simp only [hp, if_false]
      by_cases hl : v.length = σ.periods.length
      · simp only [hl, ne_eq, not_true_eq_false, if_false, if_true]
        exact ⟨⟨h.nodup, h.labels, rfl, h.z, h.t, h.zErr, h.tErr, h.zMod, h.tMod, h.isp, h.res⟩, trivial⟩
      · simp only [hl, ne_eq, not_false_eq_true, if_true, if_false]
        exact ⟨h, trivial⟩

/-- A new object. -/
theorem Rel.new {m : Names} (hm : m.all.Nodup) (ps : List P) :
    Rel (Tf.new m ps) (Spec.zero ps) := by
  refine ⟨hm, rfl, rfl, ?_, ?_, ?_, ?_, ?_, ?_, ?_, ?_⟩ <;> intro k i o j x _ _ <;> rfl

end

/-! ## C135: arrays are kept -/

/-- A history of operations, with the exceptions raised. -/
noncomputable def run (one : P) (s : TF P) : List (Op P) → TF P × List (Option PyErr)
  | [] => (s, [])
  | op :: ops => ((run one (step one s op).1 ops).1, (step one s op).2 :: (run one (step one s op).1 ops).2)

noncomputable def Spec.run (one : P) (σ : Spec P) : List (Op P) → Spec P × List (Option PyErr)
  | [] => (σ, [])
  | op :: ops => ((Spec.run one (σ.step one op).1 ops).1, (σ.step one op).2 :: (Spec.run one (σ.step one op).1 ops).2)

theorem Rel.run {s : TF P} {σ : Spec P} (one : P) (h : Rel s σ) (ops : List (Op P)) :
    Rel (Tf.run one s ops).1 (σ.run one ops).1 ∧ (Tf.run one s ops).2 = (σ.run one ops).2 := by
  induction ops generalizing s σ with
  | nil => exact ⟨h, rfl⟩
  | cons op ops ih =>
    obtain ⟨h1, h2⟩ := h.step one op
    obtain ⟨g1, g2⟩ := ih h1
    exact ⟨g1, by simp [Tf.run, Spec.run, h2, g2]⟩

/-- C135: whatever is assigned, in any order and with exceptions in between, the properties return the arrays as if
each were a variable of its own, and raise as said in `Spec.step`. -/
theorem C135_partial (one : P) {m : Names} (hm : m.all.Nodup) (ps : List P) (ops : List (Op P)) :
    (run one (new m ps) ops).2 = ((Spec.zero ps).run one ops).2 ∧
    (run one (new m ps) ops).1.ds.periods = ((Spec.zero ps).run one ops).1.periods ∧
    ∀ t, get (run one (new m ps) ops).1 t = .ok (((Spec.zero ps).run one ops).1.get t) := by
  obtain ⟨h1, h2⟩ := (Rel.new hm ps).run one ops
  exact ⟨h2, h1.periods, fun t => h1.get_eq t⟩

/-- The state after a history from a new object. -/
def Reachable (one : P) (s : TF P) : Prop := ∃ m ps ops, m.all.Nodup ∧ s = (run one (new m ps) ops).1

theorem Reachable.rel {one : P} {s : TF P} (h : Reachable one s) : ∃ σ, Rel s σ := by
  obtain ⟨m, ps, ops, hm, rfl⟩ := h
  exact ⟨_, ((Rel.new hm ps).run one ops).1⟩

/-- The claim: an array of the right shape can be assigned and is returned. -/
def C135_claim : Prop := ∀ (s : TF ℚ) (t : AType) (a : Nd), Reachable 1 s → (a.r, a.c) = size t → a.n = s.ds.periods.length →
  ¬ ZeroNan a.n a.r a.c a.val → (set s t (.nd a)).2 = none ∧ get (set s t (.nd a)).1 t = .ok (some (table a.n a.r a.c a.val))

/-- The usual names. -/
def usual : Names := { ex := "ex".toList, ey := "ey".toList, hx := "hx".toList, hy := "hy".toList, hz := "hz".toList }

theorem usual_nodup : usual.all.Nodup := by decide

/-- An array of ones. -/
def ones (n r c : ℕ) : Nd := { n := n, r := r, c := c, val := fun _ _ _ => some 1 }

theorem ones_ne {n r c : ℕ} (hn : 0 < n) (hr : 0 < r) (hc : 0 < c) : ¬ ZeroNan n r c (ones n r c).val := by
  intro h
  rcases h 0 hn 0 hr 0 hc with h | h <;> simp [ones] at h

/-- C135 fails: the model errors of the whole transfer function cannot be assigned. -/
theorem C135_refuted : ¬ C135_claim := by
  intro h
  have h1 := h (new usual [1]) .tfModelError (ones 1 3 2) ⟨usual, [1], [], usual_nodup, rfl⟩ rfl rfl (ones_ne (n := 1) (r := 3) (c := 2) (by omega) (by omega) (by omega))
  simp [set, setArray, chIn] at h1

/-- C135 fails: errors assigned before the impedance are not returned. -/
theorem C135_order_refuted : ¬ C135_claim := by
  intro h
  have h1 := (h (new usual [2]) .impedanceError (ones 1 2 2) ⟨usual, [2], [], usual_nodup, rfl⟩ rfl rfl (ones_ne (n := 1) (r := 2) (c := 2) (by omega) (by omega) (by omega))).2
  have h2 := ((Rel.new usual_nodup [(2 : ℚ)]).step 1 (.set .impedanceError (ones 1 2 2))).1.get_eq .impedanceError
  have h3 : (set (new usual [(2 : ℚ)]) .impedanceError (.nd (ones 1 2 2))).1 = (step 1 (new usual [(2 : ℚ)]) (.set .impedanceError (ones 1 2 2))).1 := rfl
  rw [h3, h2] at h1
  have hz : Zero 1 2 2 (fun _ _ _ => some 0) := fun _ _ _ _ _ _ => rfl
  simp [Spec.step, size, ones, Spec.zero, Spec.store, Spec.after, Spec.get, hz] at h1

/-- Arrays of data (not errors) that are not all zero are returned once assigned. -/
theorem C135_set_get_partial {one : P} {s : TF P} (hs : Reachable one s) (t : AType)
    (ht : t = .impedance ∨ t = .tipper ∨ t = .tf ∨ t = .isp ∨ t = .res) (a : Nd)
    (ha : (a.r, a.c) = size t) (hn : a.n = s.ds.periods.length) (hz : ¬ ZeroNan a.n a.r a.c a.val) :
    (set s t (.nd a)).2 = none ∧ get (set s t (.nd a)).1 t = .ok (some (table a.n a.r a.c a.val)) := by
  obtain ⟨σ, h⟩ := hs.rel
  obtain ⟨h1, h2⟩ := h.step one (.set t a)
  have e1 : (step one s (.set t a)) = set s t (.nd a) := rfl
  rw [e1] at h1 h2
  have hz' : ¬ Zero a.n a.r a.c a.val := fun hh => hz (fun k hk i hi j hj => .inl (hh k hk i hi j hj))
  rw [h1.get_eq t, h2]
  have hp := h.periods
  have hn' : a.n = σ.periods.length := by rw [hn, hp]
  have e2 : (σ.step one (.set t a)) = (σ.store t a.val).after t := by
    unfold Spec.step
    have : t ≠ .tfModelError := by rcases ht with rfl | rfl | rfl | rfl | rfl <;> decide
    simp only [this, if_false]
    rw [if_pos ⟨ha, hn'⟩]
  rw [e2]
  have har : a.r = (size t).1 := congrArg Prod.fst ha
  have hac : a.c = (size t).2 := congrArg Prod.snd ha
  rw [har, hac, hn'] at hz hz' ⊢
  rcases ht with rfl | rfl | rfl | rfl | rfl
  · simp only [size] at hz'
    simp [Spec.after, Spec.store, Spec.get, hz', size]
  · simp only [size] at hz
    simp [Spec.after, Spec.store, Spec.get, hz, size]
  · have hrows : table σ.periods.length 3 2 (rows a.val (fun k _ j => a.val k 2 j)) = table σ.periods.length 3 2 a.val := by
      unfold table
      refine List.map_congr_left fun k _ => List.map_congr_left fun i hi => List.map_congr_left fun j _ => ?_
      unfold rows
      split
      · rfl
      · have : i = 2 := by simp at hi; omega
        rw [this]
    have hzr : ¬ Zero σ.periods.length 3 2 (rows a.val (fun k _ j => a.val k 2 j)) := by
      rw [← allZero_table, hrows, allZero_table]
      exact hz'
    simp [Spec.after, Spec.store, Spec.get, hzr, hrows, size]
  · simp only [size] at hz'
    by_cases hr : Zero σ.periods.length 3 3 σ.res
    · simp [Spec.after, Spec.store, Spec.get, hz', size, hr]
    · simp [Spec.after, Spec.store, Spec.get, hz', size, hr, Spec.errors]
  · simp only [size] at hz'
    by_cases hr : Zero σ.periods.length 2 2 σ.isp
    · simp [Spec.after, Spec.store, Spec.get, hz', size, hr]
    · simp [Spec.after, Spec.store, Spec.get, hz', size, hr, Spec.errors]

/-! ## C136: periods -/

/-- The claim: assigning as many periods as there are keeps the arrays. -/
def C136_claim : Prop := ∀ (s : TF ℚ) (v : List ℚ), Reachable 1 s → v.length = s.ds.periods.length →
  (setPeriod 1 s v).2 = none ∧ (setPeriod 1 s v).1.ds.periods = v ∧ ∀ t, get (setPeriod 1 s v).1 t = get s t

/-- C136 fails for a single period of one second, even if it is assigned again: all arrays are cleared. -/
theorem C136_refuted : ¬ C136_claim := by
  intro h
  let s := (step 1 (new usual [(1 : ℚ)]) (.set .impedance (ones 1 2 2))).1
  have hr : Reachable 1 s := ⟨usual, [1], [.set .impedance (ones 1 2 2)], usual_nodup, rfl⟩
  have h0 : Rel s _ := ((Rel.new usual_nodup [(1 : ℚ)]).step 1 (.set .impedance (ones 1 2 2))).1
  have h1 : Rel (setPeriod 1 s [1]).1 _ := (h0.step 1 (.period [1])).1
  have hc := (h s [1] hr (by rw [h0.periods]; rfl)).2.2 .impedance
  rw [h0.get_eq, h1.get_eq] at hc
  have hz : Zero 1 2 2 (fun _ _ _ => some 0) := fun _ _ _ _ _ _ => rfl
  have hz' : ¬ Zero 1 2 2 (fun _ _ _ => some 1) := fun hh => by simpa using hh 0 (by omega) 0 (by omega) 0 (by omega)
  simp [Spec.step, size, ones, Spec.zero, Spec.store, Spec.after, Spec.get, hz, hz'] at hc

/-- C136 for all other periods; another number of them is refused. -/
theorem C136_partial {one : P} {s : TF P} (hs : Reachable one s) (v : List P) (h1 : s.ds.periods ≠ [one]) :
    (v.length = s.ds.periods.length → (setPeriod one s v).2 = none ∧ (setPeriod one s v).1.ds.periods = v ∧
      ∀ t, get (setPeriod one s v).1 t = get s t) ∧
    (v.length ≠ s.ds.periods.length → setPeriod one s v = (s, some .valueError)) := by
  obtain ⟨σ, h⟩ := hs.rel
  constructor
  · intro hl
    have e : setPeriod one s v = ({ s with ds := { s.ds with periods := v } }, none) := by
      unfold setPeriod
      rw [if_neg h1, if_neg (by simp [hl])]
    obtain ⟨r1, r2⟩ := h.step one (.period v)
    have e' : step one s (.period v) = setPeriod one s v := rfl
    rw [e'] at r1 r2
    refine ⟨by rw [e], by rw [e], fun t => ?_⟩
    rw [r1.get_eq, h.get_eq]
    have h1' : σ.periods ≠ [one] := by rw [← h.periods]; exact h1
    have hl' : v.length = σ.periods.length := by rw [← h.periods]; exact hl
    have e2 : σ.step one (.period v) = ({ σ with periods := v }, none) := by
      simp [Spec.step, h1', hl']
    rw [e2]
    cases t <;> simp only [Spec.get, hl']
  · intro hl
    unfold setPeriod
    rw [if_neg h1, if_pos hl]

/-! ## C137: errors from covariances -/

/-- C137: when both covariances have been assigned, one after the other in either order, the errors are the roots of
residual variance times inverse signal power, whatever was assigned before. -/
theorem C137_errors {one : P} {s : TF P} (hs : Reachable one s) (p e : Nd) (hp : (p.r, p.c) = (2, 2)) (he : (e.r, e.c) = (3, 3))
    (hpn : p.n = s.ds.periods.length) (hen : e.n = s.ds.periods.length) (hp0 : ¬ ZeroNan p.n 2 2 p.val) (he0 : ¬ ZeroNan e.n 3 3 e.val)
    (order : Bool) :
    let ops := if order then [Op.set .isp p, .set .res e] else [Op.set .res e, .set .isp p]
    (run one s ops).2.getLast? = some none ∧
    (get s .impedance ≠ .ok none → get (run one s ops).1 .impedanceError =
      .ok (some (table p.n 2 2 (fun k i j => rootOf (e.val k i i) (p.val k j j))))) ∧
    (get s .tipper ≠ .ok none → get (run one s ops).1 .tipperError =
      .ok (some (table p.n 1 2 (fun k _ j => rootOf (e.val k 2 2) (p.val k j j))))) ∧
    get (run one s ops).1 .impedance = get s .impedance ∧ get (run one s ops).1 .tipper = get s .tipper := by
  intro ops
  obtain ⟨σ, h⟩ := hs.rel
  obtain ⟨r1, r2⟩ := h.run one ops
  have hz1 : ¬ Zero σ.periods.length 2 2 p.val := by
    rw [← h.periods, ← hpn]
    exact fun hh => hp0 (fun k hk i hi j hj => .inl (hh k hk i hi j hj))
  have hz2 : ¬ Zero σ.periods.length 3 3 e.val := by
    rw [← h.periods, ← hen]
    exact fun hh => he0 (fun k hk i hi j hj => .inl (hh k hk i hi j hj))
  have hpn' : p.n = σ.periods.length := by rw [hpn, h.periods]
  have hen' : e.n = σ.periods.length := by rw [hen, h.periods]
  have key : (σ.run one ops).2.getLast? = some none ∧ (σ.run one ops).1.periods = σ.periods ∧ (σ.run one ops).1.z = σ.z ∧
      (σ.run one ops).1.t = σ.t ∧ (σ.run one ops).1.zErr = (fun k i j => rootOf (e.val k i i) (p.val k j j)) ∧
      (σ.run one ops).1.tErr = (fun k _ j => rootOf (e.val k 2 2) (p.val k j j)) := by
    cases order
    · simp only [ops]
      by_cases hr : Zero σ.periods.length 2 2 σ.isp
      · simp [Spec.run, Spec.step, size, he, hp, hpn', hen', Spec.store, Spec.after, Spec.errors, hz1, hz2, hr]
      · simp [Spec.run, Spec.step, size, he, hp, hpn', hen', Spec.store, Spec.after, Spec.errors, hz1, hz2, hr]
    · simp only [ops]
      by_cases hr : Zero σ.periods.length 3 3 σ.res
      · simp [Spec.run, Spec.step, size, he, hp, hpn', hen', Spec.store, Spec.after, Spec.errors, hz1, hz2, hr]
      · simp [Spec.run, Spec.step, size, he, hp, hpn', hen', Spec.store, Spec.after, Spec.errors, hz1, hz2, hr]
  obtain ⟨k1, k2, k3, k4, k5, k6⟩ := key
  refine ⟨by rw [r2, k1], ?_, ?_, ?_, ?_⟩
  · intro hne
    rw [h.get_eq] at hne
    rw [r1.get_eq]
    simp only [Spec.get, k2, k3, k5, hpn'] at hne ⊢
    by_cases hz : Zero σ.periods.length 2 2 σ.z
    · simp [hz] at hne
    · simp [hz]
  · intro hne
    rw [h.get_eq] at hne
    rw [r1.get_eq]
    simp only [Spec.get, k2, k4, k6, hpn'] at hne ⊢
    by_cases hz : ZeroNan σ.periods.length 1 2 σ.t
    · simp [hz] at hne
    · simp [hz]
  · rw [r1.get_eq, h.get_eq]
    simp only [Spec.get, k2, k3]
  · rw [r1.get_eq, h.get_eq]
    simp only [Spec.get, k2, k4]

/-! ## C138: labelled arrays -/

/-- The outputs of the arrays, in the order of the properties. -/
def outsOf (m : Names) : AType → List Str
  | .impedance | .impedanceError | .impedanceModelError => [m.ex, m.ey]
  | .tipper | .tipperError | .tipperModelError => [m.hz]
  | .tf | .tfError | .tfModelError | .res => [m.ex, m.ey, m.hz]
  | .isp => [m.hx, m.hy]

/-- The inputs of the arrays, in the order of the properties. -/
def insOf (m : Names) : AType → List Str
  | .res => [m.ex, m.ey, m.hz]
  | _ => [m.hx, m.hy]

/-- `f` has the numbers of `a`, by label, at the places the properties use. -/
def Arranged (m : Names) (t : AType) (a : Da P) (f : ℕ → ℕ → ℕ → Val) : Prop :=
  ∀ k i j x y o l, (outsOf m t)[i]? = some o → (insOf m t)[j]? = some l → a.outs[x]? = some o → a.ins[y]? = some l →
    f k i j = a.val k x y

/-- An array without labels. -/
def plain (t : AType) (n : ℕ) (f : ℕ → ℕ → ℕ → Val) : Nd := { n := n, r := (size t).1, c := (size t).2, val := f }

theorem pos_lt {l : List Str} {x : Str} {i : ℕ} (h : pos l x = some i) : l[i]? = some x := by
  unfold pos at h
  rw [List.findIdx?_eq_some_iff_getElem] at h
  obtain ⟨hi, hx, _⟩ := h
  rw [List.getElem?_eq_getElem hi]
  simpa using hx

theorem setLoc_congr (d : DS P) (v : Var) (outs ins : List Str) (f g : ℕ → ℕ → ℕ → Val)
    (h : ∀ k i j o l, outs[i]? = some o → ins[j]? = some l → f k i j = g k i j) :
    setLoc d v outs ins f = setLoc d v outs ins g := by
  unfold setLoc
  split
  · congr 2
    funext w k o i
    split
    · rfl
    · split
      · rename_i x y hx hy
        exact h k x y o i (pos_lt hx) (pos_lt hy)
      · rfl
  · rfl

theorem reindex_eq {m : Names} {t : AType} {a : Da P} {f : ℕ → ℕ → ℕ → Val} (hf : Arranged m t a f)
    (ho : (outsOf m t).Perm a.outs) (hi : (insOf m t).Perm a.ins) (hn1 : (outsOf m t).Nodup) (hn2 : (insOf m t).Nodup)
    (k i j : ℕ) (o l : Str) (h1 : (outsOf m t)[i]? = some o) (h2 : (insOf m t)[j]? = some l) :
    reindex a (outsOf m t) (insOf m t) k i j = f k i j := by
  have m1 : o ∈ a.outs := ho.mem_iff.1 (List.mem_of_getElem? h1)
  have m2 : l ∈ a.ins := hi.mem_iff.1 (List.mem_of_getElem? h2)
  obtain ⟨x, hx⟩ := List.mem_iff_getElem?.1 m1
  obtain ⟨y, hy⟩ := List.mem_iff_getElem?.1 m2
  unfold reindex
  rw [List.getD_eq_getElem?_getD, List.getD_eq_getElem?_getD, h1, h2, Option.getD_some, Option.getD_some,
    pos_self (ho.nodup_iff.1 hn1) hx, pos_self (hi.nodup_iff.1 hn2) hy]
  exact (hf k i j x y o l h1 h2 hx hy).symm

theorem chOut_eq {m : Names} {t : AType} (ht : t ≠ .tfModelError) :
    chOut m t = some (outsOf m t) ∧ chIn m t = some (insOf m t) ∧ shape t = some (size t) := by
  cases t <;> first | exact absurd rfl ht | exact ⟨rfl, rfl, rfl⟩

theorem outs_nodup {m : Names} (hm : m.all.Nodup) (t : AType) :
    (outsOf m t).Nodup ∧ (insOf m t).Nodup ∧ (∀ x ∈ outsOf m t, x ∈ m.all) ∧ (∀ x ∈ insOf m t, x ∈ m.all) := by
  have h := hm
  simp only [Names.all, List.nodup_cons, List.mem_cons, not_or] at h
  obtain ⟨⟨h1, h2, h3, h4, _⟩, ⟨h5, h6, h7, _⟩, ⟨h8, h9, _⟩, ⟨h10, _⟩, _⟩ := h
  refine ⟨?_, ?_, ?_, ?_⟩ <;> cases t <;> simp_all [outsOf, insOf, Names.all]

theorem known_all {d : DS P} {l : List Str} (h : ∀ x ∈ l, x ∈ d.labels) : known d l = true := by
  simp only [known, List.all_eq_true]
  intro x hx
  simpa using h x hx

/-- The object starts anew for a labelled array. -/
def Fresh (s : TF P) : Prop := s.ds.periods.length = 1 ∧ get s .impedance = .ok none ∧ get s .tipper = .ok none

theorem guarded_none {b : Except PyErr Bool} {x : Except PyErr (List (List (List Val)))} (hx : ∀ e, x ≠ .error e) :
    guarded b x = .ok none ↔ b = .ok false := by
  rcases b with _ | b
  · simp [guarded]
  · cases b
    · simp [guarded]
    · cases x
      · exact absurd rfl (hx _)
      · simp [guarded]

theorem Rel.validDa_eq {s : TF P} {σ : Spec P} (h : Rel s σ) {t : AType} {a : Da P}
    (ho : (outsOf s.names t).Perm a.outs) (hi : (insOf s.names t).Perm a.ins) :
    validDa s (outsOf s.names t) (insOf s.names t) a =
      if Fresh s then .ok (initDs s.names a.periods)
      else if s.ds.periods.length = a.periods.length then .ok s.ds else .error .valueError := by
  have p1 : (outsOf s.names t).isPerm a.outs = true := List.isPerm_iff.2 ho
  have p2 : (insOf s.names t).isPerm a.ins = true := List.isPerm_iff.2 hi
  unfold validDa
  rw [p1, p2]
  simp only [Bool.true_eq_false, if_false]
  have hz := h.hasZ_eq
  have ht := h.hasT_eq
  have gz := h.get_eq .impedance
  have gt := h.get_eq .tipper
  unfold Fresh
  rw [gz, gt, hz, ht]
  by_cases h1 : s.ds.periods.length = 1
  · by_cases c1 : Zero σ.periods.length 2 2 σ.z <;> by_cases c2 : ZeroNan σ.periods.length 1 2 σ.t <;>
      simp [h1, c1, c2, Spec.get]
  · simp [h1]

/-- C138: an array with labels, in whatever order, is the same as an array without labels whose rows and columns
are in the order of the properties. An object of one period without impedance and tipper takes the periods of the array
and starts anew; on others the periods have to be the same. -/
theorem C138_labels_partial {one : P} {s : TF P} (hs : Reachable one s) {t : AType} (ht : t ≠ .tfModelError) (a : Da P)
    (ho : (outsOf s.names t).Perm a.outs) (hi : (insOf s.names t).Perm a.ins) (f : ℕ → ℕ → ℕ → Val) (hf : Arranged s.names t a f) :
    (Fresh s → set s t (.da a) = set (new s.names a.periods) t (.nd (plain t a.periods.length f))) ∧
    (¬ Fresh s → s.ds.periods = a.periods → set s t (.da a) = set s t (.nd (plain t a.periods.length f))) ∧
    (¬ Fresh s → s.ds.periods ≠ a.periods → (set s t (.da a)).1 = s ∧ (set s t (.da a)).2 ≠ none) := by
  obtain ⟨σ, h⟩ := hs.rel
  obtain ⟨c1, c2, c3⟩ := chOut_eq (m := s.names) ht
  obtain ⟨n1, n2, n3, n4⟩ := outs_nodup h.nodup t
  have hv := h.validDa_eq ho hi
  have hr := reindex_eq hf ho hi n1 n2
  refine ⟨fun hF => ?_, fun hF hp => ?_, fun hF hp => ?_⟩
  · have e : setArray s t (.da a) = setArray (new s.names a.periods) t (.nd (plain t a.periods.length f)) := by
      simp only [setArray, c1, c2, new]
      rw [hv, if_pos hF]
      have k1 : known (initDs s.names a.periods) (outsOf s.names t) = true := known_all n3
      have k2 : known (initDs s.names a.periods) (insOf s.names t) = true := known_all n4
      simp only [k1, k2, Bool.and_self, if_true]
      rw [if_pos (by rfl), setLoc_congr _ _ _ _ _ f hr]
      simp [validNd, c3, plain, initDs]
    unfold set
    rw [e]
    have : ∃ s', setArray (new s.names a.periods) t (.nd (plain t a.periods.length f)) = .ok s' := by
      simp only [setArray, c1, c2, new]
      have k1 : known (initDs s.names a.periods) (outsOf s.names t) = true := known_all n3
      have k2 : known (initDs s.names a.periods) (insOf s.names t) = true := known_all n4
      have pl : (initDs s.names a.periods).periods.length = a.periods.length := rfl
      simp [validNd, c3, plain, setLoc, k1, k2, pl]
    obtain ⟨s', hs'⟩ := this
    rw [hs']
  · have e : setArray s t (.da a) = setArray s t (.nd (plain t a.periods.length f)) := by
      simp only [setArray, c1, c2]
      rw [hv, if_neg hF, if_pos (by rw [hp])]
      have k1 : known s.ds (outsOf s.names t) = true := known_all (by rw [h.labels]; exact n3)
      have k2 : known s.ds (insOf s.names t) = true := known_all (by rw [h.labels]; exact n4)
      simp only [k1, k2, Bool.and_self, if_true]
      rw [if_pos hp, setLoc_congr _ _ _ _ _ f hr]
      simp [validNd, c3, plain, hp]
    unfold set
    rw [e]
  · have e : ∃ x, setArray s t (.da a) = .error x := by
      simp only [setArray, c1, c2]
      rw [hv, if_neg hF]
      by_cases hl : s.ds.periods.length = a.periods.length
      · rw [if_pos hl]
        have k1 : known s.ds (outsOf s.names t) = true := known_all (by rw [h.labels]; exact n3)
        have k2 : known s.ds (insOf s.names t) = true := known_all (by rw [h.labels]; exact n4)
        simp [k1, k2, hp]
      · rw [if_neg hl]
        exact ⟨_, rfl⟩
    obtain ⟨x, e⟩ := e
    unfold set
    rw [e]
    simp

/-- Wrong labels are refused and change nothing. -/
theorem C138_refuse_partial (s : TF P) {t : AType} (ht : t ≠ .tfModelError) (a : Da P)
    (h : ¬ ((outsOf s.names t).Perm a.outs ∧ (insOf s.names t).Perm a.ins)) : set s t (.da a) = (s, some .valueError) := by
  obtain ⟨c1, c2, c3⟩ := chOut_eq (m := s.names) ht
  have e : setArray s t (.da a) = .error .valueError := by
    simp only [setArray, c1, c2]
    have : validDa s (outsOf s.names t) (insOf s.names t) a = .error .valueError := by
      unfold validDa
      by_cases p1 : (outsOf s.names t).Perm a.outs
      · have p2 : ¬ (insOf s.names t).Perm a.ins := fun hh => h ⟨p1, hh⟩
        rw [if_neg (by simpa using List.isPerm_iff.2 p1), if_pos (by rw [← Bool.not_eq_true, List.isPerm_iff]; exact p2)]
      · rw [if_pos (by rw [← Bool.not_eq_true, List.isPerm_iff]; exact p1)]
    rw [this]
  unfold set
  rw [e]

/-- The claim: a labelled array for the periods at hand changes no other array. -/
def C138_claim : Prop := ∀ (s : TF ℚ) (t u : AType) (a : Da ℚ), Reachable 1 s → t ≠ .tfModelError →
  (outsOf s.names t).Perm a.outs → (insOf s.names t).Perm a.ins → s.ds.periods = a.periods →
  (t = .isp ∧ u = .res) → get (set s t (.da a)).1 u = get s u

/-- C138 fails on objects of one period: the residual covariance is lost when the signal powers are assigned
before impedance or tipper. -/
theorem C138_refuted : ¬ C138_claim := by
  intro h
  let s := (step 1 (new usual [(2 : ℚ)]) (.set .res (ones 1 3 3))).1
  have hr : Reachable 1 s := ⟨usual, [2], [.set .res (ones 1 3 3)], usual_nodup, rfl⟩
  have h0 : Rel s _ := ((Rel.new usual_nodup [(2 : ℚ)]).step 1 (.set .res (ones 1 3 3))).1
  have hz : Zero 1 2 2 (fun _ _ _ => some 0) := fun _ _ _ _ _ _ => rfl
  have hz3 : Zero 1 3 3 (fun _ _ _ => some 0) := fun _ _ _ _ _ _ => rfl
  have hzn : ZeroNan 1 1 2 (fun _ _ _ => some 0) := fun _ _ _ _ _ _ => .inl rfl
  have hz' : ¬ Zero 1 3 3 (fun _ _ _ => some 1) := fun hh => by simpa using hh 0 (by omega) 0 (by omega) 0 (by omega)
  have hz2 : ¬ Zero 1 2 2 (fun _ _ _ => some 1) := fun hh => by simpa using hh 0 (by omega) 0 (by omega) 0 (by omega)
  have e0 : get s .res = .ok (some (table 1 3 3 (fun _ _ _ => some 1))) := by
    rw [h0.get_eq]
    simp [Spec.step, size, ones, Spec.zero, Spec.store, Spec.after, Spec.get, hz, hz']
  have nm : s.names = usual := by
    have : s = (set (new usual [(2 : ℚ)]) .res (.nd (ones 1 3 3))).1 := rfl
    rw [this]
    have hI : hasIsp (new usual [(2 : ℚ)]) = .ok false := by
      rw [(Rel.new usual_nodup [(2 : ℚ)]).hasIsp_eq]
      simp [Spec.zero, hz]
    simp only [set]
    split
    · rfl
    · rename_i s' hs'
      have : s'.names = usual := by
        simp only [setArray, chIn, chOut, new] at hs'
        split at hs'
        · cases hs'
        · split at hs'
          · cases hs'
          · injection hs' with hs'
            rw [← hs']
      split
      · exact this
      · exact this
      · split
        · rename_i s'' hs''
          unfold computeErr at hs''
          split at hs'' <;> first | cases hs'' | skip
          exact this
        · exact this
  have hp : s.ds.periods = [2] := by
    rw [h0.periods]
    simp [Spec.step, size, ones, Spec.zero, Spec.store, Spec.after, hz]
  have hF : Fresh s := by
    refine ⟨by rw [hp]; rfl, ?_, ?_⟩
    · rw [h0.get_eq]
      simp [Spec.step, size, ones, Spec.zero, Spec.store, Spec.after, Spec.get, hz]
    · rw [h0.get_eq]
      simp [Spec.step, size, ones, Spec.zero, Spec.store, Spec.after, Spec.get, hz, hzn]
  let a : Da ℚ := { periods := [2], outs := usual.hxhy, ins := usual.hxhy, val := fun _ _ _ => some 1 }
  have po : (outsOf s.names .isp).Perm a.outs := by rw [nm]; exact List.Perm.refl _
  have pi : (insOf s.names .isp).Perm a.ins := by rw [nm]; exact List.Perm.refl _
  have hc := h s .isp .res a hr (by decide) po pi hp ⟨rfl, rfl⟩
  have hl := (C138_labels_partial hr (t := .isp) (by decide) a po pi (fun _ _ _ => some 1) (fun _ _ _ _ _ _ _ _ _ _ _ => rfl)).1 hF
  have h1 : Rel (set (new s.names a.periods) .isp (.nd (plain .isp a.periods.length (fun _ _ _ => some 1)))).1 _ :=
    ((Rel.new h0.nodup [(2 : ℚ)]).step 1 (.set .isp (plain .isp 1 (fun _ _ _ => some 1)))).1
  rw [hl, h1.get_eq, e0] at hc
  simp [Spec.step, size, plain, Spec.zero, Spec.store, Spec.after, Spec.get, hz3, hz2] at hc

/-! ## C139: channel names -/

/-- The claim: the arrays are kept when the channels are given other names. -/
def C139_claim : Prop := ∀ (s : TF ℚ) (m : Names), Reachable 1 s → m.all.Nodup → ∀ t, get (setNames s m) t = get s t

/-- C139: with names none of which was used before, impedance, tipper and transfer function with their errors are
`None`, the covariances raise `KeyError`, and no array can be assigned; the old names bring the old arrays back. -/
theorem C139_partial {one : P} {s : TF P} (hs : Reachable one s) (m : Names) (hd : ∀ x ∈ m.all, x ∉ s.names.all) :
    (∀ t, t ≠ .isp → t ≠ .res → get (setNames s m) t = .ok none) ∧ get (setNames s m) .isp = .error .keyError ∧
    get (setNames s m) .res = .error .keyError ∧
    (∀ t a, (set (setNames s m) t (.nd a)).1 = setNames s m ∧ (set (setNames s m) t (.nd a)).2 ≠ none) ∧
    (∀ t, get (setNames (setNames s m) s.names) t = get s t) := by
  obtain ⟨σ, h⟩ := hs.rel
  have l1 : ∀ x ∈ m.all, s.ds.labels.contains x = false := by
    intro x hx
    rw [h.labels]
    simpa using hd x hx
  have a1 := l1 m.ex (by simp [Names.all])
  have a2 := l1 m.ey (by simp [Names.all])
  have a3 := l1 m.hz (by simp [Names.all])
  have a4 := l1 m.hx (by simp [Names.all])
  have b1 : m.ex ∉ s.ds.labels := by simpa using a1
  have b3 : m.hz ∉ s.ds.labels := by simpa using a3
  have b4 : m.hx ∉ s.ds.labels := by simpa using a4
  have e1 : hasZ (setNames s m) = .ok false := by
    unfold hasZ setNames
    simp only [a1, a2]
    rfl
  have e2 : hasT (setNames s m) = .ok false := by
    unfold hasT setNames
    simp only [a3]
    rfl
  have e3 : hasTf (setNames s m) = .ok false := by
    unfold hasTf setNames
    simp only [a1, a2, a3]
    rfl
  have e4 : hasIsp (setNames s m) = .error .keyError := by
    simp [hasIsp, setNames, getLoc, known, Names.hxhy, b4]
  have e5 : hasRes (setNames s m) = .error .keyError := by
    simp [hasRes, setNames, getLoc, known, Names.exeyhz, b1]
  refine ⟨?_, ?_, ?_, ?_, fun t => rfl⟩
  · intro t h1 h2
    cases t <;> first | exact absurd rfl h1 | exact absurd rfl h2 | skip
    all_goals simp only [get, e1, e2, e3, guarded]
  · simp only [get, e4, guarded]
  · simp only [get, e5, guarded]
  · intro t a
    have : ∃ e, setArray (setNames s m) t (.nd a) = .error e := by
      by_cases ht : t = .tfModelError
      · subst ht
        exact ⟨.keyError, by simp [setArray, chIn]⟩
      · obtain ⟨c1, c2, c3⟩ := chOut_eq (m := m) ht
        have k : known s.ds (outsOf m t) = false := by
          cases t <;> simp [known, outsOf, b1, b3, b4]
        have n : (setNames s m).names = m := rfl
        have d : (setNames s m).ds = s.ds := rfl
        simp only [setArray, n, d, c1, c2]
        rcases validNd (setNames s m) t a with e | _
        · exact ⟨e, rfl⟩
        · simp [setLoc, k]
    obtain ⟨e, he⟩ := this
    unfold set
    rw [he]
    simp

/-- Other names. -/
def others : Names := { ex := "e1".toList, ey := "e2".toList, hx := "bx".toList, hy := "by".toList, hz := "bz".toList }

theorem C139_refuted : ¬ C139_claim := by
  intro h
  have hr : Reachable 1 (new usual [(2 : ℚ)]) := ⟨usual, [2], [], usual_nodup, rfl⟩
  have h1 := h _ others hr (by decide) .isp
  rw [(C139_partial hr others (by decide)).2.1, (Rel.new usual_nodup [(2 : ℚ)]).get_eq] at h1
  cases h1

/-- Names given to a default object are used from the assignment of periods on. -/
theorem C139_default_partial (one : P) (m m' : Names) (v : List P) :
    setPeriod one (setNames (new m [one]) m') v = (new m' v, none) := by
  simp [setPeriod, setNames, new, initDs]

/-! ## Cases -/

/-- A history: an impedance for two periods, a wrong shape refused, covariances giving errors. -/
example : (run (1 : ℚ) (new usual [1]) [.period [2, 3], .set .impedance (ones 2 2 2), .set .tipper (ones 2 2 2), .set .tfModelError (ones 2 3 2)]).2 =
    [none, none, some .valueError, some .keyError] := by
  rw [(C135_partial 1 usual_nodup [1] _).1]
  simp [Spec.run, Spec.step, Spec.zero, Spec.store, Spec.after, size, ones]

example : get (set (new usual [(2 : ℚ)]) .tipper (.nd (ones 1 1 2))).1 .tipper = .ok (some [[[some 1, some 1]]]) := by
  rw [(C135_set_get_partial (one := 1) (s := new usual [(2 : ℚ)]) ⟨usual, [2], [], usual_nodup, rfl⟩ .tipper (.inr (.inl rfl)) (ones 1 1 2) rfl rfl
    (ones_ne (n := 1) (r := 1) (c := 2) (by omega) (by omega) (by omega))).2]
  simp [table, ones, List.range_succ]

end Verif.Tf
