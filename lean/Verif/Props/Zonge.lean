import Verif.Model.Zonge
import Verif.Lemmas.Sorted
import Verif.Lemmas.OD
import Mathlib.Analysis.SpecialFunctions.Complex.Arg
import Mathlib.Tactic.Linarith
import Mathlib.Tactic.FieldSimp

/-!
# AVG files: the table and the arrays
-/

namespace Verif.Zonge
open Verif.Text Classical

/-! ## Where things should be -/

/-- Axis of a letter: `x` is north (0) if `z` is positive down, and east (1) if it is positive up. -/
def axis (up : Bool) : Char → Option (Fin 2)
  | 'x' => some (if up then 1 else 0)
  | 'y' => some (if up then 0 else 1)
  | _ => none

/-- The place in the arrays of a component: `zab` relates the electric field along `a` to the magnetic field along `b`, `zabr` is the same
with remote reference, `tza` the vertical magnetic field to that along `a`. -/
def place (up : Bool) : Str → Option (Fin 2 × Fin 2)
  | ['z', a, b] => (axis up a).bind fun i => (axis up b).map fun j => (i, j)
  | ['z', a, b, 'r'] => (axis up a).bind fun i => (axis up b).map fun j => (i, j)
  | ['t', 'z', a] => (axis up a).map fun j => (0, j)
  | _ => none

/-- A row of the impedance. -/
def isZ (r : Row) : Prop := r.comp.head? = some 'z'

/-- A row of the tipper. -/
def isT (r : Row) : Prop := r.comp.head? = some 't'

def up : ZPos → Bool
  | .up => true
  | _ => false

theorem axis_some {u : Bool} {c : Char} {i : Fin 2} (h : axis u c = some i) : c = 'x' ∨ c = 'y' := by
  unfold axis at h
  split at h
  · exact .inl rfl
  · exact .inr rfl
  · cases h

theorem place_some {u : Bool} {c : Str} {ij : Fin 2 × Fin 2} (h : place u c = some ij) : c ∈ OD.keys indexDown := by
  unfold place at h
  split at h
  · rename_i a b
    cases ha : axis u a with
    | none => rw [ha] at h; cases h
    | some i =>
      cases hb : axis u b with
      | none => rw [ha, hb] at h; cases h
      | some j =>
        rcases axis_some ha with rfl | rfl <;> rcases axis_some hb with rfl | rfl <;> decide
  · rename_i a b
    cases ha : axis u a with
    | none => rw [ha] at h; cases h
    | some i =>
      cases hb : axis u b with
      | none => rw [ha, hb] at h; cases h
      | some j =>
        rcases axis_some ha with rfl | rfl <;> rcases axis_some hb with rfl | rfl <;> decide
  · rename_i a
    cases ha : axis u a with
    | none => rw [ha] at h; cases h
    | some i => rcases axis_some ha with rfl | rfl <;> decide
  · cases h

theorem place_down (c : Str) : OD.get? indexDown c = place false c := by
  by_cases h : c ∈ OD.keys indexDown
  · revert c
    decide
  · rw [(OD.get?_eq_none_iff _ _).2 h]
    cases hp : place false c with
    | none => rfl
    | some ij => exact absurd (place_some hp) h

theorem place_up (c : Str) : OD.get? indexUp c = place true c := by
  by_cases h : c ∈ OD.keys indexUp
  · revert c
    decide
  · rw [(OD.get?_eq_none_iff _ _).2 h]
    cases hp : place true c with
    | none => rfl
    | some ij => exact absurd (place_some hp) h

theorem compIndex_ok {pos : ZPos} (h : pos ≠ .other) :
    ∃ idx, compIndex pos = .ok idx ∧ ∀ c, OD.get? idx c = place (up pos) c := by
  cases pos with
  | down => exact ⟨_, rfl, place_down⟩
  | up => exact ⟨_, rfl, place_up⟩
  | other => exact absurd rfl h

/-! ## Frequencies -/

theorem mem_uniq {α : Type} [DecidableEq α] {a : α} {l : List α} : a ∈ uniq l ↔ a ∈ l := by
  induction l with
  | nil => simp [uniq]
  | cons b l ih =>
    simp only [uniq, List.mem_cons, List.mem_filter, ih]
    by_cases h : a = b <;> simp [h]

theorem uniq_nodup {α : Type} [DecidableEq α] (l : List α) : (uniq l).Nodup := by
  induction l with
  | nil => simp [uniq]
  | cons b l ih =>
    simp only [uniq, List.nodup_cons]
    exact ⟨by simp, ih.filter _⟩

theorem mem_freqs {rows : List Row} {f : ℝ} : f ∈ freqs rows ↔ ∃ r ∈ rows, r.freq = f := by
  unfold freqs
  rw [(pySorted_perm _ _).mem_iff, mem_uniq]
  simp

theorem freqs_nodup (rows : List Row) : (freqs rows).Nodup :=
  ((pySorted_perm _ _).nodup_iff).2 (uniq_nodup _)

theorem freqs_sorted (rows : List Row) : (freqs rows).Pairwise (· < ·) := by
  have h1 : (freqs rows).Pairwise (fun a b => decide (a ≤ b) = true) := by
    unfold freqs
    apply pySorted_pairwise
    · intro a b c h1 h2
      simp only [decide_eq_true_eq] at *
      exact le_trans h1 h2
    · intro a b
      rw [Bool.or_eq_true]
      exact (le_total a b).imp decide_eq_true decide_eq_true
  refine (h1.and (freqs_nodup rows)).imp ?_
  rintro a b ⟨h, h'⟩
  exact lt_of_le_of_ne (by simpa using h) h'

theorem idx_of_get {fs : List ℝ} (hn : fs.Nodup) {n : Nat} {f : ℝ} (h : fs[n]? = some f) : fs.idxOf f = n := by
  obtain ⟨hl, rfl⟩ := List.getElem?_eq_some_iff.1 h
  exact hn.idxOf_getElem n hl

/-! ## Filling -/

/-- Does a row go to a place? -/
def hits (u : Bool) (fs : List ℝ) (n : Nat) (i j : Fin 2) (r : Row) : Prop :=
  place u r.comp = some (i, j) ∧ fs.idxOf r.freq = n

/-- The value of the last row that goes to a place. -/
noncomputable def lastVal {α : Type} (u : Bool) (fs : List ℝ) (v : Row → α) (rows : List Row) (d : α) (n : Nat) (i j : Fin 2) : α :=
  ((rows.filter (fun r => hits u fs n i j r)).getLast?.map v).getD d

theorem lastVal_cons {α : Type} (u : Bool) (fs : List ℝ) (v : Row → α) (r : Row) (rows : List Row) (a : Arr α) (i' j' : Fin 2)
    (hp : place u r.comp = some (i', j')) (n : Nat) (i j : Fin 2) :
    lastVal u fs v rows (a.set (fs.idxOf r.freq) i' j' (v r) n i j) n i j = lastVal u fs v (r :: rows) (a n i j) n i j := by
  unfold lastVal
  rw [List.filter_cons]
  by_cases h : hits u fs n i j r
  · rw [if_pos (by simpa using h), List.getLast?_cons]
    cases hg : (rows.filter (fun r => decide (hits u fs n i j r))).getLast? with
    | none =>
      obtain ⟨h1, h2⟩ := h
      rw [hp] at h1
      cases h1
      simp [Arr.set, h2]
    | some s => simp
  · rw [if_neg (by simpa using h)]
    have : a.set (fs.idxOf r.freq) i' j' (v r) n i j = a n i j := by
      unfold Arr.set
      rw [if_neg]
      rintro ⟨h1, h2, h3⟩
      exact h ⟨by rw [hp, h2, h3], h1.symm⟩
    rw [this]

theorem fold_spec (u : Bool) (fs : List ℝ) (v : Row → ℂ) (e : Row → ℝ)
    (step : Arr ℂ × Arr ℝ → Row → Except PyErr (Arr ℂ × Arr ℝ))
    (hstep : ∀ a r i j, place u r.comp = some (i, j) → r.freq ∈ fs →
      step a r = .ok (a.1.set (fs.idxOf r.freq) i j (v r), a.2.set (fs.idxOf r.freq) i j (e r))) :
    ∀ (rows : List Row) (a : Arr ℂ × Arr ℝ), (∀ r ∈ rows, (place u r.comp).isSome ∧ r.freq ∈ fs) →
      ∃ b, rows.foldlM step a = .ok b ∧ (∀ n i j, b.1 n i j = lastVal u fs v rows (a.1 n i j) n i j) ∧
        ∀ n i j, b.2 n i j = lastVal u fs e rows (a.2 n i j) n i j := by
  intro rows
  induction rows with
  | nil => intro a _; exact ⟨a, rfl, fun _ _ _ => rfl, fun _ _ _ => rfl⟩
  | cons r rows ih =>
    intro a h
    obtain ⟨hp, hf⟩ := h r (by simp)
    obtain ⟨⟨i', j'⟩, hp⟩ := Option.isSome_iff_exists.1 hp
    have hs := hstep a r i' j' hp hf
    obtain ⟨b, h1, h2, h3⟩ := ih (a.1.set (fs.idxOf r.freq) i' j' (v r), a.2.set (fs.idxOf r.freq) i' j' (e r))
      (fun s hs => h s (by simp [hs]))
    refine ⟨b, ?_, ?_, ?_⟩
    · rw [List.foldlM_cons, hs]; exact h1
    · intro n i j
      rw [h2]
      exact lastVal_cons u fs v r rows a.1 i' j' hp n i j
    · intro n i j
      rw [h3]
      exact lastVal_cons u fs e r rows a.2 i' j' hp n i j

theorem fillZ_spec {pos : ZPos} (hpos : pos ≠ .other) (rows : List Row)
    (hk : ∀ r ∈ rows, isZ r → (place (up pos) r.comp).isSome) :
    ∃ a, fillZ pos rows = .ok a ∧
      (∀ n i j, a.1 n i j = lastVal (up pos) (freqs rows) rowZ (rows.filter (fun r => isZ r)) 0 n i j) ∧
      ∀ n i j, a.2 n i j = lastVal (up pos) (freqs rows) rowErr (rows.filter (fun r => isZ r)) 1 n i j := by
  obtain ⟨idx, h1, h2⟩ := compIndex_ok hpos
  obtain ⟨b, h3, h4⟩ := fold_spec (up pos) (freqs rows) rowZ rowErr (stepZ idx (freqs rows))
    (by
      intro a r i j hp hf
      unfold stepZ
      rw [h2, hp]
      simp only [freqIndex, if_pos hf]
      rfl)
    (rows.filter (fun r => isZ r)) (fun _ _ _ => 0, fun _ _ _ => 1)
    (by
      intro r hr
      rw [List.mem_filter] at hr
      exact ⟨hk r hr.1 (by simpa using hr.2), mem_freqs.2 ⟨r, hr.1, rfl⟩⟩)
  refine ⟨b, ?_, h4⟩
  unfold fillZ
  rw [h1]
  show List.foldlM _ _ (rows.filter fun r => decide (r.comp.head? = some 'z')) = _
  rw [← h3]
  congr 1
  apply List.filter_congr
  intro r _
  by_cases hh : r.comp.head? = some 'z' <;> simp [isZ, hh]

theorem fillT_spec {pos : ZPos} (hpos : pos ≠ .other) (rows : List Row) (ht : ∃ r ∈ rows, r.comp = "tzx".toList)
    (hk : ∀ r ∈ rows, isT r → (place (up pos) r.comp).isSome) :
    ∃ a, fillT pos rows = .ok (some a) ∧
      (∀ n i j, a.1 n i j = lastVal (up pos) (freqs rows) (fun r => if up pos then -rowZ r else rowZ r)
        (rows.filter (fun r => isT r)) 0 n i j) ∧
      ∀ n i j, a.2 n i j = lastVal (up pos) (freqs rows)
        (fun r => Real.sqrt ((toComplex r.mag r.phase).1 ^ 2 + (toComplex r.mag r.phase).2 ^ 2))
        (rows.filter (fun r => isT r)) 1 n i j := by
  obtain ⟨idx, h1, h2⟩ := compIndex_ok hpos
  obtain ⟨b, h3, h4⟩ := fold_spec (up pos) (freqs rows) (fun r => if up pos then -rowZ r else rowZ r)
    (fun r => Real.sqrt ((toComplex r.mag r.phase).1 ^ 2 + (toComplex r.mag r.phase).2 ^ 2)) (stepT pos idx (freqs rows))
    (by
      intro a r i j hp hf
      unfold stepT
      rw [h2, hp]
      simp only [freqIndex, if_pos hf]
      cases pos with
      | other => exact absurd rfl hpos
      | up => rfl
      | down => rfl)
    (rows.filter (fun r => isT r)) (fun _ _ _ => 0, fun _ _ _ => 1)
    (by
      intro r hr
      rw [List.mem_filter] at hr
      exact ⟨hk r hr.1 (by simpa using hr.2), mem_freqs.2 ⟨r, hr.1, rfl⟩⟩)
  refine ⟨b, ?_, h4⟩
  unfold fillT
  obtain ⟨r, hr, hc⟩ := ht
  rw [if_pos (List.mem_map.2 ⟨r, hr, hc⟩), h1]
  have e : (rows.filter fun r => decide (r.comp.head? = some 't')) = rows.filter (fun r => isT r) := by
    apply List.filter_congr
    intro r _
    by_cases hh : r.comp.head? = some 't' <;> simp [isT, hh]
  show ((rows.filter fun r : Row => decide (r.comp.head? = some 't')).foldlM (stepT pos idx (freqs rows))
    (fun _ _ _ => 0, fun _ _ _ => 1)).bind (fun a => .ok (some a)) = _
  rw [e, h3]
  rfl

theorem lastVal_all {α : Type} {u : Bool} {fs : List ℝ} {v : Row → α} {rows : List Row} {d x : α} {n : Nat} {i j : Fin 2}
    (h1 : ∃ r ∈ rows, hits u fs n i j r) (h2 : ∀ r ∈ rows, hits u fs n i j r → v r = x) :
    lastVal u fs v rows d n i j = x := by
  unfold lastVal
  cases hg : (rows.filter (fun r => decide (hits u fs n i j r))).getLast? with
  | none =>
    obtain ⟨r, hr, hh⟩ := h1
    rw [List.getLast?_eq_none_iff, List.filter_eq_nil_iff] at hg
    exact absurd (by simpa using hh) (hg r hr)
  | some s =>
    have := List.mem_of_getLast? hg
    rw [List.mem_filter] at this
    exact h2 s this.1 (by simpa using this.2)

theorem lastVal_none {α : Type} {u : Bool} {fs : List ℝ} {v : Row → α} {rows : List Row} {d : α} {n : Nat} {i j : Fin 2}
    (h : ∀ r ∈ rows, ¬ hits u fs n i j r) : lastVal u fs v rows d n i j = d := by
  unfold lastVal
  rw [List.filter_eq_nil_iff.2 (by simpa using h)]
  rfl

theorem lastVal_last {α : Type} {u : Bool} {fs : List ℝ} {v : Row → α} {l1 l2 : List Row} {r : Row} {d : α} {n : Nat} {i j : Fin 2}
    (h1 : hits u fs n i j r) (h2 : ∀ s ∈ l2, ¬ hits u fs n i j s) :
    lastVal u fs v (l1 ++ r :: l2) d n i j = v r := by
  unfold lastVal
  have : l2.filter (fun r => decide (hits u fs n i j r)) = [] := List.filter_eq_nil_iff.2 (by simpa using h2)
  rw [List.filter_append, List.filter_cons, if_pos (by simpa using h1), this]
  simp

theorem cis (m x : ℝ) : (m : ℂ) * Complex.exp (x * Complex.I) = ⟨m * Real.cos x, m * Real.sin x⟩ := by
  rw [Complex.exp_mul_I, ← Complex.ofReal_cos, ← Complex.ofReal_sin]
  apply Complex.ext <;> simp [-Complex.ofReal_cos, -Complex.ofReal_sin]

theorem rowZ_eq (r : Row) : rowZ r = r.mag * Complex.exp ((r.phase / 1000 : ℝ) * Complex.I) := by
  rw [cis]
  rfl

/-! ## C151: values at their places -/

/-- **C151**: in a table without unknown components, every value is found at its component and its frequency (the last, if a
component and a frequency occur repeatedly); elements without a row are zero with error one; the
frequencies are those of the rows, in ascending order and each once. -/
theorem C151_values {pos : ZPos} (hpos : pos ≠ .other) (rows : List Row)
    (hk : ∀ r ∈ rows, isZ r → (place (up pos) r.comp).isSome) :
    (freqs rows).Pairwise (· < ·) ∧ (∀ f, f ∈ freqs rows ↔ ∃ r ∈ rows, r.freq = f) ∧
    ∃ z e, fillZ pos rows = .ok (z, e) ∧
      (∀ l1 r l2 i j n, rows = l1 ++ r :: l2 → isZ r → place (up pos) r.comp = some (i, j) → (freqs rows)[n]? = some r.freq →
        (∀ s ∈ l2, isZ s → s.freq = r.freq → place (up pos) s.comp ≠ some (i, j)) →
        z n i j = r.mag * Complex.exp ((r.phase / 1000 : ℝ) * Complex.I)) ∧
      (∀ n f i j, (freqs rows)[n]? = some f → (∀ r ∈ rows, isZ r → r.freq = f → place (up pos) r.comp ≠ some (i, j)) →
        z n i j = 0 ∧ e n i j = 1) := by
  refine ⟨freqs_sorted rows, fun f => mem_freqs, ?_⟩
  obtain ⟨a, h1, h2, h3⟩ := fillZ_spec hpos rows hk
  refine ⟨a.1, a.2, h1, ?_, ?_⟩
  · intro l1 r l2 i j n hr hz hp hn hl
    rw [h2, ← rowZ_eq]
    have hn' := idx_of_get (freqs_nodup rows) hn
    have : rows.filter (fun r => isZ r) = l1.filter (fun r => isZ r) ++ r :: l2.filter (fun r => isZ r) := by
      conv_lhs => rw [hr]
      rw [List.filter_append, List.filter_cons, if_pos (by simpa using hz)]
    rw [this]
    refine lastVal_last ⟨hp, hn'⟩ ?_
    rintro s hs ⟨hs1, hs2⟩
    rw [List.mem_filter] at hs
    refine hl s hs.1 (by simpa using hs.2) ?_ hs1
    have h5 : s.freq ∈ freqs rows := mem_freqs.2 ⟨s, by rw [hr]; simp [hs.1], rfl⟩
    have h6 := List.idxOf_get (List.idxOf_lt_length_of_mem h5)
    obtain ⟨hl', h7⟩ := List.getElem?_eq_some_iff.1 hn
    rw [← h7]
    have h8 : (freqs rows)[(freqs rows).idxOf s.freq]? = some s.freq := List.getElem?_idxOf h5
    rw [hs2, hn] at h8
    rw [h7]
    exact (Option.some.inj h8).symm
  · intro n f i j hn hno
    have hn' := idx_of_get (freqs_nodup rows) hn
    have : ∀ r ∈ rows.filter (fun r => isZ r), ¬ hits (up pos) (freqs rows) n i j r := by
      rintro r hr ⟨hr1, hr2⟩
      rw [List.mem_filter] at hr
      refine hno r hr.1 (by simpa using hr.2) ?_ hr1
      have h5 : r.freq ∈ freqs rows := mem_freqs.2 ⟨r, hr.1, rfl⟩
      have h8 : (freqs rows)[(freqs rows).idxOf r.freq]? = some r.freq := List.getElem?_idxOf h5
      rw [hr2, hn] at h8
      exact (Option.some.inj h8).symm
    rw [h2, h3]
    exact ⟨lastVal_none this, lastVal_none this⟩

/-- A row with a component, a frequency, a magnitude and a phase. -/
noncomputable def mk (c : Str) (f m p : ℝ) : Row :=
  { comp := c, skip := 2, freq := f, emag := 1, bmag := 1, mag := m, phase := p, ares := 1 / 5, aerr := 100, perr := 0, coh := 1, use := 1,
    tried := 1 }

example : ∀ r ∈ [mk "zxy".toList 2 1 0, mk "zxy".toList 1 3 0, mk "zyxr".toList 2 1 5, mk "tzx".toList 2 1 5],
    isZ r → (place (up .up) r.comp).isSome := by
  intro r hr _
  simp only [List.mem_cons, List.not_mem_nil, or_false] at hr
  rcases hr with rfl | rfl | rfl | rfl <;> decide

/-! ## C152: magnitude and phase -/

/-- **C152**: converting to magnitude and phase and back gives the number, and the other way for phases of the principal
branch. -/
theorem C152_amp_phase (re im : ℝ) :
    toComplex (toAmpPhase re im).1 (toAmpPhase re im).2 = (re, im) ∧
    ∀ m p : ℝ, 0 < m → p / 1000 ∈ Set.Ioc (-Real.pi) Real.pi →
      toAmpPhase (toComplex m p).1 (toComplex m p).2 = (m, p) := by
  constructor
  · have h := Complex.norm_mul_exp_arg_mul_I (⟨re, im⟩ : ℂ)
    have hn : ‖(⟨re, im⟩ : ℂ)‖ = Real.sqrt (re ^ 2 + im ^ 2) := by
      rw [Complex.norm_def, Complex.normSq_mk]; ring_nf
    rw [hn, cis] at h
    have h1 := congrArg Complex.re h
    have h2 := congrArg Complex.im h
    simp only at h1 h2
    simp only [toComplex, toAmpPhase]
    rw [mul_div_assoc, div_self (by norm_num), mul_one, h1, h2]
  · intro m p hm hp
    have ha := Complex.arg_mul_cos_add_sin_mul_I hm hp
    have he : (m : ℂ) * (Complex.cos ((p / 1000 : ℝ) : ℂ) + Complex.sin ((p / 1000 : ℝ) : ℂ) * Complex.I) =
        ⟨(toComplex m p).1, (toComplex m p).2⟩ := by
      rw [← Complex.exp_mul_I, cis]
      rfl
    rw [he] at ha
    unfold toAmpPhase
    rw [ha]
    have : (toComplex m p).1 ^ 2 + (toComplex m p).2 ^ 2 = m ^ 2 := by
      simp only [toComplex]
      have := Real.sin_sq_add_cos_sq (p / 1000)
      nlinarith
    rw [this, Real.sqrt_sq hm.le]
    congr 1
    field_simp

example : (1 : ℝ) / 1000 ∈ Set.Ioc (-Real.pi) Real.pi := by
  have := Real.two_le_pi
  constructor <;> linarith

/-! ## C153: errors of the impedance -/

theorem norm_toComplex (m p : ℝ) : Real.sqrt ((toComplex m p).1 ^ 2 + (toComplex m p).2 ^ 2) = |m| := by
  have : (toComplex m p).1 ^ 2 + (toComplex m p).2 ^ 2 = m ^ 2 := by
    simp only [toComplex]
    have := Real.sin_sq_add_cos_sq (p / 1000)
    nlinarith
  rw [this, Real.sqrt_sq_eq_abs]

/-- **C153**, as the file means it: the apparent resistivity is `|Z|² / (5 f)`, so an error of `p` percent of it is one of
`p / 2` percent of the impedance. -/
def C153_claim : Prop :=
  ∀ (pos : ZPos) (rows : List Row) (z : Arr ℂ) (e : Arr ℝ) (r : Row) (i j : Fin 2) (n : Nat), fillZ pos rows = .ok (z, e) →
    rows = [r] → isZ r → place (up pos) r.comp = some (i, j) → (freqs rows)[n]? = some r.freq →
    0 < r.freq → 0 < r.mag → r.mag ^ 2 = 5 * r.freq * r.ares → 0 ≤ r.aerr →
    e n i j = ‖z n i j‖ * (r.aerr / 100 / 2)

/-- What is computed instead: the root of `p` percent of the apparent resistivity times `5 f`, whatever the error of the
phase; in the consistent case `|Z|` times the root of `p` percent. Missing: an error proportional to that in the file. -/
theorem C153_partial {pos : ZPos} (hpos : pos ≠ .other) (rows : List Row)
    (hk : ∀ r ∈ rows, isZ r → (place (up pos) r.comp).isSome) :
    ∃ z e, fillZ pos rows = .ok (z, e) ∧
      ∀ r ∈ rows, ∀ i j n, isZ r → place (up pos) r.comp = some (i, j) → (freqs rows)[n]? = some r.freq →
        (∀ s ∈ rows, isZ s → s.freq = r.freq → place (up pos) s.comp = some (i, j) → s = r) →
        e n i j = Real.sqrt (r.aerr / 100 * r.ares * 5 * r.freq) ∧
        (0 < r.mag → r.mag ^ 2 = 5 * r.freq * r.ares → 0 ≤ r.aerr → e n i j = ‖z n i j‖ * Real.sqrt (r.aerr / 100)) := by
  obtain ⟨a, h1, h2, h3⟩ := fillZ_spec hpos rows hk
  refine ⟨a.1, a.2, h1, ?_⟩
  intro r hr i j n hz hp hn hu
  have hn' := idx_of_get (freqs_nodup rows) hn
  have hit : ∃ s ∈ rows.filter (fun r => isZ r), hits (up pos) (freqs rows) n i j s :=
    ⟨r, List.mem_filter.2 ⟨hr, by simpa using hz⟩, hp, hn'⟩
  have only : ∀ s ∈ rows.filter (fun r => isZ r), hits (up pos) (freqs rows) n i j s → s = r := by
    rintro s hs ⟨hs1, hs2⟩
    rw [List.mem_filter] at hs
    refine hu s hs.1 (by simpa using hs.2) ?_ hs1
    have h5 : s.freq ∈ freqs rows := mem_freqs.2 ⟨s, hs.1, rfl⟩
    have h8 : (freqs rows)[(freqs rows).idxOf s.freq]? = some s.freq := List.getElem?_idxOf h5
    rw [hs2, hn] at h8
    exact (Option.some.inj h8).symm
  have he : a.2 n i j = Real.sqrt (r.aerr / 100 * r.ares * 5 * r.freq) := by
    rw [h3, lastVal_all (x := rowErr r) hit (fun s hs hh => by rw [only s hs hh])]
    unfold rowErr
    simp only [norm_toComplex]
    exact abs_of_nonneg (Real.sqrt_nonneg _)
  refine ⟨he, ?_⟩
  intro hm hc ha
  have hzv : a.1 n i j = rowZ r := by
    rw [h2, lastVal_all (x := rowZ r) hit (fun s hs hh => by rw [only s hs hh])]
  rw [he, hzv, rowZ_eq, norm_mul, Complex.norm_exp_ofReal_mul_I, mul_one, Complex.norm_real, Real.norm_eq_abs]
  have : r.aerr / 100 * r.ares * 5 * r.freq = r.mag ^ 2 * (r.aerr / 100) := by rw [hc]; ring
  rw [this, Real.sqrt_mul (sq_nonneg _), Real.sqrt_sq_eq_abs]

theorem freqs_one (r : Row) : (freqs [r])[0]? = some r.freq := by
  simp [freqs, uniq, pySorted, insertSorted]

theorem C153_refuted : ¬ C153_claim := by
  intro h
  have hk : ∀ r ∈ [mk "zxx".toList 1 1 0], isZ r → (place (up .down) r.comp).isSome := by
    intro r hr _
    rw [List.mem_singleton] at hr
    subst hr
    decide
  obtain ⟨z, e, h1, h2⟩ := C153_partial (pos := .down) (by decide) [mk "zxx".toList 1 1 0] hk
  obtain ⟨-, h4⟩ := h2 _ (List.mem_singleton.2 rfl) 0 0 0 rfl (by decide) (freqs_one _)
    (fun s hs _ _ _ => List.mem_singleton.1 hs)
  have h5 := h .down _ z e _ 0 0 0 h1 rfl rfl (by decide) (freqs_one _) (by norm_num [mk]) (by norm_num [mk]) (by norm_num [mk]) (by norm_num [mk])
  have h6 := h4 (by norm_num [mk]) (by norm_num [mk]) (by norm_num [mk])
  have hz : ‖z 0 0 0‖ = 1 := by
    obtain ⟨-, -, z', e', g1, g2, -⟩ := C151_values (pos := .down) (by decide) [mk "zxx".toList 1 1 0] hk
    rw [h1] at g1
    injection g1 with g1
    injection g1 with g3 g4
    have := g2 [] _ [] 0 0 0 rfl rfl (by decide) (freqs_one _) (by simp)
    rw [g3, this]
    norm_num [mk]
  rw [hz] at h5 h6
  rw [h5] at h6
  norm_num [mk] at h6

/-! ## C154: errors of the tipper -/

/-- **C154**: a tipper that the file says to be free of error has error zero. -/
def C154_claim : Prop :=
  ∀ (pos : ZPos) (rows : List Row) (t : Arr ℂ) (e : Arr ℝ), fillT pos rows = .ok (some (t, e)) →
    ∀ r ∈ rows, ∀ i j n, isT r → place (up pos) r.comp = some (i, j) → (freqs rows)[n]? = some r.freq →
      (∀ s ∈ rows, isT s → s.aerr = 0 ∧ s.perr = 0) → e n i j = 0

theorem only_of_unique {u : Bool} {rows : List Row} {p : Row → Prop} {r : Row} {i j : Fin 2} {n : Nat}
    (hn : (freqs rows)[n]? = some r.freq)
    (hu : ∀ s ∈ rows, p s → s.freq = r.freq → place u s.comp = some (i, j) → s = r) :
    ∀ s ∈ rows.filter (fun r => p r), hits u (freqs rows) n i j s → s = r := by
  rintro s hs ⟨hs1, hs2⟩
  rw [List.mem_filter] at hs
  refine hu s hs.1 (by simpa using hs.2) ?_ hs1
  have h5 : s.freq ∈ freqs rows := mem_freqs.2 ⟨s, hs.1, rfl⟩
  have h8 : (freqs rows)[(freqs rows).idxOf s.freq]? = some s.freq := List.getElem?_idxOf h5
  rw [hs2, hn] at h8
  exact (Option.some.inj h8).symm

/-- What is read: the value of each row, negated for `up`; its error is its own magnitude, whatever the errors in the
file. Missing: the error. -/
theorem C154_partial {pos : ZPos} (hpos : pos ≠ .other) (rows : List Row) (ht : ∃ r ∈ rows, r.comp = "tzx".toList)
    (hk : ∀ r ∈ rows, isT r → (place (up pos) r.comp).isSome) :
    ∃ t e, fillT pos rows = .ok (some (t, e)) ∧
      (∀ r ∈ rows, ∀ i j n, isT r → place (up pos) r.comp = some (i, j) → (freqs rows)[n]? = some r.freq →
        (∀ s ∈ rows, isT s → s.freq = r.freq → place (up pos) s.comp = some (i, j) → s = r) →
        t n i j = (if pos = .up then -1 else 1) * (r.mag * Complex.exp ((r.phase / 1000 : ℝ) * Complex.I))) ∧
      (∀ n i j, (∃ r ∈ rows, isT r ∧ place (up pos) r.comp = some (i, j) ∧ (freqs rows)[n]? = some r.freq) →
        e n i j = ‖t n i j‖) := by
  obtain ⟨a, h1, h2, h3⟩ := fillT_spec hpos rows ht hk
  refine ⟨a.1, a.2, h1, ?_, ?_⟩
  · intro r hr i j n hz hp hn hu
    have hn' := idx_of_get (freqs_nodup rows) hn
    have hit : ∃ s ∈ rows.filter (fun r => isT r), hits (up pos) (freqs rows) n i j s :=
      ⟨r, List.mem_filter.2 ⟨hr, by simpa using hz⟩, hp, hn'⟩
    have only := only_of_unique hn hu
    rw [h2, lastVal_all (x := if up pos then -rowZ r else rowZ r) hit (fun s hs hh => by rw [only s hs hh]), rowZ_eq]
    cases pos with
    | other => exact absurd rfl hpos
    | up => simp [up]
    | down => simp [up]
  · rintro n i j ⟨r, hr, hz, hp, hn⟩
    have hn' := idx_of_get (freqs_nodup rows) hn
    rw [h2, h3]
    unfold lastVal
    cases hg : ((rows.filter (fun r => decide (isT r))).filter (fun r => decide (hits (up pos) (freqs rows) n i j r))).getLast? with
    | none =>
      rw [List.getLast?_eq_none_iff, List.filter_eq_nil_iff] at hg
      have hh : hits (up pos) (freqs rows) n i j r := ⟨hp, hn'⟩
      exact absurd (by simp [hh]) (hg r (List.mem_filter.2 ⟨hr, by simpa using hz⟩))
    | some s =>
      have : ‖(if up pos then -rowZ s else rowZ s)‖ = ‖rowZ s‖ := by split <;> simp
      simp only [Option.map_some, Option.getD_some, this, norm_toComplex]
      rw [rowZ_eq, norm_mul, Complex.norm_exp_ofReal_mul_I, mul_one, Complex.norm_real, Real.norm_eq_abs]

/-- A row without errors. -/
noncomputable def mk0 (c : Str) (f m p : ℝ) : Row := { mk c f m p with aerr := 0, perr := 0 }

theorem C154_refuted : ¬ C154_claim := by
  intro h
  have hk : ∀ r ∈ [mk0 "tzx".toList 1 1 0], isT r → (place (up .down) r.comp).isSome := by
    intro r hr _
    rw [List.mem_singleton] at hr
    subst hr
    decide
  obtain ⟨t, e, h1, h2, h3⟩ := C154_partial (pos := .down) (by decide) [mk0 "tzx".toList 1 1 0] ⟨_, List.mem_singleton.2 rfl, rfl⟩ hk
  have h4 := h2 _ (List.mem_singleton.2 rfl) 0 0 0 rfl (by decide) (freqs_one _)
    (fun s hs _ _ _ => List.mem_singleton.1 hs)
  have h5 := h3 0 0 0 ⟨_, List.mem_singleton.2 rfl, rfl, by decide, freqs_one _⟩
  have h6 := h .down _ t e h1 _ (List.mem_singleton.2 rfl) 0 0 0 rfl (by decide) (freqs_one _) (by
    intro s hs _
    rw [List.mem_singleton] at hs
    subst hs
    exact ⟨rfl, rfl⟩)
  rw [h5, h4] at h6
  norm_num [mk, mk0] at h6
  rw [if_neg (by decide)] at h6
  exact one_ne_zero h6

/-! ## C156: arrays to table and back -/

theorem index_entry {pos : ZPos} {idx : OD Str (Fin 2 × Fin 2)} (h : compIndex pos = .ok idx) :
    (∀ ci ∈ idx, place (up pos) ci.1 = some ci.2 ∧ (ci.1.head? = some 'z' ∨ (ci.1.head? = some 't' ∧ ci.2.1 = 0))) ∧
    (∀ i j : Fin 2, ∃ ci ∈ idx, ci.1.head? = some 'z' ∧ ci.2 = (i, j)) ∧
    (∀ j : Fin 2, ∃ ci ∈ idx, ci.1.head? = some 't' ∧ ci.2 = (0, j)) := by
  cases pos with
  | down => cases h; decide
  | up => cases h; decide
  | other => cases h

theorem rows_cases {o : Obj} {rows : List Row} {z : Arr ℂ} {fs : List ℝ} (hz : o.z = some z) (hf : o.freq = some fs)
    (h : createRows o = .ok rows) (r : Row) : r ∈ rows ↔ ∃ idx, compIndex o.pos = .ok idx ∧ ∃ ci ∈ idx, ∃ k f, fs[k]? = some f ∧
      ((ci.1.head? = some 'z' ∧ r = zRow ci.1 f (z k ci.2.1 ci.2.2) ((o.zerr.map fun e => e k ci.2.1 ci.2.2).getD 0)) ∨
       (ci.1.head? ≠ some 'z' ∧ ∃ t, o.t = some t ∧ r = tRow ci.1 f (t k 0 ci.2.2) ((o.terr.map fun e => e k 0 ci.2.2).getD 0))) := by
  unfold createRows at h
  rw [hz, hf] at h
  simp only at h
  cases hc : compIndex o.pos with
  | error e => rw [hc] at h; cases h
  | ok idx =>
    rw [hc] at h
    have h : _ = rows := Except.ok.inj h
    subst h
    simp only [List.mem_flatMap]
    constructor
    · rintro ⟨⟨c, ij⟩, hci, ⟨f, k⟩, hk, hr⟩
      rw [List.mem_zipIdx_iff_getElem?] at hk
      refine ⟨idx, rfl, (c, ij), hci, k, f, hk, ?_⟩
      by_cases hz : c.head? = some 'z'
      · rw [if_pos hz, List.mem_singleton] at hr
        exact .inl ⟨hz, hr⟩
      · rw [if_neg hz] at hr
        cases ht : o.t with
        | none => rw [ht] at hr; simp at hr
        | some t =>
          rw [ht] at hr
          exact .inr ⟨hz, t, rfl, List.mem_singleton.1 hr⟩
    · rintro ⟨idx', hi, ci, hci, k, f, hk, hr⟩
      cases hi
      refine ⟨ci, hci, (f, k), List.mem_zipIdx_iff_getElem?.2 hk, ?_⟩
      rcases hr with ⟨hz, hr⟩ | ⟨hz, t, ht, hr⟩
      · rw [if_pos hz]
        exact List.mem_singleton.2 hr
      · rw [if_neg hz, ht]
        exact List.mem_singleton.2 hr

theorem rowZ_zRow (c : Str) (f : ℝ) (z : ℂ) (e : ℝ) : rowZ (zRow c f z e) = z := by
  have := (C152_amp_phase z.re z.im).1
  unfold rowZ zRow
  simp only [this]

theorem rowZ_tRow (c : Str) (f : ℝ) (z : ℂ) (e : ℝ) : rowZ (tRow c f z e) = z := by
  have := (C152_amp_phase z.re z.im).1
  unfold rowZ tRow
  simp only [this]

theorem createRows_ok {o : Obj} {z : Arr ℂ} {fs : List ℝ} (hz : o.z = some z) (hf : o.freq = some fs) (hpos : o.pos ≠ .other) :
    ∃ rows, createRows o = .ok rows := by
  obtain ⟨idx, h1, -⟩ := compIndex_ok hpos
  unfold createRows
  rw [hz, hf, h1]
  exact ⟨_, rfl⟩

theorem rows_place {o : Obj} {rows : List Row} {z : Arr ℂ} {fs : List ℝ} (hz : o.z = some z) (hf : o.freq = some fs)
    (h : createRows o = .ok rows) : ∀ r ∈ rows, (place (up o.pos) r.comp).isSome := by
  intro r hr
  obtain ⟨idx, h1, ci, hci, k, f, hk, hr⟩ := (rows_cases hz hf h r).1 hr
  have := ((index_entry h1).1 ci hci).1
  rcases hr with ⟨-, rfl⟩ | ⟨-, t, -, rfl⟩
  · simp [zRow, this]
  · simp [tRow, this]

theorem rows_freqs {o : Obj} {rows : List Row} {z : Arr ℂ} {fs : List ℝ} (hz : o.z = some z) (hf : o.freq = some fs)
    (h : createRows o = .ok rows) (f : ℝ) : f ∈ freqs rows ↔ f ∈ fs := by
  rw [mem_freqs]
  constructor
  · rintro ⟨r, hr, rfl⟩
    obtain ⟨idx, h1, ci, hci, k, f, hk, hr⟩ := (rows_cases hz hf h r).1 hr
    rcases hr with ⟨-, rfl⟩ | ⟨-, t, -, rfl⟩
    · exact List.mem_of_getElem? hk
    · exact List.mem_of_getElem? hk
  · intro hm
    obtain ⟨k, hk⟩ := List.mem_iff_getElem?.1 hm
    cases hc : compIndex o.pos with
    | error e =>
      unfold createRows at h
      rw [hz, hf, hc] at h
      cases h
    | ok idx =>
      obtain ⟨ci, hci, hh, -⟩ := (index_entry hc).2.1 0 0
      exact ⟨_, (rows_cases hz hf h _).2 ⟨idx, hc, ci, hci, k, f, hk, .inl ⟨hh, rfl⟩⟩, rfl⟩

theorem tRow_notZ {pos : ZPos} {idx : OD Str (Fin 2 × Fin 2)} (h1 : compIndex pos = .ok idx) {ci : Str × (Fin 2 × Fin 2)} (hci : ci ∈ idx)
    (hz : ci.1.head? ≠ some 'z') : ci.1.head? = some 't' ∧ ci.2.1 = 0 := by
  rcases ((index_entry h1).1 ci hci).2 with h | h
  · exact absurd h hz
  · exact h

/-- Rows of the impedance that go to a place come from the element there. -/
theorem zRow_of_hit {o : Obj} {rows : List Row} {z : Arr ℂ} {fs : List ℝ} (hz : o.z = some z) (hf : o.freq = some fs)
    (hn : fs.Nodup) (h : createRows o = .ok rows) {k n : Nat} {f : ℝ} {i j : Fin 2} (hk : fs[k]? = some f)
    (hnf : (freqs rows)[n]? = some f) :
    (∃ r ∈ rows.filter (fun r => isZ r), hits (up o.pos) (freqs rows) n i j r) ∧
    ∀ r ∈ rows.filter (fun r => isZ r), hits (up o.pos) (freqs rows) n i j r →
      ∃ c, r = zRow c f (z k i j) ((o.zerr.map fun e => e k i j).getD 0) := by
  constructor
  · cases hc : compIndex o.pos with
    | error e =>
      unfold createRows at h
      rw [hz, hf, hc] at h
      cases h
    | ok idx =>
      obtain ⟨ci, hci, hh, hij⟩ := (index_entry hc).2.1 i j
      refine ⟨zRow ci.1 f (z k ci.2.1 ci.2.2) ((o.zerr.map fun e => e k ci.2.1 ci.2.2).getD 0), ?_, ?_⟩
      · rw [List.mem_filter]
        refine ⟨(rows_cases hz hf h _).2 ⟨idx, hc, ci, hci, k, f, hk, .inl ⟨hh, rfl⟩⟩, ?_⟩
        have : isZ (zRow ci.1 f (z k ci.2.1 ci.2.2) ((o.zerr.map fun e => e k ci.2.1 ci.2.2).getD 0)) := hh
        simp [this]
      · refine ⟨?_, idx_of_get (freqs_nodup rows) hnf⟩
        rw [← hij]
        exact ((index_entry hc).1 ci hci).1
  · rintro r hr ⟨hp, hi⟩
    rw [List.mem_filter] at hr
    obtain ⟨idx, h1, ci, hci, k', f', hk', hr'⟩ := (rows_cases hz hf h r).1 hr.1
    rcases hr' with ⟨hh, rfl⟩ | ⟨hh, t, -, rfl⟩
    · have hp' := ((index_entry h1).1 ci hci).1
      have hp : place (up o.pos) ci.1 = some (i, j) := hp
      rw [hp'] at hp
      injection hp with hp
      have hff : f' = f := by
        have h5 : f' ∈ freqs rows := mem_freqs.2 ⟨_, hr.1, rfl⟩
        have h8 : (freqs rows)[(freqs rows).idxOf f']? = some f' := List.getElem?_idxOf h5
        have hi : (freqs rows).idxOf f' = n := hi
        rw [hi, hnf] at h8
        exact (Option.some.inj h8).symm
      subst hff
      have hkk : k' = k := by
        have a := idx_of_get hn hk'
        have b := idx_of_get hn hk
        exact a.symm.trans b
      subst hkk
      exact ⟨ci.1, by rw [hp]⟩
    · have h2 : isZ (tRow ci.1 f' (t k' 0 ci.2.2) ((o.terr.map fun e => e k' 0 ci.2.2).getD 0)) := by simpa using hr.2
      exact absurd h2 hh

theorem tRow_of_hit {o : Obj} {rows : List Row} {z t : Arr ℂ} {fs : List ℝ} (hz : o.z = some z) (hf : o.freq = some fs) (ht : o.t = some t)
    (hn : fs.Nodup) (h : createRows o = .ok rows) {k n : Nat} {f : ℝ} {j : Fin 2} (hk : fs[k]? = some f)
    (hnf : (freqs rows)[n]? = some f) :
    (∃ r ∈ rows.filter (fun r => isT r), hits (up o.pos) (freqs rows) n 0 j r) ∧
    ∀ r ∈ rows.filter (fun r => isT r), hits (up o.pos) (freqs rows) n 0 j r →
      ∃ c, r = tRow c f (t k 0 j) ((o.terr.map fun e => e k 0 j).getD 0) := by
  constructor
  · cases hc : compIndex o.pos with
    | error e =>
      unfold createRows at h
      rw [hz, hf, hc] at h
      cases h
    | ok idx =>
      obtain ⟨ci, hci, hh, hij⟩ := (index_entry hc).2.2 j
      refine ⟨tRow ci.1 f (t k 0 ci.2.2) ((o.terr.map fun e => e k 0 ci.2.2).getD 0), ?_, ?_⟩
      · rw [List.mem_filter]
        refine ⟨(rows_cases hz hf h _).2 ⟨idx, hc, ci, hci, k, f, hk, .inr ⟨by rw [hh]; decide, t, ht, rfl⟩⟩, ?_⟩
        have : isT (tRow ci.1 f (t k 0 ci.2.2) ((o.terr.map fun e => e k 0 ci.2.2).getD 0)) := hh
        simp [this]
      · refine ⟨?_, idx_of_get (freqs_nodup rows) hnf⟩
        rw [← hij]
        exact ((index_entry hc).1 ci hci).1
  · rintro r hr ⟨hp, hi⟩
    rw [List.mem_filter] at hr
    obtain ⟨idx, h1, ci, hci, k', f', hk', hr'⟩ := (rows_cases hz hf h r).1 hr.1
    rcases hr' with ⟨hh, rfl⟩ | ⟨hh, t', ht', rfl⟩
    · have h2 : isT (zRow ci.1 f' (z k' ci.2.1 ci.2.2) ((o.zerr.map fun e => e k' ci.2.1 ci.2.2).getD 0)) := by simpa using hr.2
      have h2 : ci.1.head? = some 't' := h2
      rw [h2] at hh
      exact absurd hh (by decide)
    · rw [ht] at ht'
      injection ht' with ht'
      subst ht'
      have hp' := ((index_entry h1).1 ci hci).1
      have hp : place (up o.pos) ci.1 = some (0, j) := hp
      rw [hp'] at hp
      injection hp with hp
      have hff : f' = f := by
        have h5 : f' ∈ freqs rows := mem_freqs.2 ⟨_, hr.1, rfl⟩
        have h8 : (freqs rows)[(freqs rows).idxOf f']? = some f' := List.getElem?_idxOf h5
        have hi : (freqs rows).idxOf f' = n := hi
        rw [hi, hnf] at h8
        exact (Option.some.inj h8).symm
      subst hff
      have hkk : k' = k := by
        have a := idx_of_get hn hk'
        have b := idx_of_get hn hk
        exact a.symm.trans b
      subst hkk
      exact ⟨ci.1, by rw [hp]⟩

/-- **C156**: the table made of arrays for writing has the impedances and frequencies of the arrays, for both directions of `z`
and frequencies in any order. -/
theorem C156_arrays {o : Obj} {z : Arr ℂ} {fs : List ℝ} (hz : o.z = some z) (hf : o.freq = some fs) (hpos : o.pos ≠ .other)
    (hn : fs.Nodup) :
    ∃ rows z' e', createRows o = .ok rows ∧ fillZ o.pos rows = .ok (z', e') ∧ (∀ f, f ∈ freqs rows ↔ f ∈ fs) ∧
      ∀ k n f, fs[k]? = some f → (freqs rows)[n]? = some f → ∀ i j, z' n i j = z k i j := by
  obtain ⟨rows, hr⟩ := createRows_ok hz hf hpos
  obtain ⟨a, h1, h2, -⟩ := fillZ_spec hpos rows (fun r h _ => rows_place hz hf hr r h)
  refine ⟨rows, a.1, a.2, hr, h1, rows_freqs hz hf hr, ?_⟩
  intro k n f hk hnf i j
  obtain ⟨g1, g2⟩ := zRow_of_hit hz hf hn hr (i := i) (j := j) hk hnf
  rw [h2]
  refine lastVal_all g1 ?_
  intro r hr' hh
  obtain ⟨c, rfl⟩ := g2 r hr' hh
  exact rowZ_zRow _ _ _ _

/-- An object with two frequencies in descending order. -/
noncomputable def sample (pos : ZPos) (e : ℝ) : Obj :=
  { pos := pos, rows := [], freq := some [10, 1], z := some fun n i j => ⟨n + 1, i.val - j.val⟩, zerr := some fun _ _ _ => e,
    t := some fun n _ j => ⟨n + 1, j.val⟩, terr := some fun _ _ _ => e }

example : ∃ z fs, (sample .up 1).z = some z ∧ (sample .up 1).freq = some fs ∧ (sample .up 1).pos ≠ .other ∧ fs.Nodup :=
  ⟨_, _, rfl, rfl, by decide, by norm_num⟩

/-! ## C157: errors through the table -/

/-- **C157**: the table has the errors of the arrays. -/
def C157_claim : Prop :=
  ∀ (o : Obj) (z : Arr ℂ) (e : Arr ℝ) (fs : List ℝ) (rows : List Row) (z' : Arr ℂ) (e' : Arr ℝ), o.z = some z → o.zerr = some e →
    o.freq = some fs → fs.Nodup → (∀ f ∈ fs, 0 < f) → createRows o = .ok rows → fillZ o.pos rows = .ok (z', e') →
    ∀ k n f i j, fs[k]? = some f → (freqs rows)[n]? = some f → 0 ≤ e k i j → e' n i j = e k i j

/-- What is read from the table: the root of twice the error times the magnitude. It is the error only if this is zero
or twice the magnitude. -/
theorem C157_partial {o : Obj} {z : Arr ℂ} {e : Arr ℝ} {fs : List ℝ} (hz : o.z = some z) (he : o.zerr = some e) (hf : o.freq = some fs)
    (hpos : o.pos ≠ .other) (hn : fs.Nodup) (h0 : ∀ f ∈ fs, 0 < f) :
    ∃ rows z' e', createRows o = .ok rows ∧ fillZ o.pos rows = .ok (z', e') ∧
      ∀ k n f i j, fs[k]? = some f → (freqs rows)[n]? = some f → 0 ≤ e k i j →
        e' n i j = Real.sqrt (2 * e k i j * ‖z k i j‖) ∧ (e' n i j = e k i j ↔ e k i j = 0 ∨ e k i j = 2 * ‖z k i j‖) := by
  obtain ⟨rows, hr⟩ := createRows_ok hz hf hpos
  obtain ⟨a, h1, -, h2⟩ := fillZ_spec hpos rows (fun r h _ => rows_place hz hf hr r h)
  refine ⟨rows, a.1, a.2, hr, h1, ?_⟩
  intro k n f i j hk hnf hpos'
  obtain ⟨g1, g2⟩ := zRow_of_hit hz hf hn hr (i := i) (j := j) hk hnf
  have hf0 : 0 < f := h0 f (List.mem_of_getElem? hk)
  have key : a.2 n i j = Real.sqrt (2 * e k i j * ‖z k i j‖) := by
    rw [h2]
    refine lastVal_all g1 ?_
    intro r hr' hh
    obtain ⟨c, rfl⟩ := g2 r hr' hh
    unfold rowErr
    simp only [norm_toComplex]
    rw [abs_of_nonneg (Real.sqrt_nonneg _)]
    congr 1
    have hm : Real.sqrt ((z k i j).re ^ 2 + (z k i j).im ^ 2) = ‖z k i j‖ := by
      rw [Complex.norm_def, Complex.normSq_apply]; ring_nf
    simp only [zRow, toAmpPhase, hm, he, Option.map_some, Option.getD_some]
    by_cases hzz : ‖z k i j‖ = 0
    · rw [if_pos hzz, hzz]; ring
    · rw [if_neg hzz]
      field_simp
      ring
  refine ⟨key, ?_⟩
  rw [key]
  have hb : 0 ≤ ‖z k i j‖ := norm_nonneg _
  constructor
  · intro h
    have h3 : 2 * e k i j * ‖z k i j‖ = e k i j ^ 2 := by
      rw [← h, Real.sq_sqrt (by positivity)]
      rw [h]
    by_cases h4 : e k i j = 0
    · exact .inl h4
    · right
      have : e k i j * (2 * ‖z k i j‖ - e k i j) = 0 := by nlinarith
      rcases mul_eq_zero.1 this with h5 | h5
      · exact absurd h5 h4
      · linarith
  · rintro (h | h)
    · rw [h]; simp
    · rw [show 2 * e k i j * ‖z k i j‖ = e k i j ^ 2 by rw [h]; ring]
      exact Real.sqrt_sq hpos'

theorem get_of_mem {fs : List ℝ} {f : ℝ} (h : f ∈ fs) : ∃ n : Nat, fs[n]? = some f := List.mem_iff_getElem?.1 h

theorem C157_refuted : ¬ C157_claim := by
  intro h
  have hn : ([10, 1] : List ℝ).Nodup := by norm_num
  have h0 : ∀ f ∈ ([10, 1] : List ℝ), 0 < f := by simp
  obtain ⟨rows, z', e', h1, h2, h3⟩ := C157_partial (o := sample .down 1) rfl rfl rfl (by decide) hn h0
  have hk : ([10, 1] : List ℝ)[0]? = some 10 := rfl
  obtain ⟨n, hnf⟩ := get_of_mem ((rows_freqs (o := sample .down 1) rfl rfl h1 10).2 (by simp))
  have h4 := h _ _ _ _ rows z' e' rfl rfl rfl hn h0 h1 h2 0 n 10 0 0 hk hnf (by norm_num)
  have h5 := ((h3 0 n 10 0 0 hk hnf (by norm_num)).2).1 h4
  have : ‖(⟨((0 : ℕ) : ℝ) + 1, ((0 : Fin 2).val : ℝ) - ((0 : Fin 2).val : ℝ)⟩ : ℂ)‖ = 1 := by
    rw [Complex.norm_def, Complex.normSq_mk]; norm_num
  rw [this] at h5
  norm_num at h5

/-! ## C158: the tipper through the table -/

/-- **C158**: the table has the tipper of the arrays, for both directions of `z`. -/
def C158_claim : Prop :=
  ∀ (o : Obj) (z t : Arr ℂ) (fs : List ℝ) (rows : List Row) (t' : Arr ℂ) (e' : Arr ℝ), o.z = some z → o.t = some t →
    o.freq = some fs → fs.Nodup → createRows o = .ok rows → fillT o.pos rows = .ok (some (t', e')) →
    ∀ k n f j, fs[k]? = some f → (freqs rows)[n]? = some f → t' n 0 j = t k 0 j

/-- It has it for `down`; for `up` the sign is lost. -/
theorem C158_partial {o : Obj} {z t : Arr ℂ} {fs : List ℝ} (hz : o.z = some z) (ht : o.t = some t) (hf : o.freq = some fs)
    (hpos : o.pos ≠ .other) (hn : fs.Nodup) (hne : fs ≠ []) :
    ∃ rows t' e', createRows o = .ok rows ∧ fillT o.pos rows = .ok (some (t', e')) ∧
      ∀ k n f j, fs[k]? = some f → (freqs rows)[n]? = some f → t' n 0 j = if o.pos = .up then -t k 0 j else t k 0 j := by
  obtain ⟨rows, hr⟩ := createRows_ok hz hf hpos
  have htz : ∃ r ∈ rows, r.comp = "tzx".toList := by
    obtain ⟨f, l, rfl⟩ := List.exists_cons_of_ne_nil hne
    obtain ⟨idx, h1, -⟩ := compIndex_ok hpos
    have : ∃ ij, ("tzx".toList, ij) ∈ idx := by
      revert h1
      cases o.pos with
      | down => intro h1; cases h1; exact ⟨(0, 0), by decide⟩
      | up => intro h1; cases h1; exact ⟨(0, 1), by decide⟩
      | other => intro h1; cases h1
    obtain ⟨ij, hij⟩ := this
    exact ⟨_, (rows_cases hz hf hr _).2 ⟨idx, h1, _, hij, 0, f, rfl, .inr ⟨show "tzx".toList.head? ≠ some 'z' by decide, t, ht, rfl⟩⟩, rfl⟩
  obtain ⟨a, h1, h2, -⟩ := fillT_spec hpos rows htz (fun r h _ => rows_place hz hf hr r h)
  refine ⟨rows, a.1, a.2, hr, h1, ?_⟩
  intro k n f j hk hnf
  obtain ⟨g1, g2⟩ := tRow_of_hit hz hf ht hn hr (j := j) hk hnf
  rw [h2]
  refine lastVal_all g1 ?_
  intro r hr' hh
  obtain ⟨c, rfl⟩ := g2 r hr' hh
  rw [rowZ_tRow]
  cases hp : o.pos <;> simp [up]

theorem C158_refuted : ¬ C158_claim := by
  intro h
  have hn : ([10, 1] : List ℝ).Nodup := by norm_num
  obtain ⟨rows, t', e', h1, h2, h3⟩ := C158_partial (o := sample .up 1) rfl rfl rfl (by decide) hn (by simp)
  have hk : ([10, 1] : List ℝ)[0]? = some 10 := rfl
  obtain ⟨n, hnf⟩ := get_of_mem ((rows_freqs (o := sample .up 1) rfl rfl h1 10).2 (by simp))
  have h4 := h _ _ _ _ rows t' e' rfl rfl rfl hn h1 h2 0 n 10 0 hk hnf
  have h5 := h3 0 n 10 0 hk hnf
  rw [if_pos (show (sample .up 1).pos = .up from rfl)] at h5
  rw [h5] at h4
  have := congrArg Complex.re h4
  simp at this
  norm_num at this

end Verif.Zonge
