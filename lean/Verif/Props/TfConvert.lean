import Verif.Model.TfConvert
import Verif.Props.Tf
import Mathlib.Analysis.Complex.Basic

/-! # Transfer functions from and to the objects of file formats (C183-C191) -/

namespace Verif.TfConvert
open Classical Verif.Tf

variable {P : Type}

/-! ## The data set after an assignment -/

/-- The data set with an array stored at labels. -/
def put (d : DS P) (v : Var) (outs ins : List Str) (f : ℕ → ℕ → ℕ → Val) : DS P :=
  { d with arr := fun w k o i =>
      if w ≠ v then d.arr w k o i
      else match pos outs o, pos ins i with
        | some x, some y => f k x y
        | _, _ => d.arr w k o i }

theorem known_of {d : DS P} {l : List Str} (h : ∀ x ∈ l, x ∈ d.labels) : known d l = true := known_all h

theorem setLoc_put {d : DS P} {v : Var} {outs ins : List Str} {f : ℕ → ℕ → ℕ → Val} (ho : ∀ x ∈ outs, x ∈ d.labels)
    (hi : ∀ x ∈ ins, x ∈ d.labels) : setLoc d v outs ins f = .ok (put d v outs ins f) := by
  unfold setLoc
  rw [known_of ho, known_of hi]
  rfl

theorem pos_mem {l : List Str} {x : Str} (h : x ∈ l) : ∃ i, pos l x = some i ∧ l[i]? = some x := by
  cases hp : pos l x with
  | none =>
    unfold pos at hp
    rw [List.findIdx?_eq_none_iff] at hp
    have := hp x h
    simp at this
  | some i => exact ⟨i, rfl, pos_lt hp⟩

theorem put_self {d : DS P} {v : Var} {outs ins : List Str} {f : ℕ → ℕ → ℕ → Val} {k : ℕ} {o i : Str} {x y : ℕ} (ho : pos outs o = some x)
    (hi : pos ins i = some y) : (put d v outs ins f).arr v k o i = f k x y := by
  simp [put, ho, hi]

theorem put_out {d : DS P} {v : Var} {outs ins : List Str} {f : ℕ → ℕ → ℕ → Val} {k : ℕ} {o i : Str} (h : o ∉ outs ∨ i ∉ ins) :
    (put d v outs ins f).arr v k o i = d.arr v k o i := by
  rcases h with h | h
  · simp [put, pos_none h]
  · simp only [put, ne_eq, not_true_eq_false, if_false, pos_none h]
    cases pos outs o <;> rfl

theorem put_other {d : DS P} {v w : Var} {outs ins : List Str} {f : ℕ → ℕ → ℕ → Val} (h : w ≠ v) : (put d v outs ins f).arr w = d.arr w := by
  funext k o i
  simp [put, h]

theorem sub_ok {d : DS P} {v : Var} {outs ins : List Str} (ho : ∀ x ∈ outs, x ∈ d.labels) (hi : ∀ x ∈ ins, x ∈ d.labels) :
    sub d v outs ins = .ok { n := d.periods.length, r := outs.length, c := ins.length,
                             val := fun k i j => d.arr v k (outs.getD i []) (ins.getD j []) } := by
  unfold sub
  rw [known_of ho, known_of hi]
  rfl

/-- Stretching of axes of length one. -/
def stretch (a : Nd) : ℕ → ℕ → ℕ → Val :=
  fun k i j => a.val (if a.n = 1 then 0 else k) (if a.r = 1 then 0 else i) (if a.c = 1 then 0 else j)

theorem stretch_in {a : Nd} {k i j : ℕ} (hk : k < a.n) (hi : i < a.r) (hj : j < a.c) : stretch a k i j = a.val k i j := by
  unfold stretch
  congr 1
  · split <;> omega
  · split <;> omega
  · split <;> omega

theorem assign_ok {s : TF P} {v : Var} {outs ins : List Str} {a : Nd} (ho : ∀ x ∈ outs, x ∈ s.ds.labels) (hi : ∀ x ∈ ins, x ∈ s.ds.labels)
    (hn : a.n = s.ds.periods.length) (hr : a.r = outs.length) (hc : a.c = ins.length) :
    assign s v outs ins a = .ok { s with ds := put s.ds v outs ins (stretch a) } := by
  unfold assign
  rw [known_of ho, known_of hi]
  have : (fits a.n s.ds.periods.length && fits a.r outs.length && fits a.c ins.length) = true := by
    simp [fits, hn, hr, hc]
  rw [if_pos (by rfl), if_pos this, setLoc_put ho hi]
  rfl

theorem assign_key {s : TF P} {v : Var} {outs ins : List Str} {a : Nd} (h : known s.ds outs = false ∨ known s.ds ins = false) :
    assign s v outs ins a = .error .keyError := by
  unfold assign
  have : (known s.ds outs && known s.ds ins) = false := by
    rcases h with h | h <;> simp [h]
  rw [this]
  rfl

theorem assign_shape {s : TF P} {v : Var} {outs ins : List Str} {a : Nd} (ho : ∀ x ∈ outs, x ∈ s.ds.labels) (hi : ∀ x ∈ ins, x ∈ s.ds.labels)
    (hn : fits a.n s.ds.periods.length = false) : assign s v outs ins a = .error .valueError := by
  unfold assign
  rw [known_of ho, known_of hi]
  simp [hn]

/-- Types of arrays whose setter only stores. -/
def Stored (t : AType) : Prop := t = .impedance ∨ t = .impedanceError ∨ t = .tipper ∨ t = .tipperError

theorem set_ok {s : TF P} {t : AType} {a : Nd} (ht : Stored t) (hl : ∀ x ∈ s.names.all, x ∈ s.ds.labels) (hs : (a.r, a.c) = size t)
    (hn : a.n = s.ds.periods.length) :
    set s t (.nd a) = ({ s with ds := put s.ds (varOf t) (outsOf s.names t) (insOf s.names t) a.val }, none) := by
  have m1 : ∀ x ∈ s.names.hxhy, x ∈ s.ds.labels := fun x hx => hl x (mem_hxhy _ x hx)
  have m2 : ∀ x ∈ s.names.exey, x ∈ s.ds.labels := fun x hx => hl x (mem_exey _ x hx)
  have m4 : ∀ x ∈ [s.names.hz], x ∈ s.ds.labels := fun x hx => hl x (mem_hz _ x hx)
  simp only [Names.exey, Names.hxhy] at m1 m2
  rcases ht with rfl | rfl | rfl | rfl <;> simp only [size, Prod.mk.injEq] at hs <;>
    simp [Tf.set, setArray, chIn, chOut, validNd, shape, hs, hn, setLoc_put m2 m1, setLoc_put m4 m1, outsOf, insOf, Names.exey, Names.hxhy]

theorem set_bad {s : TF P} {t : AType} {a : Nd} (ht : Stored t) (hn : a.n ≠ s.ds.periods.length) :
    (set s t (.nd a)).2 = some .valueError := by
  rcases ht with rfl | rfl | rfl | rfl <;> simp only [Tf.set, setArray, chIn, chOut, validNd, shape] <;> split <;> simp_all
  all_goals (rename_i h; split at h <;> simp_all)

/-! ## Reading EMTF XML data -/

/-- The arrays have the shapes of their kinds, with one matrix for each period. -/
structure Em.Shaped (e : Em P) : Prop where
  z : (e.z.n, e.z.r, e.z.c) = (e.period.length, 2, 2)
  zVar : (e.zVar.n, e.zVar.r, e.zVar.c) = (e.period.length, 2, 2)
  zInv : (e.zInv.n, e.zInv.r, e.zInv.c) = (e.period.length, 2, 2)
  zRes : (e.zRes.n, e.zRes.r, e.zRes.c) = (e.period.length, 2, 2)
  t : (e.t.n, e.t.r, e.t.c) = (e.period.length, 1, 2)
  tVar : (e.tVar.n, e.tVar.r, e.tVar.c) = (e.period.length, 1, 2)
  tInv : (e.tInv.n, e.tInv.r, e.tInv.c) = (e.period.length, 2, 2)
  tRes : (e.tRes.n, e.tRes.r, e.tRes.c) = (e.period.length, 1, 1)

/-- The data set after reading, from the one with periods. -/
noncomputable def filled (d : DS P) (e : Em P) : DS P :=
  let d := put d .tf [ex, ey] [hx, hy] e.z.val
  let d := put d .err [ex, ey] [hx, hy] (sqrt e.zVar).val
  let d := put d .isp [hx, hy] [hx, hy] (stretch e.zInv)
  let d := put d .res [ex, ey] [ex, ey] (stretch e.zRes)
  let d := put d .tf [hz] [hx, hy] e.t.val
  let d := put d .err [hz] [hx, hy] (sqrt e.tVar).val
  let d := put d .isp [hx, hy] [hx, hy] (stretch e.tInv)
  put d .res [hz] [hz] (stretch e.tRes)

theorem usual_mem : (∀ x ∈ [hx, hy], x ∈ usual.all) ∧ (∀ x ∈ [ex, ey], x ∈ usual.all) ∧ ∀ x ∈ [hz], x ∈ usual.all := by decide

theorem fromEm_ok {one : P} {e : Em P} (he : e.Shaped) :
    fromEm one (new usual [one]) e = .ok { names := usual, ds := filled (initDs usual e.period) e } := by
  obtain ⟨u1, u2, u3⟩ := usual_mem
  have z := he.z; have zVar := he.zVar; have zInv := he.zInv; have zRes := he.zRes
  have t := he.t; have tVar := he.tVar; have tInv := he.tInv; have tRes := he.tRes
  simp only [Prod.mk.injEq] at z zVar zInv zRes t tVar tInv tRes
  unfold fromEm
  have h0 : ok! (setPeriod one (new usual [one]) e.period) = .ok (new usual e.period) := by
    simp [ok!, setPeriod, new, initDs]
  rw [h0]
  simp only [bind, Except.bind]
  have step : ∀ (d : DS P) (t : AType) (a : Nd), Stored t → d.labels = usual.all → (a.r, a.c) = size t → a.n = d.periods.length →
      ok! (set { names := usual, ds := d } t (.nd a)) =
        .ok { names := usual, ds := put d (varOf t) (outsOf usual t) (insOf usual t) a.val } := by
    intro d t a ht hl hs hn
    rw [set_ok ht (by rw [hl]; exact fun _ h => h) hs hn]
    rfl
  have stepA : ∀ (d : DS P) (v : Var) (outs ins : List Str) (a : Nd), d.labels = usual.all → (∀ x ∈ outs, x ∈ usual.all) →
      (∀ x ∈ ins, x ∈ usual.all) → a.n = d.periods.length → a.r = outs.length → a.c = ins.length →
      assign { names := usual, ds := d } v outs ins a = .ok { names := usual, ds := put d v outs ins (stretch a) } := by
    intro d v outs ins a hl ho hi hn hr hc
    rw [assign_ok (by rw [hl]; exact ho) (by rw [hl]; exact hi) hn hr hc]
  rw [show (new usual e.period) = { names := usual, ds := initDs usual e.period } from rfl]
  rw [step _ .impedance _ (Or.inl rfl) rfl (by simp [size, z]) (by simpa [initDs] using z.1)]
  simp only
  rw [step _ .impedanceError _ (Or.inr (Or.inl rfl)) rfl (by simp [size, sqrt, zVar]) (by simpa [put, initDs, sqrt] using zVar.1)]
  simp only
  rw [stepA _ .isp _ _ _ rfl u1 u1 (by simpa [put, initDs] using zInv.1) zInv.2.1 zInv.2.2]
  simp only
  rw [stepA _ .res _ _ _ rfl u2 u2 (by simpa [put, initDs] using zRes.1) zRes.2.1 zRes.2.2]
  simp only
  rw [step _ .tipper _ (Or.inr (Or.inr (Or.inl rfl))) rfl (by simp [size, t]) (by simpa [put, initDs] using t.1)]
  simp only
  rw [step _ .tipperError _ (Or.inr (Or.inr (Or.inr rfl))) rfl (by simp [size, sqrt, tVar]) (by simpa [put, initDs, sqrt] using tVar.1)]
  simp only
  rw [stepA _ .isp _ _ _ rfl u1 u1 (by simpa [put, initDs] using tInv.1) tInv.2.1 tInv.2.2]
  simp only
  rw [stepA _ .res _ _ _ rfl u3 u3 (by simpa [put, initDs] using tRes.1) tRes.2.1 tRes.2.2]
  rfl

/-- What is in the data set after reading EMTF XML data into a new object, by period number and labels. -/
structure Read (e : Em P) (s : TF P) : Prop where
  periods : s.ds.periods = e.period
  z : ∀ k < e.period.length, ∀ i < 2, ∀ j < 2, s.ds.arr .tf k ([ex, ey].getD i []) ([hx, hy].getD j []) = e.z.val k i j
  t : ∀ k < e.period.length, ∀ j < 2, s.ds.arr .tf k hz ([hx, hy].getD j []) = e.t.val k 0 j
  zErr : ∀ k < e.period.length, ∀ i < 2, ∀ j < 2, s.ds.arr .err k ([ex, ey].getD i []) ([hx, hy].getD j []) = (sqrt e.zVar).val k i j
  tErr : ∀ k < e.period.length, ∀ j < 2, s.ds.arr .err k hz ([hx, hy].getD j []) = (sqrt e.tVar).val k 0 j
  isp : ∀ k < e.period.length, ∀ i < 2, ∀ j < 2, s.ds.arr .isp k ([hx, hy].getD i []) ([hx, hy].getD j []) = e.tInv.val k i j
  res : ∀ k < e.period.length, ∀ i < 2, ∀ j < 2, s.ds.arr .res k ([ex, ey].getD i []) ([ex, ey].getD j []) = e.zRes.val k i j
  resT : ∀ k < e.period.length, s.ds.arr .res k hz hz = e.tRes.val k 0 0
  cross : ∀ k < e.period.length, ∀ i < 2, s.ds.arr .res k ([ex, ey].getD i []) hz = some 0 ∧ s.ds.arr .res k hz ([ex, ey].getD i []) = some 0

theorem label_facts : (∀ i < 2, pos [ex, ey] ([ex, ey].getD i []) = some i ∧ pos [hx, hy] ([hx, hy].getD i []) = some i ∧
      [ex, ey].getD i [] ∉ [hz] ∧ hz ∉ [ex, ey]) ∧ pos [hz] hz = some 0 := by decide

theorem filled_read {one : P} {e : Em P} (he : e.Shaped) : ∃ s, fromEm one (new usual [one]) e = .ok s ∧ s.names = usual ∧ s.ds.labels = usual.all ∧ Read e s := by
  refine ⟨_, fromEm_ok he, rfl, rfl, ?_⟩
  obtain ⟨lf, l0⟩ := label_facts
  have zRes := he.zRes; have tInv := he.tInv; have tRes := he.tRes
  simp only [Prod.mk.injEq] at zRes tInv tRes
  have hzn : hz ∉ [ex, ey] := (lf 0 (by omega)).2.2.2
  constructor
  · rfl
  · intro k hk i hi j hj
    unfold filled
    simp only
    rw [put_other (by decide), put_other (by decide), put_other (by decide), put_out (.inl (lf i hi).2.2.1), put_other (by decide),
      put_other (by decide), put_other (by decide), put_self (lf i hi).1 (lf j hj).2.1]
  · intro k hk j hj
    unfold filled
    simp only
    rw [put_other (by decide), put_other (by decide), put_other (by decide), put_self l0 (lf j hj).2.1]
  · intro k hk i hi j hj
    unfold filled
    simp only
    rw [put_other (by decide), put_other (by decide), put_out (.inl (lf i hi).2.2.1), put_other (by decide), put_other (by decide),
      put_other (by decide), put_self (lf i hi).1 (lf j hj).2.1]
  · intro k hk j hj
    unfold filled
    simp only
    rw [put_other (by decide), put_other (by decide), put_self l0 (lf j hj).2.1]
  · intro k hk i hi j hj
    unfold filled
    simp only
    rw [put_other (by decide), put_self (lf i hi).2.1 (lf j hj).2.1, stretch_in (by omega) (by omega) (by omega)]
  · intro k hk i hi j hj
    unfold filled
    simp only
    rw [put_out (.inl (lf i hi).2.2.1), put_other (by decide), put_other (by decide), put_other (by decide),
      put_self (lf i hi).1 (lf j hj).1, stretch_in (by omega) (by omega) (by omega)]
  · intro k hk
    unfold filled
    simp only
    rw [put_self l0 l0, stretch_in (by omega) (by omega) (by omega)]
  · intro k hk i hi
    constructor
    · unfold filled
      simp only
      rw [put_out (.inl (lf i hi).2.2.1), put_other (by decide), put_other (by decide), put_other (by decide),
        put_out (.inr hzn), put_other (by decide), put_other (by decide), put_other (by decide)]
      rfl
    · unfold filled
      simp only
      rw [put_out (.inr (lf i hi).2.2.1), put_other (by decide), put_other (by decide), put_other (by decide),
        put_out (.inl hzn), put_other (by decide), put_other (by decide), put_other (by decide)]
      rfl

/-! ## C183: EMTF XML objects -/

/-- What `to_emtfxml` makes. -/
noncomputable def emOf (s : TF P) (z t cov : Bool) : Em P :=
  let m := s.names
  let at_ (v : Var) (outs ins : List Str) : Nd := { n := s.ds.periods.length, r := outs.length, c := ins.length,
                                                    val := fun k i j => s.ds.arr v k (outs.getD i []) (ins.getD j []) }
  { period := s.ds.periods
    z := if z then at_ .tf m.exey m.hxhy else empty 2 2
    zVar := if z then sq (at_ .err m.exey m.hxhy) else empty 2 2
    zInv := if cov then at_ .isp m.hxhy m.hxhy else empty 2 2
    zRes := if cov then at_ .res m.exey m.exey else empty 2 2
    t := if t then at_ .tf [m.hz] m.hxhy else empty 1 2
    tVar := if t then sq (at_ .err [m.hz] m.hxhy) else empty 1 2
    tInv := if cov then at_ .isp m.hxhy m.hxhy else empty 2 2
    tRes := if cov then at_ .res [m.hz] [m.hz] else empty 1 1 }

theorem toEm_eq {s : TF P} {z t r p : Bool} (hl : s.ds.labels = s.names.all) (hz : hasZ s = .ok z) (ht : hasT s = .ok t)
    (hr : hasRes s = .ok r) (hp : hasIsp s = .ok p) (hn : s.ds.periods ≠ []) : toEm s = .ok (emOf s z t (r && p)) := by
  have m1 : ∀ x ∈ s.names.hxhy, x ∈ s.ds.labels := by rw [hl]; exact mem_hxhy _
  have m2 : ∀ x ∈ s.names.exey, x ∈ s.ds.labels := by rw [hl]; exact mem_exey _
  have m4 : ∀ x ∈ [s.names.hz], x ∈ s.ds.labels := by rw [hl]; exact mem_hz _
  unfold toEm
  rw [hz, ht, hr, hp]
  cases z <;> cases t <;> cases r <;> cases p <;>
    simp [bind, Except.bind, sub_ok m1 m1, sub_ok m2 m1, sub_ok m2 m2, sub_ok m4 m1, sub_ok m4 m4, hn, emOf]

/-- An error is a positive real number, zero or `nan`. -/
def Positive (v : Val) : Prop := v = none ∨ ∃ x : ℝ, 0 ≤ x ∧ v = some (x : ℂ)

theorem sqrt_sq {a : Nd} {k i j : ℕ} (h : Positive (a.val k i j)) : (sqrt (sq a)).val k i j = a.val k i j := by
  rcases h with h | ⟨x, hx, h⟩
  · simp [sqrt, sq, h]
  · simp [sqrt, sq, h, Real.sqrt_mul_self hx, mul_self_nonneg]

/-- C183: a transfer function with the usual names, converted to an EMTF XML object and back, has its arrays. -/
def C183_claim : Prop := ∀ s : TF ℚ, Reachable 1 s → s.names = usual → s.ds.periods ≠ [] → (∀ k < s.ds.periods.length, ∀ o ∈ usual.exeyhz, ∀ i ∈ usual.hxhy, Positive (s.ds.arr .err k o i)) →
  ∃ e s', toEm s = .ok e ∧ fromEm 1 (new usual [1]) e = .ok s' ∧ s'.ds.periods = s.ds.periods ∧
    ∀ t, t ≠ .impedanceModelError → t ≠ .tipperModelError → t ≠ .tfModelError → get s' t = get s t

/-- If impedances, tippers or covariances are missing, the way back raises. -/
theorem C183_missing {one : P} {s : TF P} (hs : Reachable one s) (hu : s.names = usual) (hn : s.ds.periods ≠ [])
    (h : ¬ (hasZ s = .ok true ∧ hasT s = .ok true ∧ hasRes s = .ok true ∧ hasIsp s = .ok true)) :
    ∃ e, toEm s = .ok e ∧ fromEm one (new usual [one]) e = .error .valueError := by
  obtain ⟨σ, R⟩ := hs.rel
  obtain ⟨u1, u2, u3⟩ := usual_mem
  have hpos : s.ds.periods.length ≠ 0 := by simpa using hn
  cases hz : hasZ s with
  | error e => rw [R.hasZ_eq] at hz; cases hz
  | ok z =>
  cases ht : hasT s with
  | error e => rw [R.hasT_eq] at ht; cases ht
  | ok t =>
  cases hr : hasRes s with
  | error e => rw [R.hasRes_eq] at hr; cases hr
  | ok r =>
  cases hp : hasIsp s with
  | error e => rw [R.hasIsp_eq] at hp; cases hp
  | ok p =>
  rw [hz, ht, hr, hp] at h
  refine ⟨_, toEm_eq R.labels hz ht hr hp hn, ?_⟩
  unfold fromEm
  have h0 : ok! (setPeriod one (new usual [one]) (emOf s z t (r && p)).period) = .ok { names := usual, ds := initDs usual s.ds.periods } := by
    simp [ok!, setPeriod, new, initDs, emOf]
  rw [h0]
  simp only [bind, Except.bind]
  have bad : ∀ (d : DS P) (ty : AType) (a : Nd), Stored ty → a.n ≠ d.periods.length →
      ok! (Tf.set { names := usual, ds := d } ty (.nd a)) = .error .valueError := by
    intro d ty a hty ha
    unfold ok!
    rw [set_bad hty ha]
  have step : ∀ (d : DS P) (t : AType) (a : Nd), Stored t → d.labels = usual.all → (a.r, a.c) = size t → a.n = d.periods.length →
      ok! (Tf.set { names := usual, ds := d } t (.nd a)) =
        .ok { names := usual, ds := put d (varOf t) (outsOf usual t) (insOf usual t) a.val } := by
    intro d t a ht hl hs hn
    rw [set_ok ht (by rw [hl]; exact fun _ h => h) hs hn]
    rfl
  have stepA : ∀ (d : DS P) (v : Var) (outs ins : List Str) (a : Nd), d.labels = usual.all → (∀ x ∈ outs, x ∈ usual.all) →
      (∀ x ∈ ins, x ∈ usual.all) → a.n = d.periods.length → a.r = outs.length → a.c = ins.length →
      assign { names := usual, ds := d } v outs ins a = .ok { names := usual, ds := put d v outs ins (stretch a) } := by
    intro d v outs ins a hl ho hi hn hr hc
    rw [assign_ok (by rw [hl]; exact ho) (by rw [hl]; exact hi) hn hr hc]
  have badA : ∀ (d : DS P) (v : Var) (outs ins : List Str) (a : Nd), d.labels = usual.all → (∀ x ∈ outs, x ∈ usual.all) →
      (∀ x ∈ ins, x ∈ usual.all) → a.n = 0 → d.periods.length ≠ 0 →
      assign { names := usual, ds := d } v outs ins a = .error .valueError := by
    intro d v outs ins a hl ho hi hn hr
    apply assign_shape (by rw [hl]; exact ho) (by rw [hl]; exact hi)
    simp [fits, hn]
    omega
  cases z with
  | false =>
    rw [bad _ .impedance _ (Or.inl rfl) (by simp [emOf, empty, initDs]; omega)]
  | true =>
    rw [step _ .impedance _ (Or.inl rfl) rfl (by simp [size, emOf, hu]; exact ⟨rfl, rfl⟩) (by simp [emOf, initDs])]
    simp only
    rw [step _ .impedanceError _ (Or.inr (Or.inl rfl)) rfl (by simp [size, emOf, hu, sqrt, sq]; exact ⟨rfl, rfl⟩) (by simp [emOf, initDs, put, sqrt, sq])]
    simp only
    cases hc : r && p with
    | false =>
      rw [badA _ .isp _ _ _ rfl u1 u1 (by simp [emOf, empty]) (by simpa [put, initDs] using hpos)]
    | true =>
      rw [stepA _ .isp _ _ _ rfl u1 u1 (by simp [emOf, put, initDs]) (by simp [emOf, hu]; rfl) (by simp [emOf, hu]; rfl)]
      simp only
      rw [stepA _ .res _ _ _ rfl u2 u2 (by simp [emOf, put, initDs]) (by simp [emOf, hu]; rfl) (by simp [emOf, hu]; rfl)]
      simp only
      have : t = false := by
        cases t with
        | false => rfl
        | true =>
          simp only [Bool.and_eq_true] at hc
          obtain ⟨rfl, rfl⟩ := hc
          exact absurd ⟨rfl, rfl, rfl, rfl⟩ h
      rw [bad _ .tipper _ (Or.inr (Or.inr (Or.inl rfl))) (by rw [this]; simp [emOf, empty, put, initDs]; omega)]

theorem emOf_shaped {s : TF P} : (emOf s true true true).Shaped := by
  constructor <;> rfl

/-- Reading what was made. -/
theorem em_again {one : P} {s : TF P} (hs : Reachable one s) (hu : s.names = usual) (hn : s.ds.periods ≠ [])
    (qz : hasZ s = .ok true) (qt : hasT s = .ok true) (qr : hasRes s = .ok true) (qp : hasIsp s = .ok true)
    (he : ∀ k < s.ds.periods.length, ∀ o ∈ usual.exeyhz, ∀ i ∈ usual.hxhy, Positive (s.ds.arr .err k o i)) :
    ∃ e s', toEm s = .ok e ∧ fromEm one (new usual [one]) e = .ok s' ∧ s'.names = usual ∧ s'.ds.labels = usual.all ∧
      s'.ds.periods = s.ds.periods ∧
      (∀ v, v = .tf ∨ v = .err → ∀ k < s.ds.periods.length, ∀ o ∈ [ex, ey, hz], ∀ i ∈ [hx, hy], s'.ds.arr v k o i = s.ds.arr v k o i) ∧
      (∀ k < s.ds.periods.length, ∀ o ∈ [hx, hy], ∀ i ∈ [hx, hy], s'.ds.arr .isp k o i = s.ds.arr .isp k o i) ∧
      (∀ k < s.ds.periods.length, ∀ o ∈ [ex, ey, hz], ∀ i ∈ [ex, ey, hz],
        s'.ds.arr .res k o i = if o = hz ↔ i = hz then s.ds.arr .res k o i else some 0) := by
  obtain ⟨σ, R⟩ := hs.rel
  obtain ⟨s', h1, h2, h2', h3⟩ := filled_read (one := one) (e := emOf s true true true) emOf_shaped
  refine ⟨_, s', toEm_eq R.labels qz qt qr qp hn, h1, h2, h2', h3.periods, ?_, ?_, ?_⟩
  · intro v hv k hk o ho i hi
    obtain ⟨j, hj, rfl⟩ : ∃ j < 2, [hx, hy].getD j [] = i := by
      simp only [List.mem_cons, List.not_mem_nil, or_false] at hi
      rcases hi with rfl | rfl
      · exact ⟨0, by omega, rfl⟩
      · exact ⟨1, by omega, rfl⟩
    have hout : (∃ x < 2, [ex, ey].getD x [] = o) ∨ o = hz := by
      simp only [List.mem_cons, List.not_mem_nil, or_false] at ho
      rcases ho with rfl | rfl | rfl
      · exact Or.inl ⟨0, by omega, rfl⟩
      · exact Or.inl ⟨1, by omega, rfl⟩
      · exact Or.inr rfl
    have un1 : s.names.exey = [ex, ey] := by rw [hu]; rfl
    have un2 : s.names.hxhy = [hx, hy] := by rw [hu]; rfl
    have un3 : s.names.hz = hz := by rw [hu]; rfl
    rcases hv with rfl | rfl
    · rcases hout with ⟨x, hx2, rfl⟩ | rfl
      · rw [h3.z k hk x hx2 j hj]
        simp only [emOf, if_true, un1, un2]
      · rw [h3.t k hk j hj]
        simp only [emOf, if_true, un3, un2]
        rfl
    · rcases hout with ⟨x, hx2, rfl⟩ | rfl
      · rw [h3.zErr k hk x hx2 j hj]
        simp only [emOf, if_true]
        rw [sqrt_sq]
        · simp only [un1, un2]
        · simp only [un1, un2]
          exact he k hk _ ho _ hi
      · rw [h3.tErr k hk j hj]
        simp only [emOf, if_true]
        rw [sqrt_sq]
        · simp only [un3, un2]
          rfl
        · simp only [un3, un2]
          exact he k hk _ ho _ hi
  · intro k hk o ho i hi
    have un2 : s.names.hxhy = [hx, hy] := by rw [hu]; rfl
    have c : ∀ i ∈ [hx, hy], ∃ j < 2, [hx, hy].getD j [] = i := by
      intro i hi
      simp only [List.mem_cons, List.not_mem_nil, or_false] at hi
      rcases hi with rfl | rfl
      · exact ⟨0, by omega, rfl⟩
      · exact ⟨1, by omega, rfl⟩
    obtain ⟨j, hj, rfl⟩ := c i hi
    obtain ⟨x, hx2, rfl⟩ := c o ho
    rw [h3.isp k hk x hx2 j hj]
    simp only [emOf, if_true, un2]
  · intro k hk o ho i hi
    have un1 : s.names.exey = [ex, ey] := by rw [hu]; rfl
    have un3 : s.names.hz = hz := by rw [hu]; rfl
    have c : ∀ i ∈ [ex, ey, hz], (∃ j < 2, [ex, ey].getD j [] = i ∧ i ≠ hz) ∨ i = hz := by
      intro i hi
      simp only [List.mem_cons, List.not_mem_nil, or_false] at hi
      rcases hi with rfl | rfl | rfl
      · exact Or.inl ⟨0, by omega, rfl, by decide⟩
      · exact Or.inl ⟨1, by omega, rfl, by decide⟩
      · exact Or.inr rfl
    rcases c o ho with ⟨x, hx2, rfl, nx⟩ | rfl <;> rcases c i hi with ⟨j, hj, rfl, nj⟩ | rfl
    · rw [if_pos (by simp only [nx, nj]), h3.res k hk x hx2 j hj]
      simp only [emOf, if_true, un1]
    · rw [if_neg (by simp only [nx]; simp), (h3.cross k hk x hx2).1]
    · rw [if_neg (by simp only [nj]; simp), (h3.cross k hk j hj).2]
    · rw [if_pos (by rfl), h3.resT k hk]
      simp only [emOf, if_true, un3]
      rfl

theorem getLoc_congr {d d' : DS P} {v : Var} {outs ins : List Str} (hp : d'.periods = d.periods) (hl : d'.labels = d.labels)
    (h : ∀ k < d.periods.length, ∀ o ∈ outs, ∀ i ∈ ins, d'.arr v k o i = d.arr v k o i) : getLoc d' v outs ins = getLoc d v outs ins := by
  unfold getLoc known
  rw [hp, hl]
  congr 2
  refine List.map_congr_left fun k hk => ?_
  refine List.map_congr_left fun o ho => ?_
  refine List.map_congr_left fun i hi => ?_
  exact h k (by simpa using hk) o ho i hi

/-- The properties depend on the entries for their labels only. -/
theorem get_congr {s s' : TF P} (hm : s'.names = s.names) (hp : s'.ds.periods = s.ds.periods) (hl : s'.ds.labels = s.ds.labels)
    (h : ∀ v, v = .tf ∨ v = .err → ∀ k < s.ds.periods.length, ∀ o ∈ s.names.exeyhz, ∀ i ∈ s.names.hxhy, s'.ds.arr v k o i = s.ds.arr v k o i)
    (hi : ∀ k < s.ds.periods.length, ∀ o ∈ s.names.hxhy, ∀ i ∈ s.names.hxhy, s'.ds.arr .isp k o i = s.ds.arr .isp k o i) :
    ∀ t, t ≠ .impedanceModelError → t ≠ .tipperModelError → t ≠ .tfModelError → t ≠ .res → get s' t = get s t := by
  have a1 : ∀ v, v = .tf ∨ v = .err → getLoc s'.ds v s.names.exeyhz s.names.hxhy = getLoc s.ds v s.names.exeyhz s.names.hxhy :=
    fun v hv => getLoc_congr hp hl (h v hv)
  have a2 : ∀ v, v = .tf ∨ v = .err → getLoc s'.ds v s.names.exey s.names.hxhy = getLoc s.ds v s.names.exey s.names.hxhy :=
    fun v hv => getLoc_congr hp hl fun k hk o ho => h v hv k hk o (by
      simp only [Names.exey, Names.exeyhz, List.mem_cons, List.not_mem_nil, or_false] at *; tauto)
  have a3 : ∀ v, v = .tf ∨ v = .err → getLoc s'.ds v [s.names.hz] s.names.hxhy = getLoc s.ds v [s.names.hz] s.names.hxhy :=
    fun v hv => getLoc_congr hp hl fun k hk o ho => h v hv k hk o (by
      simp only [Names.exeyhz, List.mem_cons, List.not_mem_nil, or_false] at *; tauto)
  have a4 : getLoc s'.ds .isp s.names.hxhy s.names.hxhy = getLoc s.ds .isp s.names.hxhy s.names.hxhy := getLoc_congr hp hl hi
  intro t h1 h2 h3 h4
  cases t <;> first | exact absurd rfl h1 | exact absurd rfl h2 | exact absurd rfl h3 | exact absurd rfl h4 |
    simp only [Tf.get, hasTf, hasZ, hasT, hasIsp, hm, hl, a4, a1 .tf (.inl rfl), a1 .err (.inr rfl), a2 .tf (.inl rfl), a2 .err (.inr rfl),
      a3 .tf (.inl rfl), a3 .err (.inr rfl)]

/-- With impedances, tippers and both covariances everything is kept but the residual covariances between electric and
vertical magnetic channels, which become zero. Missing: these, and all transfer functions without one of the four
(`C183_missing`). -/
theorem C183_partial {one : P} {s : TF P} (hs : Reachable one s) (hu : s.names = usual) (hn : s.ds.periods ≠ [])
    (qz : hasZ s = .ok true) (qt : hasT s = .ok true) (qr : hasRes s = .ok true) (qp : hasIsp s = .ok true)
    (he : ∀ k < s.ds.periods.length, ∀ o ∈ usual.exeyhz, ∀ i ∈ usual.hxhy, Positive (s.ds.arr .err k o i)) :
    ∃ e s', toEm s = .ok e ∧ fromEm one (new usual [one]) e = .ok s' ∧ s'.ds.periods = s.ds.periods ∧
      (∀ t, t ≠ .impedanceModelError → t ≠ .tipperModelError → t ≠ .tfModelError → t ≠ .res → get s' t = get s t) ∧
      (∀ k < s.ds.periods.length, ∀ o ∈ usual.exeyhz, ∀ i ∈ usual.exeyhz,
        s'.ds.arr .res k o i = if o = usual.hz ↔ i = usual.hz then s.ds.arr .res k o i else some 0) := by
  obtain ⟨σ, R⟩ := hs.rel
  obtain ⟨e, s', h1, h2, h3, h4, h5, h6, h7, h8⟩ := em_again hs hu hn qz qt qr qp he
  refine ⟨e, s', h1, h2, h5, ?_, h8⟩
  apply get_congr (h3.trans hu.symm) h5 (by rw [h4, R.labels, hu])
  · rw [hu]; exact h6
  · rw [hu]; exact h7

/-- Impedances of one period. -/
noncomputable def exZ : TF ℚ := (run 1 (new usual [2]) [.set .impedance (ones 1 2 2)]).1

theorem exZ_reachable : Reachable 1 exZ := ⟨usual, [2], _, usual_nodup, rfl⟩

theorem exZ_eq : exZ = { names := usual, ds := put (initDs usual [2]) .tf [ex, ey] [hx, hy] (ones 1 2 2).val } := by
  show (Tf.set (new usual [2]) .impedance (.nd (ones 1 2 2))).1 = _
  rw [set_ok (Or.inl rfl) (fun _ h => h) rfl rfl]
  rfl

theorem C183_refuted : ¬ C183_claim := by
  intro h
  have hp : exZ.ds.periods ≠ [] := by rw [exZ_eq]; simp [put, initDs]
  have hu : exZ.names = usual := by rw [exZ_eq]
  obtain ⟨e, s', h1, h2, _⟩ := h exZ exZ_reachable hu hp (by
    intro k _ o _ i _
    rw [exZ_eq]
    exact Or.inr ⟨0, le_refl _, by rw [put_other (by decide)]; simp [initDs]⟩)
  obtain ⟨e', g1, g2⟩ := C183_missing exZ_reachable hu hp (by
    rintro ⟨_, _, h3, _⟩
    obtain ⟨σ, R⟩ := exZ_reachable.rel
    rw [R.hasRes_eq] at h3
    have h4 := of_decide_eq_true (Except.ok.inj h3)
    apply h4
    intro k hk i hi j hj
    have ho : ∀ i < 3, ∃ o, usual.exeyhz[i]? = some o := fun i hi =>
      ⟨_, List.getElem?_eq_getElem (show i < usual.exeyhz.length from hi)⟩
    obtain ⟨o, ho1⟩ := ho i hi
    obtain ⟨x, ho2⟩ := ho j hj
    have := R.res k i o j x (by rw [hu]; exact ho1) (by rw [hu]; exact ho2)
    rw [← this, exZ_eq, put_other (by decide)]
    rfl)
  rw [g1] at h1
  cases h1
  rw [g2] at h2
  cases h2

/-- Everything there is, two periods. -/
noncomputable def exAll : TF ℚ :=
  (run 1 (new usual [2, 3]) [.set .impedance (ones 2 2 2), .set .tipper (ones 2 1 2), .set .isp (ones 2 2 2), .set .res (ones 2 3 3)]).1

theorem ones_root : rootOf (some 1) (some 1) = some ((1 : ℝ) : ℂ) := by
  simp only [rootOf, Option.bind_some, Option.map_some]
  rw [mul_one, norm_one, Real.sqrt_one]

theorem exAll_rel : Rel exAll { periods := [2, 3], z := (ones 2 2 2).val, t := (ones 2 1 2).val, zErr := fun _ _ _ => some ((1 : ℝ) : ℂ),
                                tErr := fun _ _ _ => some ((1 : ℝ) : ℂ), zMod := fun _ _ _ => some 0, tMod := fun _ _ _ => some 0,
                                isp := (ones 2 2 2).val, res := (ones 2 3 3).val } := by
  have h := ((Rel.new usual_nodup [(2 : ℚ), 3]).run 1 [.set .impedance (ones 2 2 2), .set .tipper (ones 2 1 2), .set .isp (ones 2 2 2), .set .res (ones 2 3 3)]).1
  have n1 : ¬ Tf.Zero 2 2 2 (fun _ _ _ => some 1) := fun z => by have := z 0 (by omega) 0 (by omega) 0 (by omega); simp at this
  have n2 : ¬ Tf.Zero 2 3 3 (fun _ _ _ => some 1) := fun z => by have := z 0 (by omega) 0 (by omega) 0 (by omega); simp at this
  have z2 : Tf.Zero 2 3 3 (fun _ _ _ => some 0) := fun _ _ _ _ _ _ => rfl
  have e : ((Spec.zero [(2 : ℚ), 3]).run 1 [.set .impedance (ones 2 2 2), .set .tipper (ones 2 1 2), .set .isp (ones 2 2 2), .set .res (ones 2 3 3)]).1 =
      { periods := [2, 3], z := (ones 2 2 2).val, t := (ones 2 1 2).val, zErr := fun _ _ _ => some ((1 : ℝ) : ℂ),
        tErr := fun _ _ _ => some ((1 : ℝ) : ℂ), zMod := fun _ _ _ => some 0, tMod := fun _ _ _ => some 0,
        isp := (ones 2 2 2).val, res := (ones 2 3 3).val } := by
    simp [Spec.run, Spec.step, Spec.zero, size, ones, Spec.store, Spec.after, Spec.errors, ones_root, n1, n2, z2]
  rw [e] at h
  exact h

theorem names_set (s : TF P) (t : AType) (x : Input P) : (Tf.set s t x).1.names = s.names := by
  have h1 : ∀ s', setArray s t x = .ok s' → s'.names = s.names := by
    intro s' h
    unfold setArray at h
    cases x with
    | none => cases h; rfl
    | nd a =>
      simp only at h
      split at h
      · split at h
        · cases h
        · split at h
          · cases h
          · cases h; rfl
      · cases h
    | da a =>
      simp only at h
      split at h
      · split at h
        · cases h
        · split at h
          · split at h
            · split at h
              · cases h
              · cases h; rfl
            · cases h
          · cases h
      · cases h
  have h2 : ∀ s' s'' : TF P, computeErr s' = .ok s'' → s''.names = s'.names := by
    intro s' s'' h
    unfold computeErr at h
    split at h
    · cases h
    · cases h
    · cases h; rfl
    · cases h
  unfold Tf.set
  cases hs : setArray s t x with
  | error e => rfl
  | ok s' =>
    have hn := h1 s' hs
    cases t <;> simp only [hn]
    · cases hasRes s' with
      | error e => exact hn
      | ok b => cases b with
        | false => exact hn
        | true => cases hc : computeErr s' with
          | error e => exact hn
          | ok s'' => exact (h2 _ _ hc).trans hn
    · cases hasIsp s' with
      | error e => exact hn
      | ok b => cases b with
        | false => exact hn
        | true => cases hc : computeErr s' with
          | error e => exact hn
          | ok s'' => exact (h2 _ _ hc).trans hn

theorem names_run (one : P) (s : TF P) (ops : List (Op P)) : (run one s ops).1.names = s.names := by
  induction ops generalizing s with
  | nil => rfl
  | cons op ops ih =>
    show (run one (step one s op).1 ops).1.names = _
    rw [ih]
    cases op with
    | set t a => exact names_set s t _
    | setNone t => exact names_set s t _
    | period v =>
      show (setPeriod one s v).1.names = _
      unfold setPeriod
      split
      · rfl
      · split <;> rfl

/-- Not vacuous. -/
example : Reachable 1 exAll ∧ exAll.names = usual ∧ exAll.ds.periods ≠ [] ∧ hasZ exAll = .ok true ∧ hasT exAll = .ok true ∧
    hasRes exAll = .ok true ∧ hasIsp exAll = .ok true ∧
    ∀ k < exAll.ds.periods.length, ∀ o ∈ usual.exeyhz, ∀ i ∈ usual.hxhy, Positive (exAll.ds.arr .err k o i) := by
  have R := exAll_rel
  have hu : exAll.names = usual := names_run _ _ _
  have n1 : ¬ Tf.Zero 2 2 2 (fun _ _ _ => some 1) := fun z => by have := z 0 (by omega) 0 (by omega) 0 (by omega); simp at this
  have n2 : ¬ Tf.Zero 2 3 3 (fun _ _ _ => some 1) := fun z => by have := z 0 (by omega) 0 (by omega) 0 (by omega); simp at this
  have n3 : ¬ ZeroNan 2 1 2 (fun _ _ _ => some 1) := fun z => by have := z 0 (by omega) 0 (by omega) 0 (by omega); simp at this
  refine ⟨⟨usual, [2, 3], _, usual_nodup, rfl⟩, hu, by rw [R.periods]; simp, ?_, ?_, ?_, ?_, ?_⟩
  · rw [R.hasZ_eq]; simp [ones, n1]
  · rw [R.hasT_eq]; simp [ones, n3]
  · rw [R.hasRes_eq]; simp [ones, n2]
  · rw [R.hasIsp_eq]; simp [ones, n1]
  · intro k _ o ho i hi
    refine Or.inr ⟨1, by norm_num, ?_⟩
    have b1 := R.zErr k
    have b2 := R.tErr k
    rw [hu] at b1 b2
    simp only [Names.exeyhz, Names.hxhy, List.mem_cons, List.not_mem_nil, or_false] at ho hi
    rcases ho with rfl | rfl | rfl <;> rcases hi with rfl | rfl
    · exact b1 0 _ 0 _ rfl rfl
    · exact b1 0 _ 1 _ rfl rfl
    · exact b1 1 _ 0 _ rfl rfl
    · exact b1 1 _ 1 _ rfl rfl
    · exact b2 0 _ 0 _ rfl rfl
    · exact b2 0 _ 1 _ rfl rfl

/-! ## C184: reading EMTF XML data -/

/-- C184: data without tippers, as a file of impedances gives them, are all there after reading. -/
def C184_claim : Prop := ∀ e : Em ℚ, e.Shaped → (∀ a ∈ [e.t, e.tVar, e.tInv, e.tRes], ∀ k i j, a.val k i j = some 0) →
  ∃ s, fromEm 1 (new usual [1]) e = .ok s ∧
    (∀ k < e.period.length, ∀ i < 2, ∀ j < 2, s.ds.arr .isp k ([hx, hy].getD i []) ([hx, hy].getD j []) = e.zInv.val k i j)

/-- Zeros. -/
def zeros (n r c : ℕ) : Nd := { n := n, r := r, c := c, val := fun _ _ _ => some 0 }

/-- Impedances with covariances, no tippers. -/
def exEm : Em ℚ where
  period := [2, 3]
  z := ones 2 2 2
  zVar := ones 2 2 2
  zInv := ones 2 2 2
  zRes := ones 2 2 2
  t := zeros 2 1 2
  tVar := zeros 2 1 2
  tInv := zeros 2 2 2
  tRes := zeros 2 1 1

theorem exEm_shaped : exEm.Shaped := by constructor <;> rfl

/-- The numbers of the data are at the places of the usual names; the inverse signal power is the one of the
tippers, also if it is zero because there are none. Missing: the one of the impedances. -/
theorem C184_partial {one : P} {e : Em P} (he : e.Shaped) : ∃ s, fromEm one (new usual [one]) e = .ok s ∧ Read e s := by
  obtain ⟨s, h1, _, _, h2⟩ := filled_read (one := one) he
  exact ⟨s, h1, h2⟩

theorem C184_refuted : ¬ C184_claim := by
  intro h
  obtain ⟨s, h1, h2⟩ := h exEm exEm_shaped (by
    intro a ha k i j
    simp only [exEm, List.mem_cons, List.not_mem_nil, or_false] at ha
    rcases ha with rfl | rfl | rfl | rfl <;> rfl)
  obtain ⟨s', g1, g2⟩ := C184_partial (one := (1 : ℚ)) exEm_shaped
  rw [g1] at h1
  cases h1
  have a := h2 0 (by decide) 0 (by omega) 0 (by omega)
  rw [g2.isp 0 (by decide) 0 (by omega) 0 (by omega)] at a
  simp [exEm, zeros, ones] at a

/-! ## C185: other names of channels -/

/-- C185: EMTF XML data can be read into an object with any names of channels. -/
def C185_claim : Prop := ∀ (m : Names), m.all.Nodup → ∀ e : Em ℚ, e.Shaped → ∃ s, fromEm 1 (new m [1]) e = .ok s

/-- It raises if `hx` or `hy` is not among the names. Proved for the usual names (`C184_partial`). -/
theorem C185_partial {one : P} {m : Names} {e : Em P} (he : e.Shaped) (hm : hx ∉ m.all ∨ hy ∉ m.all) :
    fromEm one (new m [one]) e = .error .keyError := by
  have z := he.z; have zVar := he.zVar
  simp only [Prod.mk.injEq] at z zVar
  unfold fromEm
  have h0 : ok! (setPeriod one (new m [one]) e.period) = .ok { names := m, ds := initDs m e.period } := by
    simp [ok!, setPeriod, new, initDs]
  rw [h0]
  simp only [bind, Except.bind]
  have step : ∀ (d : DS P) (t : AType) (a : Nd), Stored t → d.labels = m.all → (a.r, a.c) = size t → a.n = d.periods.length →
      ok! (Tf.set { names := m, ds := d } t (.nd a)) =
        .ok { names := m, ds := put d (varOf t) (outsOf m t) (insOf m t) a.val } := by
    intro d t a ht hl hs hn
    rw [set_ok ht (by rw [hl]; exact fun _ h => h) hs hn]
    rfl
  rw [step _ .impedance _ (Or.inl rfl) rfl (by simp [size, z]) (by simpa [initDs] using z.1)]
  simp only
  rw [step _ .impedanceError _ (Or.inr (Or.inl rfl)) rfl (by simp [size, sqrt, zVar]) (by simpa [put, initDs, sqrt] using zVar.1)]
  simp only
  rw [assign_key]
  left
  simp only [known, put, initDs, List.all_cons, List.all_nil, Bool.and_true, Bool.and_eq_false_iff, List.contains_eq_mem,
    decide_eq_false_iff_not]
  exact hm

theorem C185_refuted : ¬ C185_claim := by
  intro h
  obtain ⟨s, hs⟩ := h others (by decide) exEm exEm_shaped
  rw [C185_partial exEm_shaped (Or.inl (by decide))] at hs
  cases hs

/-! ## C186: EDI objects -/

/-- The angle of every period. -/
def Rot.angles (n : ℕ) : Rot → List ℝ
  | .num x => List.replicate n x
  | .arr l => l

/-- A block of an array. -/
def part (d : DS P) (v : Var) (outs ins : List Str) : Nd where
  n := d.periods.length
  r := outs.length
  c := ins.length
  val := fun k i j => d.arr v k (outs.getD i []) (ins.getD j [])

theorem part_n (d : DS P) (v : Var) (outs ins : List Str) : (part d v outs ins).n = d.periods.length := rfl
theorem part_r (d : DS P) (v : Var) (outs ins : List Str) : (part d v outs ins).r = outs.length := rfl
theorem part_c (d : DS P) (v : Var) (outs ins : List Str) : (part d v outs ins).c = ins.length := rfl

/-- What `to_edi` makes. -/
noncomputable def ediOf (s : TFR) (z t : Bool) : Edi :=
  let m := s.tf.names
  let at_ := part s.tf.ds
  { freq := some (s.tf.ds.periods.map fun p => p⁻¹)
    z := if z then some (at_ .tf m.exey m.hxhy) else none
    zErr := if z then some (at_ .err m.exey m.hxhy) else none
    t := if t then some (at_ .tf [m.hz] m.hxhy) else none
    tErr := if t then some (at_ .err [m.hz] m.hxhy) else none
    spectra := none
    rot := s.rot.map fun r => .arr (r.angles s.tf.ds.periods.length) }

theorem toEdi_eq {s : TFR} {z t : Bool} (hl : s.tf.ds.labels = s.tf.names.all) (hz : hasZ s.tf = .ok z) (ht : hasT s.tf = .ok t) :
    toEdi s = .ok (ediOf s z t) := by
  have m1 : ∀ x ∈ s.tf.names.hxhy, x ∈ s.tf.ds.labels := by rw [hl]; exact mem_hxhy _
  have m2 : ∀ x ∈ s.tf.names.exey, x ∈ s.tf.ds.labels := by rw [hl]; exact mem_exey _
  have m4 : ∀ x ∈ [s.tf.names.hz], x ∈ s.tf.ds.labels := by rw [hl]; exact mem_hz _
  have hr : (s.rot.map fun r => match r with
                 | .num x => Rot.arr (List.replicate s.tf.ds.periods.length x)
                 | .arr l => Rot.arr l) = s.rot.map fun r => .arr (r.angles s.tf.ds.periods.length) := by
    cases s.rot with
    | none => rfl
    | some r => cases r <;> rfl
  unfold toEdi
  rw [hz, ht]
  cases z <;> cases t <;> simp [bind, Except.bind, sub_ok m2 m1, sub_ok m4 m1, ediOf, part] <;> exact hr

/-- The assignment of an array or of `None`. -/
def opOf (t : AType) : Option Nd → Op P
  | some a => .set t a
  | none => .setNone t

/-- The assignments of `from_edi` without spectra. -/
noncomputable def ediOps (e : Edi) (f : List ℝ) : List (Op ℝ) :=
  [.period (f.map fun x => x⁻¹)] ++
  [opOf .impedance e.z,
   opOf .impedanceError e.zErr,
   opOf .tipper e.t,
   opOf .tipperError e.tErr]

theorem set_input (s : TF ℝ) (t : AType) (a : Option Nd) :
    Tf.set s t (input a) = step 1 s (opOf t a) := by
  cases a <;> rfl

theorem ok_eq {x : TF P × Option PyErr} (h : x.2 = none) : ok! x = .ok x.1 := by
  unfold ok!; rw [h]

/-- `from_edi` without spectra is a history of assignments. -/
theorem fromEdi_run {s : TFR} {e : Edi} {f : List ℝ} (hf : e.freq = some f) (hs : e.spectra = none)
    (hr : ∀ x ∈ (run 1 s.tf (ediOps e f)).2, x = none) :
    fromEdi s e = .ok { tf := (run 1 s.tf (ediOps e f)).1, rot := e.rot } := by
  unfold ediOps at *
  simp only [List.cons_append, List.nil_append, run, List.mem_cons, List.not_mem_nil, or_false, forall_eq_or_imp, forall_eq] at hr ⊢
  obtain ⟨h1, h2, h3, h4, h5⟩ := hr
  unfold fromEdi
  rw [hf, hs]
  simp only [bind, Except.bind]
  rw [show setPeriod 1 s.tf (f.map fun x => x⁻¹) = step 1 s.tf (.period (f.map fun x => x⁻¹)) from rfl, ok_eq h1]
  simp only [set_input]
  rw [ok_eq h2]
  simp only
  rw [ok_eq h3]
  simp only
  rw [ok_eq h4]
  simp only
  rw [ok_eq h5]

theorem table_congr {n r c : ℕ} {f g : ℕ → ℕ → ℕ → Val} (h : ∀ k < n, ∀ i < r, ∀ j < c, f k i j = g k i j) : table n r c f = table n r c g := by
  unfold table
  refine List.map_congr_left fun k hk => List.map_congr_left fun i hi => List.map_congr_left fun j hj => ?_
  exact h k (by simpa using hk) i (by simpa using hi) j (by simpa using hj)

theorem zero_congr {n r c : ℕ} {f g : ℕ → ℕ → ℕ → Val} (h : ∀ k < n, ∀ i < r, ∀ j < c, f k i j = g k i j) : Tf.Zero n r c f ↔ Tf.Zero n r c g := by
  constructor
  · intro z k hk i hi j hj; rw [← h k hk i hi j hj]; exact z k hk i hi j hj
  · intro z k hk i hi j hj; rw [h k hk i hi j hj]; exact z k hk i hi j hj

theorem zeroNan_congr {n r c : ℕ} {f g : ℕ → ℕ → ℕ → Val} (h : ∀ k < n, ∀ i < r, ∀ j < c, f k i j = g k i j) : ZeroNan n r c f ↔ ZeroNan n r c g := by
  constructor
  · intro z k hk i hi j hj; rw [← h k hk i hi j hj]; exact z k hk i hi j hj
  · intro z k hk i hi j hj; rw [h k hk i hi j hj]; exact z k hk i hi j hj

theorem block_sub {a : Arr} {outs ins : List Str} {f : ℕ → ℕ → ℕ → Val} (h : Block a outs ins f) {k i j : ℕ} (hi : i < outs.length)
    (hj : j < ins.length) : a k (outs.getD i []) (ins.getD j []) = f k i j := by
  apply h
  · rw [List.getD_eq_getElem?_getD, List.getElem?_eq_getElem hi]; rfl
  · rw [List.getD_eq_getElem?_getD, List.getElem?_eq_getElem hj]; rfl

/-- C186: a transfer function converted to an EDI object and back has its periods, impedances, tippers, their errors
and its angles, whatever its channels are called and whether or not it has all of these. -/
theorem C186_edi {s : TFR} (hs : Reachable 1 s.tf) (r : Option Rot) :
    ∃ e s', toEdi s = .ok e ∧ fromEdi { tf := new s.tf.names [1], rot := r } e = .ok s' ∧ s'.tf.ds.periods = s.tf.ds.periods ∧
      s'.rot.map (Rot.angles s.tf.ds.periods.length) = s.rot.map (Rot.angles s.tf.ds.periods.length) ∧
      ∀ t ∈ [AType.impedance, .impedanceError, .tipper, .tipperError], get s'.tf t = get s.tf t := by
  obtain ⟨σ, R⟩ := hs.rel
  have hz := R.hasZ_eq
  have ht := R.hasT_eq
  refine ⟨_, _, toEdi_eq R.labels hz ht, fromEdi_run (f := s.tf.ds.periods.map fun p => p⁻¹) rfl rfl ?_, ?_, ?_, ?_⟩
  all_goals have Q := (Rel.new R.nodup [(1 : ℝ)]).run 1 (ediOps (ediOf s (decide (¬ Tf.Zero σ.periods.length 2 2 σ.z)) (decide (¬ ZeroNan σ.periods.length 1 2 σ.t)))
      (s.tf.ds.periods.map fun p => p⁻¹))
  all_goals have hinv : (s.tf.ds.periods.map fun p => p⁻¹).map (fun x : ℝ => x⁻¹) = σ.periods := by
              rw [List.map_map, R.periods]
              simp
  · intro x hx
    rw [Q.2] at hx
    unfold ediOps at hx
    by_cases h1 : Tf.Zero σ.periods.length 2 2 σ.z <;> by_cases h2 : ZeroNan σ.periods.length 1 2 σ.t <;>
      simpa [Spec.run, Spec.step, Spec.zero, Spec.after, Spec.store, size, ediOf, opOf, part, h1, h2, R.periods, hinv, Names.exey, Names.hxhy] using hx
  · rw [Q.1.periods, R.periods]
    unfold ediOps
    by_cases h1 : Tf.Zero σ.periods.length 2 2 σ.z <;> by_cases h2 : ZeroNan σ.periods.length 1 2 σ.t <;>
      simp [Spec.run, Spec.step, Spec.zero, Spec.after, Spec.store, size, ediOf, opOf, part, h1, h2, R.periods, Names.exey, Names.hxhy]
  · simp only [ediOf, Option.map_map]
    cases s.rot <;> rfl
  · intro t htt
    rw [Q.1.get_eq, R.get_eq]
    congr 1
    have bz : ∀ k < σ.periods.length, ∀ i < 2, ∀ j < 2, (part s.tf.ds .tf s.tf.names.exey s.tf.names.hxhy).val k i j = σ.z k i j :=
      fun k _ i hi j hj => block_sub R.z hi hj
    have bt : ∀ k < σ.periods.length, ∀ i < 1, ∀ j < 2, (part s.tf.ds .tf [s.tf.names.hz] s.tf.names.hxhy).val k i j = σ.t k i j :=
      fun k _ i hi j hj => block_sub R.t hi hj
    have bze : ∀ k < σ.periods.length, ∀ i < 2, ∀ j < 2, (part s.tf.ds .err s.tf.names.exey s.tf.names.hxhy).val k i j = σ.zErr k i j :=
      fun k _ i hi j hj => block_sub R.zErr hi hj
    have bte : ∀ k < σ.periods.length, ∀ i < 1, ∀ j < 2, (part s.tf.ds .err [s.tf.names.hz] s.tf.names.hxhy).val k i j = σ.tErr k i j :=
      fun k _ i hi j hj => block_sub R.tErr hi hj
    have zz : ∀ n r c, Tf.Zero n r c (fun _ _ _ => some 0) := fun _ _ _ _ _ _ _ _ _ => rfl
    have zn : ∀ n r c, ZeroNan n r c (fun _ _ _ => some 0) := fun _ _ _ _ _ _ _ _ _ => Or.inl rfl
    have lz := (zero_congr bz).not
    have lt := (zeroNan_congr bt).not
    have lx : s.tf.names.exey.length = 2 := rfl
    have lh : s.tf.names.hxhy.length = 2 := rfl
    unfold ediOps
    simp only [List.mem_cons, List.not_mem_nil, or_false] at htt
    by_cases h1 : Tf.Zero σ.periods.length 2 2 σ.z <;> by_cases h2 : ZeroNan σ.periods.length 1 2 σ.t <;>
      rcases htt with rfl | rfl | rfl | rfl <;>
      simp [Spec.run, Spec.step, Spec.zero, Spec.after, Spec.store, size, ediOf, opOf, h1, h2, R.periods, part_n, part_r, part_c, lx, lh, Spec.get, zz, zn,
        lz, lt, table_congr bz, table_congr bt, table_congr bze, table_congr bte]

/-- With tippers and errors only, other names and one angle. -/
noncomputable def exTip : TFR where
  tf := (run 1 (new others [2, 3]) [.set .tipper (ones 2 1 2), .set .tipperError (ones 2 1 2)]).1
  rot := some (.num 30)

example : Reachable 1 exTip.tf ∧ exTip.tf.names = others ∧ get exTip.tf .tipper = .ok (some (table 2 1 2 fun _ _ _ => some 1)) ∧
    exTip.rot.map (Rot.angles 2) = some [30, 30] := by
  refine ⟨⟨others, [2, 3], _, by decide, rfl⟩, names_run _ _ _, ?_, rfl⟩
  refine (((Rel.new (m := others) (by decide) [(2 : ℝ), 3]).run 1 [.set .tipper (ones 2 1 2), .set .tipperError (ones 2 1 2)]).1.get_eq .tipper).trans ?_
  have n1 : ¬ ZeroNan 2 1 2 (fun _ _ _ => some 1) := fun z => by have := z 0 (by omega) 0 (by omega) 0 (by omega); simp at this
  simp [Spec.run, Spec.step, Spec.zero, Spec.after, Spec.store, size, ones, Spec.get, n1]

/-! ## C187: reading into an object already in use -/

theorem ok_inv {x : TF P × Option PyErr} {s : TF P} (h : ok! x = .ok s) : x.2 = none ∧ x.1 = s := by
  unfold ok! at h
  cases hx : x.2 with
  | none => rw [hx] at h; cases h; exact ⟨rfl, rfl⟩
  | some e => rw [hx] at h; cases h

theorem bind_inv {α β : Type} {x : Except PyErr α} {f : α → Except PyErr β} {b : β} (h : x.bind f = .ok b) : ∃ a, x = .ok a ∧ f a = .ok b := by
  cases x with
  | error e => cases h
  | ok a => exact ⟨a, rfl, h⟩

theorem fromEdi_inv {s s' : TFR} {e : Edi} (hs : e.spectra = none) (h : fromEdi s e = .ok s') :
    ∃ f, e.freq = some f ∧ s'.tf = (run 1 s.tf (ediOps e f)).1 ∧ s'.rot = e.rot ∧ ∀ x ∈ (run 1 s.tf (ediOps e f)).2, x = none := by
  unfold fromEdi at h
  cases hf : e.freq with
  | none => rw [hf] at h; cases h
  | some f =>
    rw [hf, hs] at h
    simp only [bind] at h
    obtain ⟨t1, h1, h⟩ := bind_inv h
    obtain ⟨t2, g2, h⟩ := bind_inv h
    obtain ⟨t3, g3, h⟩ := bind_inv h
    obtain ⟨t4, g4, h⟩ := bind_inv h
    obtain ⟨t5, g5, h⟩ := bind_inv h
    simp only [set_input] at g2 g3 g4 g5
    obtain ⟨a1, rfl⟩ := ok_inv h1
    obtain ⟨a2, rfl⟩ := ok_inv g2
    obtain ⟨a3, rfl⟩ := ok_inv g3
    obtain ⟨a4, rfl⟩ := ok_inv g4
    obtain ⟨a5, rfl⟩ := ok_inv g5
    cases h
    refine ⟨f, rfl, rfl, rfl, ?_⟩
    intro x hx
    simp only [ediOps, List.cons_append, List.nil_append, run, List.mem_cons, List.not_mem_nil, or_false] at hx
    rcases hx with rfl | rfl | rfl | rfl | rfl
    · exact a1
    · exact a2
    · exact a3
    · exact a4
    · exact a5

/-- Storing an array, if there is one. -/
def Spec.keep (σ : Spec P) (t : AType) : Option Nd → Spec P
  | some a => σ.store t a.val
  | none => σ

theorem step_keep {one : P} {σ : Spec P} {t : AType} {a : Option Nd} (ht : Stored t)
    (h : (σ.step one (opOf t a)).2 = none) :
    (σ.step one (opOf t a)).1 = Spec.keep σ t a := by
  cases a with
  | none => rcases ht with rfl | rfl | rfl | rfl <;> simp [Spec.step, Spec.after, Spec.keep, opOf]
  | some a =>
    by_cases hs : (a.r, a.c) = size t ∧ a.n = σ.periods.length
    · rcases ht with rfl | rfl | rfl | rfl <;> simp [Spec.step, Spec.after, Spec.keep, opOf, hs]
    · rcases ht with rfl | rfl | rfl | rfl <;> simp [Spec.step, opOf, hs] at h

/-- The arrays after reading. -/
theorem ediOps_spec {σ : Spec ℝ} {e : Edi} {f : List ℝ} (h : ∀ x ∈ (σ.run 1 (ediOps e f)).2, x = none) :
    (σ.run 1 (ediOps e f)).1 = Spec.keep (Spec.keep (Spec.keep (Spec.keep (σ.step 1 (.period (f.map fun x => x⁻¹))).1 .impedance e.z)
      .impedanceError e.zErr) .tipper e.t) .tipperError e.tErr ∧ (σ.step 1 (.period (f.map fun x => x⁻¹))).1.periods = f.map fun x => x⁻¹ := by
  unfold ediOps at *
  simp only [List.cons_append, List.nil_append, Spec.run, List.mem_cons, List.not_mem_nil, or_false, forall_eq_or_imp, forall_eq] at h ⊢
  obtain ⟨h1, h2, h3, h4, h5⟩ := h
  have e2 := step_keep (Or.inl rfl) h2
  rw [e2] at h3 h4 h5 ⊢
  have e3 := step_keep (Or.inr (Or.inl rfl)) h3
  rw [e3] at h4 h5 ⊢
  have e4 := step_keep (Or.inr (Or.inr (Or.inl rfl))) h4
  rw [e4] at h5 ⊢
  have e5 := step_keep (Or.inr (Or.inr (Or.inr rfl))) h5
  refine ⟨e5, ?_⟩
  simp only [Spec.step] at h1 ⊢
  split
  · rfl
  · rename_i hp
    rw [if_neg hp] at h1
    split
    · rfl
    · rename_i hl
      rw [if_neg hl] at h1
      cases h1

/-- C187: what a transfer function has after reading an EDI file does not depend on what it had before. -/
def C187_claim : Prop := ∀ (s s1 s2 : TFR) (e : Edi), Reachable 1 s.tf → e.spectra = none → fromEdi s e = .ok s1 →
  fromEdi { tf := new s.tf.names [1], rot := none } e = .ok s2 →
    ∀ t ∈ [AType.impedance, .impedanceError, .tipper, .tipperError], get s1.tf t = get s2.tf t

/-- True if the object had one period of one second, as a new one has, or if impedances, tippers and their errors
are all in the file. Missing: other objects; they keep what the file does not have. -/
theorem C187_partial {s s1 s2 : TFR} {e : Edi} (hr : Reachable 1 s.tf) (hs : e.spectra = none) (h1 : fromEdi s e = .ok s1)
    (h2 : fromEdi { tf := new s.tf.names [1], rot := none } e = .ok s2)
    (h : s.tf.ds.periods = [1] ∨ (e.z ≠ none ∧ e.zErr ≠ none ∧ e.t ≠ none ∧ e.tErr ≠ none)) :
    s1.tf.ds.periods = s2.tf.ds.periods ∧ s1.rot = s2.rot ∧
      ∀ t ∈ [AType.impedance, .impedanceError, .tipper, .tipperError], get s1.tf t = get s2.tf t := by
  obtain ⟨σ, R⟩ := hr.rel
  obtain ⟨f, hf, e1, r1, n1⟩ := fromEdi_inv hs h1
  obtain ⟨f', hf', e2, r2, n2⟩ := fromEdi_inv hs h2
  have : f = f' := by rw [hf] at hf'; cases hf'; rfl
  subst this
  have Q1 := R.run 1 (ediOps e f)
  have Q2 := (Rel.new R.nodup [(1 : ℝ)]).run 1 (ediOps e f)
  rw [← e1] at Q1
  rw [← e2] at Q2
  rw [Q1.2] at n1
  rw [Q1.1.periods, Q2.1.periods]
  rw [Q2.2] at n2
  obtain ⟨k1, p1⟩ := ediOps_spec n1
  obtain ⟨k2, p2⟩ := ediOps_spec n2
  rw [k1] at Q1 ⊢
  rw [k2] at Q2 ⊢
  have per : ∀ (τ : Spec ℝ) t a, (Spec.keep τ t a).periods = τ.periods := by
    intro τ t a
    cases a with
    | none => rfl
    | some a => cases t <;> rfl
  refine ⟨by simp only [per, p1, p2], by rw [r1, r2], ?_⟩
  intro t ht
  rw [Q1.1.get_eq, Q2.1.get_eq]
  rcases h with h | ⟨g1, g2, g3, g4⟩
  · rw [R.periods] at h
    have h0 : (Spec.zero [(1 : ℝ)]).periods = [1] := rfl
    simp only [Spec.step, h, h0, if_true]
  · obtain ⟨z, hz⟩ := Option.ne_none_iff_exists'.mp g1
    obtain ⟨ze, hze⟩ := Option.ne_none_iff_exists'.mp g2
    obtain ⟨t', ht'⟩ := Option.ne_none_iff_exists'.mp g3
    obtain ⟨te, hte⟩ := Option.ne_none_iff_exists'.mp g4
    simp only [List.mem_cons, List.not_mem_nil, or_false] at ht
    rcases ht with rfl | rfl | rfl | rfl <;>
      simp only [hz, hze, ht', hte, Spec.keep, Spec.store, Spec.get, p1, p2]

/-- Tippers from before are still there after reading a file of impedances. -/
theorem C187_refuted : ¬ C187_claim := by
  intro h
  let s : TFR := { tf := (run 1 (new usual [2, 3]) [.set .tipper (ones 2 1 2)]).1, rot := none }
  let e : Edi := { freq := some [1, 1], z := some (ones 2 2 2), zErr := some (ones 2 2 2), t := none, tErr := none, spectra := none, rot := none }
  have hr : Reachable 1 s.tf := ⟨usual, [2, 3], _, usual_nodup, rfl⟩
  have hn : s.tf.names = usual := names_run _ _ _
  have R := ((Rel.new usual_nodup [(2 : ℝ), 3]).run 1 [.set .tipper (ones 2 1 2)]).1
  have Q1 := R.run 1 (ediOps e [1, 1])
  have Q2 := (Rel.new usual_nodup [(1 : ℝ)]).run 1 (ediOps e [1, 1])
  have c1 : fromEdi s e = _ := fromEdi_run rfl rfl (by
    rw [Q1.2]
    simp [ediOps, opOf, e, Spec.run, Spec.step, Spec.zero, Spec.after, Spec.store, size, ones])
  have c2 : fromEdi { tf := new usual [1], rot := none } e = _ := fromEdi_run rfl rfl (by
    rw [Q2.2]
    simp [ediOps, opOf, e, Spec.run, Spec.step, Spec.zero, Spec.after, Spec.store, size, ones])
  have g := h s _ _ e hr rfl c1 (by rw [hn]; exact c2) .tipper (by simp)
  simp only at g
  rw [Q1.1.get_eq, Q2.1.get_eq] at g
  have n1 : ¬ ZeroNan 2 1 2 (fun _ _ _ => some 1) := fun z => by have := z 0 (by omega) 0 (by omega) 0 (by omega); simp at this
  have zn : ∀ n r c, ZeroNan n r c (fun _ _ _ => some 0) := fun _ _ _ _ _ _ _ _ _ => Or.inl rfl
  simp [ediOps, opOf, e, Spec.run, Spec.step, Spec.zero, Spec.after, Spec.store, size, ones, Spec.get, n1, zn] at g

/-- An object in use and a file with all four arrays. -/
example : ∃ (s s1 s2 : TFR) (e : Edi), Reachable 1 s.tf ∧ e.spectra = none ∧ fromEdi s e = .ok s1 ∧
    fromEdi { tf := new s.tf.names [1], rot := none } e = .ok s2 ∧ e.z ≠ none ∧ e.zErr ≠ none ∧ e.t ≠ none ∧ e.tErr ≠ none := by
  let s : TFR := { tf := (run 1 (new usual [2, 3]) [.set .tipper (ones 2 1 2)]).1, rot := none }
  let e : Edi := { freq := some [1, 1], z := some (ones 2 2 2), zErr := some (ones 2 2 2), t := some (ones 2 1 2), tErr := some (ones 2 1 2),
                   spectra := none, rot := none }
  have hn : s.tf.names = usual := names_run _ _ _
  have Q1 := (((Rel.new usual_nodup [(2 : ℝ), 3]).run 1 [.set .tipper (ones 2 1 2)]).1).run 1 (ediOps e [1, 1])
  have Q2 := (Rel.new usual_nodup [(1 : ℝ)]).run 1 (ediOps e [1, 1])
  refine ⟨s, _, _, e, ⟨usual, [2, 3], _, usual_nodup, rfl⟩, rfl, fromEdi_run (f := [1, 1]) rfl rfl ?_,
    fromEdi_run (f := [1, 1]) rfl rfl ?_, by simp [e], by simp [e], by simp [e], by simp [e]⟩
  · rw [Q1.2]
    simp [ediOps, opOf, e, Spec.run, Spec.step, Spec.zero, Spec.after, Spec.store, size, ones]
  · rw [hn, Q2.2]
    simp [ediOps, opOf, e, Spec.run, Spec.step, Spec.zero, Spec.after, Spec.store, size, ones]

/-! ## C188: EDI files of spectra -/

/-- The arrays of spectra of `r` outputs. -/
structure Spectra.Shaped (p : Spectra) (n r : ℕ) : Prop where
  tf : (p.tf.n, p.tf.r, p.tf.c) = (n, r, 2)
  err : (p.err.n, p.err.r, p.err.c) = (n, r, 2)
  isp : (p.isp.n, p.isp.r, p.isp.c) = (n, 2, 2)
  res : (p.res.n, p.res.r, p.res.c) = (n, r, r)

/-- The impedances of spectra, as the EDI object has them after reading. -/
def ofSpectra (f : List ℝ) (p : Spectra) : Edi where
  freq := some f
  z := some { p.tf with r := 2 }
  zErr := some { p.err with r := 2 }
  t := if p.tf.r = 3 then some { p.tf with r := 1, val := fun k _ j => p.tf.val k 2 j } else none
  tErr := if p.tf.r = 3 then some { p.err with r := 1, val := fun k _ j => p.err.val k 2 j } else none
  spectra := some p
  rot := none

/-- C188: reading an EDI file of spectra gives the transfer function with its errors and covariances, with and without
vertical magnetic field. -/
def C188_claim : Prop := ∀ (m : Names) (f : List ℝ) (p : Spectra) (r : ℕ), m.all.Nodup → p.Shaped f.length r → r = 2 ∨ r = 3 →
  ¬ Tf.Zero f.length 2 2 p.isp.val → ¬ Tf.Zero f.length r r p.res.val →
    ∃ s, fromEdi { tf := new m [1], rot := none } (ofSpectra f p) = .ok s ∧ s.tf.ds.periods = f.map (fun x => x⁻¹) ∧
      get s.tf .isp = .ok (some (table f.length 2 2 p.isp.val))

/-- Three outputs; missing: two outputs, where the covariances are not there afterwards. The other arrays of the EDI
object are not used. -/
theorem C188_partial {m : Names} (hm : m.all.Nodup) {f : List ℝ} {e : Edi} {p : Spectra} (hf : e.freq = some f) (he : e.spectra = some p)
    (hp : p.Shaped f.length 3) (hi : ¬ Tf.Zero f.length 2 2 p.isp.val) (hr : ¬ Tf.Zero f.length 3 3 p.res.val) (rot : Option Rot) :
    ∃ s, fromEdi { tf := new m [1], rot := rot } e = .ok s ∧ s.rot = e.rot ∧ s.tf.ds.periods = f.map (fun x => x⁻¹) ∧
      get s.tf .isp = .ok (some (table f.length 2 2 p.isp.val)) ∧ get s.tf .res = .ok (some (table f.length 3 3 p.res.val)) ∧
      (¬ Tf.Zero f.length 3 2 p.tf.val → get s.tf .tf = .ok (some (table f.length 3 2 p.tf.val)) ∧
        get s.tf .tfError = .ok (some (table f.length 3 2 p.err.val))) := by
  let ops : List (Op ℝ) := [.period (f.map fun x => x⁻¹), .set .tf p.tf, .set .isp p.isp, .set .res p.res, .set .tfError p.err]
  have Q := (Rel.new hm [(1 : ℝ)]).run 1 ops
  have z1 := hp.tf; have z2 := hp.err; have z3 := hp.isp; have z4 := hp.res
  simp only [Prod.mk.injEq] at z1 z2 z3 z4
  have zz : ∀ n r c, Tf.Zero n r c (fun _ _ _ => some 0) := fun _ _ _ _ _ _ _ _ _ => rfl
  have e2 : ((Spec.zero [(1 : ℝ)]).run 1 ops).2 = [none, none, none, none, none] := by
    simp [ops, Spec.run, Spec.step, Spec.zero, Spec.after, Spec.store, Spec.errors, size, z1, z2, z3, z4, hi, hr, zz]
  have e1 : ((Spec.zero [(1 : ℝ)]).run 1 ops).1 =
      { periods := f.map fun x => x⁻¹, z := p.tf.val, t := fun k _ j => p.tf.val k 2 j, zErr := p.err.val, tErr := fun k _ j => p.err.val k 2 j,
        zMod := fun _ _ _ => some 0, tMod := fun _ _ _ => some 0, isp := p.isp.val, res := p.res.val } := by
    simp [ops, Spec.run, Spec.step, Spec.zero, Spec.after, Spec.store, Spec.errors, size, z1, z2, z3, z4, hi, hr, zz]
  have Qr := Q.2
  rw [e2] at Qr
  simp only [ops, run, List.cons.injEq, and_true] at Qr
  obtain ⟨a1, a2, a3, a4, a5⟩ := Qr
  have hrows : ∀ g : ℕ → ℕ → ℕ → Val, ∀ k < f.length, ∀ i < 3, ∀ j < 2, rows g (fun k _ j => g k 2 j) k i j = g k i j := by
    intro g k _ i hi j _
    unfold rows
    split
    · rfl
    · have : i = 2 := by omega
      rw [this]
  have G := Q.1
  rw [e1] at G
  refine ⟨{ tf := (run 1 (new m [1]) ops).1, rot := e.rot }, ?_, rfl, G.periods, ?_, ?_, ?_⟩
  · unfold fromEdi
    rw [hf, he]
    simp only [bind, Except.bind, z1, and_self, if_true]
    rw [show setPeriod 1 (new m [1]) (f.map fun x => x⁻¹) = step 1 (new m [1]) (.period (f.map fun x => x⁻¹)) from rfl, ok_eq a1]
    simp only
    rw [show ∀ s : TF ℝ, Tf.set s .tf (.nd p.tf) = step 1 s (.set .tf p.tf) from fun _ => rfl, ok_eq a2]
    simp only
    rw [show ∀ s : TF ℝ, Tf.set s .isp (.nd p.isp) = step 1 s (.set .isp p.isp) from fun _ => rfl, ok_eq a3]
    simp only
    rw [show ∀ s : TF ℝ, Tf.set s .res (.nd p.res) = step 1 s (.set .res p.res) from fun _ => rfl, ok_eq a4]
    simp only
    rw [show ∀ s : TF ℝ, Tf.set s .tfError (.nd p.err) = step 1 s (.set .tfError p.err) from fun _ => rfl, ok_eq a5]
    rfl
  · rw [G.get_eq]; simp [Spec.get, hi]
  · rw [G.get_eq]; simp [Spec.get, hr]
  · intro ht
    have h3 := (zero_congr (hrows p.tf.val)).not
    rw [G.get_eq, G.get_eq]
    simp [Spec.get, h3, ht, table_congr (hrows p.tf.val), table_congr (hrows p.err.val)]

example : ∃ p : Spectra, p.Shaped 2 3 ∧ ¬ Tf.Zero 2 2 2 p.isp.val ∧ ¬ Tf.Zero 2 3 3 p.res.val ∧ ¬ Tf.Zero 2 3 2 p.tf.val := by
  refine ⟨⟨ones 2 3 2, ones 2 3 2, ones 2 2 2, ones 2 3 3⟩, ⟨rfl, rfl, rfl, rfl⟩, ?_, ?_, ?_⟩ <;>
    exact fun z => by have := z 0 (by omega) 0 (by omega) 0 (by omega); simp [ones] at this

theorem C188_refuted : ¬ C188_claim := by
  intro h
  let p : Spectra := ⟨ones 2 2 2, ones 2 2 2, ones 2 2 2, ones 2 2 2⟩
  have nz : ¬ Tf.Zero 2 2 2 (ones 2 2 2).val := fun z => by have := z 0 (by omega) 0 (by omega) 0 (by omega); simp [ones] at this
  obtain ⟨s, h1, -, h3⟩ := h usual [1, 1] p 2 usual_nodup ⟨rfl, rfl, rfl, rfl⟩ (Or.inl rfl) nz nz
  have e1 : fromEdi { tf := new usual [1], rot := none } (ofSpectra [1, 1] p) =
      fromEdi { tf := new usual [1], rot := none } { ofSpectra [1, 1] p with spectra := none } := by
    simp [fromEdi, ofSpectra, p, ones]
  rw [e1] at h1
  obtain ⟨f, hf, g1, -, -⟩ := fromEdi_inv rfl h1
  cases hf
  have Q := ((Rel.new usual_nodup [(1 : ℝ)]).run 1 (ediOps { ofSpectra [1, 1] p with spectra := none } [1, 1])).1
  rw [g1, Q.get_eq] at h3
  have zz : ∀ n r c, Tf.Zero n r c (fun _ _ _ => some 0) := fun _ _ _ _ _ _ _ _ _ => rfl
  simp [ediOps, opOf, ofSpectra, p, Spec.run, Spec.step, Spec.zero, Spec.after, Spec.store, size, ones, Spec.get, zz] at h3

/-! ## C189: the channels of Z files -/

/-- The channels of a Z file in their order: two inputs, then the outputs there are data of. -/
def wanted (z t : Bool) : List Str := [hx, hy] ++ (if t then [hz] else []) ++ (if z then [ex, ey] else [])

/-- C189: converting a transfer function with data to a Z file object gives the channels there are data of, whatever
channels the first run has. -/
def C189_claim : Prop := ∀ (s : TF ℚ) (run : List Str) (z t : Bool), Reachable 1 s → hasZ s = .ok z → hasT s = .ok t → (z || t) = true →
  ∃ f, toZmm s run = .ok f ∧ f.channels = wanted z t

theorem numbered_ok {z t : Bool} (h : (z || t) = true) : numbered z t = .ok (wanted z t) := by
  cases z <;> cases t <;> first | rfl | (simp at h)

/-- The usual name of each of the five channels. -/
theorem usualOf_inj {m : Names} (hm : m.all.Nodup) :
    usualOf m m.hx = some hx ∧ usualOf m m.hy = some hy ∧ usualOf m m.hz = some hz ∧ usualOf m m.ex = some ex ∧ usualOf m m.ey = some ey := by
  simp only [Names.all, List.nodup_cons, List.mem_cons, List.not_mem_nil, or_false, not_or] at hm
  unfold usualOf
  refine ⟨?_, ?_, ?_, ?_, ?_⟩ <;> simp_all [eq_comm]

theorem usualOf_some {m : Names} {c : Str} (h : c ∈ m.all) : ∃ u, usualOf m c = some u := by
  simp only [Names.all, List.mem_cons, List.not_mem_nil, or_false] at h
  unfold usualOf
  split_ifs <;> simp_all

theorem recorded_ok {m : Names} {l run : List Str} (h : ∀ c ∈ run, remote c = true ∨ c ∈ m.all) :
    ∃ r, recorded m (.ok l) run = .ok r ∧ ∀ u, u ∈ r ↔ u ∈ l ∧ ∃ c ∈ run, remote c = false ∧ usualOf m c = some u := by
  induction run with
  | nil => exact ⟨[], rfl, by simp⟩
  | cons c cs ih =>
    obtain ⟨r, h1, h2⟩ := ih fun d hd => h d (List.mem_cons_of_mem _ hd)
    unfold recorded
    by_cases hr : remote c = true
    · rw [if_pos hr]
      refine ⟨r, h1, fun u => ?_⟩
      rw [h2]
      simp [hr]
    · rw [if_neg hr]
      obtain ⟨u, hu⟩ := usualOf_some ((h c (by simp)).resolve_left hr)
      rw [hu, h1]
      refine ⟨_, rfl, fun v => ?_⟩
      simp only [Bool.not_eq_true] at hr
      by_cases hl : l.contains u = true
      · rw [if_pos hl]
        rw [List.contains_iff_mem] at hl
        simp only [List.mem_cons, h2, exists_eq_or_imp, hr, hu, true_and, Option.some.injEq]
        constructor
        · rintro (rfl | ⟨a, b⟩)
          · exact ⟨hl, Or.inl rfl⟩
          · exact ⟨a, Or.inr b⟩
        · rintro ⟨a, rfl | b⟩
          · exact Or.inl rfl
          · exact Or.inr ⟨a, b⟩
      · rw [if_neg hl]
        rw [List.contains_iff_mem] at hl
        simp only [List.mem_cons, h2, exists_eq_or_imp, hr, hu, true_and, Option.some.injEq]
        constructor
        · rintro ⟨a, b⟩
          exact ⟨a, Or.inr b⟩
        · rintro ⟨a, rfl | b⟩
          · exact absurd a hl
          · exact ⟨a, b⟩

/-- No run, or one with the five channels of the transfer function and else channels of remote stations only. Missing:
other runs. -/
theorem C189_partial {one : P} {s : TF P} {run : List Str} {z t : Bool} (hs : Reachable one s) (qz : hasZ s = .ok z) (qt : hasT s = .ok t)
    (h : (z || t) = true)
    (hr : run = [] ∨ ((∀ c ∈ s.names.all, c ∈ run ∧ remote c = false) ∧ ∀ c ∈ run, remote c = true ∨ c ∈ s.names.all)) :
    ∃ f, toZmm s run = .ok f ∧ f.channels = wanted z t ∧ f.inputs = [hx, hy] ∧ f.ds = s.ds := by
  obtain ⟨σ, R⟩ := hs.rel
  unfold toZmm
  rw [qz, qt]
  simp only [bind, Except.bind, numbered_ok h]
  have last : ∀ l, l = wanted z t → ∃ f : Zmm P, (Except.ok ⟨none, l, s.ds⟩ : Except PyErr (Zmm P)) = .ok f ∧ f.channels = wanted z t ∧
      f.inputs = [hx, hy] ∧ f.ds = s.ds := by
    rintro l rfl
    exact ⟨_, rfl, rfl, rfl, rfl⟩
  rcases hr with rfl | ⟨h1, h2⟩
  · exact last _ rfl
  · have ne : run.isEmpty = false := by
      cases run with
      | nil => have := (h1 s.names.hx (by simp [Names.all])).1; simp at this
      | cons => rfl
    obtain ⟨r, g1, g2⟩ := recorded_ok (l := wanted z t) h2
    simp only [ne, g1, Bool.false_eq_true, if_false]
    apply last
    obtain ⟨u1, u2, u3, u4, u5⟩ := usualOf_inj R.nodup
    have w : ∀ (n u : Str), n ∈ s.names.all → usualOf s.names n = some u → r.contains u = (wanted z t).contains u := by
      intro n u hn hu
      rw [Bool.eq_iff_iff, List.contains_iff_mem, List.contains_iff_mem, g2]
      exact ⟨fun a => a.1, fun a => ⟨a, n, (h1 n hn).1, (h1 n hn).2, hu⟩⟩
    have a1 := w _ _ (by simp [Names.all]) u1
    have a2 := w _ _ (by simp [Names.all]) u2
    have a3 := w _ _ (by simp [Names.all]) u3
    have a4 := w _ _ (by simp [Names.all]) u4
    have a5 := w _ _ (by simp [Names.all]) u5
    simp only [List.filter_cons, List.filter_nil, a1, a2, a3, a4, a5]
    cases z <;> cases t <;> first | rfl | (simp at h)

/-- Without any data and without a run there are no numbers of channels. -/
theorem C189_empty {s : TF P} (h1 : hasZ s = .ok false) (h2 : hasT s = .ok false) : toZmm s [] = .error .nameError := by
  unfold toZmm
  rw [h1, h2]
  rfl

/-- Impedances only. -/
theorem exZ_has : hasZ exZ = .ok true ∧ hasT exZ = .ok false := by
  have R := ((Rel.new usual_nodup [(2 : ℚ)]).run 1 [.set .impedance (ones 1 2 2)]).1
  have n1 : ¬ Tf.Zero 1 2 2 (fun _ _ _ => some 1) := fun z => by have := z 0 (by omega) 0 (by omega) 0 (by omega); simp at this
  have zn : ∀ n r c, ZeroNan n r c (fun _ _ _ => some 0) := fun _ _ _ _ _ _ _ _ _ => Or.inl rfl
  refine ⟨R.hasZ_eq.trans ?_, R.hasT_eq.trans ?_⟩ <;>
    simp [Spec.run, Spec.step, Spec.zero, Spec.after, Spec.store, size, ones, n1, zn]

/-- A run with a thermometer raises. -/
theorem C189_refuted : ¬ C189_claim := by
  intro h
  obtain ⟨f, h1, -⟩ := h exZ ["hx".toList, "temperature".toList] true false exZ_reachable exZ_has.1 exZ_has.2 rfl
  have hn : exZ.names = usual := names_run _ _ _
  unfold toZmm at h1
  rw [exZ_has.1, exZ_has.2, hn] at h1
  have e : recorded usual (numbered true false) ["hx".toList, "temperature".toList] = .error .keyError := by decide
  simp only [bind, Except.bind, e] at h1
  cases h1

/-- A run with the five channels and two of a remote station. -/
example : (∀ c ∈ others.all, c ∈ others.all ++ ["rrhx".toList, "rrhy".toList] ∧ remote c = false) ∧
    (∀ c ∈ others.all ++ ["rrhx".toList, "rrhy".toList], remote c = true ∨ c ∈ others.all) ∧ wanted true true = [hx, hy, hz, ex, ey] := by
  decide

/-! ## C190: reading the data of Z files -/

/-- The arrays of a data set. -/
def specOf (s : TF P) : Spec P where
  periods := s.ds.periods
  z := fun k i j => s.ds.arr .tf k (s.names.exey.getD i []) (s.names.hxhy.getD j [])
  t := fun k i j => s.ds.arr .tf k ([s.names.hz].getD i []) (s.names.hxhy.getD j [])
  zErr := fun k i j => s.ds.arr .err k (s.names.exey.getD i []) (s.names.hxhy.getD j [])
  tErr := fun k i j => s.ds.arr .err k ([s.names.hz].getD i []) (s.names.hxhy.getD j [])
  zMod := fun k i j => s.ds.arr .modErr k (s.names.exey.getD i []) (s.names.hxhy.getD j [])
  tMod := fun k i j => s.ds.arr .modErr k ([s.names.hz].getD i []) (s.names.hxhy.getD j [])
  isp := fun k i j => s.ds.arr .isp k (s.names.hxhy.getD i []) (s.names.hxhy.getD j [])
  res := fun k i j => s.ds.arr .res k (s.names.exeyhz.getD i []) (s.names.exeyhz.getD j [])

theorem block_of (a : Arr) (outs ins : List Str) : Block a outs ins (fun k i j => a k (outs.getD i []) (ins.getD j [])) := by
  intro k i o j x ho hi
  show a k o x = a k (outs.getD i []) (ins.getD j [])
  rw [List.getD_eq_getElem?_getD, List.getD_eq_getElem?_getD, ho, hi]
  rfl

theorem specOf_rel {s : TF P} (hn : s.names.all.Nodup) (hl : s.ds.labels = s.names.all) : Rel s (specOf s) :=
  ⟨hn, hl, rfl, block_of _ _ _, block_of _ _ _, block_of _ _ _, block_of _ _ _, block_of _ _ _, block_of _ _ _, block_of _ _ _, block_of _ _ _⟩

/-- The data of a Z file: two inputs, outputs among the others, one matrix for each period. -/
structure Zmm.Data (z : Zmm P) (m : Names) (p : List P) (outs : List Str) : Prop where
  periods : z.periods = some p
  same : z.ds.periods = p
  channels : z.channels = m.hx :: m.hy :: outs
  outs : ∀ o ∈ outs, o ∈ m.exeyhz
  labels : ∀ c ∈ z.channels, c ∈ z.ds.labels

/-- C190: the data of a Z file can be read. -/
def C190_claim : Prop := ∀ (z : Zmm ℚ) (m : Names) (p : List ℚ) (outs : List Str), m.all.Nodup → z.Data m p outs →
  ∃ s, fromZmm 1 (new m [1]) z = .ok s

/-- After copying. -/
noncomputable def copied (d e : DS P) (v : Var) (outs ins : List Str) : DS P := put d v outs ins (stretch (part e v outs ins))

theorem copy_ok {s : TF P} {d : DS P} {v : Var} {outs ins : List Str} (h1 : ∀ x ∈ outs, x ∈ s.ds.labels) (h2 : ∀ x ∈ ins, x ∈ s.ds.labels)
    (h3 : ∀ x ∈ outs, x ∈ d.labels) (h4 : ∀ x ∈ ins, x ∈ d.labels) (hp : d.periods = s.ds.periods) :
    copyBlock s d v outs ins = .ok { s with ds := copied s.ds d v outs ins } := by
  unfold copyBlock
  rw [sub_ok h3 h4]
  simp only [bind, Except.bind, hp, ne_eq, not_true_eq_false, decide_false, Bool.and_false, Bool.false_eq_true, if_false]
  rw [assign_ok h1 h2 rfl rfl rfl]
  simp only [copied, part, hp]

theorem copied_in {d e : DS P} {v : Var} {outs ins : List Str} {k : ℕ} (hk : k < e.periods.length) {o i : Str} (ho : o ∈ outs) (hi : i ∈ ins) :
    (copied d e v outs ins).arr v k o i = e.arr v k o i := by
  obtain ⟨x, p1, q1⟩ := pos_mem ho
  obtain ⟨y, p2, q2⟩ := pos_mem hi
  unfold copied
  rw [put_self p1 p2, stretch_in (a := part e v outs ins) hk (List.getElem?_eq_some_iff.mp q1).1 (List.getElem?_eq_some_iff.mp q2).1]
  simp only [part, List.getD_eq_getElem?_getD, q1, q2, Option.getD_some]

/-- What is read: the numbers of the file where it has some, zeros elsewhere; errors from the covariances. -/
structure ReadZ (z : Zmm P) (m : Names) (p : List P) (outs : List Str) (s : TF P) : Prop where
  names : s.names = m
  periods : s.ds.periods = p
  labels : s.ds.labels = m.all
  tf : ∀ k < p.length, ∀ o ∈ outs, ∀ i ∈ m.hxhy, s.ds.arr .tf k o i = z.ds.arr .tf k o i
  zero : ∀ k < p.length, ∀ o ∈ m.exeyhz, o ∉ outs → ∀ i ∈ m.hxhy, s.ds.arr .tf k o i = some 0
  isp : ∀ k < p.length, ∀ o ∈ m.hxhy, ∀ i ∈ m.hxhy, s.ds.arr .isp k o i = z.ds.arr .isp k o i
  res : ∀ k < p.length, ∀ o ∈ outs, ∀ i ∈ outs, s.ds.arr .res k o i = z.ds.arr .res k o i
  err : ∀ k < p.length, ∀ o ∈ outs, ∀ i ∈ m.hxhy, s.ds.arr .err k o i = rootOf (z.ds.arr .res k o o) (z.ds.arr .isp k i i)

/-- The data set before the errors are computed. -/
noncomputable def readDs (m : Names) (p : List P) (z : Zmm P) (outs : List Str) : DS P :=
  copied (copied (copied (copied (initDs m p) z.ds .tf outs m.hxhy) z.ds .err outs m.hxhy) z.ds .isp m.hxhy m.hxhy) z.ds .res outs outs

theorem fromZmm_eq {one : P} {z : Zmm P} {m : Names} {p : List P} {outs : List Str} (hd : z.Data m p outs) :
    fromZmm one (new m [one]) z = computeErr { names := m, ds := readDs m p z outs } := by
  have hi : z.inputs = m.hxhy := by simp [Zmm.inputs, hd.channels, Names.hxhy]
  have ho : z.outputs = outs := by simp [Zmm.outputs, hd.channels]
  have l1 : ∀ x ∈ m.hxhy, x ∈ m.all := mem_hxhy m
  have l2 : ∀ x ∈ outs, x ∈ m.all := fun x hx => mem_exeyhz m x (hd.outs x hx)
  have l3 : ∀ x ∈ m.hxhy, x ∈ z.ds.labels := fun x hx => hd.labels x (by
    rw [hd.channels]
    simp only [Names.hxhy, List.mem_cons, List.not_mem_nil, or_false] at hx
    rcases hx with rfl | rfl <;> simp)
  have l4 : ∀ x ∈ outs, x ∈ z.ds.labels := fun x hx => hd.labels x (by rw [hd.channels]; simp_all)
  unfold fromZmm
  rw [hd.periods]
  have h0 : ok! (setPeriod one (new m [one]) p) = .ok { names := m, ds := initDs m p } := by
    simp [ok!, setPeriod, new, initDs]
  rw [hi, ho]
  simp only [bind, Except.bind, h0]
  rw [copy_ok (by exact l2) (by exact l1) l4 l3 hd.same]
  simp only
  rw [copy_ok (by exact l2) (by exact l1) l4 l3 hd.same]
  simp only
  rw [copy_ok (by exact l1) (by exact l1) l3 l3 hd.same]
  simp only
  rw [copy_ok (by exact l2) (by exact l2) l4 l4 hd.same]
  rfl

/-- The numbers before the errors are computed. -/
theorem readDs_arr {z : Zmm P} {m : Names} {p : List P} {outs : List Str} (hd : z.Data m p outs) {k : ℕ} (hk : k < p.length) :
    (∀ o ∈ outs, ∀ i ∈ m.hxhy, (readDs m p z outs).arr .tf k o i = z.ds.arr .tf k o i) ∧
    (∀ o ∉ outs, ∀ i, (readDs m p z outs).arr .tf k o i = some 0) ∧
    (∀ o ∈ m.hxhy, ∀ i ∈ m.hxhy, (readDs m p z outs).arr .isp k o i = z.ds.arr .isp k o i) ∧
    (∀ o ∈ outs, ∀ i ∈ outs, (readDs m p z outs).arr .res k o i = z.ds.arr .res k o i) ∧
    (∀ o i, o ∉ outs ∨ i ∉ outs → (readDs m p z outs).arr .res k o i = some 0) := by
  have hk' : k < z.ds.periods.length := by rw [hd.same]; exact hk
  have hother : ∀ (d e : DS P) (v w : Var) (a b : List Str), w ≠ v → (copied d e v a b).arr w = d.arr w := fun d e v w a b h => put_other h
  unfold readDs
  refine ⟨?_, ?_, ?_, ?_, ?_⟩
  · intro o ho i hi
    rw [hother _ _ _ _ _ _ (by decide), hother _ _ _ _ _ _ (by decide), hother _ _ _ _ _ _ (by decide), copied_in hk' ho hi]
  · intro o ho i
    rw [hother _ _ _ _ _ _ (by decide), hother _ _ _ _ _ _ (by decide), hother _ _ _ _ _ _ (by decide)]
    exact put_out (Or.inl ho)
  · intro o ho i hi
    rw [hother _ _ _ _ _ _ (by decide), copied_in hk' ho hi]
  · intro o ho i hi
    rw [copied_in hk' ho hi]
  · intro o i h
    refine (put_out h).trans ?_
    rw [hother _ _ _ _ _ _ (by decide), hother _ _ _ _ _ _ (by decide), hother _ _ _ _ _ _ (by decide)]
    rfl

theorem zero_at {a : Arr} {n : ℕ} {outs ins : List Str} :
    Tf.Zero n outs.length ins.length (fun k i j => a k (outs.getD i []) (ins.getD j [])) ↔ ∀ k < n, ∀ o ∈ outs, ∀ i ∈ ins, a k o i = some 0 := by
  constructor
  · intro h k hk o ho i hi
    obtain ⟨x, hx, rfl⟩ := List.mem_iff_getElem.mp ho
    obtain ⟨y, hy, rfl⟩ := List.mem_iff_getElem.mp hi
    have := h k hk x hx y hy
    simp only [List.getD_eq_getElem?_getD, List.getElem?_eq_getElem hx, List.getElem?_eq_getElem hy, Option.getD_some] at this
    exact this
  · intro h k hk x hx y hy
    simp only [List.getD_eq_getElem?_getD, List.getElem?_eq_getElem hx, List.getElem?_eq_getElem hy, Option.getD_some]
    exact h k hk _ (List.getElem_mem _) _ (List.getElem_mem _)

/-- The errors of covariances. -/
theorem computeErr_arr {s : TF P} (hn : s.names.all.Nodup) (hl : s.ds.labels = s.names.all)
    (h1 : ¬ ∀ k < s.ds.periods.length, ∀ o ∈ s.names.hxhy, ∀ i ∈ s.names.hxhy, s.ds.arr .isp k o i = some 0)
    (h2 : ¬ ∀ k < s.ds.periods.length, ∀ o ∈ s.names.exeyhz, ∀ i ∈ s.names.exeyhz, s.ds.arr .res k o i = some 0) :
    ∃ s', computeErr s = .ok s' ∧ s'.names = s.names ∧ s'.ds.periods = s.ds.periods ∧ s'.ds.labels = s.ds.labels ∧
      (∀ w, w ≠ .err → s'.ds.arr w = s.ds.arr w) ∧
      ∀ k, ∀ o ∈ s.names.exeyhz, ∀ i ∈ s.names.hxhy, s'.ds.arr .err k o i = rootOf (s.ds.arr .res k o o) (s.ds.arr .isp k i i) := by
  have R := specOf_rel hn hl
  have z1 : ¬ Tf.Zero (specOf s).periods.length 2 2 (specOf s).isp := fun h => h1 (zero_at.mp h)
  have z2 : ¬ Tf.Zero (specOf s).periods.length 3 3 (specOf s).res := fun h => h2 (zero_at.mp h)
  obtain ⟨s', e, R'⟩ := R.computeErr.1 ⟨z1, z2⟩
  have e' := e
  unfold computeErr at e'
  rw [R.hasRes_eq, R.hasIsp_eq] at e'
  simp only [z1, z2, not_false_eq_true, decide_true] at e'
  have q1 : s'.names = s.names := by cases e'; rfl
  have q2 : s'.ds.periods = s.ds.periods := by cases e'; rfl
  have q3 : s'.ds.labels = s.ds.labels := by cases e'; rfl
  have q4 : ∀ w, w ≠ .err → s'.ds.arr w = s.ds.arr w := by
    cases e'
    intro w hw
    simp only [hw, if_false]
  refine ⟨s', e, q1, q2, q3, q4, ?_⟩
  intro k o ho i hi
  have bz := R'.zErr
  have bt := R'.tErr
  rw [q1] at bz bt
  simp only [Names.exeyhz, Names.hxhy, List.mem_cons, List.not_mem_nil, or_false] at ho hi
  rcases ho with rfl | rfl | rfl <;> rcases hi with rfl | rfl
  · exact bz k 0 _ 0 _ rfl rfl
  · exact bz k 0 _ 1 _ rfl rfl
  · exact bz k 1 _ 0 _ rfl rfl
  · exact bz k 1 _ 1 _ rfl rfl
  · exact bt k 0 _ 0 _ rfl rfl
  · exact bt k 0 _ 1 _ rfl rfl

theorem computeErr_zero {s : TF P} (hn : s.names.all.Nodup) (hl : s.ds.labels = s.names.all)
    (h : (∀ k < s.ds.periods.length, ∀ o ∈ s.names.hxhy, ∀ i ∈ s.names.hxhy, s.ds.arr .isp k o i = some 0) ∨
         (∀ k < s.ds.periods.length, ∀ o ∈ s.names.exeyhz, ∀ i ∈ s.names.exeyhz, s.ds.arr .res k o i = some 0)) :
    computeErr s = .error .attributeError := by
  refine (specOf_rel hn hl).computeErr.2 ?_
  rintro ⟨h1, h2⟩
  rcases h with h | h
  · exact h1 (zero_at.mpr h)
  · exact h2 (zero_at.mpr h)

/-- If the file has a covariance of inputs and one of outputs that are not zero. Missing: files of zeros, where an
`AttributeError` is raised. -/
theorem C190_partial {one : P} {z : Zmm P} {m : Names} {p : List P} {outs : List Str} (hm : m.all.Nodup) (hd : z.Data m p outs)
    (h1 : ∃ k < p.length, ∃ o ∈ m.hxhy, ∃ i ∈ m.hxhy, z.ds.arr .isp k o i ≠ some 0)
    (h2 : ∃ k < p.length, ∃ o ∈ outs, ∃ i ∈ outs, z.ds.arr .res k o i ≠ some 0) :
    ∃ s, fromZmm one (new m [one]) z = .ok s ∧ ReadZ z m p outs s := by
  have A := fun k (hk : k < p.length) => readDs_arr hd hk
  obtain ⟨s, e, q1, q2, q3, q4, q5⟩ := computeErr_arr (s := { names := m, ds := readDs m p z outs }) hm rfl
    (fun h => by
      obtain ⟨k, hk, o, ho, i, hi, hne⟩ := h1
      exact hne (((A k hk).2.2.1 o ho i hi).symm.trans (h k hk o ho i hi)))
    (fun h => by
      obtain ⟨k, hk, o, ho, i, hi, hne⟩ := h2
      exact hne (((A k hk).2.2.2.1 o ho i hi).symm.trans (h k hk o (hd.outs o ho) i (hd.outs i hi))))
  refine ⟨s, by rw [fromZmm_eq hd, e], q1, q2, q3, ?_, ?_, ?_, ?_, ?_⟩
  · intro k hk o ho i hi
    rw [q4 _ (by decide)]
    exact (A k hk).1 o ho i hi
  · intro k hk o _ ho i _
    rw [q4 _ (by decide)]
    exact (A k hk).2.1 o ho i
  · intro k hk o ho i hi
    rw [q4 _ (by decide)]
    exact (A k hk).2.2.1 o ho i hi
  · intro k hk o ho i hi
    rw [q4 _ (by decide)]
    exact (A k hk).2.2.2.1 o ho i hi
  · intro k hk o ho i hi
    rw [q5 k o (hd.outs o ho) i hi]
    simp only
    rw [(A k hk).2.2.2.1 o ho o ho, (A k hk).2.2.1 i hi i hi]

theorem C190_zero {one : P} {z : Zmm P} {m : Names} {p : List P} {outs : List Str} (hm : m.all.Nodup) (hd : z.Data m p outs)
    (h : (∀ k < p.length, ∀ o ∈ m.hxhy, ∀ i ∈ m.hxhy, z.ds.arr .isp k o i = some 0) ∨
         (∀ k < p.length, ∀ o ∈ outs, ∀ i ∈ outs, z.ds.arr .res k o i = some 0)) :
    fromZmm one (new m [one]) z = .error .attributeError := by
  have A := fun k (hk : k < p.length) => readDs_arr hd hk
  rw [fromZmm_eq hd]
  refine computeErr_zero hm rfl ?_
  rcases h with h | h
  · left
    intro k hk o ho i hi
    exact ((A k hk).2.2.1 o ho i hi).trans (h k hk o ho i hi)
  · right
    intro k hk o ho i hi
    by_cases h1 : o ∈ outs
    · by_cases h2 : i ∈ outs
      · exact ((A k hk).2.2.2.1 o h1 i h2).trans (h k hk o h1 i h2)
      · exact (A k hk).2.2.2.2 o i (Or.inr h2)
    · exact (A k hk).2.2.2.2 o i (Or.inl h1)

/-- Data sets of one number everywhere. -/
def exZmm (x : Val) : Zmm ℚ where
  periods := some [2, 3]
  channels := [hx, hy, hz, ex, ey]
  ds := { labels := usual.all, periods := [2, 3], arr := fun _ _ _ _ => x }

theorem exZmm_data (x : Val) : (exZmm x).Data usual [2, 3] [hz, ex, ey] := by
  refine ⟨rfl, rfl, rfl, by decide, ?_⟩
  show ∀ c ∈ [hx, hy, hz, ex, ey], c ∈ usual.all
  decide

example : (∃ k < 2, ∃ o ∈ usual.hxhy, ∃ i ∈ usual.hxhy, (exZmm (some 1)).ds.arr .isp k o i ≠ some 0) ∧
    ∃ k < 2, ∃ o ∈ [hz, ex, ey], ∃ i ∈ [hz, ex, ey], (exZmm (some 1)).ds.arr .res k o i ≠ some 0 :=
  ⟨⟨0, by omega, usual.hx, by decide, usual.hx, by decide, by simp [exZmm]⟩, ⟨0, by omega, hz, by decide, hz, by decide, by simp [exZmm]⟩⟩

theorem C190_refuted : ¬ C190_claim := by
  intro h
  obtain ⟨s, hs⟩ := h (exZmm (some 0)) usual [2, 3] _ usual_nodup (exZmm_data _)
  rw [C190_zero usual_nodup (exZmm_data _) (Or.inl fun _ _ _ _ _ _ => rfl)] at hs
  cases hs

/-! ## C191: Z file objects -/

/-- C191: a transfer function with impedances, tippers and covariances converted to a Z file object and back has them. -/
def C191_claim : Prop := ∀ s : TF ℚ, Reachable 1 s → s.names = usual →
  (∀ t ∈ [AType.impedance, .tipper, .isp, .res], get s t ≠ .ok none) →
    ∃ z s', toZmm s [] = .ok z ∧ fromZmm 1 (new usual [1]) z = .ok s' ∧ s'.ds.periods = s.ds.periods ∧
      ∀ t ∈ [AType.impedance, .tipper, .isp, .res], get s' t = get s t

/-- It never does: the object has no periods. -/
theorem C191_never {one : P} {s s' : TF P} {run : List Str} {z : Zmm P} (h : toZmm s run = .ok z) : fromZmm one s' z = .error .typeError := by
  unfold toZmm at h
  simp only [bind] at h
  obtain ⟨t, -, h⟩ := bind_inv h
  obtain ⟨z', -, h⟩ := bind_inv h
  have : z.periods = none := by
    split at h
    · obtain ⟨l, -, h⟩ := bind_inv h
      cases h
      rfl
    · obtain ⟨l, -, h⟩ := bind_inv h
      cases h
      rfl
  unfold fromZmm
  rw [this]

/-- With the periods of the transfer function assigned to the object, its arrays come back; the errors are those of the
covariances. Missing: the periods, see `C191_never`. -/
theorem C191_partial {one : P} {s : TF P} (hs : Reachable one s) (hu : s.names = usual)
    (h : ∀ t ∈ [AType.impedance, .tipper, .isp, .res], get s t ≠ .ok none) :
    ∃ z s', toZmm s [] = .ok z ∧ fromZmm one (new usual [one]) { z with periods := some s.ds.periods } = .ok s' ∧
      s'.ds.periods = s.ds.periods ∧ (∀ t ∈ [AType.impedance, .tipper, .isp, .res], get s' t = get s t) ∧
      ∀ k < s.ds.periods.length, ∀ o ∈ usual.exeyhz, ∀ i ∈ usual.hxhy,
        s'.ds.arr .err k o i = rootOf (s.ds.arr .res k o o) (s.ds.arr .isp k i i) := by
  obtain ⟨σ, Rσ⟩ := hs.rel
  have R := specOf_rel Rσ.nodup Rσ.labels
  have g1 := h .impedance (by simp); have g2 := h .tipper (by simp); have g3 := h .isp (by simp); have g4 := h .res (by simp)
  rw [R.get_eq] at g1 g2 g3 g4
  simp only [Spec.get, ne_eq, Except.ok.injEq, ite_eq_left_iff, reduceCtorEq, imp_false, not_not] at g1 g2 g3 g4
  have qz : hasZ s = .ok true := by rw [R.hasZ_eq]; simp [g1]
  have qt : hasT s = .ok true := by rw [R.hasT_eq]; simp [g2]
  obtain ⟨z, e1, e2, e3, e4⟩ := C189_partial (run := []) hs qz qt rfl (Or.inl rfl)
  have hd : Zmm.Data { z with periods := some s.ds.periods } usual s.ds.periods [hz, ex, ey] := by
    refine ⟨rfl, by show z.ds.periods = _; rw [e4], e2, by decide, ?_⟩
    show ∀ c ∈ z.channels, c ∈ z.ds.labels
    rw [e4, Rσ.labels, e2, hu]
    decide
  have i1 : ∃ k < s.ds.periods.length, ∃ o ∈ usual.hxhy, ∃ i ∈ usual.hxhy, z.ds.arr .isp k o i ≠ some 0 := by
    by_contra hc
    push Not at hc
    refine g3 ((zero_at (a := s.ds.arr .isp) (outs := s.names.hxhy) (ins := s.names.hxhy)).mpr fun k hk o ho i hi => ?_)
    rw [hu] at ho hi
    rw [← hc k hk o ho i hi, e4]
  have i2 : ∃ k < s.ds.periods.length, ∃ o ∈ [hz, ex, ey], ∃ i ∈ [hz, ex, ey], z.ds.arr .res k o i ≠ some 0 := by
    by_contra hc
    push Not at hc
    refine g4 ((zero_at (a := s.ds.arr .res) (outs := s.names.exeyhz) (ins := s.names.exeyhz)).mpr fun k hk o ho i hi => ?_)
    rw [hu] at ho hi
    rw [← hc k hk o (by revert o; decide) i (by revert i; decide), e4]
  obtain ⟨s', f1, f2⟩ := C190_partial (one := one) usual_nodup hd i1 i2
  have R' := specOf_rel (s := s') (by rw [f2.names]; exact usual_nodup) (by rw [f2.labels, f2.names])
  have hn : s'.names = s.names := by rw [f2.names, hu]
  have sub1 : ∀ o ∈ usual.exeyhz, o ∈ [hz, ex, ey] := by decide
  have v1 : ∀ k < s.ds.periods.length, ∀ o ∈ s.names.exeyhz, ∀ i ∈ s.names.hxhy, s'.ds.arr .tf k o i = s.ds.arr .tf k o i := by
    intro k hk o ho i hi
    rw [hu] at ho hi
    rw [f2.tf k hk o (sub1 o ho) i hi]
    show z.ds.arr _ _ _ _ = _
    rw [e4]
  have v2 : ∀ k < s.ds.periods.length, ∀ o ∈ s.names.hxhy, ∀ i ∈ s.names.hxhy, s'.ds.arr .isp k o i = s.ds.arr .isp k o i := by
    intro k hk o ho i hi
    rw [hu] at ho hi
    rw [f2.isp k hk o ho i hi]
    show z.ds.arr _ _ _ _ = _
    rw [e4]
  have v3 : ∀ k < s.ds.periods.length, ∀ o ∈ s.names.exeyhz, ∀ i ∈ s.names.exeyhz, s'.ds.arr .res k o i = s.ds.arr .res k o i := by
    intro k hk o ho i hi
    rw [hu] at ho hi
    rw [f2.res k hk o (sub1 o ho) i (sub1 i hi)]
    show z.ds.arr _ _ _ _ = _
    rw [e4]
  refine ⟨z, s', e1, f1, f2.periods, ?_, ?_⟩
  · have hp : s'.ds.periods.length = s.ds.periods.length := by rw [f2.periods]
    have at_mem : ∀ (l : List Str) (i : ℕ), i < l.length → l.getD i [] ∈ l := by
      intro l i hi
      rw [List.getD_eq_getElem?_getD, List.getElem?_eq_getElem hi]
      exact List.getElem_mem _
    have bz : ∀ k < s.ds.periods.length, ∀ i < 2, ∀ j < 2, (specOf s').z k i j = (specOf s).z k i j := by
      intro k hk i hi j hj
      simp only [specOf, hn]
      refine v1 k hk _ ?_ _ (at_mem _ _ hj)
      have := at_mem s.names.exey i hi
      revert this
      simp only [Names.exey, Names.exeyhz, List.mem_cons, List.not_mem_nil, or_false]
      tauto
    have bt : ∀ k < s.ds.periods.length, ∀ i < 1, ∀ j < 2, (specOf s').t k i j = (specOf s).t k i j := by
      intro k hk i hi j hj
      simp only [specOf, hn]
      refine v1 k hk _ ?_ _ (at_mem _ _ hj)
      have := at_mem [s.names.hz] i hi
      revert this
      simp only [Names.exeyhz, List.mem_cons, List.not_mem_nil, or_false]
      tauto
    have bi : ∀ k < s.ds.periods.length, ∀ i < 2, ∀ j < 2, (specOf s').isp k i j = (specOf s).isp k i j := by
      intro k hk i hi j hj
      simp only [specOf, hn]
      exact v2 k hk _ (at_mem _ _ hi) _ (at_mem _ _ hj)
    have br : ∀ k < s.ds.periods.length, ∀ i < 3, ∀ j < 3, (specOf s').res k i j = (specOf s).res k i j := by
      intro k hk i hi j hj
      simp only [specOf, hn]
      exact v3 k hk _ (at_mem _ _ hi) _ (at_mem _ _ hj)
    have P1 : (specOf s').periods.length = s.ds.periods.length := hp
    have P2 : (specOf s).periods.length = s.ds.periods.length := rfl
    intro t ht
    rw [R'.get_eq, R.get_eq]
    simp only [List.mem_cons, List.not_mem_nil, or_false] at ht
    rcases ht with rfl | rfl | rfl | rfl <;> simp only [Spec.get, P1, P2]
    · rw [table_congr bz]; simp only [zero_congr bz]
    · rw [table_congr bt]; simp only [zeroNan_congr bt]
    · rw [table_congr bi]; simp only [zero_congr bi]
    · rw [table_congr br]; simp only [zero_congr br]
  · intro k hk o ho i hi
    rw [f2.err k hk o (sub1 o ho) i hi]
    show rootOf (z.ds.arr _ _ _ _) (z.ds.arr _ _ _ _) = _
    rw [e4]

theorem exAll_has : ∀ t ∈ [AType.impedance, .tipper, .isp, .res], get exAll t ≠ .ok none := by
  intro t ht
  rw [exAll_rel.get_eq]
  have nz : ∀ r c, 0 < r → 0 < c → ¬ Tf.Zero 2 r c (fun _ _ _ => some 1) := fun r c h1 h2 z => by
    have := z 0 (by omega) 0 h1 0 h2; simp at this
  have nt : ¬ ZeroNan 2 1 2 (fun _ _ _ => some 1) := fun z => by have := z 0 (by omega) 0 (by omega) 0 (by omega); simp at this
  simp only [List.mem_cons, List.not_mem_nil, or_false] at ht
  rcases ht with rfl | rfl | rfl | rfl <;> simp [Spec.get, ones, nz, nt]

/-- A transfer function with all of them. -/
example : Reachable 1 exAll ∧ exAll.names = usual ∧ ∀ t ∈ [AType.impedance, .tipper, .isp, .res], get exAll t ≠ .ok none :=
  ⟨⟨usual, [2, 3], _, usual_nodup, rfl⟩, names_run _ _ _, exAll_has⟩

theorem C191_refuted : ¬ C191_claim := by
  intro h
  obtain ⟨z, s', h1, h2, -⟩ := h exAll ⟨usual, [2, 3], _, usual_nodup, rfl⟩ (names_run _ _ _) exAll_has
  rw [C191_never h1] at h2
  cases h2

end Verif.TfConvert
