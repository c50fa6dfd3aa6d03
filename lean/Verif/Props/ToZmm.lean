import Verif.Model.ToZmm

/-! # C406-C407: converting a transfer function to a Z file object again and again -/

namespace Verif.ToZmm
open Verif.Text
variable {M V : Type}

/-- The first run has channels. -/
def Recorded (f : TF M V) : Prop := ∃ r rs, f.runs = r :: rs ∧ r.chans ≠ []

theorem numbered_ne {z t : Bool} {n : List Comp} (h : numbered z t = some n) : n ≠ [] := by
  cases z <;> cases t <;> simp [numbered] at h <;> subst h <;> simp

theorem numbered_none (z t : Bool) : numbered z t = none ↔ z = false ∧ t = false := by
  cases z <;> cases t <;> simp [numbered]

theorem mem_numbered (z t : Bool) (n : List Comp) (h : numbered z t = some n) (c : Comp) :
    c ∈ n ↔ match c with | .hx => True | .hy => True | .hz => t = true | _ => z = true := by
  cases z <;> cases t <;> simp [numbered] at h <;> subst h <;> cases c <;> simp

/-! ### C406: converting leaves the transfer function -/

/-- C406: converting a transfer function to a Z file object leaves its runs. -/
def C406_claim : Prop := ∀ (M V : Type) (m : M) (v : V) (f : TF M V), (toZmm m v f).1.runs = f.runs

/-- C406 (part): so it does if and only if the first run has channels, or there are no data. -/
theorem C406_iff_partial (m : M) (v : V) (f : TF M V) : (toZmm m v f).1.runs = f.runs ↔ Recorded f ∨ f.z = false ∧ f.t = false := by
  unfold toZmm Recorded
  rw [← numbered_none]
  cases hr : f.runs with
  | nil =>
    cases hn : numbered f.z f.t with
    | none => simp [hr]
    | some n => simp
  | cons r rs =>
    by_cases hc : r.chans = []
    · cases hn : numbered f.z f.t with
      | none => simp [hc, hr]
      | some n =>
        simp only [hc, if_true, List.cons.injEq, and_true]
        constructor
        · intro h
          rw [← h, madeRun] at hc
          exact absurd (List.map_eq_nil_iff.1 hc) (numbered_ne hn)
        · rintro (⟨r', rs', ⟨rfl, rfl⟩, h⟩ | h)
          · exact absurd hc h
          · cases h
    · simp [hc, hr]

/-- C406 (part): otherwise the first run is lost, with all it had, and there is a new one of the components there are data of, with their
standard names. -/
theorem C406_changed_partial (m : M) (v : V) (f : TF M V) (h : ¬ Recorded f) (hd : f.z = true ∨ f.t = true) :
    ∃ cs, (toZmm m v f).1.runs = ⟨m, cs⟩ :: f.runs.tail ∧
      ∀ s x, (s, x) ∈ cs ↔ x = v ∧ ∃ c, s = std c ∧ match c with | .hx => True | .hy => True | .hz => f.t = true | _ => f.z = true := by
  obtain ⟨n, hn⟩ : ∃ n, numbered f.z f.t = some n := by
    cases hn : numbered f.z f.t with
    | some n => exact ⟨n, rfl⟩
    | none =>
      obtain ⟨h1, h2⟩ := (numbered_none _ _).1 hn
      rw [h1, h2] at hd
      rcases hd with hd | hd <;> cases hd
  refine ⟨n.map (fun c => (std c, v)), ?_, ?_⟩
  · unfold toZmm
    cases hr : f.runs with
    | nil => simp only [hn]; rfl
    | cons r rs =>
      by_cases hc : r.chans = []
      · simp only [hc, if_true, hn]; rfl
      · exact absurd ⟨r, rs, hr, hc⟩ h
  · intro s x
    simp only [List.mem_map, Prod.mk.injEq]
    constructor
    · rintro ⟨c, hc, rfl, rfl⟩
      exact ⟨rfl, c, rfl, (mem_numbered _ _ _ hn c).1 hc⟩
    · rintro ⟨rfl, c, rfl, hc⟩
      exact ⟨c, (mem_numbered _ _ _ hn c).2 hc, rfl, rfl⟩

/-- C406 (part): data and names are never changed. -/
theorem C406_rest_partial (m : M) (v : V) (f : TF M V) :
    (toZmm m v f).1.z = f.z ∧ (toZmm m v f).1.t = f.t ∧ (toZmm m v f).1.names = f.names := by
  unfold toZmm
  cases f.runs with
  | nil => cases numbered f.z f.t <;> exact ⟨rfl, rfl, rfl⟩
  | cons r rs =>
    by_cases hc : r.chans = []
    · simp only [hc, if_true]
      cases numbered f.z f.t <;> exact ⟨rfl, rfl, rfl⟩
    · simp only [hc, if_false, and_self]

/-- A transfer function with impedances; a run without channels; other names of magnetic channels. -/
def exTF : TF Nat Nat := { runs := [⟨7, []⟩], z := true, t := false, names := std }
def bNames : Comp → Str
  | .hx => ['b', 'x']
  | .hy => ['b', 'y']
  | .hz => ['b', 'z']
  | c => std c
def exB : TF Nat Nat := { runs := [], z := true, t := false, names := bNames }
def exRec : TF Nat Nat := { runs := [⟨7, [(['e', 'x'], 5), (['h', 'y'], 6), (['r', 'r', 'h', 'x'], 8)]⟩], z := true, t := true, names := std }

/-- C406 is false: a run without channels is replaced. -/
theorem C406_refuted : ¬ C406_claim := by
  intro h
  have := congrArg (fun l => l.map Run.info) (h Nat Nat 0 0 exTF)
  exact absurd this (by decide)

example : (toZmm 0 0 exTF).1.runs.map (fun r => (r.info, r.chans)) = [(0, [(std .hx, 0), (std .hy, 0), (std .ex, 0), (std .ey, 0)])] := by decide
example : Recorded exRec := ⟨_, _, rfl, nofun⟩

/-! ### C407: converting again -/

/-- History without conversions. -/
def plain (l : List Op) : List Op := l.filter (fun o => match o with | .convert => false | _ => true)

/-- C407: what a conversion gives does not depend on conversions before. -/
def C407_claim : Prop := ∀ (M V : Type) (m : M) (v : V) (f : TF M V) (l : List Op), f.cache = none →
  (toZmm m v (steps m v f l)).2 = (toZmm m v (steps m v f (plain l))).2

theorem toZmm_cache (m : M) (v : V) (f : TF M V) : (toZmm m v f).1.cache = some (f.cache.getD f.names) := by
  unfold toZmm
  cases f.runs with
  | nil => cases numbered f.z f.t <;> rfl
  | cons r rs =>
    by_cases hc : r.chans = []
    · simp only [hc, if_true]
      cases numbered f.z f.t <;> rfl
    · simp only [hc, if_false]

/-- C407 (part): so it is if the first run has channels and no names are assigned. -/
theorem C407_recorded_partial (m : M) (v : V) (f : TF M V) (l : List Op) (h : Recorded f) (hl : ∀ nm, Op.names nm ∉ l) :
    (toZmm m v (steps m v f l)).2 = (toZmm m v (steps m v f (plain l))).2 := by
  have key : ∀ (l : List Op), (∀ nm, Op.names nm ∉ l) → ∀ (f g : TF M V), Recorded f → f.runs = g.runs → f.z = g.z → f.t = g.t → f.names = g.names →
      f.cache.getD f.names = g.cache.getD g.names →
      (toZmm m v (steps m v f l)).2 = (toZmm m v (steps m v g (plain l))).2 := by
    intro l
    induction l with
    | nil =>
      intro _ f g _ h1 h2 h3 h4 h5
      unfold steps plain toZmm
      simp only [List.foldl_nil, List.filter_nil, ← h1, ← h2, ← h3, ← h5]
      cases f.runs with
      | nil => cases numbered f.z f.t <;> rfl
      | cons r rs =>
        by_cases hc : r.chans = []
        · simp only [hc, if_true]
          cases numbered f.z f.t <;> rfl
        · simp only [hc, if_false]
    | cons o l ih =>
      intro hl f g hR h1 h2 h3 h4 h5
      have hl' : ∀ nm, Op.names nm ∉ l := fun nm hm => hl nm (List.mem_cons_of_mem _ hm)
      cases o with
      | data z t =>
        exact ih hl' (step m v f (.data z t)) (step m v g (.data z t)) hR h1 rfl rfl h4 h5
      | names nm => exact absurd List.mem_cons_self (hl nm)
      | convert =>
        have e := (C406_iff_partial m v f).2 (.inl hR)
        obtain ⟨a, b, c⟩ := C406_rest_partial m v f
        refine ih hl' (toZmm m v f).1 g ?_ (e.trans h1) (a.trans h2) (b.trans h3) (c.trans h4) ?_
        · obtain ⟨r, rs, hr, hc⟩ := hR
          exact ⟨r, rs, e.trans hr, hc⟩
        · rw [toZmm_cache, Option.getD_some, h5]
  exact key l hl f f h rfl rfl rfl rfl rfl

theorem inverse_some {nm : Comp → Str} {s : Str} {c : Comp} (h : inverse nm s = some c) : nm c = s := by
  have := List.find?_some h
  simpa using this

theorem inverse_none {nm : Comp → Str} {s : Str} : inverse nm s = none ↔ ∀ c, nm c ≠ s := by
  unfold inverse
  rw [List.find?_eq_none]
  constructor
  · intro h c
    have := h c (by cases c <;> simp)
    simpa using this
  · intro h c _
    simpa using h c

theorem std_rr (c : Comp) : hasSub ['r', 'r'] (std c) = false := by cases c <;> decide

theorem inverse_std (c : Comp) : inverse std (std c) = some c := by cases c <;> decide

/-- When channels of a run can be used. -/
theorem recorded_ok (inv : Str → Option Comp) (n : List Comp) (l : List (Str × V)) (a : Chans V) :
    (∃ r, recorded inv (some n) l a = .ok r) ↔ ∀ x ∈ l, hasSub ['r', 'r'] x.1 = true ∨ inv x.1 ≠ none := by
  induction l generalizing a with
  | nil => exact ⟨fun _ _ h => (nomatch h), fun _ => ⟨a, rfl⟩⟩
  | cons x l ih =>
    obtain ⟨s, v⟩ := x
    rw [List.forall_mem_cons, recorded]
    by_cases hs : hasSub ['r', 'r'] s = true
    · rw [if_pos hs, ih]
      simp [hs]
    · rw [if_neg hs]
      cases hi : inv s with
      | none =>
        constructor
        · rintro ⟨r, h⟩
          cases h
        · rintro ⟨h | h, _⟩
          · exact absurd h hs
          · exact absurd rfl h
      | some c =>
        simp only
        rw [ih]
        simp [hi]

/-- Channels of a run with standard names. -/
theorem recorded_std (n0 n : List Comp) (v : V) (a : Chans V) :
    recorded (inverse std) (some n) (n0.map (fun c => (std c, v))) a =
      .ok (fun c => if c ∈ n0 then ((n.idxOf? c).map (fun i => (i + 1, v))).or (a c) else a c) := by
  induction n0 generalizing a with
  | nil => rfl
  | cons d n0 ih =>
    rw [List.map_cons, recorded, if_neg (by rw [std_rr]; exact Bool.false_ne_true), inverse_std]
    simp only
    rw [ih]
    congr 1
    funext c
    by_cases hc : c = d
    · subst hc
      cases n.idxOf? c with
      | none => by_cases hm : c ∈ n0 <;> simp [hm]
      | some i => by_cases hm : c ∈ n0 <;> simp [hm]
    · cases n.idxOf? d <;> simp [hc]

/-- What a conversion makes of a transfer function whose first run has no channels. -/
theorem toZmm_made (m : M) (v : V) (f : TF M V) (h : ¬ Recorded f) (n : List Comp) (hn : numbered f.z f.t = some n) :
    toZmm m v f = ({ f with
      runs := madeRun m v n :: f.runs.tail
      cache := some (f.cache.getD f.names) }, .ok (madeChans v n)) := by
  unfold toZmm
  cases hr : f.runs with
  | nil => simp only [hn]; rfl
  | cons r rs =>
    by_cases hc : r.chans = []
    · simp only [hc, if_true, hn]; rfl
    · exact absurd ⟨r, rs, hr, hc⟩ h

/-- C407 (part): a transfer function whose first run has no channels, converted twice: the second time it can be converted if and only if
each standard name of a component with data is a name of some component. -/
theorem C407_again_partial (m : M) (v : V) (f : TF M V) (h : ¬ Recorded f) (hc : f.cache = none) (hd : f.z = true ∨ f.t = true) :
    (∃ r, (toZmm m v f).2 = .ok r) ∧ ((∃ r, (toZmm m v (toZmm m v f).1).2 = .ok r) ↔
      ∀ c, (match c with | .hx => True | .hy => True | .hz => f.t = true | _ => f.z = true) → ∃ d, f.names d = std c) := by
  obtain ⟨n, hn⟩ : ∃ n, numbered f.z f.t = some n := by
    cases hn : numbered f.z f.t with
    | some n => exact ⟨n, rfl⟩
    | none =>
      obtain ⟨h1, h2⟩ := (numbered_none _ _).1 hn
      rw [h1, h2] at hd
      rcases hd with hd | hd <;> cases hd
  rw [toZmm_made m v f h n hn]
  refine ⟨⟨_, rfl⟩, ?_⟩
  unfold toZmm
  have hne : (madeRun m v n).chans ≠ [] := by
    rw [madeRun]
    exact fun e => numbered_ne hn (List.map_eq_nil_iff.1 e)
  simp only [hne, if_false, hn, hc, Option.getD_none, Option.getD_some]
  rw [recorded_ok, madeRun]
  simp only [List.forall_mem_map, std_rr, Bool.false_eq_true, false_or]
  constructor
  · intro g c hcm
    have := g c ((mem_numbered _ _ _ hn c).2 hcm)
    rw [Ne, inverse_none] at this
    exact Classical.not_forall_not.1 this
  · intro g c hcm
    obtain ⟨d, hd⟩ := g c ((mem_numbered _ _ _ hn c).1 hcm)
    rw [Ne, inverse_none]
    exact fun e => e d hd

/-- With standard names, in terms of the list of components. -/
theorem convert_data (m : M) (v : V) (f : TF M V) (h : ¬ Recorded f) (hc : f.cache = none) (hs : f.names = std) (z t : Bool)
    (n0 n : List Comp) (h0 : numbered f.z f.t = some n0) (h1 : numbered z t = some n) :
    (toZmm m v (steps m v f [.convert, .data z t])).2 = .ok (fun c => if c ∈ n0 then (n.idxOf? c).map (fun i => (i + 1, v)) else none) := by
  unfold steps
  simp only [List.foldl_cons, List.foldl_nil, step]
  rw [toZmm_made m v f h n0 h0]
  unfold toZmm
  have hne : (madeRun m v n0).chans ≠ [] := by
    rw [madeRun]
    exact fun e => numbered_ne h0 (List.map_eq_nil_iff.1 e)
  simp only [hne, if_false, h1, hc, hs, Option.getD_none, Option.getD_some]
  rw [madeRun]
  simp only
  rw [recorded_std]
  congr 1
  funext c
  by_cases hm : c ∈ n0 <;> simp [hm]

/-- Number of a component in a Z file with impedances (or not) and tippers (or not). -/
def place (z t : Bool) : Comp → Option Nat
  | .hx => some 1
  | .hy => some 2
  | .hz => if t then some 3 else none
  | .ex => if z then some (if t then 4 else 3) else none
  | .ey => if z then some (if t then 5 else 4) else none

/-- C407 (part): with standard names, a first conversion of data decides which channels later ones have: those that there were data of then
and there are data of now, numbered by the data of now. -/
theorem C407_data_partial (m : M) (v : V) (f : TF M V) (h : ¬ Recorded f) (hc : f.cache = none) (hs : f.names = std) (z t : Bool)
    (h0 : f.z = true ∨ f.t = true) (h1 : z = true ∨ t = true) :
    (toZmm m v (steps m v f [.convert, .data z t])).2 = .ok (fun c => if (place f.z f.t c).isSome then (place z t c).map (fun i => (i, v)) else none) := by
  have key : ∀ z0 t0, f.z = z0 → f.t = t0 → (toZmm m v (steps m v f [.convert, .data z t])).2 =
      .ok (fun c => if (place z0 t0 c).isSome then (place z t c).map (fun i => (i, v)) else none) := by
    intro z0 t0 e1 e2
    rw [e1, e2] at h0
    cases z0 <;> cases t0 <;> cases z <;> cases t <;> first
      | simp at h0; done
      | simp at h1; done
      | (rw [convert_data m v f h hc hs _ _ _ _ (by rw [e1, e2]; rfl) rfl]
         congr 1
         funext c
         cases c <;> rfl)
  exact key _ _ rfl rfl

/-- C407 (part): with standard names and the same data a second conversion gives the same. -/
theorem C407_same_partial (m : M) (v : V) (f : TF M V) (h : ¬ Recorded f) (hc : f.cache = none) (hs : f.names = std) (hd : f.z = true ∨ f.t = true) :
    (toZmm m v (toZmm m v f).1).2 = (toZmm m v f).2 := by
  cases hn : numbered f.z f.t with
  | none =>
    obtain ⟨h1, h2⟩ := (numbered_none _ _).1 hn
    rw [h1, h2] at hd
    rcases hd with hd | hd <;> cases hd
  | some n =>
    have e := convert_data m v f h hc hs f.z f.t n n hn hn
    have u : steps m v f [.convert, .data f.z f.t] = (toZmm m v f).1 := by
      unfold steps
      simp only [List.foldl_cons, List.foldl_nil, step]
      rw [toZmm_made m v f h n hn]
    rw [u] at e
    rw [e, toZmm_made m v f h n hn]
    congr 1
    funext c
    unfold madeChans
    by_cases hm : c ∈ n
    · simp [hm]
    · rw [if_neg hm, List.idxOf?_eq_none_iff.2 hm]
      rfl

theorem exB_not : ¬ Recorded exB := by
  rintro ⟨r, rs, h, _⟩
  cases h
theorem exTF_not : ¬ Recorded exTF := by
  rintro ⟨r, rs, h, hc⟩
  cases h
  exact hc rfl

/-- C407 is false: with other names of magnetic channels a second conversion raises `KeyError`. -/
theorem C407_refuted : ¬ C407_claim := by
  intro h
  have e := h Nat Nat 0 0 exB [.convert] rfl
  have h1 := (C407_again_partial 0 0 exB exB_not rfl (.inl rfl)).1
  have h2 : ¬ ∃ r, (toZmm 0 0 (toZmm 0 0 exB).1).2 = .ok r := by
    rw [(C407_again_partial 0 0 exB exB_not rfl (.inl rfl)).2]
    intro g
    obtain ⟨d, hd⟩ := g .hx trivial
    cases d <;> exact absurd hd (by decide)
  refine h2 ?_
  obtain ⟨r, hr⟩ := h1
  exact ⟨r, e.trans hr⟩

/-- Tippers that are assigned after a first conversion are not in later ones. -/
example : ∃ r, (toZmm 0 0 (steps 0 0 exTF [.convert, .data true true])).2 = .ok r ∧ r .hz = none ∧ r .ex = some (4, 0) ∧
    ∃ r', (toZmm 0 0 (steps 0 0 exTF [.data true true])).2 = .ok r' ∧ r' .hz = some (3, 0) :=
  ⟨_, rfl, by decide, by decide, _, rfl, by decide⟩

end Verif.ToZmm
