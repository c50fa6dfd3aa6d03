import Verif.Model.FilterFile
import Verif.Lemmas.OD

/-! # Filters as JSON and XML texts, and arrays from texts -/

namespace Verif.FilterFile

/-! ## JSON -/

/-- The value of a field is in the JSON text: an array other than poles and zeros has no zero in it, anything else is not
empty or is required by the standard. -/
def Written (required : List Str) (name : Str) : Val → Prop
  | .arr l => name = "zeros".toList ∨ name = "poles".toList ∨ (0 : ℚ) ∉ l
  | .carr l => name = "zeros".toList ∨ name = "poles".toList ∨ ((0, 0) : ℚ × ℚ) ∉ l
  | .none => name ∈ required
  | .text s => (s ≠ [] ∧ s ≠ "1980".toList ∧ s ≠ "1980-01-01T00:00:00+00:00".toList) ∨ name ∈ required
  | .num _ => True

/-- A filter of some class: distinct fields; float arrays are not called poles or zeros, complex arrays are; phases that
are already in radians (the validator leaves them alone). -/
def Sound (vp : List ℚ → List ℚ) (f : Filter) : Prop :=
  OD.WF f ∧ ∀ k v, OD.get? f k = some v →
    match v with
    | .arr l => k ≠ "zeros".toList ∧ k ≠ "poles".toList ∧ (k = "phases".toList → vp l = l)
    | .carr _ => k = "zeros".toList ∨ k = "poles".toList
    | _ => True

/-- Two filters of one class: the same fields, complex arrays in the same fields. -/
def SameClass (f g : Filter) : Prop :=
  OD.keys f = OD.keys g ∧ ∀ k, (∃ c, OD.get? f k = some (.carr c)) ↔ (∃ c, OD.get? g k = some (.carr c))

theorem kept_iff (required : List Str) (k : Str) (v : Val) : kept required k v = true ↔ Written required k v := by
  cases v with
  | none => simp [kept, empty, Written]
  | text s => simp only [kept, empty, Written, Bool.or_eq_true, Bool.not_eq_true', List.contains_iff_mem,
      Bool.or_eq_false_iff, decide_eq_false_iff_not, and_assoc]
  | num q => simp [kept, empty, Written]
  | arr l =>
    simp only [kept, Written, Bool.or_eq_true, decide_eq_true_eq, List.all_eq_true, or_assoc]
    refine or_congr Iff.rfl (or_congr Iff.rfl ⟨fun h hm => h 0 hm rfl, fun h q hq hz => h (hz ▸ hq)⟩)
  | carr l =>
    simp only [kept, Written, Bool.or_eq_true, decide_eq_true_eq, List.all_eq_true, or_assoc]
    refine or_congr Iff.rfl (or_congr Iff.rfl ⟨fun h hm => h (0, 0) hm rfl, fun h q hq hz => h (hz ▸ hq)⟩)

/-- The entries of a filter, written one by one. -/
def enc (d : Filter) : OD Str JVal := d.map (fun p => (p.1, encode p.2))

theorem broadcast_same (n : Nat) (xs : List ℚ) (h : xs.length = n) : broadcast n xs = .ok xs := by
  simp [broadcast, h]

theorem zip_fst_snd (l : List (ℚ × ℚ)) : (l.map Prod.fst).zip (l.map Prod.snd) = l := by
  induction l with
  | nil => rfl
  | cons a t ih => simp [ih]

theorem map_fst_zip' (a b : List ℚ) (h : a.length = b.length) : (a.zip b).map Prod.fst = a :=
  List.map_fst_zip (by omega)

/-- Reading a complex array into one of the same length. -/
theorem readOne_same (vp : List ℚ → List ℚ) (f : Filter) (k : Str) (c l : List (ℚ × ℚ))
    (hg : OD.get? f k = some (.carr c)) (hl : c.length = l.length) :
    readOne vp f k (encode (.carr l)) = .ok (OD.set f k (.carr l)) := by
  have h1 : setReal c (l.map Prod.fst) = .ok ((l.map Prod.fst).zip (c.map Prod.snd)) := by
    unfold setReal; rw [broadcast_same _ _ (by simp [hl])]
  have h2 : setImag ((l.map Prod.fst).zip (c.map Prod.snd)) (l.map Prod.snd) = .ok l := by
    unfold setImag
    rw [broadcast_same _ _ (by simp [hl])]
    simp only
    rw [map_fst_zip' _ _ (by simp [hl]), zip_fst_snd]
  simp only [encode, readOne, hg, h1, h2]

/-- Reading a field that is not a complex array. -/
theorem readOne_plain (vp : List ℚ → List ℚ) (f : Filter) (k : Str) (v : Val) (hv : ∀ c, v ≠ .carr c)
    (hz : ∀ l, v = .arr l → k ≠ "zeros".toList ∧ k ≠ "poles".toList ∧ (k = "phases".toList → vp l = l)) :
    readOne vp f k (encode v) = .ok (OD.set f k v) := by
  cases v with
  | none => rfl
  | text s => rfl
  | num q => rfl
  | carr c => exact absurd rfl (hv c)
  | arr l =>
    obtain ⟨h1, h2, h3⟩ := hz l rfl
    simp only [encode, readOne, validate, h1, h2, or_self, if_false]
    by_cases h : k = "phases".toList
    · rw [if_pos h, h3 h]
    · rw [if_neg h]

/-- Reading written fields one by one into a filter whose complex arrays have the right lengths. -/
theorem readJson_enc (vp : List ℚ → List ℚ) : ∀ (d g : Filter), OD.WF d →
    (∀ k v, (k, v) ∈ d → match v with
      | .arr l => k ≠ "zeros".toList ∧ k ≠ "poles".toList ∧ (k = "phases".toList → vp l = l)
      | .carr l => ∃ c, OD.get? g k = some (.carr c) ∧ c.length = l.length
      | _ => True) →
    readJson vp g (enc d) = .ok (d.foldl (fun acc p => OD.set acc p.1 p.2) g) := by
  intro d
  induction d with
  | nil => intro g _ _; rfl
  | cons p t ih =>
    obtain ⟨k, v⟩ := p
    intro g wf h
    have hnd : k ∉ OD.keys t := (List.nodup_cons.mp wf).1
    have wft : OD.WF t := (List.nodup_cons.mp wf).2
    have hhead : readOne vp g k (encode v) = .ok (OD.set g k v) := by
      have := h k v List.mem_cons_self
      cases v with
      | carr l =>
        obtain ⟨c, hc, hl⟩ := this
        exact readOne_same vp g k c l hc hl
      | arr l => exact readOne_plain vp g k _ (by simp) (by intro l' e; cases e; exact this)
      | none => rfl
      | text s => rfl
      | num q => rfl
    simp only [enc, List.map_cons, readJson, hhead, List.foldl_cons]
    apply ih (OD.set g k v) wft
    intro k' v' hm
    have := h k' v' (List.mem_cons_of_mem _ hm)
    cases v' with
    | carr l =>
      obtain ⟨c, hc, hl⟩ := this
      refine ⟨c, ?_, hl⟩
      rw [OD.get?_set_ne]
      · exact hc
      · rintro rfl; exact hnd (OD.mem_keys_of_mem hm)
    | arr l => exact this
    | none => trivial
    | text s => trivial
    | num q => trivial

theorem get?_foldl_set (d : Filter) : ∀ (g : Filter) (k : Str), OD.WF d →
    OD.get? (d.foldl (fun acc p => OD.set acc p.1 p.2) g) k =
      (match OD.get? d k with | some v => some v | none => OD.get? g k) := by
  induction d with
  | nil => intro g k _; rfl
  | cons p t ih =>
    intro g k wf
    have hnd : p.1 ∉ OD.keys t := (List.nodup_cons.mp wf).1
    rw [List.foldl_cons, ih _ _ (List.nodup_cons.mp wf).2, OD.get?_cons]
    by_cases h : p.1 = k
    · subst h
      rw [(OD.get?_eq_none_iff t p.1).2 hnd]
      simp
    · rw [if_neg h, OD.get?_set_ne _ _ (Ne.symm h)]

theorem WF_toDict (required : List Str) (f : Filter) (wf : OD.WF f) : OD.WF (toDict required f) :=
  List.Nodup.sublist (List.Sublist.map _ List.filter_sublist) wf

theorem get?_toDict (required : List Str) (f : Filter) (wf : OD.WF f) (k : Str) :
    OD.get? (toDict required f) k =
      (match OD.get? f k with | some v => if kept required k v then some v else none | none => none) := by
  cases h : OD.get? f k with
  | none =>
    rw [OD.get?_eq_none_iff] at h ⊢
    intro hm
    apply h
    unfold OD.keys at hm ⊢
    obtain ⟨p, hp, rfl⟩ := List.mem_map.1 hm
    exact List.mem_map_of_mem ((List.mem_filter.1 hp).1)
  | some v =>
    have hm := OD.mem_of_get? h
    by_cases hk : kept required k v = true
    · simp only [hk, if_true]
      exact OD.get?_of_mem (WF_toDict required f wf) (List.mem_filter.2 ⟨hm, hk⟩)
    · simp only [hk]
      rw [if_neg (by simp), OD.get?_eq_none_iff]
      intro hm'
      obtain ⟨⟨k', v'⟩, hp, rfl⟩ := List.mem_map.1 hm'
      obtain ⟨hp1, hp2⟩ := List.mem_filter.1 hp
      have := OD.get?_of_mem wf hp1
      rw [h] at this
      cases this
      exact hk hp2

/-- C265: a filter written to JSON and read into a new filter of its class comes back, whatever its arrays are. -/
def C265_claim : Prop :=
  ∀ (vp : List ℚ → List ℚ) (required : List Str) (f fresh : Filter), Sound vp f → SameClass f fresh →
    (∀ k c, OD.get? fresh k = some (.carr c) → c = []) →
    ∃ g, readJson vp fresh (toJson required f) = .ok g ∧
      ∀ k v, OD.get? f k = some v → (∃ l, v = .arr l) ∨ (∃ l, v = .carr l) → OD.get? g k = some v

/-- A pole zero filter with two poles. -/
def exPz : Filter :=
  [("name".toList, .text "lp".toList), ("normalization_factor".toList, .num 1),
   ("poles".toList, .carr [(-1, 2), (-1, -2)]), ("zeros".toList, .carr [])]

/-- A new pole zero filter. -/
def freshPz : Filter :=
  [("name".toList, .text []), ("normalization_factor".toList, .num 1),
   ("poles".toList, .carr []), ("zeros".toList, .carr [])]

theorem exPz_sound : Sound id exPz := by
  refine ⟨by decide +kernel, fun k v h => ?_⟩
  have := OD.mem_of_get? h
  simp only [exPz, List.mem_cons, List.not_mem_nil, or_false, Prod.mk.injEq] at this
  rcases this with ⟨_, rfl⟩ | ⟨_, rfl⟩ | ⟨h', rfl⟩ | ⟨h', rfl⟩
  · trivial
  · trivial
  · exact Or.inr h'
  · exact Or.inl h'

theorem exPz_same : SameClass exPz freshPz := by
  refine ⟨by decide +kernel, fun k => ?_⟩
  constructor <;> rintro ⟨c, h⟩
  · have := OD.mem_of_get? h
    simp only [exPz, List.mem_cons, List.not_mem_nil, or_false, Prod.mk.injEq] at this
    rcases this with ⟨_, h⟩ | ⟨_, h⟩ | ⟨rfl, _⟩ | ⟨rfl, _⟩
    · cases h
    · cases h
    · exact ⟨[], by decide +kernel⟩
    · exact ⟨[], by decide +kernel⟩
  · have := OD.mem_of_get? h
    simp only [freshPz, List.mem_cons, List.not_mem_nil, or_false, Prod.mk.injEq] at this
    rcases this with ⟨_, h⟩ | ⟨_, h⟩ | ⟨rfl, _⟩ | ⟨rfl, _⟩
    · cases h
    · cases h
    · exact ⟨[(-1, 2), (-1, -2)], by decide +kernel⟩
    · exact ⟨[], by decide +kernel⟩

theorem freshPz_empty : ∀ k c, OD.get? freshPz k = some (.carr c) → c = [] := by
  intro k c h
  have := OD.mem_of_get? h
  simp only [freshPz, List.mem_cons, List.not_mem_nil, or_false, Prod.mk.injEq] at this
  rcases this with ⟨_, h⟩ | ⟨_, h⟩ | ⟨_, h⟩ | ⟨_, h⟩ <;> cases h <;> rfl

/-- **C265 is false**: a filter with two poles cannot be read back. -/
theorem C265_refuted : ¬ C265_claim := by
  intro h
  obtain ⟨g, hg, _⟩ := h id [] exPz freshPz exPz_sound exPz_same freshPz_empty
  have e : readJson id freshPz (toJson [] exPz) = .error .valueError := by decide +kernel
  rw [e] at hg
  cases hg

/-- What does hold of C265: read into a filter whose complex arrays have the lengths of the written ones, every field
that was written comes back and every other field of that filter stays. In particular filters without poles and zeros (FIR
filters, tables, coefficients, delays) survive, except for arrays with a zero in them. -/
theorem C265_partial (vp : List ℚ → List ℚ) (required : List Str) (f g : Filter) (hf : Sound vp f)
    (hlen : ∀ k l, OD.get? f k = some (.carr l) → ∃ c, OD.get? g k = some (.carr c) ∧ c.length = l.length) :
    ∃ r, readJson vp g (toJson required f) = .ok r ∧
      (∀ k v, OD.get? f k = some v → Written required k v → OD.get? r k = some v) ∧
      (∀ k v, OD.get? f k = some v → ¬ Written required k v → OD.get? r k = OD.get? g k) ∧
      (∀ k, OD.get? f k = none → OD.get? r k = OD.get? g k) := by
  have wf := WF_toDict required f hf.1
  refine ⟨(toDict required f).foldl (fun acc p => OD.set acc p.1 p.2) g, ?_, ?_, ?_, ?_⟩
  · apply readJson_enc vp _ _ wf
    intro k v hm
    have hget := OD.get?_of_mem hf.1 (List.mem_filter.1 hm).1
    have := hf.2 k v hget
    cases v with
    | arr l => exact this
    | carr l => exact hlen k l hget
    | none => trivial
    | text s => trivial
    | num q => trivial
  · intro k v h hw
    rw [get?_foldl_set _ _ _ wf, get?_toDict _ _ hf.1, h]
    simp only [(kept_iff required k v).2 hw, if_true]
  · intro k v h hw
    rw [get?_foldl_set _ _ _ wf, get?_toDict _ _ hf.1, h]
    have : kept required k v = false := by
      rw [← Bool.not_eq_true]; exact fun hc => hw ((kept_iff required k v).1 hc)
    simp only [this]
    rfl
  · intro k h
    rw [get?_foldl_set _ _ _ wf, get?_toDict _ _ hf.1, h]

/-- The whole table of a FIR filter and of a table filter without zeros is such a case; so is a pole zero filter read into
a filter that already has two poles. -/
def oldPz : Filter :=
  [("name".toList, .text []), ("normalization_factor".toList, .num 1),
   ("poles".toList, .carr [(0, 0), (5, 5)]), ("zeros".toList, .carr [])]

example : readJson id oldPz (toJson [] exPz) = .ok exPz := by decide +kernel
example : ∀ k l, OD.get? exPz k = some (.carr l) → ∃ c, OD.get? oldPz k = some (.carr c) ∧ c.length = l.length := by
  intro k l h
  have := OD.mem_of_get? h
  simp only [exPz, List.mem_cons, List.not_mem_nil, or_false, Prod.mk.injEq] at this
  rcases this with ⟨_, h⟩ | ⟨_, h⟩ | ⟨rfl, h⟩ | ⟨rfl, h⟩ <;> cases h
  · exact ⟨[(0, 0), (5, 5)], by decide +kernel, rfl⟩
  · exact ⟨[], by decide +kernel, rfl⟩

theorem broadcast_long (xs : List ℚ) (h : 2 ≤ xs.length) : broadcast 0 xs = .error .valueError := by
  match xs, h with
  | a :: b :: t, _ => simp [broadcast]

theorem readOne_long (vp : List ℚ → List ℚ) (f : Filter) (k : Str) (l : List (ℚ × ℚ))
    (hg : OD.get? f k = some (.carr [])) (hl : 2 ≤ l.length) :
    readOne vp f k (encode (.carr l)) = .error .valueError := by
  have : setReal [] (l.map Prod.fst) = .error .valueError := by
    unfold setReal
    rw [List.length_nil, broadcast_long _ (by simpa using hl)]
  simp only [encode, readOne, hg, this]

theorem readOne_short (vp : List ℚ → List ℚ) (f : Filter) (k : Str) (l : List (ℚ × ℚ))
    (hg : OD.get? f k = some (.carr [])) (hl : l.length ≤ 1) :
    readOne vp f k (encode (.carr l)) = .ok (OD.set f k (.carr [])) := by
  match l, hl with
  | [], _ => simp [encode, readOne, hg, setReal, setImag, broadcast]
  | [z], _ => simp [encode, readOne, hg, setReal, setImag, broadcast]

/-- A field that is not in the JSON text stays. -/
theorem stays (vp : List ℚ → List ℚ) : ∀ (d : OD Str JVal) (g r : Filter) (k : Str), k ∉ OD.keys d →
    readJson vp g d = .ok r → OD.get? r k = OD.get? g k := by
  intro d
  induction d with
  | nil => intro g r k _ h; cases h; rfl
  | cons p t ih =>
    intro g r k hk h
    have hne : k ≠ p.1 := fun e => hk (e ▸ List.mem_cons_self)
    have hk' : k ∉ OD.keys t := fun hm => hk (List.mem_cons_of_mem _ hm)
    unfold readJson at h
    cases hr : readOne vp g p.1 p.2 with
    | error e => rw [hr] at h; cases h
    | ok g' =>
      rw [hr] at h
      rw [ih g' r k hk' h]
      have : ∃ v, g' = OD.set g p.1 v := by
        unfold readOne at hr
        split at hr
        · split at hr
          · split at hr
            · cases hr
            · split at hr
              · cases hr
              · cases hr; exact ⟨_, rfl⟩
          · cases hr
          · cases hr
        · cases hr; exact ⟨_, rfl⟩
      obtain ⟨v, rfl⟩ := this
      exact OD.get?_set_ne _ _ hne

theorem keys_enc (d : Filter) : OD.keys (enc d) = OD.keys d := by
  simp [enc, OD.keys, List.map_map, Function.comp_def]

/-- What the fields of a written filter look like to a filter without poles and zeros. -/
def Fits (vp : List ℚ → List ℚ) (g : Filter) (k : Str) : Val → Prop
  | .arr l => k ≠ "zeros".toList ∧ k ≠ "poles".toList ∧ (k = "phases".toList → vp l = l)
  | .carr _ => OD.get? g k = some (.carr [])
  | _ => True

/-- Reading complex arrays into a filter that has none: the first one with two numbers fails, single numbers vanish. -/
theorem readJson_fresh (vp : List ℚ → List ℚ) : ∀ (d g : Filter), OD.WF d → (∀ k v, (k, v) ∈ d → Fits vp g k v) →
    ((∃ k l, (k, Val.carr l) ∈ d ∧ 2 ≤ l.length) → readJson vp g (enc d) = .error .valueError) ∧
    ((∀ k l, (k, Val.carr l) ∈ d → l.length ≤ 1) → ∃ r, readJson vp g (enc d) = .ok r ∧
      ∀ k l, (k, Val.carr l) ∈ d → OD.get? r k = some (.carr [])) := by
  intro d
  induction d with
  | nil => intro g _ _; exact ⟨by simp, fun _ => ⟨g, rfl, by simp⟩⟩
  | cons p t ih =>
    obtain ⟨k, v⟩ := p
    intro g wf h
    have hnd : k ∉ OD.keys t := (List.nodup_cons.mp wf).1
    have wft : OD.WF t := (List.nodup_cons.mp wf).2
    have hrest : ∀ w, ∀ k' v', (k', v') ∈ t → Fits vp (OD.set g k w) k' v' := by
      intro w k' v' hm
      have := h k' v' (List.mem_cons_of_mem _ hm)
      cases v' with
      | carr l =>
        unfold Fits at this ⊢
        rw [OD.get?_set_ne]
        · exact this
        · rintro rfl; exact hnd (OD.mem_keys_of_mem hm)
      | arr l => exact this
      | none => trivial
      | text s => trivial
      | num q => trivial
    have hk := h k v List.mem_cons_self
    have step : ∀ w, readOne vp g k (encode v) = .ok (OD.set g k w) →
        readJson vp g (enc ((k, v) :: t)) = readJson vp (OD.set g k w) (enc t) := by
      intro w e
      simp only [enc, List.map_cons, readJson, e]
    by_cases hc : ∃ l, v = .carr l
    · obtain ⟨l, rfl⟩ := hc
      by_cases hl : 2 ≤ l.length
      · have e := readOne_long vp g k l hk hl
        refine ⟨fun _ => ?_, fun hs => ?_⟩
        · simp only [enc, List.map_cons, readJson, e]
        · exact absurd (hs k l List.mem_cons_self) (by omega)
      · have e := readOne_short vp g k l hk (by omega)
        obtain ⟨i1, i2⟩ := ih (OD.set g k (.carr [])) wft (hrest _)
        rw [step _ e]
        refine ⟨?_, fun hs => ?_⟩
        · rintro ⟨k', l', hm, hl'⟩
          rcases List.mem_cons.1 hm with h' | h'
          · cases h'; exact absurd hl' hl
          · exact i1 ⟨k', l', h', hl'⟩
        · obtain ⟨r, hr, hr'⟩ := i2 (fun k' l' hm => hs k' l' (List.mem_cons_of_mem _ hm))
          refine ⟨r, hr, fun k' l' hm => ?_⟩
          rcases List.mem_cons.1 hm with h' | h'
          · cases h'
            rw [stays vp _ _ r k (by rw [keys_enc]; exact hnd) hr, OD.get?_set_self]
          · exact hr' k' l' h'
    · have e := readOne_plain vp g k v (fun c hv => hc ⟨c, hv⟩) (by rintro l rfl; exact hk)
      obtain ⟨i1, i2⟩ := ih (OD.set g k v) wft (hrest _)
      rw [step _ e]
      refine ⟨?_, fun hs => ?_⟩
      · rintro ⟨k', l', hm, hl'⟩
        rcases List.mem_cons.1 hm with h' | h'
        · cases h'; exact absurd ⟨_, rfl⟩ hc
        · exact i1 ⟨k', l', h', hl'⟩
      · obtain ⟨r, hr, hr'⟩ := i2 (fun k' l' hm => hs k' l' (List.mem_cons_of_mem _ hm))
        refine ⟨r, hr, fun k' l' hm => ?_⟩
        rcases List.mem_cons.1 hm with h' | h'
        · cases h'; exact absurd ⟨_, rfl⟩ hc
        · exact hr' k' l' h'

/-- How C265 fails for poles and zeros: in a new filter, which has none, reading two or more of them raises
`ValueError`; a single pole or zero disappears without an error. -/
theorem C265_poles_partial (vp : List ℚ → List ℚ) (required : List Str) (f fresh : Filter) (hf : Sound vp f)
    (hc : SameClass f fresh) (he : ∀ k c, OD.get? fresh k = some (.carr c) → c = []) :
    ((∃ k l, OD.get? f k = some (.carr l) ∧ 2 ≤ l.length) →
      readJson vp fresh (toJson required f) = .error .valueError) ∧
    ((∀ k l, OD.get? f k = some (.carr l) → l.length ≤ 1) →
      ∃ r, readJson vp fresh (toJson required f) = .ok r ∧
        ∀ k l, OD.get? f k = some (.carr l) → OD.get? r k = some (.carr [])) := by
  have hfit : ∀ k v, (k, v) ∈ toDict required f → Fits vp fresh k v := by
    intro k v hm
    have hget := OD.get?_of_mem hf.1 (List.mem_filter.1 hm).1
    have := hf.2 k v hget
    cases v with
    | arr l => exact this
    | carr l =>
      obtain ⟨c, h⟩ := (hc.2 k).1 ⟨l, hget⟩
      unfold Fits
      rw [h, he k c h]
    | none => trivial
    | text s => trivial
    | num q => trivial
  have hin : ∀ k l, OD.get? f k = some (.carr l) → (k, Val.carr l) ∈ toDict required f := by
    intro k l h
    refine List.mem_filter.2 ⟨OD.mem_of_get? h, (kept_iff required k _).2 ?_⟩
    rcases hf.2 k _ h with h' | h'
    · exact Or.inl h'
    · exact Or.inr (Or.inl h')
  have hout : ∀ k l, (k, Val.carr l) ∈ toDict required f → OD.get? f k = some (.carr l) :=
    fun k l h => OD.get?_of_mem hf.1 (List.mem_filter.1 h).1
  obtain ⟨i1, i2⟩ := readJson_fresh vp (toDict required f) fresh (WF_toDict required f hf.1) hfit
  refine ⟨?_, fun hs => ?_⟩
  · rintro ⟨k, l, h, hl⟩
    exact i1 ⟨k, l, hin k l h, hl⟩
  · obtain ⟨r, hr, hr'⟩ := i2 (fun k l h => hs k l (hout k l h))
    exact ⟨r, hr, fun k l h => hr' k l (hin k l h)⟩

/-- How C265 fails for float arrays: a table whose phases contain a zero loses its phases. -/
theorem C265_zero_partial (vp : List ℚ → List ℚ) (required : List Str) (f fresh r : Filter) (hf : Sound vp f)
    (h : readJson vp fresh (toJson required f) = .ok r) (k : Str) (l : List ℚ) (hk : OD.get? f k = some (.arr l))
    (hz : (0 : ℚ) ∈ l) : OD.get? r k = OD.get? fresh k := by
  refine stays vp _ _ r k ?_ h
  rw [show toJson required f = enc (toDict required f) from rfl, keys_enc, ← OD.get?_eq_none_iff,
    get?_toDict required f hf.1, hk]
  have : kept required k (.arr l) = false := by
    rw [← Bool.not_eq_true, kept_iff]
    rintro (h' | h' | h')
    · exact (hf.2 k _ hk).1 h'
    · exact (hf.2 k _ hk).2.1 h'
    · exact h' hz
  simp only [this]
  rfl

def exTable : Filter :=
  [("amplitudes".toList, .arr [1, 2]), ("frequencies".toList, .arr [1, 10]), ("phases".toList, .arr [0, 1])]

example : readJson id [("amplitudes".toList, .arr []), ("frequencies".toList, .arr []), ("phases".toList, .arr [])]
    (toJson [] exTable) =
      .ok [("amplitudes".toList, .arr [1, 2]), ("frequencies".toList, .arr [1, 10]), ("phases".toList, .arr [])] := by
  decide +kernel

/-! ## XML -/

/-- C266: every filter can be written to XML. -/
def C266_claim : Prop :=
  ∀ (str : ℚ → Str) (required : List Str) (f : Filter), Sound id f → ∃ x, toXml str required f = .ok x

/-- **C266 is false**: a pole zero filter cannot. -/
theorem C266_refuted : ¬ C266_claim := by
  intro h
  obtain ⟨x, hx⟩ := h (fun _ => []) [] exPz exPz_sound
  have e : toXml (fun _ => []) [] exPz = .error .valueError := by decide +kernel
  rw [e] at hx
  cases hx

/-- Arrays of either kind. -/
def IsArray (v : Val) : Prop := (∃ l, v = .arr l) ∨ ∃ c, v = .carr c

/-- The scalar value of an element. -/
def ScalarText (str : ℚ → Str) : Val → Option Str → Prop
  | .none, t => t = none
  | .text s, t => t = some s
  | .num q, t => t = some (str q)
  | _, _ => False

theorem dictToXml_iff (str : ℚ → Str) : ∀ (d : Filter) (x : List (Str × Option Str)),
    dictToXml str d = .ok x ↔ List.Forall₂ (fun p e => e.1 = p.1 ∧ ScalarText str p.2 e.2) d x := by
  intro d
  induction d with
  | nil =>
    intro x
    unfold dictToXml
    constructor
    · intro h; cases h; exact .nil
    · intro h; cases h; rfl
  | cons p t ih =>
    intro x
    obtain ⟨k, v⟩ := p
    unfold dictToXml
    have key : ∀ tx, xmlText str v = .ok tx ↔ ScalarText str v tx := by
      intro tx
      cases v <;> simp [xmlText, ScalarText, eq_comm]
    cases hx : xmlText str v with
    | error e =>
      simp only [hx]
      constructor
      · intro h; cases h
      · intro h
        cases h with
        | cons h1 h2 =>
          have := (key _).2 h1.2
          rw [hx] at this; cases this
    | ok tx =>
      simp only [hx]
      cases hr : dictToXml str t with
      | error e =>
        simp only
        constructor
        · intro h; cases h
        · intro h
          cases h with
          | cons h1 h2 =>
            have := (ih _).2 h2
            rw [hr] at this; cases this
      | ok l =>
        simp only
        constructor
        · intro h; cases h
          exact .cons ⟨rfl, (key tx).1 hx⟩ ((ih l).1 hr)
        · intro h
          cases h with
          | @cons _ b _ m h1 h2 =>
            have e1 := (key _).2 h1.2
            have e2 := (ih _).2 h2
            rw [hx] at e1; rw [hr] at e2
            obtain ⟨b1, b2⟩ := b
            cases e1; cases e2
            cases h1.1
            rfl

theorem dictToXml_error (str : ℚ → Str) : ∀ (d : Filter) (e : PyErr), dictToXml str d = .error e → e = .valueError := by
  intro d
  induction d with
  | nil => intro e h; cases h
  | cons p t ih =>
    intro e h
    unfold dictToXml at h
    cases hx : xmlText str p.2 with
    | error e' =>
      rw [hx] at h
      cases h
      cases hp : p.2 <;> rw [hp] at hx <;> cases hx <;> rfl
    | ok tx =>
      rw [hx] at h
      cases hr : dictToXml str t with
      | error e' => rw [hr] at h; cases h; exact ih _ hr
      | ok l => rw [hr] at h; cases h

theorem forall₂_mem {α β : Type} {R : α → β → Prop} {l : List α} {m : List β} (h : List.Forall₂ R l m) :
    ∀ a ∈ l, ∃ b ∈ m, R a b := by
  induction h with
  | nil => simp
  | cons hr _ ih =>
    intro a ha
    rcases List.mem_cons.1 ha with rfl | ha
    · exact ⟨_, List.mem_cons_self, hr⟩
    · obtain ⟨b, hb, hab⟩ := ih a ha
      exact ⟨b, List.mem_cons_of_mem _ hb, hab⟩

/-- What does hold of C266: a filter is written exactly when no array of it is; then every written field has its own
element, in order, with the text of its value. -/
theorem C266_partial (str : ℚ → Str) (required : List Str) (f : Filter) :
    ((∃ p ∈ f, IsArray p.2 ∧ Written required p.1 p.2) →
      toXml str required f = .error .valueError) ∧
    ((∀ p ∈ f, IsArray p.2 → ¬ Written required p.1 p.2) →
      ∃ x, toXml str required f = .ok x ∧
        List.Forall₂ (fun p e => e.1 = p.1 ∧ ScalarText str p.2 e.2) (toDict required f) x ∧
        ∀ p, p ∈ toDict required f ↔ p ∈ f ∧ Written required p.1 p.2) := by
  constructor
  · rintro ⟨p, hp, ha, hw⟩
    cases h : toXml str required f with
    | error e => rw [dictToXml_error str _ e h]
    | ok x =>
      exfalso
      have h' := (dictToXml_iff str _ x).1 h
      have hm : p ∈ toDict required f := List.mem_filter.2 ⟨hp, (kept_iff required _ _).2 hw⟩
      obtain ⟨e, _, he⟩ := forall₂_mem h' p hm
      rcases ha with ⟨l, h1⟩ | ⟨c, h1⟩ <;> rw [h1] at he <;> exact he.2
  · intro hn
    have hmem : ∀ p, p ∈ toDict required f ↔ p ∈ f ∧ Written required p.1 p.2 := by
      intro p
      unfold toDict
      rw [List.mem_filter, kept_iff]
    have hs : ∀ d : Filter, (∀ p ∈ d, ¬ IsArray p.2) → ∃ x, dictToXml str d = .ok x := by
      intro d
      induction d with
      | nil => exact fun _ => ⟨[], rfl⟩
      | cons p t ih =>
        intro h
        obtain ⟨x, hx⟩ := ih (fun q hq => h q (List.mem_cons_of_mem _ hq))
        have h0 := h p List.mem_cons_self
        unfold dictToXml
        obtain ⟨k, v⟩ := p
        cases v with
        | arr l => exact absurd (Or.inl ⟨l, rfl⟩) h0
        | carr l => exact absurd (Or.inr ⟨l, rfl⟩) h0
        | none => exact ⟨(k, none) :: x, by simp [xmlText, hx]⟩
        | text s => exact ⟨(k, some s) :: x, by simp [xmlText, hx]⟩
        | num q => exact ⟨(k, some (str q)) :: x, by simp [xmlText, hx]⟩
    obtain ⟨x, hx⟩ := hs (toDict required f) (fun p hp ha => hn p ((hmem p).1 hp).1 ha ((hmem p).1 hp).2)
    exact ⟨x, hx, (dictToXml_iff str _ x).1 hx, hmem⟩

/-- No pole zero filter at all can be written, not even one without poles and zeros. -/
theorem C266_pole_zero_partial (str : ℚ → Str) (required : List Str) (f : Filter) (c : List (ℚ × ℚ))
    (h : OD.get? f "poles".toList = some (.carr c)) : toXml str required f = .error .valueError :=
  (C266_partial str required f).1 ⟨_, OD.mem_of_get? h, Or.inr ⟨c, rfl⟩, Or.inr (Or.inl rfl)⟩

example : toXml (fun _ => []) [] freshPz = .error .valueError := by decide +kernel
example : toXml (fun _ => "2.5".toList) [] [("gain".toList, .num (5 / 2)), ("name".toList, .text "a".toList)] =
    .ok [("gain".toList, some "2.5".toList), ("name".toList, some "a".toList)] := by decide +kernel

/-! ## Numbers in texts -/

/-- A number as Python prints it: `-1.5e-03`. -/
structure Numeral where
  sign : Str
  int : Str
  frac : Option Str
  exp : Option (Char × Str × Str)

def Digits (s : Str) : Prop := ∀ c ∈ s, c.isDigit = true

def Sign (s : Str) : Prop := s = [] ∨ s = ['+'] ∨ s = ['-']

/-- At least one digit before the exponent, digits behind a point, digits in the exponent. -/
def Numeral.Valid (n : Numeral) : Prop :=
  Sign n.sign ∧ Digits n.int ∧
  (match n.frac with | none => n.int ≠ [] | some ds => ds ≠ [] ∧ Digits ds) ∧
  (match n.exp with | none => True | some (e, sg, ds) => (e = 'e' ∨ e = 'E') ∧ Sign sg ∧ ds ≠ [] ∧ Digits ds)

def fracText : Option Str → Str
  | none => []
  | some ds => '.' :: ds

def expText : Option (Char × Str × Str) → Str
  | none => []
  | some (e, sg, ds) => e :: (sg ++ ds)

def Numeral.text (n : Numeral) : Str := n.sign ++ (n.int ++ (fracText n.frac ++ expText n.exp))

/-- A character between numbers: not a digit, not a sign, not a point, not the letter of an exponent. -/
def SepChar (c : Char) : Prop :=
  c.isDigit = false ∧ c ≠ '+' ∧ c ≠ '-' ∧ c ≠ '.' ∧ c ≠ 'e' ∧ c ≠ 'E'

/-- A number in a list, perhaps with a bare point behind it (`1.`), and what stands between it and the next number. -/
structure Item where
  num : Numeral
  dot : Bool
  sep : Str

def Item.Valid (i : Item) : Prop :=
  i.num.Valid ∧ (i.dot = true → i.num.frac = none ∧ i.num.exp = none) ∧ ∀ c ∈ i.sep, SepChar c

/-- Numbers are kept apart by other characters or by the sign of the second. -/
def Apart : List Item → Prop
  | [] => True
  | [i] => i.Valid
  | i :: j :: t => i.Valid ∧ (i.sep ≠ [] ∨ j.num.sign ≠ []) ∧ Apart (j :: t)

/-- The text of a list. -/
def render : List Item → Str
  | [] => []
  | i :: t => i.num.text ++ ((if i.dot then ['.'] else []) ++ (i.sep ++ render t))

/-- The end of the text, a separator or a sign. -/
def Good : Str → Prop
  | [] => True
  | c :: _ => SepChar c ∨ c = '+' ∨ c = '-'

/-- The text does not begin with a digit. -/
def ND : Str → Prop
  | [] => True
  | c :: _ => c.isDigit = false

theorem Good.nd {r : Str} (h : Good r) : ND r := by
  cases r with
  | nil => trivial
  | cons c t =>
    rcases h with h | rfl | rfl
    · exact h.1
    · show Char.isDigit '+' = false; decide
    · show Char.isDigit '-' = false; decide

theorem takeWhile_nd (r : Str) (h : ND r) : r.takeWhile Char.isDigit = [] ∧ r.dropWhile Char.isDigit = r := by
  cases r with
  | nil => exact ⟨rfl, rfl⟩
  | cons c t =>
    have h : c.isDigit = false := h
    simp [h]

theorem takeWhile_digits (ds r : Str) (hd : Digits ds) (h : ND r) :
    (ds ++ r).takeWhile Char.isDigit = ds ∧ (ds ++ r).dropWhile Char.isDigit = r := by
  induction ds with
  | nil => exact takeWhile_nd r h
  | cons c t ih =>
    have hc : c.isDigit = true := hd c List.mem_cons_self
    obtain ⟨i1, i2⟩ := ih (fun x hx => hd x (List.mem_cons_of_mem _ hx))
    simp [hc, i1, i2]

theorem takeSign_sign (sg r : Str) (h : Sign sg) (hr : ∀ c t, r = c :: t → c ≠ '+' ∧ c ≠ '-') :
    takeSign (sg ++ r) = (sg, r) := by
  rcases h with rfl | rfl | rfl
  · cases r with
    | nil => rfl
    | cons c t =>
      obtain ⟨h1, h2⟩ := hr c t rfl
      simp [takeSign, h1, h2]
  · rfl
  · rfl

theorem digit_not_sign (ds r : Str) (hd : Digits ds) (hne : ds ≠ []) :
    ∀ c t, ds ++ r = c :: t → c ≠ '+' ∧ c ≠ '-' := by
  intro c t h
  cases ds with
  | nil => exact absurd rfl hne
  | cons d u =>
    cases h
    have := hd c List.mem_cons_self
    constructor <;> rintro rfl <;> revert this <;> decide

theorem takeExp_some (e : Char) (sg ds r : Str) (he : e = 'e' ∨ e = 'E') (hs : Sign sg) (hne : ds ≠ [])
    (hd : Digits ds) (hr : ND r) : takeExp (e :: (sg ++ ds) ++ r) = (e :: (sg ++ ds), r) := by
  have h1 : takeSign (sg ++ (ds ++ r)) = (sg, ds ++ r) :=
    takeSign_sign sg (ds ++ r) hs (digit_not_sign ds r hd hne)
  obtain ⟨h2, h3⟩ := takeWhile_digits ds r hd hr
  rw [List.cons_append, List.append_assoc]
  simp only [takeExp, if_pos he, h1]
  simp only [h2, h3, if_neg hne, List.cons_append]

theorem takeExp_none (r : Str) (h : ∀ c t, r = c :: t → c ≠ 'e' ∧ c ≠ 'E') : takeExp r = ([], r) := by
  cases r with
  | nil => rfl
  | cons c t =>
    obtain ⟨h1, h2⟩ := h c t rfl
    simp [takeExp, h1, h2]

theorem takeFrac_none (r : Str) (h : ∀ c t, r = c :: t → c = '.' → ND t) : takeFrac r = none := by
  cases r with
  | nil => rfl
  | cons c t =>
    have : ¬ (c = '.' ∧ t.takeWhile Char.isDigit ≠ []) := by
      rintro ⟨h1, h2⟩
      exact h2 (takeWhile_nd t (h c t rfl h1)).1
    simp only [takeFrac, if_neg this]

theorem takeMantissa_int (ds r : Str) (hd : Digits ds) (hne : ds ≠ []) (hr : ND r)
    (hp : ∀ c t, r = c :: t → c = '.' → ND t) : takeMantissa (ds ++ r) = some (ds, r) := by
  obtain ⟨h1, h2⟩ := takeWhile_digits ds r hd hr
  unfold takeMantissa
  rw [h1, h2, takeFrac_none r hp]
  simp [hne]

theorem takeMantissa_frac (is ds r : Str) (hi : Digits is) (hd : Digits ds) (hne : ds ≠ []) (hr : ND r) :
    takeMantissa (is ++ '.' :: ds ++ r) = some (is ++ '.' :: ds, r) := by
  have hdot : ND ('.' :: (ds ++ r)) := by show Char.isDigit '.' = false; decide
  rw [List.append_assoc, List.cons_append]
  obtain ⟨h1, h2⟩ := takeWhile_digits is ('.' :: (ds ++ r)) hi hdot
  obtain ⟨h3, h4⟩ := takeWhile_digits ds r hd hr
  have h5 : takeFrac ('.' :: (ds ++ r)) = some ('.' :: ds, r) := by
    have : ('.' = '.' ∧ (ds ++ r).takeWhile Char.isDigit ≠ []) := ⟨rfl, by rw [h3]; exact hne⟩
    simp [takeFrac, hne, h3, h4]
  unfold takeMantissa
  rw [h1, h2, h5]

/-- What may follow a number so that the number ends there. -/
def Ends (n : Numeral) (r : Str) : Prop :=
  ND r ∧ (n.exp = none → (∀ c t, r = c :: t → c ≠ 'e' ∧ c ≠ 'E') ∧ ∀ c t, r = c :: t → c = '.' → ND t)

theorem matchNumber_text (n : Numeral) (r : Str) (hn : n.Valid) (hr : Ends n r) :
    matchNumber (n.text ++ r) = some (n.text, r) := by
  obtain ⟨sg, is, fr, ex⟩ := n
  obtain ⟨h1, h2, h3, h4⟩ := hn
  obtain ⟨hnd, hex⟩ := hr
  simp only at h1 h2 h3 h4 hex
  have hE : takeExp (expText ex ++ r) = (expText ex, r) ∧ ND (expText ex ++ r) ∧
      ∀ c t, expText ex ++ r = c :: t → c = '.' → ND t := by
    cases ex with
    | none =>
      obtain ⟨g1, g2⟩ := hex rfl
      exact ⟨takeExp_none r g1, hnd, g2⟩
    | some x =>
      obtain ⟨e, sg', ds⟩ := x
      obtain ⟨g1, g2, g3, g4⟩ := h4
      refine ⟨takeExp_some e sg' ds r g1 g2 g3 g4 hnd, ?_, ?_⟩
      · show Char.isDigit e = false
        rcases g1 with rfl | rfl <;> decide
      · intro c t hc hdot
        cases hc
        rcases g1 with rfl | rfl
        · exact absurd hdot (by decide)
        · exact absurd hdot (by decide)
  obtain ⟨e1, e2, e3⟩ := hE
  unfold Numeral.text
  simp only
  generalize expText ex = et at e1 e2 e3 ⊢
  unfold matchNumber
  cases fr with
  | none =>
    have hs : takeSign (sg ++ (is ++ (fracText none ++ et)) ++ r) = (sg, is ++ (et ++ r)) := by
      rw [fracText, List.append_assoc, List.append_assoc, List.nil_append]
      exact takeSign_sign sg _ h1 (digit_not_sign is _ h2 h3)
    rw [hs]
    simp only [takeMantissa_int is (et ++ r) h2 h3 e2 e3, e1, fracText, List.nil_append, List.append_assoc]
  | some ds =>
    obtain ⟨g1, g2⟩ := h3
    have hs : takeSign (sg ++ (is ++ (fracText (some ds) ++ et)) ++ r) = (sg, is ++ '.' :: ds ++ (et ++ r)) := by
      have : sg ++ (is ++ (fracText (some ds) ++ et)) ++ r = sg ++ (is ++ '.' :: ds ++ (et ++ r)) := by
        simp only [fracText, List.append_assoc, List.cons_append]
      rw [this]
      apply takeSign_sign sg _ h1
      intro c t hc
      cases is with
      | nil => cases hc; decide
      | cons d u => exact digit_not_sign (d :: u) _ h2 (by simp) c t (by rw [← hc, List.append_assoc])
    rw [hs]
    simp only [takeMantissa_frac is ds (et ++ r) h2 g2 g1 e2, e1]
    simp [fracText]

/-- A separator is passed over. -/
theorem matchNumber_sep (c : Char) (t : Str) (h : SepChar c ∨ (c = '.' ∧ ND t)) : matchNumber (c :: t) = none := by
  have hs : takeSign (c :: t) = ([], c :: t) := by
    have : ¬ (c = '+' ∨ c = '-') := by
      rcases h with h | ⟨rfl, _⟩
      · rintro (rfl | rfl)
        · exact h.2.1 rfl
        · exact h.2.2.1 rfl
      · decide
    simp [takeSign, this]
  have hnd : ND (c :: t) := by
    rcases h with h | ⟨rfl, _⟩
    · exact h.1
    · show Char.isDigit '.' = false; decide
  obtain ⟨h1, h2⟩ := takeWhile_nd _ hnd
  have hf : takeFrac (c :: t) = none := by
    apply takeFrac_none
    intro c' t' e hc'
    cases e
    rcases h with h | ⟨_, h⟩
    · exact absurd hc' h.2.2.2.1
    · exact h
  unfold matchNumber
  rw [hs]
  simp only [takeMantissa, h1, h2, hf, if_true]

theorem findNumbers_none (n : Nat) (c : Char) (t : Str) (h : matchNumber (c :: t) = none) :
    findNumbers (n + 1) (c :: t) = findNumbers n t := by
  simp only [findNumbers, h]

theorem findNumbers_some (n : Nat) (c : Char) (t m r : Str) (h : matchNumber (c :: t) = some (m, r)) :
    findNumbers (n + 1) (c :: t) = m :: findNumbers n r := by
  simp only [findNumbers, h]

theorem findNumbers_sep (sep : Str) : ∀ (r : Str) (fuel : Nat), (∀ c ∈ sep, SepChar c) → (sep ++ r).length ≤ fuel →
    ∃ fuel', r.length ≤ fuel' ∧ findNumbers fuel (sep ++ r) = findNumbers fuel' r := by
  induction sep with
  | nil => intro r fuel _ hf; exact ⟨fuel, hf, rfl⟩
  | cons c t ih =>
    intro r fuel hs hf
    cases fuel with
    | zero => simp at hf
    | succ n =>
      have hm := matchNumber_sep c (t ++ r) (Or.inl (hs c List.mem_cons_self))
      obtain ⟨f', h1, h2⟩ := ih r n (fun x hx => hs x (List.mem_cons_of_mem _ hx)) (by simpa using hf)
      refine ⟨f', h1, ?_⟩
      rw [List.cons_append, findNumbers_none n c _ hm, h2]

theorem Numeral.text_ne (n : Numeral) (h : n.Valid) : n.text ≠ [] := by
  obtain ⟨sg, is, fr, ex⟩ := n
  obtain ⟨_, _, h3, _⟩ := h
  cases fr with
  | none =>
    simp only at h3
    simp [Numeral.text, h3]
  | some ds => simp [Numeral.text, fracText]

theorem findNumbers_one (n : Numeral) (r : Str) (fuel : Nat) (hn : n.Valid) (hr : Ends n r)
    (hf : (n.text ++ r).length ≤ fuel) :
    ∃ fuel', r.length ≤ fuel' ∧ findNumbers fuel (n.text ++ r) = n.text :: findNumbers fuel' r := by
  have hne := n.text_ne hn
  have hm := matchNumber_text n r hn hr
  cases ht : n.text ++ r with
  | nil => simp [hne] at ht
  | cons c t =>
    have hl : r.length + 1 ≤ (n.text ++ r).length := by
      have : 1 ≤ n.text.length := List.length_pos_iff.2 hne
      rw [List.length_append]; omega
    cases fuel with
    | zero => omega
    | succ m =>
      refine ⟨m, by omega, ?_⟩
      rw [ht] at hm
      exact findNumbers_some m c t _ _ hm

theorem Good.ends {r : Str} (n : Numeral) (h : Good r) : Ends n r := by
  refine ⟨h.nd, fun _ => ⟨?_, ?_⟩⟩
  · rintro c t rfl
    rcases h with h | rfl | rfl
    · exact ⟨h.2.2.2.2.1, h.2.2.2.2.2⟩
    · decide
    · decide
  · rintro c t rfl hc
    subst hc
    rcases h with h | h | h
    · exact absurd rfl h.2.2.2.1
    · exact absurd h (by decide)
    · exact absurd h (by decide)

theorem Good.dot_ends {r : Str} (n : Numeral) (h : Good r) : Ends n ('.' :: r) := by
  refine ⟨by show Char.isDigit '.' = false; decide, fun _ => ⟨?_, ?_⟩⟩
  · intro c t e
    cases e; decide
  · intro c t e _
    cases e; exact h.nd

theorem good_rest (i : Item) (t : List Item) (h : Apart (i :: t)) : Good (i.sep ++ render t) := by
  cases t with
  | nil =>
    have h : i.Valid := h
    cases hs : i.sep with
    | nil => trivial
    | cons c u => exact Or.inl (h.2.2 c (by rw [hs]; exact List.mem_cons_self))
  | cons j u =>
    obtain ⟨hi, hap, hj⟩ := h
    cases hs : i.sep with
    | cons c u' => exact Or.inl (hi.2.2 c (by rw [hs]; exact List.mem_cons_self))
    | nil =>
      have hsg : j.num.sign ≠ [] := by
        rcases hap with h' | h'
        · exact absurd hs h'
        · exact h'
      have hjv : j.Valid := by cases u with
        | nil => exact hj
        | cons _ _ => exact hj.1
      rw [List.nil_append, render]
      unfold Numeral.text
      rcases hjv.1.1 with h' | h' | h'
      · exact absurd h' hsg
      · rw [h']; exact Or.inr (Or.inl rfl)
      · rw [h']; exact Or.inr (Or.inr rfl)

theorem findNumbers_render : ∀ (l : List Item) (fuel : Nat), Apart l → (render l).length ≤ fuel →
    findNumbers fuel (render l) = l.map (fun i => i.num.text) := by
  intro l
  induction l with
  | nil => intro fuel _ _; cases fuel <;> rfl
  | cons i t ih =>
    intro fuel h hf
    have hg := good_rest i t h
    have hiv : i.Valid := by cases t with
      | nil => exact h
      | cons _ _ => exact h.1
    have hat : Apart t := by cases t with
      | nil => trivial
      | cons _ _ => exact h.2.2
    have tail : ∀ f, (i.sep ++ render t).length ≤ f → findNumbers f (i.sep ++ render t) = t.map (fun i => i.num.text) := by
      intro f hf'
      obtain ⟨f', h1, h2⟩ := findNumbers_sep i.sep (render t) f hiv.2.2 hf'
      rw [h2, ih f' hat h1]
    rw [render] at hf ⊢
    cases hd : i.dot with
    | false =>
      rw [hd] at hf
      simp only [Bool.false_eq_true, if_false, List.nil_append] at hf ⊢
      obtain ⟨f', h1, h2⟩ := findNumbers_one i.num _ fuel hiv.1 (hg.ends i.num) hf
      rw [h2, tail f' h1, List.map_cons]
    | true =>
      rw [hd] at hf
      simp only [if_true, List.singleton_append] at hf ⊢
      obtain ⟨f', h1, h2⟩ := findNumbers_one i.num _ fuel hiv.1 (hg.dot_ends i.num) hf
      rw [h2, List.map_cons]
      cases f' with
      | zero => simp at h1
      | succ m =>
        have hm := matchNumber_sep '.' (i.sep ++ render t) (Or.inr ⟨rfl, hg.nd⟩)
        rw [findNumbers_none m _ _ hm, tail m (by simpa using h1)]

/-- **C267**: a text with numbers in it — signed or not, with a fraction, an exponent or a bare point — is read
as exactly those numbers, in order, whatever stands before, between and behind them, as long as it contains no digits,
signs, points or letters e and nothing but a sign is needed to keep two numbers apart. -/
theorem C267_numbers (float : Str → Option ℚ) (pre : Str) (l : List Item) (hp : ∀ c ∈ pre, SepChar c) (hl : Apart l) :
    extractNumbers float (pre ++ render l) = l.filterMap (fun i => float i.num.text) := by
  unfold extractNumbers
  obtain ⟨f', h1, h2⟩ := findNumbers_sep pre (render l) _ hp (Nat.le_refl _)
  rw [h2, findNumbers_render l f' hl h1, List.filterMap_map]
  rfl

/-- The list text `[1.5, -2e-3]` and the array text `[1. 2.]`. -/
example : findNumbers 12 "[1.5, -2e-3]".toList = ["1.5".toList, "-2e-3".toList] := by decide +kernel
example : findNumbers 7 "[1. 2.]".toList = ["1".toList, "2".toList] := by decide +kernel

/-- **C267**: a text that says nothing about numbers is refused, an empty text gives an empty array and a single number
an array of one. -/
theorem C267_single (float : Str → Option ℚ) (cplx : Bool) (s : Str) :
    (s = [] ∨ s = "none".toList ∨ s = "None".toList → objectToArray float cplx (.text s) = .ok []) ∧
    (¬ (s = [] ∨ s = "none".toList ∨ s = "None".toList) →
      (∀ q, float s = some q → objectToArray float cplx (.text s) = .ok [(q, 0)]) ∧
      (float s = none → (∀ c ∈ s, c.isDigit = false) → objectToArray float cplx (.text s) = .error .typeError)) := by
  refine ⟨fun h => ?_, fun h => ⟨fun q hq => ?_, fun hq hd => ?_⟩⟩
  · simp only [objectToArray, textToArray, if_pos h]
  · simp only [objectToArray, textToArray, if_neg h, hq]
  · have : s.any Char.isDigit = false := by
      rw [List.any_eq_false]
      intro c hc
      simp [hd c hc]
    simp only [objectToArray, textToArray, if_neg h, hq, this]
    rfl

theorem text_digit (n : Numeral) (h : n.Valid) : ∃ c ∈ n.text, c.isDigit = true := by
  obtain ⟨sg, is, fr, ex⟩ := n
  obtain ⟨_, h2, h3, _⟩ := h
  cases fr with
  | none =>
    simp only at h2 h3
    obtain ⟨c, hc⟩ := List.exists_mem_of_ne_nil is h3
    exact ⟨c, by simp [Numeral.text, hc], h2 c hc⟩
  | some ds =>
    obtain ⟨g1, g2⟩ := h3
    obtain ⟨c, hc⟩ := List.exists_mem_of_ne_nil ds g1
    exact ⟨c, by simp [Numeral.text, fracText, hc], g2 c hc⟩

/-- **C267**: a list of numbers is the array itself; asked for real numbers it is refused as soon as one of them has an
imaginary part, which is never dropped. -/
theorem C267_list (float : Str → Option ℚ) (l : List (ℚ × ℚ)) :
    objectToArray float true (.list l) = .ok l ∧
    ((∀ z ∈ l, z.2 = 0) → objectToArray float false (.list l) = .ok l) ∧
    ((∃ z ∈ l, z.2 ≠ 0) → objectToArray float false (.list l) = .error .typeError) := by
  refine ⟨by simp [objectToArray, asDtype], fun h => ?_, ?_⟩
  · have : (l.all fun z => decide (z.2 = 0)) = true := by rw [List.all_eq_true]; intro z hz; simpa using h z hz
    simp [objectToArray, asDtype, this]
  · rintro ⟨z, hz, hne⟩
    have : (l.all fun z => decide (z.2 = 0)) = false := by
      rw [List.all_eq_false]; exact ⟨z, hz, by simpa using hne⟩
    simp [objectToArray, asDtype, this]

/-- Both occur. -/
example : (∀ z ∈ [((1 : ℚ), (0 : ℚ))], z.2 = 0) ∧ ∃ z ∈ [((1 : ℚ), (2 : ℚ))], z.2 ≠ 0 := by simp

/-- **C267**: the text of a list of numbers, which is not a number itself, gives the array of the list. -/
theorem C267_array (float : Str → Option ℚ) (cplx : Bool) (pre : Str) (l : List Item) (vals : List ℚ)
    (hp : ∀ c ∈ pre, SepChar c) (hl : Apart l) (hne : l ≠ []) (hv : l.map (fun i => float i.num.text) = vals.map some)
    (hw : float (pre ++ render l) = none) :
    objectToArray float cplx (.text (pre ++ render l)) = .ok (vals.map (fun q => (q, 0))) := by
  have hx : extractNumbers float (pre ++ render l) = vals := by
    rw [C267_numbers float pre l hp hl]
    have : l.filterMap (fun i => float i.num.text) = (l.map (fun i => float i.num.text)).filterMap id := by
      rw [List.filterMap_map]; rfl
    rw [this, hv, List.filterMap_map]
    simp [Function.comp_def]
  have hd : (pre ++ render l).any Char.isDigit = true := by
    rw [List.any_eq_true]
    cases l with
    | nil => exact absurd rfl hne
    | cons i t =>
      have hiv : i.Valid := by cases t with
        | nil => exact hl
        | cons _ _ => exact hl.1
      obtain ⟨c, hc, hcd⟩ := text_digit i.num hiv.1
      exact ⟨c, by simp [render, hc], hcd⟩
  have hno : ¬ (pre ++ render l = [] ∨ pre ++ render l = "none".toList ∨ pre ++ render l = "None".toList) := by
    rintro (h | h | h) <;> rw [h] at hd <;> revert hd <;> decide
  simp only [objectToArray, textToArray, if_neg hno, hw, hd, if_true, hx]

/-! ## Complex numbers in texts -/

/-- C268: the text of a complex number, `(a+bj)`, is read as that number. -/
def C268_claim : Prop :=
  ∀ (float : Str → Option ℚ) (a b : Numeral) (x y : ℚ), a.Valid → b.Valid → b.sign ≠ [] →
    float a.text = some x → float b.text = some y → float (['('] ++ (a.text ++ (b.text ++ "j)".toList))) = none →
    objectToArray float true (.text (['('] ++ (a.text ++ (b.text ++ "j)".toList)))) = .ok [(x, y)]

/-- What the code makes of C268: two real numbers, the real part and the imaginary part. -/
theorem C268_two_partial (float : Str → Option ℚ) (a b : Numeral) (x y : ℚ) (ha : a.Valid) (hb : b.Valid)
    (hs : b.sign ≠ []) (hx : float a.text = some x) (hy : float b.text = some y)
    (hw : float (['('] ++ (a.text ++ (b.text ++ "j)".toList))) = none) :
    objectToArray float true (.text (['('] ++ (a.text ++ (b.text ++ "j)".toList)))) = .ok [(x, 0), (y, 0)] := by
  have e : ['('] ++ (a.text ++ (b.text ++ "j)".toList)) =
      ['('] ++ render [⟨a, false, []⟩, ⟨b, false, "j)".toList⟩] := by
    simp [render]
  rw [e] at hw ⊢
  refine C267_array float true ['('] _ [x, y] ?_ ?_ (by simp) ?_ hw
  · intro c hc
    simp only [List.mem_singleton] at hc
    subst hc
    exact ⟨by decide, by decide, by decide, by decide, by decide, by decide⟩
  · refine ⟨⟨ha, by simp, by simp⟩, Or.inr hs, ⟨hb, by simp, ?_⟩⟩
    intro c hc
    have : c = 'j' ∨ c = ')' := by simpa using hc
    rcases this with rfl | rfl
    · exact ⟨by decide, by decide, by decide, by decide, by decide, by decide⟩
    · exact ⟨by decide, by decide, by decide, by decide, by decide, by decide⟩
  · simp [hx, hy]

/-- `float` for the example. -/
def exFloat (s : Str) : Option ℚ :=
  if s = "1".toList then some 1 else if s = "+2".toList then some 2 else none

def one : Numeral := ⟨[], ['1'], none, none⟩
def two : Numeral := ⟨['+'], ['2'], none, none⟩

theorem one_valid : one.Valid := by
  refine ⟨Or.inl rfl, ?_, by simp [one], trivial⟩
  intro c hc
  simp only [one, List.mem_singleton] at hc
  subst hc; decide

theorem two_valid : two.Valid := by
  refine ⟨Or.inr (Or.inl rfl), ?_, by simp [two], trivial⟩
  intro c hc
  simp only [two, List.mem_singleton] at hc
  subst hc; decide

/-- The list text `[1,+2]` meets the hypotheses of C267. -/
example : Apart [⟨one, false, [',']⟩, ⟨two, false, [']']⟩] := by
  have h : ∀ x ∈ [',', ']'], SepChar x := by
    intro c hc
    rcases List.mem_cons.1 hc with rfl | hc
    · exact ⟨by decide, by decide, by decide, by decide, by decide, by decide⟩
    · rw [List.mem_singleton.1 hc]
      exact ⟨by decide, by decide, by decide, by decide, by decide, by decide⟩
  exact ⟨⟨one_valid, by simp, by intro c hc; exact h c (by simp at hc; simp [hc])⟩, Or.inl (by simp),
    ⟨two_valid, by simp, by intro c hc; exact h c (by simp at hc; simp [hc])⟩⟩
example : objectToArray exFloat false (.text "[1,+2]".toList) = .ok [(1, 0), (2, 0)] := by decide +kernel

/-- **C268 is false**: `"(1+2j)"` gives the two poles 1 and 2. -/
theorem C268_refuted : ¬ C268_claim := by
  intro h
  have h1 := h exFloat one two 1 2 one_valid two_valid (by decide) (by decide +kernel) (by decide +kernel)
    (by decide +kernel)
  rw [C268_two_partial exFloat one two 1 2 one_valid two_valid (by decide) (by decide +kernel) (by decide +kernel)
    (by decide +kernel)] at h1
  cases h1

/-- C269: the text of a number with a bare point and an exponent, as numpy prints large and small round numbers
(`1.e+05`), is read as one number. -/
def C269_claim : Prop :=
  ∀ (float : Str → Option ℚ) (pre post : Str) (a : Numeral) (e : Char) (sg ds : Str) (x : ℚ),
    a.Valid → a.frac = none → a.exp = none → (e = 'e' ∨ e = 'E') → Sign sg → sg ≠ [] → ds ≠ [] → Digits ds →
    (∀ c ∈ pre, SepChar c) → (∀ c ∈ post, SepChar c) →
    float (a.text ++ '.' :: e :: (sg ++ ds)) = some x →
    extractNumbers float (pre ++ (a.text ++ '.' :: e :: (sg ++ ds ++ post))) = [x]

theorem good_sep (post : Str) (h : ∀ c ∈ post, SepChar c) : Good post := by
  cases post with
  | nil => trivial
  | cons c t => exact Or.inl (h c List.mem_cons_self)

/-- What the code makes of C269: two numbers, the digits and the exponent (`1.e+05` gives 1 and 5). -/
theorem C269_two_partial (float : Str → Option ℚ) (pre post : Str) (a : Numeral) (e : Char) (sg ds : Str)
    (ha : a.Valid) (hf : a.frac = none) (hx : a.exp = none) (he : e = 'e' ∨ e = 'E') (hs : Sign sg) (hne : ds ≠ [])
    (hd : Digits ds) (hp : ∀ c ∈ pre, SepChar c) (hq : ∀ c ∈ post, SepChar c) :
    extractNumbers float (pre ++ (a.text ++ '.' :: e :: (sg ++ ds ++ post))) =
      [a.text, sg ++ ds].filterMap float := by
  let b : Numeral := ⟨sg, ds, none, none⟩
  have hb : b.Valid := ⟨hs, hd, hne, trivial⟩
  have hbt : b.text = sg ++ ds := by simp [b, Numeral.text, fracText, expText]
  have hend : Ends a ('.' :: e :: (sg ++ ds ++ post)) := by
    refine ⟨by show Char.isDigit '.' = false; decide, fun _ => ⟨?_, ?_⟩⟩
    · intro c t h
      cases h; decide
    · intro c t h _
      cases h
      show Char.isDigit e = false
      rcases he with rfl | rfl <;> decide
  have hnd : ND (e :: (sg ++ ds ++ post)) := by
    show Char.isDigit e = false
    rcases he with rfl | rfl <;> decide
  have hm2 : matchNumber (e :: (sg ++ ds ++ post)) = none := by
    have h1 : takeSign (e :: (sg ++ ds ++ post)) = ([], e :: (sg ++ ds ++ post)) := by
      rcases he with rfl | rfl <;> rfl
    obtain ⟨h2, h3⟩ := takeWhile_nd _ hnd
    have h4 : takeFrac (e :: (sg ++ ds ++ post)) = none := by
      apply takeFrac_none
      intro c t h hc
      cases h
      rcases he with rfl | rfl
      · exact absurd hc (by decide)
      · exact absurd hc (by decide)
    unfold matchNumber
    rw [h1]
    simp only [takeMantissa, h2, h3, h4, if_true]
  have hm1 := matchNumber_sep '.' (e :: (sg ++ ds ++ post)) (Or.inr ⟨rfl, hnd⟩)
  have hnil : ∀ f, findNumbers f [] = [] := by intro f; cases f <;> rfl
  unfold extractNumbers
  obtain ⟨f1, h1, h1'⟩ := findNumbers_sep pre (a.text ++ '.' :: e :: (sg ++ ds ++ post)) _ hp (Nat.le_refl _)
  obtain ⟨f2, h2, h2'⟩ := findNumbers_one a _ f1 ha hend h1
  rw [h1', h2']
  match f2, h2 with
  | m + 2, h2 =>
    have hl : (b.text ++ post).length ≤ m := by
      rw [hbt]; simpa using h2
    obtain ⟨f3, h3, h3'⟩ := findNumbers_one b post m hb ((good_sep post hq).ends b) hl
    obtain ⟨f4, h4, h4'⟩ := findNumbers_sep post [] f3 hq (by simpa using h3)
    rw [List.append_nil, hnil] at h4'
    rw [findNumbers_none _ _ _ hm1, findNumbers_none _ _ _ hm2, ← hbt, h3', h4']

/-- **C269 is false**: `"1.e+2"` gives the numbers 1 and 2. -/
theorem C269_refuted : ¬ C269_claim := by
  intro h
  have h1 := h (fun s => if s = "1.e+2".toList then some 100 else exFloat s) [] [] one 'e' ['+'] ['2'] 100 one_valid rfl rfl
    (Or.inl rfl) (Or.inr (Or.inl rfl)) (by decide) (by decide) (by intro c hc; simp only [List.mem_singleton] at hc; subst hc; decide)
    (by simp) (by simp) (by decide +kernel)
  have h2 : extractNumbers (fun s => if s = "1.e+2".toList then some 100 else exFloat s)
      ([] ++ (one.text ++ '.' :: 'e' :: (['+'] ++ ['2'] ++ []))) = [1, 2] := by decide +kernel
  rw [h2] at h1
  revert h1
  decide +kernel

end Verif.FilterFile
