import Verif.Model.ExperimentXml
import Verif.Lemmas.OD

/-!
C42, C87: experiments written to XML and read back (`timeseries/experiment.py`).
-/

namespace Verif.ExpXml

/-! ### Auxiliary facts -/

theorem tag_eq (c : Cls) : c.tag = match c with
    | .poleZero => "pole_zero_filter".toList
    | .coefficient => "coefficient_filter".toList
    | .timeDelay => "time_delay_filter".toList
    | .table => "frequency_response_table_filter".toList
    | .fir => "f_i_r_filter".toList := by
  cases c <;> decide +kernel

theorem tag_inj (c d : Cls) : c.tag = d.tag ↔ c = d := by
  cases c <;> cases d <;> decide +kernel

theorem knownTag_iff (c : Cls) : knownTag c.tag = true ↔ c ≠ .fir := by
  cases c <;> decide +kernel

theorem group_snoc (l : List (Str × Filt)) (p : Str × Filt) :
    group (l ++ [p]) = OD.set (group l) p.1 ((OD.get? (group l) p.1).getD [] ++ [p.2]) := by
  unfold group
  rw [List.foldl_append]
  rfl

/-- The groups: under each tag the filters written with it, in order. -/
theorem get?_group (fs : List Filt) (t : Str) :
    OD.get? (group (written fs)) t =
      if fs.filter (fun f => f.cls.tag = t) = [] then none
      else some (fs.filter (fun f => f.cls.tag = t)) := by
  have key : ∀ fs : List Filt, OD.get? (group (written fs.reverse)) t =
      if fs.reverse.filter (fun f => f.cls.tag = t) = [] then none
      else some (fs.reverse.filter (fun f => f.cls.tag = t)) := by
    intro fs
    induction fs with
    | nil => rfl
    | cons f fs ih =>
      have e : written (f :: fs).reverse = written fs.reverse ++ [(f.cls.tag, f)] := by
        simp [written]
      rw [e, group_snoc, OD.get?_set]
      simp only [List.reverse_cons, List.filter_append]
      by_cases h : f.cls.tag = t
      · rw [if_pos h, h, ih]
        have e1 : [f].filter (fun f => f.cls.tag = t) = [f] := by simp [h]
        rw [e1]
        by_cases h0 : fs.reverse.filter (fun f => f.cls.tag = t) = []
        · rw [if_pos h0, h0]; rfl
        · rw [if_neg h0, if_neg (fun hh => h0 (List.append_eq_nil_iff.1 hh).1)]; rfl
      · rw [if_neg h, ih]
        have e1 : [f].filter (fun f => f.cls.tag = t) = [] := by simp [h]
        rw [e1, List.append_nil]
  have := key fs.reverse
  rwa [List.reverse_reverse] at this

theorem group_wf (l : List (Str × Filt)) : OD.WF (group l) := by
  unfold group
  have : ∀ (l : List (Str × Filt)) (acc : OD Str (List Filt)), OD.WF acc →
      OD.WF (l.foldl (fun (acc : OD Str (List Filt)) p =>
        OD.set acc p.1 ((OD.get? acc p.1).getD [] ++ [p.2])) acc) := by
    intro l
    induction l with
    | nil => exact fun acc h => h
    | cons p l ih => exact fun acc h => ih _ (OD.WF.set h _ _)
  exact this l [] OD.WF_nil

theorem mem_group {fs : List Filt} {t : Str} {l : List Filt} (h : (t, l) ∈ group (written fs)) :
    l = fs.filter (fun f => f.cls.tag = t) ∧ l ≠ [] := by
  have := OD.get?_of_mem (group_wf _) h
  rw [get?_group] at this
  split at this
  · cases this
  · next hne =>
    simp only [Option.some.injEq] at this
    exact ⟨this.symm, this ▸ hne⟩

theorem filter_tag (fs : List Filt) (c : Cls) :
    fs.filter (fun f => f.cls.tag = c.tag) = fs.filter (fun f => f.cls = c) := by
  congr 1
  funext f
  simp only [tag_inj]

/-- A group of one exists iff some class has exactly one filter. -/
theorem any_single (fs : List Filt) :
    (group (written fs)).any (fun p => p.2.length == 1) = true ↔
      ∃ c : Cls, (fs.filter (fun f => f.cls = c)).length = 1 := by
  simp only [List.any_eq_true, beq_iff_eq]
  constructor
  · rintro ⟨⟨t, l⟩, hm, hl⟩
    obtain ⟨e, hne⟩ := mem_group hm
    simp only at hl
    obtain ⟨f, hf⟩ := List.exists_mem_of_ne_nil _ hne
    have hft : f.cls.tag = t := by
      rw [e] at hf
      simpa using (List.mem_filter.1 hf).2
    refine ⟨f.cls, ?_⟩
    rw [← filter_tag, hft, ← e]
    exact hl
  · rintro ⟨c, hc⟩
    have hne : fs.filter (fun f => f.cls.tag = c.tag) ≠ [] := by
      rw [filter_tag]; intro h; rw [h] at hc; cases hc
    have := get?_group fs c.tag
    rw [if_neg hne] at this
    refine ⟨(c.tag, _), OD.mem_of_get? this, ?_⟩
    simp only
    rw [filter_tag]; exact hc

theorem readGroups_ok (g : OD Str (List Filt)) (acc : OD Str Filt)
    (h : ∀ p ∈ g, p.2.length ≠ 1) :
    readGroups acc g = .ok ((g.flatMap (fun p => if knownTag p.1 then p.2 else [])).foldl
      (fun (a : OD Str Filt) f => OD.set a (Names.lower f.name) f) acc) := by
  induction g generalizing acc with
  | nil => rfl
  | cons p g ih =>
    obtain ⟨t, l⟩ := p
    have hl : l.length ≠ 1 := h (t, l) (by simp)
    unfold readGroups readGroup
    simp only [List.flatMap_cons, List.foldl_append]
    by_cases hk : knownTag t = true
    · rw [if_pos hk, if_pos hk, if_neg hl]
      simp only
      rw [ih _ (fun q hq => h q (by simp [hq]))]
    · rw [if_neg hk, if_neg hk]
      simp only [List.foldl_nil]
      rw [ih _ (fun q hq => h q (by simp [hq]))]

theorem foldl_names (l : List Filt) (acc : OD Str Filt) (n : Str) (f0 : Filt)
    (huniq : ∀ f ∈ l, Names.lower f.name = n → f = f0)
    (h : (f0 ∈ l ∧ Names.lower f0.name = n) ∨ OD.get? acc n = some f0) :
    OD.get? (l.foldl (fun (a : OD Str Filt) f => OD.set a (Names.lower f.name) f) acc) n =
      some f0 := by
  induction l generalizing acc with
  | nil =>
    rcases h with h | h
    · simp at h
    · exact h
  | cons a l ih =>
    simp only [List.foldl_cons]
    apply ih _ (fun f hf => huniq f (by simp [hf]))
    by_cases ha : Names.lower a.name = n
    · right
      rw [OD.get?_set, if_pos ha, huniq a (by simp) ha]
    · rcases h with ⟨h1, h2⟩ | h
      · rcases List.mem_cons.1 h1 with rfl | h1
        · exact absurd h2 ha
        · exact Or.inl ⟨h1, h2⟩
      · right
        rw [OD.get?_set, if_neg ha]; exact h

theorem foldl_names_none (l : List Filt) (acc : OD Str Filt) (n : Str)
    (h : ∀ f ∈ l, Names.lower f.name ≠ n) :
    OD.get? (l.foldl (fun (a : OD Str Filt) f => OD.set a (Names.lower f.name) f) acc) n =
      OD.get? acc n := by
  induction l generalizing acc with
  | nil => rfl
  | cons a l ih =>
    simp only [List.foldl_cons]
    rw [ih _ (fun f hf => h f (by simp [hf])), OD.get?_set, if_neg (h a (by simp))]

/-! ### C42 -/

/-- The statement of C42, for a survey with a single filter. -/
def C42_claim : Prop :=
  ∀ f : Filt, filtersBack [f] = .ok [(Names.lower f.name, f)]

/-- C42 is false, for every filter: reading a survey that holds exactly one filter raises. -/
theorem C42_refuted : ¬ C42_claim := by
  intro h
  have := h { cls := .poleZero, name := "a".toList }
  exact absurd this (by decide +kernel)

/-- C42: `_read_filter_dict` itself rejects a single filter of each of the four classes it knows. -/
theorem C42_read_single (f : Filt) (h : f.cls ≠ .fir) :
    readGroups [] (group (written [f])) = .error .typeError := by
  have e : group (written [f]) = [(f.cls.tag, [f])] := by
    simp [group, written, OD.set]
  rw [e]
  unfold readGroups readGroup
  rw [if_pos ((knownTag_iff _).2 h)]
  rfl

/-- C42: reading the filters back raises exactly when some class has exactly one filter. -/
theorem C42_raises_iff_partial (fs : List Filt) :
    filtersBack fs = .error .attributeError ↔
      ∃ c : Cls, (fs.filter (fun f => f.cls = c)).length = 1 := by
  unfold filtersBack readFilters
  constructor
  · intro h
    by_cases hs : (group (written fs)).any (fun p => p.2.length == 1) = true
    · exact (any_single fs).1 hs
    · rw [if_neg hs, readGroups_ok] at h
      · cases h
      · intro p hp hl
        exact hs (List.any_eq_true.2 ⟨p, hp, by simpa using hl⟩)
  · intro h
    rw [if_pos ((any_single fs).2 h)]

/-- C42, what is read otherwise: with names distinct up to case and no class with exactly one
filter, exactly the filters that are not FIR filters come back, under their lower-case names. -/
theorem C42_content_partial (fs : List Filt)
    (hu : ∀ f ∈ fs, ∀ g ∈ fs, Names.lower f.name = Names.lower g.name → f = g)
    (h1 : ∀ c : Cls, (fs.filter (fun f => f.cls = c)).length ≠ 1) :
    ∃ d, filtersBack fs = .ok d ∧
      ∀ n f, OD.get? d n = some f ↔ f ∈ fs ∧ f.cls ≠ .fir ∧ Names.lower f.name = n := by
  have hs : ¬ (group (written fs)).any (fun p => p.2.length == 1) = true := by
    rw [any_single]
    rintro ⟨c, hc⟩
    exact h1 c hc
  unfold filtersBack readFilters
  rw [if_neg hs, readGroups_ok _ _ (fun p hp hl =>
    hs (List.any_eq_true.2 ⟨p, hp, by simpa using hl⟩))]
  have hmem : ∀ f, f ∈ ((group (written fs)).flatMap (fun p => if knownTag p.1 then p.2 else [])) ↔
      f ∈ fs ∧ f.cls ≠ .fir := by
    intro f
    simp only [List.mem_flatMap]
    constructor
    · rintro ⟨⟨t, l⟩, hp, hf⟩
      obtain ⟨e, _⟩ := mem_group hp
      simp only at hf
      split at hf
      · next hk =>
        rw [e] at hf
        obtain ⟨h2, h3⟩ := List.mem_filter.1 hf
        have h3 : f.cls.tag = t := by simpa using h3
        rw [← h3] at hk
        exact ⟨h2, (knownTag_iff _).1 hk⟩
      · cases hf
    · rintro ⟨hf, hc⟩
      have hm : f ∈ fs.filter (fun g => g.cls.tag = f.cls.tag) :=
        List.mem_filter.2 ⟨hf, by simp⟩
      have hne : fs.filter (fun g => g.cls.tag = f.cls.tag) ≠ [] := List.ne_nil_of_mem hm
      have hg := get?_group fs f.cls.tag
      rw [if_neg hne] at hg
      refine ⟨(f.cls.tag, _), OD.mem_of_get? hg, ?_⟩
      rw [if_pos ((knownTag_iff _).2 hc)]
      exact hm
  refine ⟨_, rfl, fun n f => ?_⟩
  constructor
  · intro h
    by_cases hex : ∃ g, g ∈ fs ∧ g.cls ≠ .fir ∧ Names.lower g.name = n
    · obtain ⟨g, hg1, hg2, hg3⟩ := hex
      rw [foldl_names _ _ n g (fun f' hf' he =>
        hu f' ((hmem f').1 hf').1 g hg1 (he.trans hg3.symm)) (Or.inl ⟨(hmem g).2 ⟨hg1, hg2⟩, hg3⟩)] at h
      simp only [Option.some.injEq] at h
      exact h ▸ ⟨hg1, hg2, hg3⟩
    · rw [foldl_names_none _ _ n (fun f' hf' he =>
        hex ⟨f', ((hmem f').1 hf').1, ((hmem f').1 hf').2, he⟩)] at h
      cases h
  · rintro ⟨h2, h3, h4⟩
    exact foldl_names _ _ n f (fun f' hf' he => hu f' ((hmem f').1 hf').1 f h2 (he.trans h4.symm))
      (Or.inl ⟨(hmem f).2 ⟨h2, h3⟩, h4⟩)

/-- Two FIR filters, two pole-zero filters. -/
def exFilters : List Filt :=
  [{ cls := .fir, name := "F1".toList }, { cls := .poleZero, name := "P1".toList },
   { cls := .fir, name := "F2".toList }, { cls := .poleZero, name := "P2".toList, body := 7 }]

example : filtersBack exFilters =
    .ok [("p1".toList, { cls := .poleZero, name := "P1".toList }),
         ("p2".toList, { cls := .poleZero, name := "P2".toList, body := 7 })] := by decide +kernel

/-! ### C87 -/

/-- C87: what is written to XML can be read: `from_xml(to_xml())` raises for no experiment. -/
def C87_claim : Prop := ∀ e : List XSurvey, ∃ r, readBack e = .ok r

/-- C87 is false: a survey without stations. -/
theorem C87_refuted : ¬ C87_claim := by
  intro h
  obtain ⟨r, hr⟩ := h [{ stations := [], filters := [] }]
  cases hr

theorem readStations_ok (l : List (List XRun)) : readStations l = .ok () ↔ ∀ r ∈ l, r ≠ [] := by
  induction l with
  | nil => simp [readStations]
  | cons a l ih =>
    unfold readStations
    by_cases h : a = []
    · simp [h]
    · rw [if_neg h, ih]
      simp [h]

theorem filtersBack_ok (fs : List Filt) :
    (∃ d, filtersBack fs = .ok d) ↔ ∀ c : Cls, (fs.filter (fun f => f.cls = c)).length ≠ 1 := by
  have h1 := C42_raises_iff_partial fs
  unfold filtersBack readFilters at *
  by_cases hs : (group (written fs)).any (fun p => p.2.length == 1) = true
  · rw [if_pos hs]
    constructor
    · rintro ⟨d, hd⟩; cases hd
    · intro h
      obtain ⟨c, hc⟩ := (any_single fs).1 hs
      exact absurd hc (h c)
  · rw [if_neg hs, readGroups_ok]
    · constructor
      · intro _ c hc
        exact hs ((any_single fs).2 ⟨c, hc⟩)
      · intro _; exact ⟨_, rfl⟩
    · intro p hp hl
      exact hs (List.any_eq_true.2 ⟨p, hp, by simpa using hl⟩)

/-- C87: exactly which experiments can be read back: every survey has a station, every station
has a run, and no survey has exactly one filter of a class. -/
theorem C87_readable_partial (e : List XSurvey) :
    (∃ r, readBack e = .ok r) ↔
      ∀ s ∈ e, s.stations ≠ [] ∧ (∀ runs ∈ s.stations, runs ≠ []) ∧
        ∀ c : Cls, (s.filters.filter (fun f => f.cls = c)).length ≠ 1 := by
  have one : ∀ s : XSurvey, (∃ r, readSurvey s = .ok r) ↔
      s.stations ≠ [] ∧ (∀ runs ∈ s.stations, runs ≠ []) ∧
        ∀ c : Cls, (s.filters.filter (fun f => f.cls = c)).length ≠ 1 := by
    intro s
    rw [← filtersBack_ok, ← readStations_ok]
    unfold readSurvey
    by_cases h : s.stations = []
    · simp [h]
    · rw [if_neg h]
      cases hf : filtersBack s.filters with
      | error x => simp
      | ok d =>
        cases hr : readStations s.stations with
        | error x => simp
        | ok u => simp [h]
  induction e with
  | nil => simp [readBack]
  | cons s e ih =>
    rw [List.forall_mem_cons, ← one]
    refine Iff.trans ?_ (and_congr_right fun _ => ih)
    cases hs : readSurvey s with
    | error x => simp [readBack, hs]
    | ok d =>
      cases hr : readBack e with
      | error x => simp [readBack, hs, hr]
      | ok l => simp [readBack, hs, hr]

/-- Two stations, with one run each. -/
def exSurvey : XSurvey where
  stations := [[⟨true, false, false⟩], [⟨true, true, false⟩]]
  filters := exFilters

example : ∃ r, readBack [exSurvey] = .ok r :=
  (C87_readable_partial _).2 (by
    intro s hs
    rw [List.mem_singleton.1 hs]
    refine ⟨by simp [exSurvey], by simp [exSurvey], ?_⟩
    intro c
    cases c <;> decide +kernel)

/-! ### C88 -/

/-- C88: a filter of any class survives writing and reading when no class is alone. -/
def C88_claim : Prop :=
  ∀ (fs : List Filt) (d : OD Str Filt), filtersBack fs = .ok d →
    (∀ f ∈ fs, ∀ g ∈ fs, Names.lower f.name = Names.lower g.name → f = g) →
    ∀ f ∈ fs, OD.get? d (Names.lower f.name) = some f

/-- C88 is false: FIR filters are written as `f_i_r_filter` and looked for as `fir_filter`. -/
theorem C88_refuted : ¬ C88_claim := by
  intro h
  have := h exFilters [("p1".toList, { cls := .poleZero, name := "P1".toList }),
         ("p2".toList, { cls := .poleZero, name := "P2".toList, body := 7 })] (by decide +kernel)
         (by decide +kernel) { cls := .fir, name := "F1".toList } (by decide +kernel)
  exact absurd this (by decide +kernel)

/-- C88: all other filters do survive. -/
theorem C88_others_partial (fs : List Filt) (d : OD Str Filt) (h : filtersBack fs = .ok d)
    (hu : ∀ f ∈ fs, ∀ g ∈ fs, Names.lower f.name = Names.lower g.name → f = g)
    (f : Filt) (hf : f ∈ fs) :
    (f.cls ≠ .fir → OD.get? d (Names.lower f.name) = some f) ∧
    (f.cls = .fir → OD.get? d (Names.lower f.name) = none) := by
  obtain ⟨d', e, hd⟩ := C42_content_partial fs hu ((filtersBack_ok fs).1 ⟨d, h⟩)
  rw [h] at e
  simp only [Except.ok.injEq] at e
  subst e
  refine ⟨fun hc => (hd _ f).2 ⟨hf, hc, rfl⟩, fun hc => ?_⟩
  cases hg : OD.get? d (Names.lower f.name) with
  | none => rfl
  | some g =>
    obtain ⟨h1, h2, h3⟩ := (hd _ g).1 hg
    rw [hu g h1 f hf h3] at h2
    exact absurd hc h2

end Verif.ExpXml
