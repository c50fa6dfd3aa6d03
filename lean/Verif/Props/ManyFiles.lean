import Verif.Model.ManyFiles
import Verif.Lemmas.Text
import Verif.Lemmas.Sorted
import Mathlib.Data.List.Forall2
import Mathlib.Data.List.Nodup

/-! # An experiment from a directory of MT XML files: properties C278 to C281 -/

namespace Verif.ManyFiles
open Verif.Text

/-! ## Lists -/

theorem mapM_forall {α β : Type} {f : α → Except PyErr β} : ∀ {l : List α} {r : List β}, l.mapM f = .ok r → List.Forall₂ (fun a b => f a = .ok b) l r
  | [], r, h => by
    rw [List.mapM_nil] at h
    cases h
    exact .nil
  | a :: l, r, h => by
    rw [List.mapM_cons] at h
    cases ha : f a with
    | error e => rw [ha] at h; cases h
    | ok b =>
      rw [ha] at h
      cases hl : l.mapM f with
      | error e => rw [hl] at h; cases h
      | ok bs =>
        rw [hl] at h
        cases h
        exact .cons ha (mapM_forall hl)

theorem forall_mapM {α β : Type} {f : α → Except PyErr β} {l : List α} {r : List β} (h : List.Forall₂ (fun a b => f a = .ok b) l r) :
    l.mapM f = .ok r := by
  induction h with
  | nil => rfl
  | cons h1 _ ih => rw [List.mapM_cons, h1, ih]; rfl

theorem forall_mem {α β : Type} {R : α → β → Prop} {l : List α} {r : List β} (h : List.Forall₂ R l r) : ∀ b ∈ r, ∃ a ∈ l, R a b := by
  induction h with
  | nil => intro b hb; cases hb
  | cons h1 _ ih =>
    intro b hb
    cases hb with
    | head => exact ⟨_, List.mem_cons_self, h1⟩
    | tail _ hb => obtain ⟨a, ha, hr⟩ := ih b hb; exact ⟨a, List.mem_cons_of_mem _ ha, hr⟩

theorem mapM_err {α β : Type} {f : α → Except PyErr β} {e : PyErr} (he : ∀ a x, f a = .error x → x = e) : ∀ {l : List α} {x : PyErr},
    l.mapM f = .error x → x = e
  | [], x, h => by rw [List.mapM_nil] at h; cases h
  | a :: l, x, h => by
    rw [List.mapM_cons] at h
    cases ha : f a with
    | error y => rw [ha] at h; cases h; exact he a _ ha
    | ok b =>
      rw [ha] at h
      cases hl : l.mapM f with
      | error y => rw [hl] at h; cases h; exact mapM_err he hl
      | ok bs => rw [hl] at h; cases h

/-! ## Names -/

/-- A text without a dot is in a text with a dot when it is before the dot or after it. -/
theorem infix_mid {w a b : Str} {c : Char} (hw : c ∉ w) : w <:+: a ++ c :: b ↔ w <:+: a ∨ w <:+: b := by
  constructor
  · rintro ⟨p, q, h⟩
    rw [List.append_assoc] at h
    rcases List.append_eq_append_iff.1 h with ⟨x, h1, h2⟩ | ⟨x, h1, h2⟩
    · rcases List.append_eq_append_iff.1 h2 with ⟨y, h3, h4⟩ | ⟨y, h3, h4⟩
      · exact Or.inl ⟨p, y, by rw [h1, h3, List.append_assoc]⟩
      · cases y with
        | nil => exact Or.inl ⟨p, [], by rw [h1, h3]; simp⟩
        | cons d y =>
          rw [List.cons_append] at h4
          obtain ⟨rfl, _⟩ := List.cons.inj h4
          exact absurd (h3 ▸ List.mem_append_right _ List.mem_cons_self) hw
    · cases x with
      | nil =>
        rw [List.nil_append] at h2
        cases w with
        | nil => exact Or.inl ⟨[], a, rfl⟩
        | cons d w =>
          rw [List.cons_append] at h2
          exact absurd (by rw [(List.cons.inj h2).1]; exact List.mem_cons_self) hw
      | cons d x =>
        rw [List.cons_append] at h2
        exact Or.inr ⟨x, q, by rw [(List.cons.inj h2).2]; simp⟩
  · rintro (⟨p, q, rfl⟩ | ⟨p, q, rfl⟩)
    · exact ⟨p, q ++ c :: b, by simp⟩
    · exact ⟨a ++ c :: p, q, by simp⟩

theorem infix_join {w : Str} {c : Char} (hw : c ∉ w) : ∀ (p : Str) (l : List Str), w <:+: join [c] (p :: l) ↔ ∃ x ∈ p :: l, w <:+: x
  | p, [] => by
    show w <:+: p ↔ _
    constructor
    · intro h; exact ⟨p, List.mem_cons_self, h⟩
    · rintro ⟨x, hx, h⟩; rcases List.mem_cons.1 hx with rfl | hx; exact h; cases hx
  | p, q :: l => by
    have e : join [c] (p :: q :: l) = p ++ c :: join [c] (q :: l) := by
      simp [join]
    rw [e, infix_mid hw, infix_join hw q l]
    constructor
    · rintro (h | ⟨x, hx, h⟩)
      · exact ⟨p, List.mem_cons_self, h⟩
      · exact ⟨x, List.mem_cons_of_mem _ hx, h⟩
    · rintro ⟨x, hx, h⟩
      rcases List.mem_cons.1 hx with rfl | hx
      · exact Or.inl h
      · exact Or.inr ⟨x, hx, h⟩

theorem lower_join (c : Char) (hc : c.toLower = c) : ∀ l : List Str, lower (join [c] l) = join [c] (l.map lower)
  | [] => rfl
  | [_] => rfl
  | p :: q :: l => by
    have e : ∀ p q (l : List Str), join [c] (p :: q :: l) = p ++ c :: join [c] (q :: l) := by intro p q l; simp [join]
    rw [e, List.map_cons, List.map_cons, e]
    have := lower_join c hc (q :: l)
    rw [List.map_cons] at this
    rw [← this]
    simp [lower, hc]

/-- The name of a file after its station, at the dots. -/
theorem name_tail (f : Fn) : ∃ p l, splitC '.' f.stem = p :: l ∧ f.name.drop (stationOf f).length = join ['.'] ([] :: (l ++ ["xml".toList])) := by
  have hj := join_splitC '.' f.stem
  cases hs : splitC '.' f.stem with
  | nil => exact absurd hs (splitC_ne_nil _ _)
  | cons p l =>
    refine ⟨p, l, rfl, ?_⟩
    have e : ∀ p q (l : List Str), join ['.'] (p :: q :: l) = p ++ '.' :: join ['.'] (q :: l) := by intro p q l; simp [join]
    have hn : ∀ (l : List Str) (p : Str), join ['.'] (p :: l) ++ ".xml".toList = p ++ '.' :: join ['.'] (l ++ ["xml".toList]) := by
      intro l
      induction l with
      | nil => intro p; rfl
      | cons q l ih =>
        intro p
        rw [e, List.append_assoc, List.cons_append, ih q, List.cons_append]
        cases hl : l ++ ["xml".toList] with
        | nil => simp at hl
        | cons x l' => rw [e]
    have hst : stationOf f = p := by unfold stationOf; rw [hs]; rfl
    have : f.name = p ++ '.' :: join ['.'] (l ++ ["xml".toList]) := by
      unfold Fn.name
      rw [← hn l p, ← hs, hj]
    rw [hst, this, List.drop_left]
    cases hl : l ++ ["xml".toList] with
    | nil => simp at hl
    | cons x l' => rw [e]; rfl

theorem dot_components : ∀ ch ∈ components, '.' ∉ ch := by decide

/-- A file shows a component when it is in a part of the name after the station, in small letters. -/
theorem shows_iff (f : Fn) {ch : Str} (hc : ch ∈ components) :
    shows (stationOf f) f ch = true ↔ ∃ x ∈ (splitC '.' f.stem).tail, ch <:+: lower x := by
  obtain ⟨p, l, hs, ht⟩ := name_tail f
  unfold shows
  rw [hasSub_iff, ht, lower_join '.' (by decide), List.map_cons, infix_join (dot_components ch hc), hs]
  constructor
  · rintro ⟨x, hx, h⟩
    rcases List.mem_cons.1 hx with rfl | hx
    · have : ∀ ch ∈ components, ¬ ch <:+: lower [] := by
        intro ch hc h
        have := List.eq_nil_of_infix_nil h
        subst this
        exact absurd hc (by decide)
      exact absurd h (this ch hc)
    · rw [List.map_append, List.mem_append] at hx
      rcases hx with hx | hx
      · obtain ⟨y, hy, rfl⟩ := List.mem_map.1 hx
        exact ⟨y, hy, h⟩
      · have : ∀ ch ∈ components, hasSub ch (lower "xml".toList) = false := by decide +kernel
        rw [List.map_cons, List.map_nil, List.mem_singleton] at hx
        subst hx
        have h2 := this ch hc
        rw [hasSub_iff.2 h] at h2
        cases h2
  · rintro ⟨x, hx, h⟩
    refine ⟨lower x, List.mem_cons_of_mem _ ?_, h⟩
    rw [List.map_append]
    exact List.mem_append_left _ (List.mem_map.2 ⟨x, hx, rfl⟩)

/-! ## What is sorted -/

theorem sort_inv {fs : List Fn} {c : Option (List Str)} {t : Sorted} (h : sortByStation fs c = .ok t) :
    first (fs.filter isSurvey) = .ok t.survey ∧ first (fs.filter isFilters) = .ok t.filters ∧
      List.Forall₂ (fun s r => sortStation fs s = .ok r) (wanted fs c) t.stations := by
  unfold sortByStation at h
  cases h1 : first (fs.filter isSurvey) with
  | error e => rw [h1] at h; cases h
  | ok a =>
    rw [h1] at h
    replace h : (first (fs.filter isFilters)).bind _ = _ := h
    cases h2 : first (fs.filter isFilters) with
    | error e => rw [h2] at h; cases h
    | ok b =>
      rw [h2] at h
      replace h : Except.map _ (List.mapM (sortStation fs) _) = _ := h
      cases h3 : (wanted fs c).mapM (sortStation fs) with
      | error e => rw [h3] at h; cases h
      | ok r =>
        rw [h3] at h
        cases h
        exact ⟨rfl, rfl, mapM_forall h3⟩

theorem first_mem {l : List Fn} {f : Fn} (h : first l = .ok f) : f ∈ l := by
  cases l with
  | nil => cases h
  | cons a l => cases h; exact List.mem_cons_self

theorem station_inv {fs : List Fn} {s : Str} {r : StationFiles} (h : sortStation fs s = .ok r) :
    first (fs.filter fun f => stationOf f == s && isStation f) = .ok r.fn ∧
      r.runs = (getRuns fs s).map fun x => ⟨x, getChannels fs s (runOf x)⟩ := by
  unfold sortStation at h
  cases h1 : first (fs.filter fun f => stationOf f == s && isStation f) with
  | error e => rw [h1] at h; cases h
  | ok a => rw [h1] at h; cases h; exact ⟨rfl, rfl⟩

theorem station_fn {fs : List Fn} {s : Str} {r : StationFiles} (h : sortStation fs s = .ok r) :
    r.fn ∈ fs ∧ isStation r.fn = true ∧ stationOf r.fn = s := by
  have := first_mem (station_inv h).1
  rw [List.mem_filter, Bool.and_eq_true, beq_iff_eq] at this
  exact ⟨this.1, this.2.2, this.2.1⟩

theorem runs_perm (fs : List Fn) (s : Str) : (getRuns fs s).Perm (fs.filter fun f => stationOf f == s && isRun f) := pySorted_perm _ _

theorem channels_of (fs : List Fn) (s : Str) (run : Option Str) (f : Fn) (h : f ∈ getChannels fs s run) :
    f ∈ fs ∧ isChannel f = true ∧ stationOf f = s ∧ runOf f = run ∧ ∃ ch ∈ components, shows s f ch = true := by
  obtain ⟨ch, hc, hf⟩ := List.mem_filterMap.1 h
  have h1 := List.mem_of_find?_eq_some hf
  have h2 := List.find?_some hf
  unfold channelFiles at h1
  simp only [List.mem_filter, Bool.and_eq_true, beq_iff_eq] at h1
  exact ⟨h1.1, h1.2.2, h1.2.1.1, h1.2.1.2, ch, hc, h2⟩

/-! ## Kinds of names -/

theorem pieces_length (c : Char) (s : Str) : (splitC c s).length = s.count c + 1 := by
  induction s with
  | nil => rfl
  | cons x s ih =>
    by_cases hx : x = c
    · subst hx
      rw [splitC_cons_self, List.length_cons, ih, List.count_cons_self]
    · rw [splitC_cons_ne s hx, List.count_cons_of_ne hx]
      cases hs : splitC c s with
      | nil => exact absurd hs (splitC_ne_nil _ _)
      | cons p l => rw [← ih, hs]; rfl

theorem stem_station {f : Fn} (h : isStation f = true) : '.' ∉ f.stem ∧ stationOf f = f.stem := by
  have hc : f.stem.count '.' = 0 := by
    unfold isStation at h
    split at h
    · exact beq_iff_eq.1 h
    · cases h
  have hd := List.count_eq_zero.1 hc
  exact ⟨hd, by unfold stationOf; rw [splitC_none hd]; rfl⟩

theorem stem_run {f : Fn} (h : isRun f = true) :
    ∃ run, f.stem = stationOf f ++ '.' :: run ∧ '.' ∉ stationOf f ∧ '.' ∉ run ∧ runOf f = some run := by
  have hl := pieces_length '.' f.stem
  have hp := splitC_pieces '.' f.stem
  have hj := join_splitC '.' f.stem
  rw [beq_iff_eq.1 (h : (f.stem.count '.' == 1) = true)] at hl
  unfold runOf stationOf
  rw [h, Bool.true_or, if_pos rfl]
  match hs : splitC '.' f.stem, hl with
  | [a, b], _ =>
    rw [hs] at hj hp
    refine ⟨b, ?_, hp a List.mem_cons_self, hp b (List.mem_cons_of_mem _ List.mem_cons_self), rfl⟩
    rw [← hj]
    simp [join]

theorem stem_channel {f : Fn} (h : isChannel f = true) :
    ∃ run tail, f.stem = stationOf f ++ '.' :: (run ++ '.' :: tail) ∧ '.' ∉ stationOf f ∧ '.' ∉ run ∧ runOf f = some run := by
  have hl := pieces_length '.' f.stem
  have hp := splitC_pieces '.' f.stem
  have hj := join_splitC '.' f.stem
  have hc : f.stem.count '.' > 1 := of_decide_eq_true h
  unfold runOf stationOf
  rw [h, Bool.or_true, if_pos rfl]
  match hs : splitC '.' f.stem, hl with
  | [], hl => simp at hl
  | [_], hl => simp only [List.length_cons, List.length_nil] at hl; omega
  | [_, _], hl => simp only [List.length_cons, List.length_nil] at hl; omega
  | a :: b :: c :: l, _ =>
    rw [hs] at hj hp
    refine ⟨b, join ['.'] (c :: l), ?_, hp a List.mem_cons_self, hp b (List.mem_cons_of_mem _ List.mem_cons_self), rfl⟩
    rw [← hj]
    simp [join]

theorem run_stem {f : Fn} {a b : Str} (ha : '.' ∉ a) (hb : '.' ∉ b) (h : f.stem = a ++ '.' :: b) :
    isRun f = true ∧ stationOf f = a ∧ runOf f = some b := by
  have hs : splitC '.' f.stem = [a, b] := by rw [h, splitC_append _ ha, splitC_none hb]
  have hl := pieces_length '.' f.stem
  rw [hs] at hl
  have h1 : f.stem.count '.' = 1 := by simpa using hl.symm
  have hr : isRun f = true := by unfold isRun; rw [h1]; rfl
  refine ⟨hr, by unfold stationOf; rw [hs]; rfl, ?_⟩
  unfold runOf
  rw [hr, hs]
  rfl

theorem channel_stem {f : Fn} {a b tail : Str} (ha : '.' ∉ a) (hb : '.' ∉ b) (h : f.stem = a ++ '.' :: (b ++ '.' :: tail)) :
    isChannel f = true ∧ stationOf f = a ∧ runOf f = some b := by
  have hs : splitC '.' f.stem = a :: b :: splitC '.' tail := by rw [h, splitC_append _ ha, splitC_append _ hb]
  have hr : isChannel f = true := by
    unfold isChannel
    refine decide_eq_true ?_
    rw [h, List.count_append, List.count_cons_self, List.count_append, List.count_cons_self]
    omega
  refine ⟨hr, by unfold stationOf; rw [hs]; rfl, ?_⟩
  unfold runOf
  rw [hr, hs, Bool.or_true]
  rfl

theorem dot_inj {a b x y : Str} (ha : '.' ∉ a) (hb : '.' ∉ b) (h : a ++ '.' :: x = b ++ '.' :: y) : a = b ∧ x = y := by
  have h1 := congrArg (splitC '.') h
  rw [splitC_append _ ha, splitC_append _ hb] at h1
  have := (List.cons.inj h1).1
  subst this
  exact ⟨rfl, (List.cons.inj (List.append_cancel_left h)).2⟩

/-- C278 (part): every file that is listed is of the directory, below its own station and its own run, and of its kind; the stations are
those of the station files in their order. -/
theorem C278_sound_partial (fs : List Fn) (t : Sorted) (h : sortByStation fs none = .ok t) :
    (t.survey ∈ fs ∧ t.survey.stem ∈ ["survey".toList, "_survey".toList]) ∧
    (t.filters ∈ fs ∧ t.filters.stem ∈ ["filters".toList, "_filters".toList]) ∧
    t.stations.map (fun s => s.fn.stem) = (fs.filter isStation).map Fn.stem ∧
    ∀ s ∈ t.stations, s.fn ∈ fs ∧ '.' ∉ s.fn.stem ∧
      ∀ r ∈ s.runs, r.fn ∈ fs ∧ (∃ run, r.fn.stem = s.fn.stem ++ '.' :: run ∧ '.' ∉ run) ∧
        ∀ f ∈ r.channels, f ∈ fs ∧ ∃ tail, f.stem = r.fn.stem ++ '.' :: tail := by
  obtain ⟨h1, h2, h3⟩ := sort_inv h
  refine ⟨?_, ?_, ?_, ?_⟩
  · have := List.mem_filter.1 (first_mem h1)
    exact ⟨this.1, List.contains_iff_mem.1 this.2⟩
  · have := List.mem_filter.1 (first_mem h2)
    exact ⟨this.1, List.contains_iff_mem.1 this.2⟩
  · have e : (fs.filter isStation).map Fn.stem = stations fs :=
      List.map_congr_left fun f hf => (stem_station (List.mem_filter.1 hf).2).2.symm
    rw [e]
    have : ∀ {l : List Str} {r : List StationFiles}, List.Forall₂ (fun s r => sortStation fs s = .ok r) l r → r.map (fun s => s.fn.stem) = l := by
      intro l r hf
      induction hf with
      | nil => rfl
      | cons h1 _ ih =>
        have := station_fn h1
        rw [List.map_cons, ih, ← (stem_station this.2.1).2, this.2.2]
    exact this h3
  · intro s hs
    obtain ⟨x, _, hx⟩ := forall_mem h3 s hs
    obtain ⟨g1, g2, g3⟩ := station_fn hx
    obtain ⟨d1, d2⟩ := stem_station g2
    refine ⟨g1, d1, ?_⟩
    intro r hr
    rw [(station_inv hx).2] at hr
    obtain ⟨y, hy, rfl⟩ := List.mem_map.1 hr
    have hy := (runs_perm fs x).mem_iff.1 hy
    simp only [List.mem_filter, Bool.and_eq_true, beq_iff_eq] at hy
    obtain ⟨run, e1, e2, e3, e4⟩ := stem_run hy.2.2
    refine ⟨hy.1, ⟨run, ?_, e3⟩, ?_⟩
    · show y.stem = _
      rw [e1, hy.2.1, ← g3, d2]
    · intro f hf
      obtain ⟨k1, k2, k3, k4, _⟩ := channels_of _ _ _ f hf
      obtain ⟨run', tail, l1, l2, l3, l4⟩ := stem_channel k2
      refine ⟨k1, tail, ?_⟩
      show f.stem = y.stem ++ _
      have : run' = run := by rw [l4, e4] at k4; exact Option.some.inj k4
      rw [l1, e1, k3, hy.2.1, this, List.append_assoc, List.cons_append]

/-- A part of the name of a file after that of its station has the component, in letters of any case. -/
def Mentions (f : Fn) (ch : Str) : Prop := ∃ x ∈ (splitC '.' f.stem).tail, ch <:+: lower x

/-- The files of the channels of a run: those whose name goes on after that of the run. -/
def Below (r f : Fn) : Prop := ∃ tail, f.stem = r.stem ++ '.' :: tail

theorem below_iff {r f : Fn} (hr : isRun r = true) : Below r f ↔ (stationOf f = stationOf r ∧ runOf f = runOf r ∧ isChannel f = true) := by
  obtain ⟨run, e1, e2, e3, e4⟩ := stem_run hr
  constructor
  · rintro ⟨tail, h⟩
    rw [e1, List.append_assoc, List.cons_append] at h
    obtain ⟨h1, h2, h3⟩ := channel_stem e2 e3 h
    exact ⟨h2, h3.trans e4.symm, h1⟩
  · rintro ⟨h1, h2, h3⟩
    obtain ⟨run', tail, l1, l2, l3, l4⟩ := stem_channel h3
    refine ⟨tail, ?_⟩
    have : run' = run := by rw [l4, e4] at h2; exact Option.some.inj h2
    rw [l1, e1, h1, this, List.append_assoc, List.cons_append]

theorem mem_files {fs : List Fn} {r f : Fn} (hr : isRun r = true) :
    f ∈ channelFiles fs (stationOf r) (runOf r) ↔ f ∈ fs ∧ Below r f := by
  rw [below_iff hr]
  unfold channelFiles
  simp only [List.mem_filter, Bool.and_eq_true, beq_iff_eq, and_assoc]

/-- The runs of a station that is listed. -/
theorem listed_run {fs : List Fn} {c : Option (List Str)} {t : Sorted} (h : sortByStation fs c = .ok t) {s : StationFiles} (hs : s ∈ t.stations)
    {r : RunFiles} (hr : r ∈ s.runs) : isRun r.fn = true ∧ r.channels = getChannels fs (stationOf r.fn) (runOf r.fn) := by
  obtain ⟨_, _, h3⟩ := sort_inv h
  obtain ⟨x, _, hx⟩ := forall_mem h3 s hs
  rw [(station_inv hx).2] at hr
  obtain ⟨y, hy, rfl⟩ := List.mem_map.1 hr
  have hy := (runs_perm fs x).mem_iff.1 hy
  simp only [List.mem_filter, Bool.and_eq_true, beq_iff_eq] at hy
  exact ⟨hy.2.2, by show getChannels fs x (runOf y) = _; rw [hy.2.1]⟩

theorem le_prefix (a : Str) {x y : Str} (h : x ≤ y) : a ++ x ≤ a ++ y := by
  induction a with
  | nil => exact h
  | cons c a ih =>
    rw [List.cons_append, List.cons_append]
    exact List.cons_le_cons_iff.2 (Or.inr ⟨rfl, ih⟩)

/-- C278 (part): the runs of a station are all its run files, each as often as it is in the directory, in the order of their names. -/
theorem C278_runs_partial (fs : List Fn) (c : Option (List Str)) (t : Sorted) (h : sortByStation fs c = .ok t) (s : StationFiles) (hs : s ∈ t.stations) :
    (s.runs.map RunFiles.fn).Perm (fs.filter fun f => decide (f.stem.count '.' = 1) && ((s.fn.stem ++ ['.']).isPrefixOf f.stem)) ∧
    (s.runs.map fun r => r.fn.stem).Pairwise (fun a b => a ≤ b) := by
  obtain ⟨_, _, h3⟩ := sort_inv h
  obtain ⟨x, _, hx⟩ := forall_mem h3 s hs
  obtain ⟨g1, g2, g3⟩ := station_fn hx
  obtain ⟨d1, d2⟩ := stem_station g2
  rw [(station_inv hx).2]
  have hp := runs_perm fs x
  constructor
  · rw [List.map_map]
    have e : (RunFiles.fn ∘ fun y => (⟨y, getChannels fs x (runOf y)⟩ : RunFiles)) = id := rfl
    rw [e, List.map_id]
    refine hp.trans (List.Perm.of_eq (List.filter_congr fun f _ => ?_))
    rw [Bool.eq_iff_iff, Bool.and_eq_true, Bool.and_eq_true, beq_iff_eq, decide_eq_true_iff, List.isPrefixOf_iff_prefix]
    constructor
    · rintro ⟨k1, k2⟩
      obtain ⟨run, e1, _⟩ := stem_run k2
      exact ⟨beq_iff_eq.1 k2, run, by rw [e1, k1, ← g3, d2, List.append_assoc]; rfl⟩
    · rintro ⟨k1, run, k2⟩
      rw [List.append_assoc] at k2
      replace k2 : s.fn.stem ++ '.' :: run = f.stem := k2
      have hd : '.' ∉ run := by
        rw [← k2, List.count_append, List.count_eq_zero.2 d1, List.count_cons_self] at k1
        exact List.count_eq_zero.1 (by omega)
      obtain ⟨m1, m2, _⟩ := run_stem d1 hd k2.symm
      exact ⟨by rw [m2, ← d2, g3], m1⟩
  · rw [List.map_map]
    rw [List.pairwise_map]
    have hw := pySorted_pairwise (le := fun a b : Fn => decide ((runOf a).getD [] ≤ (runOf b).getD []))
      (fun a b c h1 h2 => decide_eq_true (List.le_trans (of_decide_eq_true h1) (of_decide_eq_true h2)))
      (fun a b => by
        rcases List.le_total ((runOf a).getD []) ((runOf b).getD []) with h | h
        · exact Bool.or_eq_true_iff.2 (Or.inl (decide_eq_true h))
        · exact Bool.or_eq_true_iff.2 (Or.inr (decide_eq_true h))) (fs.filter fun f => stationOf f == x && isRun f)
    refine List.Pairwise.imp_of_mem ?_ hw
    intro a b ha hb hab
    have ha := hp.mem_iff.1 ha
    have hb := hp.mem_iff.1 hb
    simp only [List.mem_filter, Bool.and_eq_true, beq_iff_eq] at ha hb
    obtain ⟨ra, a1, a2, a3, a4⟩ := stem_run ha.2.2
    obtain ⟨rb, b1, b2, b3, b4⟩ := stem_run hb.2.2
    have hab := of_decide_eq_true hab
    rw [a4, b4] at hab
    show a.stem ≤ b.stem
    rw [a1, b1, ha.2.1, hb.2.1]
    exact le_prefix _ (List.cons_le_cons_iff.2 (Or.inr ⟨rfl, hab⟩))

theorem find_split {p : Fn → Bool} : ∀ {l : List Fn} {f : Fn}, l.find? p = some f → ∃ a b, l = a ++ f :: b ∧ p f = true ∧ ∀ g ∈ a, p g = false := by
  intro l f h
  obtain ⟨h1, a, b, h2, h3⟩ := List.find?_eq_some_iff_append.1 h
  exact ⟨a, b, h2, h1, fun g hg => by simpa using h3 g hg⟩

theorem filterMap_forall {α β : Type} (g : α → Option β) : ∀ l : List α,
    List.Forall₂ (fun b a => g a = some b) (l.filterMap g) (l.filter fun a => (g a).isSome)
  | [] => .nil
  | a :: l => by
    cases ha : g a with
    | none =>
      rw [List.filterMap_cons_none ha, List.filter_cons_of_neg (by rw [ha]; simp)]
      exact filterMap_forall g l
    | some b =>
      rw [List.filterMap_cons_some ha, List.filter_cons_of_pos (by rw [ha]; rfl)]
      exact .cons ha (filterMap_forall g l)

theorem forall_imp_mem {α β : Type} {R S : α → β → Prop} {l : List α} {r : List β} (h : List.Forall₂ R l r) (hi : ∀ a, ∀ b ∈ r, R a b → S a b) :
    List.Forall₂ S l r := by
  induction h with
  | nil => exact .nil
  | cons h1 _ ih => exact .cons (hi _ _ List.mem_cons_self h1) (ih fun a b hb => hi a b (List.mem_cons_of_mem _ hb))

theorem shows_mentions {f : Fn} {ch : Str} (hc : ch ∈ components) : shows (stationOf f) f ch = true ↔ Mentions f ch := shows_iff f hc

theorem found {fs : List Fn} {r : Fn} (hr : isRun r = true) {ch : Str} (hc : ch ∈ components) {f : Fn}
    (h : (channelFiles fs (stationOf r) (runOf r)).find? (fun f => shows (stationOf r) f ch) = some f) :
    Below r f ∧ Mentions f ch ∧ ∃ a b, fs = a ++ f :: b ∧ ∀ g ∈ a, Below r g → ¬ Mentions g ch := by
  have h1 := (mem_files hr).1 (List.mem_of_find?_eq_some h)
  have hs := ((below_iff hr).1 h1.2).1
  have h2 := List.find?_some h
  refine ⟨h1.2, (shows_mentions hc).1 (by rw [hs]; exact h2), ?_⟩
  unfold channelFiles at h
  rw [List.find?_filter] at h
  obtain ⟨a, b, e1, e2, e3⟩ := find_split h
  refine ⟨a, b, e1, fun g hg hb hm => ?_⟩
  have hb := (below_iff hr).1 hb
  have := e3 g hg
  have hm := (shows_mentions hc).2 hm
  rw [hb.1] at hm
  simp [hb, hm] at this

/-- C278 (part): the channels of a run are, in the order hx, hy, hz, ex, ey, for every component that a file of the run mentions the first
file that does. -/
theorem C278_channels_partial (fs : List Fn) (c : Option (List Str)) (t : Sorted) (h : sortByStation fs c = .ok t) (s : StationFiles)
    (hs : s ∈ t.stations) (r : RunFiles) (hr : r ∈ s.runs) :
    ∃ comps : List Str, comps.Sublist ["hx".toList, "hy".toList, "hz".toList, "ex".toList, "ey".toList] ∧
      (∀ ch ∈ ["hx".toList, "hy".toList, "hz".toList, "ex".toList, "ey".toList], (ch ∈ comps ↔ ∃ f ∈ fs, Below r.fn f ∧ Mentions f ch)) ∧
      List.Forall₂ (fun f ch => Below r.fn f ∧ Mentions f ch ∧ ∃ a b, fs = a ++ f :: b ∧ ∀ g ∈ a, Below r.fn g → ¬ Mentions g ch) r.channels comps := by
  obtain ⟨h1, h2⟩ := listed_run h hs hr
  refine ⟨components.filter fun ch => ((channelFiles fs (stationOf r.fn) (runOf r.fn)).find? fun f => shows (stationOf r.fn) f ch).isSome,
    List.filter_sublist, ?_, ?_⟩
  · intro ch hc
    replace hc : ch ∈ components := hc
    rw [List.mem_filter, List.find?_isSome]
    constructor
    · rintro ⟨_, f, hf, hsh⟩
      have hf := (mem_files h1).1 hf
      refine ⟨f, hf.1, hf.2, (shows_mentions hc).1 ?_⟩
      rw [((below_iff h1).1 hf.2).1]
      exact hsh
    · rintro ⟨f, hf, hb, hm⟩
      refine ⟨hc, f, (mem_files h1).2 ⟨hf, hb⟩, ?_⟩
      have := (shows_mentions hc).2 hm
      rw [((below_iff h1).1 hb).1] at this
      exact this
  · rw [h2]
    exact forall_imp_mem (filterMap_forall _ _) fun f ch hc hf => found h1 (List.mem_filter.1 hc).1 hf

theorem comp_infix : ∀ x ∈ components, ∀ y ∈ components, x <:+: y → x = y := by
  have h : ∀ x ∈ components, ∀ y ∈ components, hasSub x y = true → x = y := by decide +kernel
  exact fun x hx y hy hi => h x hx y hy (hasSub_iff.2 hi)

/-- A file of a run that is named after it, its type and its component mentions this component only, if the names of the run and of the
type have none in them. -/
theorem named_mentions {r f : Fn} {a b typ comp : Str} (ha : '.' ∉ a) (hb : '.' ∉ b) (ht : '.' ∉ typ) (hd : '.' ∉ comp)
    (hr : r.stem = a ++ '.' :: b) (hf : f.stem = r.stem ++ '.' :: (typ ++ '.' :: comp)) (hc : lower comp ∈ components)
    (nb : ∀ x ∈ components, ¬ x <:+: lower b) (nt : ∀ x ∈ components, ¬ x <:+: lower typ) (x : Str) (hx : x ∈ components) :
    Mentions f x ↔ x = lower comp := by
  have hs : splitC '.' f.stem = [a, b, typ, comp] := by
    rw [hf, hr, List.append_assoc, List.cons_append, splitC_append _ ha, splitC_append _ hb, splitC_append _ ht, splitC_none hd]
  unfold Mentions
  rw [hs]
  constructor
  · rintro ⟨y, hy, hi⟩
    simp only [List.tail_cons, List.mem_cons, List.not_mem_nil, or_false] at hy
    rcases hy with rfl | rfl | rfl
    · exact absurd hi (nb x hx)
    · exact absurd hi (nt x hx)
    · exact comp_infix x hx _ hc hi
  · rintro rfl
    exact ⟨comp, by simp, List.infix_refl _⟩

/-- C278 (part): if the files of a run are named after the run, a type and one of the five components, none of which is in the names of the
run and the types, and different files have different components, then the channels of the run are all its files, once each. -/
theorem C278_named_partial (fs : List Fn) (c : Option (List Str)) (t : Sorted) (h : sortByStation fs c = .ok t) (s : StationFiles)
    (hs : s ∈ t.stations) (r : RunFiles) (hr : r ∈ s.runs)
    (kind : Fn → Str) (comp : Fn → Str)
    (hrun : ∀ a b, r.fn.stem = a ++ '.' :: b → '.' ∉ a → '.' ∉ b → ∀ x ∈ components, ¬ x <:+: lower b)
    (hn : ∀ f ∈ fs, Below r.fn f → f.stem = r.fn.stem ++ '.' :: (kind f ++ '.' :: comp f) ∧ '.' ∉ kind f ∧ '.' ∉ comp f ∧
      lower (comp f) ∈ ["hx".toList, "hy".toList, "hz".toList, "ex".toList, "ey".toList] ∧
      ∀ x ∈ ["hx".toList, "hy".toList, "hz".toList, "ex".toList, "ey".toList], ¬ x <:+: lower (kind f))
    (hi : ∀ f ∈ fs, ∀ g ∈ fs, Below r.fn f → Below r.fn g → lower (comp f) = lower (comp g) → f = g) :
    r.channels.Nodup ∧ ∀ f, f ∈ r.channels ↔ f ∈ fs ∧ Below r.fn f := by
  obtain ⟨h1, h2⟩ := listed_run h hs hr
  obtain ⟨run, e1, e2, e3, e4⟩ := stem_run h1
  have hm : ∀ f ∈ fs, Below r.fn f → ∀ x ∈ components, (Mentions f x ↔ x = lower (comp f)) := by
    intro f hf hb x hx
    obtain ⟨k1, k2, k3, k4, k5⟩ := hn f hf hb
    exact named_mentions e2 e3 k2 k3 e1 k1 k4 (hrun _ _ e1 e2 e3) k5 x hx
  obtain ⟨comps, c1, c2, c3⟩ := C278_channels_partial fs c t h s hs r hr
  have hin : ∀ f ch, (Below r.fn f ∧ Mentions f ch ∧ ∃ a b, fs = a ++ f :: b ∧ ∀ g ∈ a, Below r.fn g → ¬ Mentions g ch) → f ∈ fs := by
    rintro f ch ⟨_, _, a, b, e, _⟩
    rw [e]
    exact List.mem_append_right _ List.mem_cons_self
  have hnd : comps.Nodup := List.Nodup.sublist c1 (by decide)
  have hsub : ∀ ch ∈ comps, ch ∈ components := fun ch hc => c1.subset hc
  have hmap : r.channels.map (fun f => lower (comp f)) = comps := by
    have : ∀ {l : List Fn} {k : List Str}, List.Forall₂ (fun f ch => Below r.fn f ∧ Mentions f ch ∧ ∃ a b, fs = a ++ f :: b ∧
        ∀ g ∈ a, Below r.fn g → ¬ Mentions g ch) l k → (∀ ch ∈ k, ch ∈ components) → l.map (fun f => lower (comp f)) = k := by
      intro l k hf hk
      induction hf with
      | nil => rfl
      | cons p1 _ ih =>
        rw [List.map_cons, ih fun ch hc => hk ch (List.mem_cons_of_mem _ hc)]
        rw [← (hm _ (hin _ _ p1) p1.1 _ (hk _ List.mem_cons_self)).1 p1.2.1]
    exact this c3 hsub
  refine ⟨List.Nodup.of_map (fun f => lower (comp f)) (by rw [hmap]; exact hnd), fun f => ⟨fun hf => ?_, fun hf => ?_⟩⟩
  · rw [h2] at hf
    obtain ⟨k1, k2, k3, k4, _⟩ := channels_of _ _ _ f hf
    exact ⟨k1, (below_iff h1).2 ⟨k3, k4, k2⟩⟩
  · have hc := (hn f hf.1 hf.2).2.2.2.1
    have hcc := (c2 _ hc).2 ⟨f, hf.1, hf.2, (hm f hf.1 hf.2 _ hc).2 rfl⟩
    rw [← hmap] at hcc
    obtain ⟨g, hg, he⟩ := List.mem_map.1 hcc
    have hg' := hg
    rw [h2] at hg'
    obtain ⟨k1, k2, k3, k4, _⟩ := channels_of _ _ _ g hg'
    rw [← hi g k1 f hf.1 ((below_iff h1).2 ⟨k3, k4, k2⟩) hf.2 he]
    exact hg

/-- C278: every file of a run whose station and run have their files is a channel of the run. -/
def C278_claim : Prop := ∀ (fs : List Fn) (t : Sorted), sortByStation fs none = .ok t → ∀ s ∈ t.stations, ∀ r ∈ s.runs, ∀ f ∈ fs,
  Below r.fn f → f ∈ r.channels

/-- A directory: a station with a run of five channels and a temperature. -/
def exDir : List Fn := ["survey", "filters", "MT1", "MT1.b", "MT1.a", "MT1.a.magnetic.hx", "MT1.a.electric.ey", "MT1.a.magnetic.Hz",
  "MT1.a.auxiliary.temperature", "MT2"].map fun s => ⟨"d".toList, s.toList⟩

def exSorted : Sorted where
  survey := ⟨"d".toList, "survey".toList⟩
  filters := ⟨"d".toList, "filters".toList⟩
  stations := [⟨⟨"d".toList, "MT1".toList⟩,
    [⟨⟨"d".toList, "MT1.a".toList⟩, ["MT1.a.magnetic.hx", "MT1.a.magnetic.Hz", "MT1.a.electric.ey"].map fun s => ⟨"d".toList, s.toList⟩⟩,
     ⟨⟨"d".toList, "MT1.b".toList⟩, []⟩]⟩,
    ⟨⟨"d".toList, "MT2".toList⟩, []⟩]

example : sortByStation exDir none = .ok exSorted := by decide +kernel

/-- The hypotheses of `C278_named_partial` hold of the first run without the temperature. -/
example : ∃ t s r, sortByStation (exDir.eraseIdx 8) none = .ok t ∧ s ∈ t.stations ∧ r ∈ s.runs ∧ r.channels.length = 3 ∧
    r.channels.Nodup ∧ ∀ f, f ∈ r.channels ↔ f ∈ exDir.eraseIdx 8 ∧ Below r.fn f := by
  have hsort : sortByStation (exDir.eraseIdx 8) none = .ok exSorted := by decide +kernel
  have hr1 : isRun ⟨"d".toList, "MT1.a".toList⟩ = true := by decide +kernel
  refine ⟨_, _, _, hsort, List.mem_cons_self, List.mem_cons_self, by decide +kernel,
    C278_named_partial _ none _ hsort _ List.mem_cons_self _ List.mem_cons_self (fun f => (splitC '.' f.stem).getD 2 [])
      (fun f => (splitC '.' f.stem).getD 3 []) ?_ ?_ ?_⟩
  · intro a b h ha hb x hx hi
    have : a = "MT1".toList ∧ b = "a".toList := dot_inj ha (by decide +kernel) (h.symm.trans (by decide +kernel : _ = "MT1".toList ++ '.' :: "a".toList))
    rw [this.2] at hi
    have hk : ∀ x ∈ components, hasSub x (lower "a".toList) = false := by decide +kernel
    exact absurd (hasSub_iff.2 hi) (by rw [hk x hx]; simp)
  · intro f hf hb
    replace hb := (below_iff hr1).1 hb
    have hk : ∀ f ∈ exDir.eraseIdx 8, (stationOf f = stationOf ⟨"d".toList, "MT1.a".toList⟩ ∧ runOf f = runOf ⟨"d".toList, "MT1.a".toList⟩ ∧ isChannel f = true) →
        f.stem = "MT1.a".toList ++ '.' :: ((splitC '.' f.stem).getD 2 [] ++ '.' :: (splitC '.' f.stem).getD 3 []) ∧
          '.' ∉ (splitC '.' f.stem).getD 2 [] ∧ '.' ∉ (splitC '.' f.stem).getD 3 [] ∧ lower ((splitC '.' f.stem).getD 3 []) ∈ components ∧
          ∀ x ∈ components, hasSub x (lower ((splitC '.' f.stem).getD 2 [])) = false := by decide +kernel
    obtain ⟨k1, k2, k3, k4, k5⟩ := hk f hf hb
    exact ⟨k1, k2, k3, k4, fun x hx hi => absurd (hasSub_iff.2 hi) (by rw [k5 x hx]; simp)⟩
  · intro f hf g hg h1 h2 he
    replace h1 := (below_iff hr1).1 h1
    replace h2 := (below_iff hr1).1 h2
    have hk : ∀ f ∈ exDir.eraseIdx 8, ∀ g ∈ exDir.eraseIdx 8,
        (stationOf f = stationOf ⟨"d".toList, "MT1.a".toList⟩ ∧ runOf f = runOf ⟨"d".toList, "MT1.a".toList⟩ ∧ isChannel f = true) →
        (stationOf g = stationOf ⟨"d".toList, "MT1.a".toList⟩ ∧ runOf g = runOf ⟨"d".toList, "MT1.a".toList⟩ ∧ isChannel g = true) →
        lower ((splitC '.' f.stem).getD 3 []) = lower ((splitC '.' g.stem).getD 3 []) → f = g := by decide +kernel
    exact hk f hf g hg h1 h2 he

/-- C278 does not hold: a file of another component than the five is not listed. -/
theorem C278_refuted : ¬ C278_claim := by
  intro h
  have h1 := h exDir exSorted (by decide +kernel) ⟨⟨"d".toList, "MT1".toList⟩,
    [⟨⟨"d".toList, "MT1.a".toList⟩, ["MT1.a.magnetic.hx", "MT1.a.magnetic.Hz", "MT1.a.electric.ey"].map fun s => ⟨"d".toList, s.toList⟩⟩,
     ⟨⟨"d".toList, "MT1.b".toList⟩, []⟩]⟩ List.mem_cons_self
    ⟨⟨"d".toList, "MT1.a".toList⟩, ["MT1.a.magnetic.hx", "MT1.a.magnetic.Hz", "MT1.a.electric.ey"].map fun s => ⟨"d".toList, s.toList⟩⟩
    List.mem_cons_self ⟨"d".toList, "MT1.a.auxiliary.temperature".toList⟩ (by decide +kernel) ⟨"auxiliary.temperature".toList, by decide +kernel⟩
  exact absurd h1 (by decide +kernel)

/-! ## The experiment -/

theorem makeChannel_err (f : Fn) (g : Fn) : makeChannel f ≠ .ok g := by
  unfold makeChannel
  split
  · intro h; cases h
  · split <;> (intro h; cases h)

theorem makeRun_iff (r q : RunFiles) : makeRun r = .ok q ↔ q = r ∧ r.channels = [] := by
  obtain ⟨fn, ch⟩ := r
  unfold makeRun
  cases ch with
  | nil =>
    constructor
    · intro h; cases h; exact ⟨rfl, rfl⟩
    · rintro ⟨rfl, _⟩; rfl
  | cons a l =>
    constructor
    · intro h
      rw [List.mapM_cons] at h
      cases ha : makeChannel a with
      | ok g => exact absurd ha (makeChannel_err a g)
      | error e => rw [ha] at h; cases h
    · rintro ⟨_, h⟩; cases h

theorem mapM_same {α : Type} {f : α → Except PyErr α} {P : α → Prop} (hf : ∀ a b, f a = .ok b ↔ b = a ∧ P a) (l r : List α) :
    l.mapM f = .ok r ↔ r = l ∧ ∀ a ∈ l, P a := by
  constructor
  · intro h
    have h' := mapM_forall h
    clear h
    induction h' with
    | nil => exact ⟨rfl, fun a ha => by cases ha⟩
    | cons h1 _ ih =>
      obtain ⟨e, p⟩ := (hf _ _).1 h1
      refine ⟨by rw [e, ih.1], fun a ha => ?_⟩
      rcases List.mem_cons.1 ha with rfl | ha
      · exact p
      · exact ih.2 a ha
  · rintro ⟨rfl, h⟩
    apply forall_mapM
    induction r with
    | nil => exact .nil
    | cons a l ih => exact .cons ((hf a a).2 ⟨rfl, h a List.mem_cons_self⟩) (ih fun b hb => h b (List.mem_cons_of_mem _ hb))

theorem map_ok {α β : Type} {x : Except PyErr α} {g : α → β} {b : β} : x.map g = .ok b ↔ ∃ a, x = .ok a ∧ g a = b := by
  cases x with
  | error e => exact ⟨fun h => (by cases h), fun ⟨a, h, _⟩ => by cases h⟩
  | ok a =>
    constructor
    · intro h; cases h; exact ⟨a, rfl, rfl⟩
    · rintro ⟨_, h, rfl⟩; cases h; rfl

theorem makeStation_iff (s q : StationFiles) : makeStation s = .ok q ↔ q = s ∧ ∀ r ∈ s.runs, r.channels = [] := by
  unfold makeStation
  rw [map_ok]
  constructor
  · rintro ⟨l, h, rfl⟩
    obtain ⟨rfl, h2⟩ := (mapM_same makeRun_iff _ _).1 h
    exact ⟨rfl, h2⟩
  · rintro ⟨rfl, h⟩
    exact ⟨_, (mapM_same makeRun_iff _ _).2 ⟨rfl, h⟩, rfl⟩

/-- C279 (part): an experiment is made exactly if the files can be sorted and no run has a channel; its parts are then of the files as
sorted. -/
theorem C279_iff_partial (fs : List Fn) (c : Option (List Str)) (e : Sorted) :
    makeExperiment fs c = .ok e ↔ sortByStation fs c = .ok e ∧ ∀ s ∈ e.stations, ∀ r ∈ s.runs, r.channels = [] := by
  unfold makeExperiment
  cases h : sortByStation fs c with
  | error x => exact ⟨fun h => (by cases h), fun h => by cases h.1⟩
  | ok t =>
    show Except.map _ _ = _ ↔ _
    rw [map_ok]
    constructor
    · rintro ⟨l, h1, rfl⟩
      obtain ⟨rfl, h2⟩ := (mapM_same makeStation_iff _ _).1 h1
      exact ⟨rfl, h2⟩
    · rintro ⟨h1, h2⟩
      cases h1
      exact ⟨_, (mapM_same makeStation_iff _ _).2 ⟨rfl, h2⟩, rfl⟩

/-- C279 (part): no experiment is made of a directory in which a run has a file that mentions a component. -/
theorem C279_fails_partial (fs : List Fn) (c : Option (List Str)) (t : Sorted) (h : sortByStation fs c = .ok t) (s : StationFiles)
    (hs : s ∈ t.stations) (r : RunFiles) (hr : r ∈ s.runs) (f : Fn) (hf : f ∈ fs) (hb : Below r.fn f) (ch : Str)
    (hc : ch ∈ ["hx".toList, "hy".toList, "hz".toList, "ex".toList, "ey".toList]) (hm : Mentions f ch) :
    ∃ x, makeExperiment fs c = .error x := by
  cases he : makeExperiment fs c with
  | error x => exact ⟨x, rfl⟩
  | ok e =>
    obtain ⟨h1, h2⟩ := (C279_iff_partial fs c e).1 he
    rw [h] at h1
    cases h1
    obtain ⟨comps, _, c2, c3⟩ := C278_channels_partial fs c t h s hs r hr
    have := (c2 ch hc).2 ⟨f, hf, hb, hm⟩
    rw [h2 s hs r hr] at c3
    cases c3
    cases this

/-- C279: an experiment can be made of a directory whose files can be sorted. -/
def C279_claim : Prop := ∀ (fs : List Fn) (t : Sorted), sortByStation fs none = .ok t → ∃ e, makeExperiment fs none = .ok e

/-- C279 does not hold: one magnetic channel is enough. -/
theorem C279_refuted : ¬ C279_claim := by
  intro h
  obtain ⟨e, he⟩ := h exDir exSorted (by decide +kernel)
  have : makeExperiment exDir none = .error .attributeError := by decide +kernel
  rw [this] at he
  cases he

/-- A directory without channels. -/
example : ∃ e, makeExperiment (exDir.take 5) none = .ok e ∧ e.stations.length = 1 := ⟨_, rfl, by decide +kernel⟩

/-! ## The selection of stations -/

/-- A station of the name has a file in the directory. -/
def HasStation (fs : List Fn) (s : Str) : Prop :=
  '.' ∉ s ∧ s ∉ ["filters".toList, "_filters".toList, "_survey".toList, "survey".toList] ∧ ∃ f ∈ fs, f.stem = s

theorem isStation_iff (f : Fn) : isStation f = true ↔ '.' ∉ f.stem ∧ f.stem ∉ ["filters".toList, "_filters".toList, "_survey".toList, "survey".toList] := by
  unfold isStation
  generalize hl : ["filters".toList, "_filters".toList, "_survey".toList, "survey".toList] = l
  by_cases h : f.stem ∈ l
  · have : l.contains f.stem = true := List.contains_iff_mem.2 h
    rw [this]
    exact ⟨fun h => (by cases h), fun g => absurd h g.2⟩
  · have : l.contains f.stem = false := by
      cases hc : l.contains f.stem with
      | false => rfl
      | true => exact absurd (List.contains_iff_mem.1 hc) h
    rw [this]
    show (f.stem.count '.' == 0) = true ↔ _
    rw [beq_iff_eq, List.count_eq_zero]
    exact ⟨fun g => ⟨g, h⟩, fun g => g.1⟩

theorem first_ok {l : List Fn} : (∃ f, first l = .ok f) ↔ ∃ f, f ∈ l := by
  cases l with
  | nil => exact ⟨fun ⟨f, h⟩ => (by cases h), fun ⟨f, h⟩ => by cases h⟩
  | cons a l => exact ⟨fun _ => ⟨a, List.mem_cons_self⟩, fun _ => ⟨a, rfl⟩⟩

theorem sortStation_ok (fs : List Fn) (s : Str) : (∃ r, sortStation fs s = .ok r) ↔ HasStation fs s := by
  constructor
  · rintro ⟨r, h⟩
    obtain ⟨h1, h2, h3⟩ := station_fn h
    obtain ⟨d1, d2⟩ := stem_station h2
    rw [d2] at h3
    rw [isStation_iff, h3] at h2
    exact ⟨h2.1, h2.2, r.fn, h1, h3⟩
  · rintro ⟨h1, h2, f, h3, rfl⟩
    have hs := (isStation_iff f).2 ⟨h1, h2⟩
    obtain ⟨g, hg⟩ := first_ok.2 ⟨f, (List.mem_filter (p := fun x => stationOf x == f.stem && isStation x)).2
      ⟨h3, by rw [hs, (stem_station hs).2]; simp⟩⟩
    unfold sortStation
    rw [hg]
    exact ⟨_, rfl⟩

theorem sort_ok (fs : List Fn) (c : Option (List Str)) : (∃ t, sortByStation fs c = .ok t) ↔
    (∃ f ∈ fs, f.stem ∈ ["survey".toList, "_survey".toList]) ∧ (∃ f ∈ fs, f.stem ∈ ["filters".toList, "_filters".toList]) ∧
      ∀ s ∈ wanted fs c, HasStation fs s := by
  have hv : (∃ f ∈ fs, f.stem ∈ ["survey".toList, "_survey".toList]) ↔ ∃ f, first (fs.filter isSurvey) = .ok f := by
    rw [first_ok]
    exact ⟨fun ⟨f, h1, h2⟩ => ⟨f, List.mem_filter.2 ⟨h1, List.contains_iff_mem.2 h2⟩⟩,
      fun ⟨f, h⟩ => ⟨f, (List.mem_filter.1 h).1, List.contains_iff_mem.1 (List.mem_filter.1 h).2⟩⟩
  have hw : (∃ f ∈ fs, f.stem ∈ ["filters".toList, "_filters".toList]) ↔ ∃ f, first (fs.filter isFilters) = .ok f := by
    rw [first_ok]
    exact ⟨fun ⟨f, h1, h2⟩ => ⟨f, List.mem_filter.2 ⟨h1, List.contains_iff_mem.2 h2⟩⟩,
      fun ⟨f, h⟩ => ⟨f, (List.mem_filter.1 h).1, List.contains_iff_mem.1 (List.mem_filter.1 h).2⟩⟩
  rw [hv, hw]
  constructor
  · rintro ⟨t, h⟩
    obtain ⟨h1, h2, h3⟩ := sort_inv h
    refine ⟨⟨_, h1⟩, ⟨_, h2⟩, fun s hs => (sortStation_ok fs s).1 ?_⟩
    obtain ⟨i, hi, rfl⟩ := List.mem_iff_getElem.1 hs
    have hl := h3.length_eq
    exact ⟨_, h3.get hi (by omega)⟩
  · rintro ⟨⟨a, h1⟩, ⟨b, h2⟩, h3⟩
    have : ∀ l : List Str, (∀ s ∈ l, HasStation fs s) → ∃ r, l.mapM (sortStation fs) = .ok r := by
      intro l
      induction l with
      | nil => exact fun _ => ⟨[], rfl⟩
      | cons x l ih =>
        intro h
        obtain ⟨y, hy⟩ := (sortStation_ok fs x).2 (h x List.mem_cons_self)
        obtain ⟨ys, hys⟩ := ih fun s hs => h s (List.mem_cons_of_mem _ hs)
        exact ⟨y :: ys, by rw [List.mapM_cons, hy, hys]; rfl⟩
    obtain ⟨r, hr⟩ := this _ h3
    refine ⟨⟨a, b, r⟩, ?_⟩
    unfold sortByStation
    rw [h1, h2]
    show Except.map _ (List.mapM _ _) = _
    rw [hr]
    rfl

theorem stations_eq (fs : List Fn) : stations fs = (fs.filter isStation).map Fn.stem :=
  List.map_congr_left fun f hf => (stem_station (List.mem_filter.1 hf).2).2

theorem has_stations (fs : List Fn) : ∀ s ∈ stations fs, HasStation fs s := by
  intro s hs
  rw [stations_eq] at hs
  obtain ⟨f, hf, rfl⟩ := List.mem_map.1 hs
  have h1 := List.mem_filter.1 hf
  have h2 := (isStation_iff f).1 h1.2
  exact ⟨h2.1, h2.2, f, h1.1, rfl⟩

/-- C280: the files can be sorted without a selection exactly if there are a file of the survey and one of the filters. -/
theorem C280_all (fs : List Fn) : (∃ t, sortByStation fs none = .ok t) ↔
    (∃ f ∈ fs, f.stem ∈ ["survey".toList, "_survey".toList]) ∧ (∃ f ∈ fs, f.stem ∈ ["filters".toList, "_filters".toList]) := by
  rw [sort_ok]
  exact ⟨fun h => ⟨h.1, h.2.1⟩, fun h => ⟨h.1, h.2, has_stations fs⟩⟩

/-- C280: an empty selection is none. -/
theorem C280_empty (fs : List Fn) : sortByStation fs (some []) = sortByStation fs none := rfl

/-- C280: the files of stations that are chosen can be sorted exactly if they could without, and every one of the stations has a file;
otherwise an index error is raised. The stations are then those that are chosen, in the order in which they are, and have the files they
have without a selection. -/
theorem C280_chosen (fs : List Fn) (l : List Str) (hl : l ≠ []) :
    ((∃ t, sortByStation fs (some l) = .ok t) ↔ (∃ t, sortByStation fs none = .ok t) ∧ ∀ s ∈ l, HasStation fs s) ∧
    (∀ x, sortByStation fs (some l) = .error x → x = .indexError) ∧
    ∀ t, sortByStation fs (some l) = .ok t → t.stations.map (fun s => s.fn.stem) = l ∧
      ∀ u, sortByStation fs none = .ok u → u.survey = t.survey ∧ u.filters = t.filters ∧ ∀ s ∈ t.stations, s ∈ u.stations := by
  have hw : wanted fs (some l) = l := by
    cases l with
    | nil => exact absurd rfl hl
    | cons a l => rfl
  refine ⟨?_, ?_, ?_⟩
  · rw [sort_ok, C280_all, hw, and_assoc]
  · intro x h
    have hf : ∀ l y, first l = .error y → y = .indexError := by
      intro l y h
      cases l with
      | nil => cases h; rfl
      | cons a l => cases h
    unfold sortByStation at h
    cases h1 : first (fs.filter isSurvey) with
    | error y => rw [h1] at h; cases h; exact hf _ _ h1
    | ok a =>
      rw [h1] at h
      replace h : (first (fs.filter isFilters)).bind _ = _ := h
      cases h2 : first (fs.filter isFilters) with
      | error y => rw [h2] at h; cases h; exact hf _ _ h2
      | ok b =>
        rw [h2] at h
        replace h : Except.map _ (List.mapM (sortStation fs) _) = _ := h
        cases h3 : (wanted fs (some l)).mapM (sortStation fs) with
        | ok r => rw [h3] at h; cases h
        | error y =>
          rw [h3] at h
          cases h
          refine mapM_err (fun s z hz => ?_) h3
          unfold sortStation at hz
          cases h4 : first (fs.filter fun f => stationOf f == s && isStation f) with
          | ok g => rw [h4] at hz; cases hz
          | error w => rw [h4] at hz; cases hz; exact hf _ _ h4
  · intro t h
    obtain ⟨h1, h2, h3⟩ := sort_inv h
    rw [hw] at h3
    constructor
    · have : ∀ {l : List Str} {r : List StationFiles}, List.Forall₂ (fun s r => sortStation fs s = .ok r) l r → r.map (fun s => s.fn.stem) = l := by
        intro l r hf
        induction hf with
        | nil => rfl
        | cons h1 _ ih =>
          have := station_fn h1
          rw [List.map_cons, ih, ← (stem_station this.2.1).2, this.2.2]
      exact this h3
    · intro u hu
      obtain ⟨u1, u2, u3⟩ := sort_inv hu
      rw [h1] at u1
      rw [h2] at u2
      refine ⟨(Except.ok.inj u1).symm, (Except.ok.inj u2).symm, fun s hs => ?_⟩
      obtain ⟨x, hx, hr⟩ := forall_mem h3 s hs
      have hin : x ∈ wanted fs none := by
        show x ∈ stations fs
        obtain ⟨g1, g2, g3⟩ := station_fn hr
        exact List.mem_map.2 ⟨s.fn, List.mem_filter.2 ⟨g1, g2⟩, g3⟩
      obtain ⟨i, hi, rfl⟩ := List.mem_iff_getElem.1 hin
      have hl := u3.length_eq
      have hg := u3.get hi (by omega)
      rw [List.get_eq_getElem, hr] at hg
      rw [Except.ok.inj hg]
      exact List.getElem_mem _

/-- A selection in another order than that of the files. -/
example : ∃ t, sortByStation exDir (some ["MT2".toList, "MT1".toList]) = .ok t ∧ t.stations = exSorted.stations.reverse := ⟨_, rfl, by decide +kernel⟩

example : sortByStation exDir (some ["MT2".toList, "MT3".toList]) = .error .indexError := by decide +kernel

/-! ## Station files of the same name -/

/-- C281: every station file is used, once. -/
def C281_claim : Prop := ∀ (fs : List Fn) (t : Sorted), fs.Nodup → sortByStation fs none = .ok t →
  (t.stations.map StationFiles.fn).Perm (fs.filter isStation)

/-- C281 (part): if the names of the station files are different, the stations are those of the files, each from its own. -/
theorem C281_used_partial (fs : List Fn) (t : Sorted) (hn : ((fs.filter isStation).map Fn.stem).Nodup) (h : sortByStation fs none = .ok t) :
    t.stations.map StationFiles.fn = fs.filter isStation := by
  obtain ⟨_, _, h3⟩ := sort_inv h
  replace h3 : List.Forall₂ (fun s r => sortStation fs s = .ok r) (stations fs) t.stations := h3
  rw [stations_eq] at h3
  have hinj : ∀ f ∈ fs.filter isStation, ∀ g ∈ fs.filter isStation, f.stem = g.stem → f = g :=
    fun f hf g hg => List.inj_on_of_nodup_map hn hf hg
  have : ∀ {l : List Fn} {r : List StationFiles}, (∀ f ∈ l, f ∈ fs.filter isStation) →
      List.Forall₂ (fun s r => sortStation fs s = .ok r) (l.map Fn.stem) r → r.map StationFiles.fn = l := by
    intro l
    induction l with
    | nil => intro r _ hf; cases hf; rfl
    | cons a l ih =>
      intro r hm hf
      cases hf with
      | cons h1 h2 =>
        obtain ⟨g1, g2, g3⟩ := station_fn h1
        rw [List.map_cons, ih (fun f hf => hm f (List.mem_cons_of_mem _ hf)) h2]
        rw [hinj _ (List.mem_filter.2 ⟨g1, g2⟩) a (hm a List.mem_cons_self) (by rw [← (stem_station g2).2, g3])]
  exact this (fun f hf => hf) h3

/-- C281 (part): of station files of the same name the first is used for every one of them. -/
theorem C281_first_partial (fs : List Fn) (t : Sorted) (h : sortByStation fs none = .ok t) (s : StationFiles) (hs : s ∈ t.stations) :
    ∃ a b, fs = a ++ s.fn :: b ∧ ∀ g ∈ a, g.stem ≠ s.fn.stem := by
  obtain ⟨_, _, h3⟩ := sort_inv h
  obtain ⟨x, _, hx⟩ := forall_mem h3 s hs
  obtain ⟨g1, g2, g3⟩ := station_fn hx
  have h1 := (station_inv hx).1
  have hf : fs.find? (fun f => stationOf f == x && isStation f) = some s.fn := by
    rw [← List.head?_filter]
    cases hl : fs.filter (fun f => stationOf f == x && isStation f) with
    | nil => rw [hl] at h1; cases h1
    | cons a l => rw [hl] at h1; cases h1; rfl
  obtain ⟨a, b, e1, _, e3⟩ := find_split hf
  refine ⟨a, b, e1, fun g hg he => ?_⟩
  have := e3 g hg
  have hst := (isStation_iff g).2 (by rw [he]; exact (isStation_iff s.fn).1 g2)
  rw [hst, (stem_station hst).2, he, ← (stem_station g2).2, g3] at this
  simp at this

/-- Two directories with a station of the same name. -/
def exTwo : List Fn := [⟨"d".toList, "survey".toList⟩, ⟨"d".toList, "filters".toList⟩, ⟨"d".toList, "MT1".toList⟩, ⟨"e".toList, "MT1".toList⟩]

/-- C281 does not hold: the second file of a name is not used, the first is twice. -/
theorem C281_refuted : ¬ C281_claim := by
  intro h
  have := h exTwo ⟨⟨"d".toList, "survey".toList⟩, ⟨"d".toList, "filters".toList⟩, [⟨⟨"d".toList, "MT1".toList⟩, []⟩, ⟨⟨"d".toList, "MT1".toList⟩, []⟩]⟩
    (by decide +kernel) (by decide +kernel)
  have hm := this.mem_iff (a := ⟨"e".toList, "MT1".toList⟩)
  exact absurd (hm.2 (by decide +kernel)) (by decide +kernel)

end Verif.ManyFiles
