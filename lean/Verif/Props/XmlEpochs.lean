import Mathlib.Data.List.Pairwise
import Mathlib.Tactic.Ring
import Verif.Model.XmlEpochs
import Verif.Props.XmlText
import Verif.Lemmas.OD
import Verif.Lemmas.Sorted

/-! # Channel epochs (C74, C126) -/

namespace Verif.XmlEpochs
open Verif.Text Verif.XmlText

variable {σ ρ : Type} [DecidableEq σ] {r3 r2 : Rat → Rat}

theorem compare_iff {a b : XChan σ ρ} : compare r3 r2 a b = true ↔
    a.code = b.code ∧ a.rate = b.rate ∧ a.sensor = b.sensor ∧ r3 a.lat = r3 b.lat ∧
      r3 a.lon = r3 b.lon ∧ r2 a.azimuth = r2 b.azimuth ∧ r2 a.dip = r2 b.dip := by
  unfold compare
  split_ifs <;> simp_all

/-- Comparing channels is an equivalence, whatever rounding does. -/
theorem C74_equivalence (r3 r2 : Rat → Rat) (a b c : XChan σ ρ) :
    compare r3 r2 a a = true ∧ compare r3 r2 a b = compare r3 r2 b a ∧
    (compare r3 r2 a b = true → compare r3 r2 b c = true → compare r3 r2 a c = true) := by
  refine ⟨compare_iff.2 (by simp), ?_, ?_⟩
  · rw [Bool.eq_iff_iff, compare_iff, compare_iff]
    constructor <;> rintro ⟨h1, h2, h3, h4, h5, h6, h7⟩ <;>
      exact ⟨h1.symm, h2.symm, h3.symm, h4.symm, h5.symm, h6.symm, h7.symm⟩
  · rw [compare_iff, compare_iff, compare_iff]
    rintro ⟨h1, h2, h3, h4, h5, h6, h7⟩ ⟨g1, g2, g3, g4, g5, g6, g7⟩
    exact ⟨h1.trans g1, h2.trans g2, h3.trans g3, h4.trans g4, h5.trans g5, h6.trans g6,
      h7.trans g7⟩

/-! ## the epoch that is compared -/

omit [DecidableEq σ] in
theorem latest_none {code : Str} {st : List (XChan σ ρ)} (h : latest code st = none) :
    ∀ e ∈ st, e.code ≠ code := by
  intro e he hc
  unfold latest at h
  rw [List.find?_eq_none] at h
  obtain ⟨i, hi, hie⟩ := List.mem_iff_getElem.1 he
  have hmem : (e, i) ∈ st.zipIdx.filter (fun p => decide (p.1.code = code)) := by
    rw [List.mem_filter]
    refine ⟨?_, by simpa using hc⟩
    rw [List.mem_zipIdx_iff_getElem?]
    simp [hi, hie]
  set ex := st.zipIdx.filter (fun p => decide (p.1.code = code))
  have hne : ex.map (fun p => p.1.start) ≠ [] := by
    intro h0
    rw [List.map_eq_nil_iff] at h0
    rw [h0] at hmem; cases hmem
  obtain ⟨m, hm⟩ := Option.isSome_iff_exists.1 (List.isSome_max?_iff.2 hne)
  have := List.max?_mem hm
  obtain ⟨p, hp, hpm⟩ := List.mem_map.1 this
  have := h p hp
  simp only [maxStart, hm, decide_eq_true_eq] at this
  exact this (by rw [← hpm])

omit [DecidableEq σ] in
theorem latest_some {code : Str} {st : List (XChan σ ρ)} {e : XChan σ ρ} {i : Nat}
    (h : latest code st = some (e, i)) :
    st[i]? = some e ∧ e.code = code ∧ ∀ e' ∈ st, e'.code = code → e'.start ≤ e.start := by
  unfold latest at h
  have h1 := List.mem_of_find?_eq_some h
  have h2 := List.find?_some h
  rw [List.mem_filter, List.mem_zipIdx_iff_getElem?] at h1
  simp only [decide_eq_true_eq] at h1 h2
  refine ⟨h1.1, h1.2, ?_⟩
  intro e' he' hc
  obtain ⟨j, hj, hje⟩ := List.mem_iff_getElem.1 he'
  have hmem : (e', j) ∈ st.zipIdx.filter (fun p => decide (p.1.code = code)) := by
    rw [List.mem_filter]
    refine ⟨?_, by simpa using hc⟩
    rw [List.mem_zipIdx_iff_getElem?]
    simp [hj, hje]
  unfold maxStart at h2
  exact (List.max?_eq_some_iff.1 h2.symm).2 _ (List.mem_map.2 ⟨_, hmem, rfl⟩)

/-! ## one step -/

/-- One pair of run id and channel. -/
def step (r3 r2 : Rat → Rat) (st : List (XChan σ ρ)) (p : Str × XChan σ ρ) : List (XChan σ ρ) :=
  addChannel r3 r2 st p.1 p.2

/-- All channels, in the order in which they are written. -/
def flat (runs : List (Str × List (XChan σ ρ))) : List (Str × XChan σ ρ) :=
  runs.flatMap (fun r => r.2.map (fun x => (r.1, x)))

omit [DecidableEq σ] in
theorem mem_flat {runs : List (Str × List (XChan σ ρ))} {p : Str × XChan σ ρ} :
    p ∈ flat runs ↔ ∃ r ∈ runs, r.1 = p.1 ∧ p.2 ∈ r.2 := by
  unfold flat
  simp only [List.mem_flatMap, List.mem_map]
  constructor
  · rintro ⟨r, hr, x, hx, rfl⟩; exact ⟨r, hr, rfl, hx⟩
  · rintro ⟨r, hr, h1, h2⟩; exact ⟨r, hr, p.2, h2, by rw [h1]⟩

theorem write_eq (runs : List (Str × List (XChan σ ρ))) :
    writeStation r3 r2 runs = (flat runs).foldl (step r3 r2) [] := by
  unfold writeStation flat
  generalize ([] : List (XChan σ ρ)) = st
  induction runs generalizing st with
  | nil => rfl
  | cons r rs ih =>
    simp only [List.foldl_cons, List.flatMap_cons, List.foldl_append]
    rw [ih]
    congr 1
    unfold addRun
    rw [List.foldl_map]; rfl

theorem step_cases (st : List (XChan σ ρ)) (p : Str × XChan σ ρ) :
    step r3 r2 st p = st ++ [fresh p.1 p.2] ∨
    ∃ e i, st[i]? = some e ∧ compare r3 r2 p.2 e = true ∧
      (∀ e' ∈ st, e'.code = p.2.code → e'.start ≤ e.start) ∧
      step r3 r2 st p = st.set i (absorb p.1 p.2 e) := by
  unfold step addChannel
  cases h : latest p.2.code st with
  | none => left; rfl
  | some q =>
    obtain ⟨e, i⟩ := q
    obtain ⟨h1, h2, h3⟩ := latest_some h
    by_cases hc : compare r3 r2 p.2 e = true
    · right
      exact ⟨e, i, h1, hc, h3, by simp [hc]⟩
    · left; simp [hc]

theorem mem_set_old {α : Type} {l : List α} {i : Nat} {e b y : α} (h : l[i]? = some e) (hy : y ∈ l) :
    y ∈ l.set i b ∨ y = e := by
  obtain ⟨j, hj, rfl⟩ := List.mem_iff_getElem.1 hy
  by_cases hij : i = j
  · right
    subst hij
    rw [List.getElem?_eq_getElem hj] at h
    exact Option.some.inj h
  · left
    exact List.mem_iff_getElem.2 ⟨j, by simpa using hj, by simp [hij]⟩

theorem mem_set_new {α : Type} {l : List α} {i : Nat} {e b : α} (h : l[i]? = some e) :
    b ∈ l.set i b := by
  obtain ⟨hi, _⟩ := List.getElem?_eq_some_iff.1 h
  exact List.mem_iff_getElem.2 ⟨i, by simpa using hi, by simp⟩

theorem addId_sub {rid : Str} {cs : List XComment} {c : XComment} (h : c ∈ cs) : c ∈ addId rid cs := by
  unfold addId; split
  · exact h
  · exact List.mem_append_left _ h

theorem addId_value (rid : Str) (cs : List XComment) : rid ∈ (addId rid cs).map XComment.value := by
  unfold addId; split
  · assumption
  · simp

theorem addId_mem {rid : Str} {cs : List XComment} {c : XComment} (h : c ∈ addId rid cs) :
    c ∈ cs ∨ c = ⟨rid, some "mt.run.id".toList⟩ := by
  unfold addId at h; split at h
  · exact Or.inl h
  · simpa using h

theorem compare_absorb (rid : Str) (x e y : XChan σ ρ) :
    compare r3 r2 y (absorb rid x e) = compare r3 r2 y e := rfl

theorem compare_fresh (rid : Str) (x y : XChan σ ρ) :
    compare r3 r2 y (fresh rid x) = compare r3 r2 y x := rfl

theorem compare_self (x : XChan σ ρ) : compare r3 r2 x x = true := compare_iff.2 (by simp)

/-! ## nothing is lost -/

/-- An epoch holds a channel of a run. -/
def Holds (r3 r2 : Rat → Rat) (e : XChan σ ρ) (p : Str × XChan σ ρ) : Prop :=
  compare r3 r2 p.2 e = true ∧ p.1 ∈ e.comments.map XComment.value ∧
    e.start ≤ p.2.start ∧ p.2.stop ≤ e.stop

theorem holds_fresh (p : Str × XChan σ ρ) : Holds r3 r2 (fresh p.1 p.2) p :=
  ⟨compare_iff.2 (by simp [fresh]), addId_value _ _, by simp [fresh], by simp [fresh]⟩

theorem holds_absorb {p q : Str × XChan σ ρ} {e : XChan σ ρ} (h : Holds r3 r2 e q) :
    Holds r3 r2 (absorb p.1 p.2 e) q := by
  obtain ⟨h1, h2, h3, h4⟩ := h
  refine ⟨h1, ?_, ?_, ?_⟩
  · obtain ⟨c, hc, hv⟩ := List.mem_map.1 h2
    exact List.mem_map.2 ⟨c, addId_sub hc, hv⟩
  · simp only [absorb]; split <;> omega
  · simp only [absorb]; split <;> omega

theorem holds_absorb_self {p : Str × XChan σ ρ} {e : XChan σ ρ} (h : compare r3 r2 p.2 e = true) :
    Holds r3 r2 (absorb p.1 p.2 e) p := by
  refine ⟨h, addId_value _ _, ?_, ?_⟩
  · simp only [absorb]; split <;> omega
  · simp only [absorb]; split <;> omega

theorem holds_step (st : List (XChan σ ρ)) (p : Str × XChan σ ρ) :
    (∃ e ∈ step r3 r2 st p, Holds r3 r2 e p) ∧
    ∀ q, (∃ e ∈ st, Holds r3 r2 e q) → ∃ e ∈ step r3 r2 st p, Holds r3 r2 e q := by
  rcases step_cases (r3 := r3) (r2 := r2) st p with h | ⟨e, i, hi, hc, -, h⟩
  · rw [h]
    refine ⟨⟨_, by simp, holds_fresh p⟩, ?_⟩
    rintro q ⟨e, he, hq⟩
    exact ⟨e, by simp [he], hq⟩
  · rw [h]
    refine ⟨⟨_, mem_set_new hi, holds_absorb_self hc⟩, ?_⟩
    rintro q ⟨e', he', hq⟩
    rcases mem_set_old (b := absorb p.1 p.2 e) hi he' with h' | rfl
    · exact ⟨e', h', hq⟩
    · exact ⟨_, mem_set_new hi, holds_absorb hq⟩

/-- Nothing is lost: every channel of every run is held by an epoch that agrees with it in all
that is compared, carries the run's id in a comment, and spans the channel's times. -/
theorem C74_held (r3 r2 : Rat → Rat) (runs : List (Str × List (XChan σ ρ))) (run : Str × List (XChan σ ρ)) (hr : run ∈ runs)
    (x : XChan σ ρ) (hx : x ∈ run.2) :
    ∃ e ∈ writeStation r3 r2 runs, compare r3 r2 x e = true ∧
      run.1 ∈ e.comments.map XComment.value ∧ e.start ≤ x.start ∧ x.stop ≤ e.stop := by
  rw [write_eq]
  have key : ∀ (l : List (Str × XChan σ ρ)) (st : List (XChan σ ρ)) (q : Str × XChan σ ρ),
      (q ∈ l ∨ ∃ e ∈ st, Holds r3 r2 e q) → ∃ e ∈ l.foldl (step r3 r2) st, Holds r3 r2 e q := by
    intro l
    induction l with
    | nil => rintro st q (h | h); · cases h
             · exact h
    | cons p l ih =>
      intro st q h
      rw [List.foldl_cons]
      apply ih
      rcases h with h | h
      · rcases List.mem_cons.1 h with rfl | h
        · exact Or.inr (holds_step st q).1
        · exact Or.inl h
      · exact Or.inr ((holds_step st p).2 q h)
  exact key (flat runs) [] (run.1, x) (Or.inl (mem_flat.2 ⟨run, hr, rfl, hx⟩))

/-! ## nothing is made up -/

/-- Where an epoch comes from. -/
def Made (r3 r2 : Rat → Rat) (done : List (Str × XChan σ ρ)) (e : XChan σ ρ) : Prop :=
  ∃ p ∈ done, { e with start := p.2.start, stop := p.2.stop, comments := p.2.comments } = p.2 ∧
    (∃ q ∈ done, compare r3 r2 q.2 e = true ∧ e.start = q.2.start) ∧
    (∃ q ∈ done, compare r3 r2 q.2 e = true ∧ e.stop = q.2.stop) ∧
    ∀ c ∈ e.comments, c ∈ p.2.comments ∨
      ∃ q ∈ done, compare r3 r2 q.2 e = true ∧ c = ⟨q.1, some "mt.run.id".toList⟩

theorem Made.mono {done : List (Str × XChan σ ρ)} {e : XChan σ ρ} (p : Str × XChan σ ρ)
    (h : Made r3 r2 done e) : Made r3 r2 (done ++ [p]) e := by
  obtain ⟨a, ha, h1, ⟨b, hb, h2⟩, ⟨c, hc, h3⟩, h4⟩ := h
  refine ⟨a, by simp [ha], h1, ⟨b, by simp [hb], h2⟩, ⟨c, by simp [hc], h3⟩, ?_⟩
  intro k hk
  rcases h4 k hk with h | ⟨q, hq, h⟩
  · exact Or.inl h
  · exact Or.inr ⟨q, by simp [hq], h⟩

theorem made_fresh (done : List (Str × XChan σ ρ)) (p : Str × XChan σ ρ) :
    Made r3 r2 (done ++ [p]) (fresh p.1 p.2) := by
  refine ⟨p, by simp, rfl, ⟨p, by simp, compare_self p.2, rfl⟩, ⟨p, by simp, compare_self p.2, rfl⟩, ?_⟩
  intro c hc
  rcases addId_mem hc with h | h
  · exact Or.inl h
  · exact Or.inr ⟨p, by simp, compare_self p.2, h⟩

theorem made_absorb {done : List (Str × XChan σ ρ)} {p : Str × XChan σ ρ} {e : XChan σ ρ}
    (hc : compare r3 r2 p.2 e = true) (h : Made r3 r2 done e) :
    Made r3 r2 (done ++ [p]) (absorb p.1 p.2 e) := by
  obtain ⟨a, ha, h1, ⟨b, hb, h2⟩, ⟨c, hc', h3⟩, h4⟩ := h.mono p
  refine ⟨a, ha, h1, ?_, ?_, ?_⟩
  · by_cases hs : p.2.start < e.start
    · exact ⟨p, by simp, hc, by simp [absorb, hs]⟩
    · exact ⟨b, hb, h2.1, by simp only [absorb, if_neg hs]; exact h2.2⟩
  · by_cases hs : p.2.stop > e.stop
    · exact ⟨p, by simp, hc, by simp [absorb, hs]⟩
    · exact ⟨c, hc', h3.1, by simp only [absorb, if_neg hs]; exact h3.2⟩
  · intro k hk
    rcases addId_mem hk with h | h
    · exact h4 k h
    · exact Or.inr ⟨p, by simp, hc, h⟩

theorem made_fold (l : List (Str × XChan σ ρ)) : ∀ (done : List (Str × XChan σ ρ)) (st : List (XChan σ ρ)),
    (∀ e ∈ st, Made r3 r2 done e) → ∀ e ∈ l.foldl (step r3 r2) st, Made r3 r2 (done ++ l) e := by
  induction l with
  | nil => intro done st h; simpa using h
  | cons p l ih =>
    intro done st h
    rw [List.foldl_cons]
    have : done ++ p :: l = (done ++ [p]) ++ l := by simp
    rw [this]
    apply ih
    intro e he
    rcases step_cases (r3 := r3) (r2 := r2) st p with hs | ⟨e', i, hi, hc, -, hs⟩ <;> rw [hs] at he
    · rcases List.mem_append.1 he with he | he
      · exact (h e he).mono p
      · simp only [List.mem_singleton] at he
        subst he; exact made_fresh done p
    · rcases List.mem_or_eq_of_mem_set he with he | rfl
      · exact (h e he).mono p
      · exact made_absorb hc (h e' (List.mem_of_getElem? hi))

/-- Nothing is made up: an epoch is one of the written channels, apart from its times and comments;
its start and its end are those of channels it agrees with, and each of its comments is one
of that channel or the id of a run with a channel it agrees with. -/
theorem C74_made (r3 r2 : Rat → Rat) (runs : List (Str × List (XChan σ ρ))) (e : XChan σ ρ)
    (he : e ∈ writeStation r3 r2 runs) :
    ∃ run ∈ runs, ∃ x ∈ run.2,
      { e with start := x.start, stop := x.stop, comments := x.comments } = x ∧
      (∃ run' ∈ runs, ∃ y ∈ run'.2, compare r3 r2 y e = true ∧ e.start = y.start) ∧
      (∃ run' ∈ runs, ∃ y ∈ run'.2, compare r3 r2 y e = true ∧ e.stop = y.stop) ∧
      ∀ c ∈ e.comments, c ∈ x.comments ∨ ∃ run' ∈ runs, ∃ y ∈ run'.2,
        compare r3 r2 y e = true ∧ c = ⟨run'.1, some "mt.run.id".toList⟩ := by
  rw [write_eq] at he
  obtain ⟨p, hp, h1, ⟨b, hb, h2⟩, ⟨c, hc, h3⟩, h4⟩ := made_fold (flat runs) [] [] (by simp) e he
  rw [List.nil_append] at hp hb hc
  obtain ⟨r, hr, e1, hx⟩ := mem_flat.1 hp
  obtain ⟨rb, hrb, e2, hxb⟩ := mem_flat.1 hb
  obtain ⟨rc, hrc, e3, hxc⟩ := mem_flat.1 hc
  refine ⟨r, hr, p.2, hx, h1, ⟨rb, hrb, _, hxb, h2⟩, ⟨rc, hrc, _, hxc, h3⟩, ?_⟩
  intro k hk
  rcases h4 k hk with h | ⟨q, hq, h5, h6⟩
  · exact Or.inl h
  · rw [List.nil_append] at hq
    obtain ⟨rq, hrq, e4, hxq⟩ := mem_flat.1 hq
    exact Or.inr ⟨rq, hrq, _, hxq, h5, by rw [e4]; exact h6⟩

/-! ## epochs of one channel do not overlap if the runs are in order -/

theorem set_pairwise {α : Type} {R : α → α → Prop} {l : List α} {i : Nat} {e b : α} (h : l.Pairwise R)
    (hi : l[i]? = some e) (h1 : ∀ y ∈ l, R y e → R y b) (h2 : ∀ y ∈ l, R e y → R b y) :
    (l.set i b).Pairwise R := by
  rw [List.pairwise_iff_getElem] at h ⊢
  obtain ⟨hil, hie⟩ := List.getElem?_eq_some_iff.1 hi
  intro j k hj hk hjk
  simp only [List.length_set] at hj hk
  have hR := h j k hj hk hjk
  rw [List.getElem_set, List.getElem_set]
  split
  · rename_i hij
    subst hij
    rw [if_neg (by omega)]
    rw [hie] at hR
    exact h2 _ (List.getElem_mem _) hR
  · split
    · rename_i hik
      subst hik
      rw [hie] at hR
      exact h1 _ (List.getElem_mem _) hR
    · exact hR

/-- State of the station while runs are written in order of time. -/
structure Ordered (done : List (Str × XChan σ ρ)) (st : List (XChan σ ρ)) : Prop where
  apart : st.Pairwise (fun e e' => e.code = e'.code → e.stop ≤ e'.start)
  long : ∀ e ∈ st, e.start < e.stop
  past : ∀ e ∈ st, ∃ p ∈ done, p.2.code = e.code ∧ e.stop ≤ p.2.stop

theorem ordered_step {done : List (Str × XChan σ ρ)} {st : List (XChan σ ρ)} (p : Str × XChan σ ρ)
    (h : Ordered done st) (hp : p.2.start < p.2.stop)
    (hord : ∀ q ∈ done, q.2.code = p.2.code → q.2.stop ≤ p.2.start) :
    Ordered (done ++ [p]) (step r3 r2 st p) := by
  have before : ∀ e ∈ st, e.code = p.2.code → e.stop ≤ p.2.start := by
    intro e he hc
    obtain ⟨q, hq, hqc, hqs⟩ := h.past e he
    exact le_trans hqs (hord q hq (hqc.trans hc))
  rcases step_cases (r3 := r3) (r2 := r2) st p with hs | ⟨e, i, hi, hc, hm, hs⟩ <;> rw [hs]
  · refine ⟨?_, ?_, ?_⟩
    · rw [List.pairwise_append]
      refine ⟨h.apart, by simp, ?_⟩
      intro a ha b hb hab
      simp only [List.mem_singleton] at hb
      subst hb
      exact before a ha hab
    · intro a ha
      rcases List.mem_append.1 ha with ha | ha
      · exact h.long a ha
      · simp only [List.mem_singleton] at ha
        subst ha; exact hp
    · intro a ha
      rcases List.mem_append.1 ha with ha | ha
      · obtain ⟨q, hq, h1⟩ := h.past a ha
        exact ⟨q, by simp [hq], h1⟩
      · simp only [List.mem_singleton] at ha
        subst ha; exact ⟨p, by simp, rfl, le_refl _⟩
  · have hmem := List.mem_of_getElem? hi
    have hcode : p.2.code = e.code := (compare_iff.1 hc).1
    have hb := before e hmem hcode.symm
    have hl := h.long e hmem
    have hst : (absorb p.1 p.2 e).start = e.start := by
      simp only [absorb]; rw [if_neg (by omega)]
    have hsp : (absorb p.1 p.2 e).stop = p.2.stop := by
      simp only [absorb]; rw [if_pos (by omega)]
    have hcd : (absorb p.1 p.2 e).code = e.code := rfl
    refine ⟨?_, ?_, ?_⟩
    · refine set_pairwise h.apart hi ?_ ?_
      · intro y _ hy
        rw [hst, hcd]; exact hy
      · intro y hy hye hcy
        rw [hcd] at hcy
        have h1 := hye hcy
        have h2 := hm y hy (hcy.symm.trans hcode.symm)
        omega
    · intro a ha
      rcases List.mem_or_eq_of_mem_set ha with ha | rfl
      · exact h.long a ha
      · rw [hst, hsp]; omega
    · intro a ha
      rcases List.mem_or_eq_of_mem_set ha with ha | rfl
      · obtain ⟨q, hq, h1⟩ := h.past a ha
        exact ⟨q, by simp [hq], h1⟩
      · exact ⟨p, by simp, hcode, by rw [hsp]⟩

/-- Channels of the same code follow each other in time. -/
def Chronological (runs : List (Str × List (XChan σ ρ))) : Prop :=
  (flat runs).Pairwise (fun p q => p.2.code = q.2.code → p.2.stop ≤ q.2.start) ∧
    ∀ p ∈ flat runs, p.2.start < p.2.stop

/-- If the runs are stored in the order of time, the epochs of one channel follow each other: no
time has two epochs. -/
theorem C74_apart_partial (r3 r2 : Rat → Rat) (runs : List (Str × List (XChan σ ρ))) (h : Chronological runs) :
    (writeStation r3 r2 runs).Pairwise (fun e e' => e.code = e'.code → e.stop ≤ e'.start) := by
  rw [write_eq]
  have key : ∀ (l done : List (Str × XChan σ ρ)) (st : List (XChan σ ρ)), Ordered done st →
      (done ++ l).Pairwise (fun p q => p.2.code = q.2.code → p.2.stop ≤ q.2.start) →
      (∀ p ∈ l, p.2.start < p.2.stop) → Ordered (done ++ l) (l.foldl (step r3 r2) st) := by
    intro l
    induction l with
    | nil => intro done st h _ _; simpa using h
    | cons p l ih =>
      intro done st ho hp hl
      have e : done ++ p :: l = (done ++ [p]) ++ l := by simp
      rw [List.foldl_cons, e]
      apply ih
      · apply ordered_step p ho (hl p (by simp))
        intro q hq
        exact (List.pairwise_append.1 hp).2.2 q hq p (by simp)
      · rw [← e]; exact hp
      · exact fun q hq => hl q (by simp [hq])
  exact (key (flat runs) [] [] ⟨by simp, by simp, by simp⟩ (by simpa using h.1) h.2).apart

/-! ### cases -/

/-- A channel with the given code, azimuth, times and response. -/
def ch (code : Str) (az : Rat) (a b : Int) (resp : Nat) : XChan Unit Nat :=
  ⟨code, 1, (), 0, 0, az, 0, a, b, [], resp⟩

example : Chronological [(['a'], [ch ['L'] 0 0 10 1, ch ['M'] 0 0 10 1]), (['b'], [ch ['L'] 0 10 20 1]),
    (['c'], [ch ['L'] 90 20 30 1])] := by unfold Chronological; decide +kernel

example : (writeStation id id [(['a'], [ch ['L'] 0 0 10 1, ch ['M'] 0 0 10 1]), (['b'], [ch ['L'] 0 10 20 1]),
    (['c'], [ch ['L'] 90 20 30 1])]).map (fun e => (e.code, e.start, e.stop, e.comments.map XComment.value)) =
    [(['L'], 0, 20, [['a'], ['b']]), (['M'], 0, 10, [['a']]), (['L'], 20, 30, [['c']])] := by decide +kernel

/-- Full claim, first half: epochs of one channel never overlap. -/
def C74_apart_claim : Prop := ∀ runs : List (Str × List (XChan Unit Nat)),
  (∀ p ∈ flat runs, p.2.start < p.2.stop) →
  (flat runs).Pairwise (fun p q => p.2.code = q.2.code → p.2.stop ≤ q.2.start ∨ q.2.stop ≤ p.2.start) →
  (writeStation id id runs).Pairwise (fun e e' => e.code = e'.code → e.stop ≤ e'.start ∨ e'.stop ≤ e.start)

/-- The runs are not sorted by time (L166 says they should be): an earlier run with the first
setting stretches its epoch over the other one. -/
theorem C74_apart_refuted : ¬ C74_apart_claim := by
  intro h
  exact absurd (h [(['a'], [ch ['L'] 0 20 30 1]), (['b'], [ch ['L'] 90 10 15 1]), (['c'], [ch ['L'] 0 0 5 1])]
    (by decide +kernel) (by decide +kernel)) (by decide +kernel)

/-- Full claim, second half: channels share an epoch only if their metadata, apart from the
times and comments, are the same. -/
def C74_claim : Prop := ∀ runs : List (Str × List (XChan Unit Nat)), ∀ run ∈ runs, ∀ x ∈ run.2,
  ∃ e ∈ writeStation id id runs, run.1 ∈ e.comments.map XComment.value ∧
    { e with start := x.start, stop := x.stop, comments := x.comments } = x

/-- The response is not compared: the second run's filters are lost. -/
theorem C74_refuted : ¬ C74_claim := by
  intro h
  exact absurd (h [(['a'], [ch ['L'] 0 0 10 1]), (['b'], [ch ['L'] 0 10 20 2])]
    (['b'], [ch ['L'] 0 10 20 2]) (by decide +kernel) _ List.mem_cons_self) (by decide +kernel)

/-- With channels whose metadata agree whenever the compared part does, nothing is lost. -/
theorem C74_same_partial (r3 r2 : Rat → Rat) (runs : List (Str × List (XChan σ ρ)))
    (hd : ∀ a ∈ runs, ∀ x ∈ a.2, ∀ b ∈ runs, ∀ y ∈ b.2, compare r3 r2 x y = true →
      { x with start := y.start, stop := y.stop, comments := y.comments } = y)
    (run : Str × List (XChan σ ρ)) (hr : run ∈ runs) (x : XChan σ ρ) (hx : x ∈ run.2) :
    ∃ e ∈ writeStation r3 r2 runs, run.1 ∈ e.comments.map XComment.value ∧
      { e with start := x.start, stop := x.stop, comments := x.comments } = x ∧
      e.start ≤ x.start ∧ x.stop ≤ e.stop := by
  obtain ⟨e, he, hc, hv, h1, h2⟩ := C74_held r3 r2 runs run hr x hx
  refine ⟨e, he, hv, ?_, h1, h2⟩
  obtain ⟨b, hb, y, hy, hye, -⟩ := C74_made r3 r2 runs e he
  have hcy : compare r3 r2 y x = true := by
    rw [(C74_equivalence r3 r2 y x x).2.1, compare_iff]
    rw [compare_iff] at hc
    rw [← hye]
    exact hc
  have := hd b hb y hy run hr x hx hcy
  rw [← hye] at this
  exact this

end Verif.XmlEpochs
