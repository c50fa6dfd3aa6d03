import Verif.Props.XmlEpochs

/-! # Runs get their channels back from StationXML (C126) -/

namespace Verif.XmlEpochs
open Verif.Text Verif.XmlText

variable {σ ρ : Type} [DecidableEq σ] {r3 r2 : Rat → Rat}

/-- The comment with which a run is listed. -/
def idComment (r : Str) : XComment := ⟨r, some "mt.run.id".toList⟩

/-- Whether a comment lists a run. -/
def isRun (c : XComment) : Bool := decide (commentKey c.subject = "mt.run.id".toList)

theorem isRun_pos {c : XComment} (h : commentKey c.subject = "mt.run.id".toList) : isRun c = true :=
  decide_eq_true h

theorem isRun_neg {c : XComment} (h : commentKey c.subject ≠ "mt.run.id".toList) : ¬ isRun c = true :=
  fun hh => h (of_decide_eq_true hh)

/-- The runs an epoch lists. -/
def listed (cs : List XComment) : List Str := (cs.filter isRun).map XComment.value

/-- Comments that can be read, of which those that list runs hold plain ids. -/
def Readable (cs : List XComment) : Prop :=
  ∀ c ∈ cs, ∃ v, readComment c = .ok (commentKey c.subject, v) ∧
    (commentKey c.subject = "mt.run.id".toList → v = .text c.value)

theorem readLoop_listed (sh : CVal → Str) (cs : List XComment) (h : Readable cs) : ∀ (runs : List CVal) (t : Option Str),
    ∃ t', readLoop sh cs (runs, t) = .ok (runs ++ (listed cs).map CVal.text, t') := by
  induction cs with
  | nil => intro runs t; exact ⟨t, by simp [readLoop, listed]⟩
  | cons c cs ih =>
    intro runs t
    obtain ⟨v, hv, hk⟩ := h c List.mem_cons_self
    have ih := ih (fun d hd => h d (List.mem_cons_of_mem _ hd))
    rw [readLoop, hv]
    by_cases hc : commentKey c.subject = "mt.run.id".toList
    · obtain ⟨t', ht⟩ := ih (runs ++ [v]) t
      refine ⟨t', ?_⟩
      simp only
      rw [if_pos hc, ht, hk hc]
      have : listed (c :: cs) = c.value :: listed cs := by
        unfold listed; rw [List.filter_cons_of_pos (isRun_pos hc)]; rfl
      rw [this]; simp
    · obtain ⟨t', ht⟩ := ih runs (some (t.getD [] ++ ([',', ' '] ++ commentKey c.subject ++ [':', ' '] ++ sh v)))
      refine ⟨t', ?_⟩
      simp only
      rw [if_neg hc, ht]
      have : listed (c :: cs) = listed cs := by
        unfold listed; rw [List.filter_cons_of_neg (isRun_neg hc)]
      rw [this]

theorem parse_listed (sh : CVal → Str) (cs : List XComment) (h : Readable cs) :
    ∃ t, parseComments sh cs = .ok (t, listed cs) := by
  obtain ⟨t', ht⟩ := readLoop_listed sh cs h [] none
  unfold parseComments
  rw [ht, List.nil_append]
  simp only [asTexts_texts]
  cases t' with
  | none => exact ⟨_, rfl⟩
  | some t =>
    by_cases h0 : t = []
    · exact ⟨_, if_pos h0⟩
    · exact ⟨_, if_neg h0⟩

theorem listed_append (a b : List XComment) : listed (a ++ b) = listed a ++ listed b := by
  simp [listed]

theorem listed_id (r : Str) : listed [idComment r] = [r] := by
  unfold listed idComment
  rw [List.filter_cons_of_pos (isRun_pos commentKey_run)]
  rfl

theorem addId_new {r : Str} {cs : List XComment} (h : r ∉ cs.map XComment.value) :
    addId r cs = cs ++ [idComment r] := by unfold addId idComment; rw [if_neg h]

/-- The comments a channel brings along: readable, listing no run, and none whose text is the id of
a run. -/
def Plain (ids : List Str) (cs : List XComment) : Prop :=
  ∀ c ∈ cs, (∃ v, readComment c = .ok (commentKey c.subject, v)) ∧
    commentKey c.subject ≠ "mt.run.id".toList ∧ c.value ∉ ids

/-- State of an epoch while the runs `ids` are written, of which `done` are the channels so far. -/
structure Good (comp : Str → Str) (ids : List Str) (done : List (Str × XChan σ ρ)) (e : XChan σ ρ) : Prop where
  readable : Readable e.comments
  nodup : (listed e.comments).Nodup
  ne : listed e.comments ≠ []
  only : ∀ r ∈ listed e.comments, r ∈ ids
  values : ∀ r ∈ ids, r ∈ e.comments.map XComment.value → r ∈ listed e.comments
  from' : ∀ r ∈ listed e.comments, ∃ p ∈ done, p.1 = r ∧ p.2.code = e.code

omit [DecidableEq σ] in
theorem Good.mono {comp : Str → Str} {ids : List Str} {done : List (Str × XChan σ ρ)} {e : XChan σ ρ}
    (p : Str × XChan σ ρ) (h : Good comp ids done e) : Good comp ids (done ++ [p]) e :=
  ⟨h.readable, h.nodup, h.ne, h.only, h.values, fun r hr => by
    obtain ⟨q, hq, h'⟩ := h.from' r hr
    exact ⟨q, by simp [hq], h'⟩⟩

theorem readable_id {r : Str} (h : ':' ∉ r) : ∀ c ∈ [idComment r],
    ∃ v, readComment c = .ok (commentKey c.subject, v) ∧
      (commentKey c.subject = "mt.run.id".toList → v = .text c.value) := by
  intro c hc
  simp only [List.mem_singleton] at hc
  subst hc
  refine ⟨.text r, ?_, fun _ => rfl⟩
  unfold readComment idComment
  rw [if_neg h]

theorem listed_plain {ids : List Str} {cs : List XComment} (h : Plain ids cs) : listed cs = [] := by
  unfold listed
  rw [List.map_eq_nil_iff, List.filter_eq_nil_iff]
  intro c hc
  exact isRun_neg (h c hc).2.1

theorem plain_values {ids : List Str} {cs : List XComment} (h : Plain ids cs) {r : Str} (hr : r ∈ ids) :
    r ∉ cs.map XComment.value := by
  intro hm
  obtain ⟨c, hc, rfl⟩ := List.mem_map.1 hm
  exact (h c hc).2.2 hr

omit [DecidableEq σ] in
theorem good_fresh {comp : Str → Str} {ids : List Str} (done : List (Str × XChan σ ρ)) (p : Str × XChan σ ρ)
    (hid : p.1 ∈ ids) (hcol : ':' ∉ p.1) (hp : Plain ids p.2.comments) :
    Good comp ids (done ++ [p]) (fresh p.1 p.2) := by
  have hc : (fresh p.1 p.2).comments = p.2.comments ++ [idComment p.1] := addId_new (plain_values hp hid)
  have hl : listed (fresh p.1 p.2).comments = [p.1] := by
    rw [hc, listed_append, listed_plain hp, listed_id]; rfl
  refine ⟨?_, ?_, ?_, ?_, ?_, ?_⟩
  · rw [hc]
    intro c hm
    rcases List.mem_append.1 hm with hm | hm
    · obtain ⟨v, hv⟩ := (hp c hm).1
      exact ⟨v, hv, fun h => absurd h (hp c hm).2.1⟩
    · exact readable_id hcol c hm
  · rw [hl]; simp
  · rw [hl]; simp
  · rw [hl]; simpa using hid
  · intro r hr hm
    rw [hc, List.map_append, List.mem_append] at hm
    rcases hm with hm | hm
    · exact absurd hm (plain_values hp hr)
    · rw [hl]; simpa [idComment] using hm
  · intro r hr
    rw [hl] at hr
    simp only [List.mem_singleton] at hr
    exact ⟨p, by simp, hr.symm, rfl⟩

omit [DecidableEq σ] in
theorem good_absorb {comp : Str → Str} {ids : List Str} {done : List (Str × XChan σ ρ)} {p : Str × XChan σ ρ}
    {e : XChan σ ρ} (hid : p.1 ∈ ids) (hcol : ':' ∉ p.1) (hcode : p.2.code = e.code)
    (hnew : p.1 ∉ listed e.comments) (h : Good comp ids done e) :
    Good comp ids (done ++ [p]) (absorb p.1 p.2 e) ∧
      listed (absorb p.1 p.2 e).comments = listed e.comments ++ [p.1] := by
  have hc : (absorb p.1 p.2 e).comments = e.comments ++ [idComment p.1] :=
    addId_new (fun hm => hnew (h.values _ hid hm))
  have hl : listed (absorb p.1 p.2 e).comments = listed e.comments ++ [p.1] := by
    rw [hc, listed_append, listed_id]
  refine ⟨⟨?_, ?_, ?_, ?_, ?_, ?_⟩, hl⟩
  · rw [hc]
    intro c hm
    rcases List.mem_append.1 hm with hm | hm
    · exact h.readable c hm
    · exact readable_id hcol c hm
  · rw [hl, List.nodup_append]
    refine ⟨h.nodup, by simp, ?_⟩
    intro a ha b hb
    simp only [List.mem_singleton] at hb
    subst hb
    rintro rfl; exact hnew ha
  · rw [hl]; simp
  · rw [hl]
    intro r hr
    rcases List.mem_append.1 hr with hr | hr
    · exact h.only r hr
    · simp only [List.mem_singleton] at hr; subst hr; exact hid
  · intro r hr hm
    rw [hc, List.map_append, List.mem_append] at hm
    rw [hl, List.mem_append]
    rcases hm with hm | hm
    · exact Or.inl (h.values r hr hm)
    · right; simpa [idComment] using hm
  · intro r hr
    rw [hl] at hr
    rcases List.mem_append.1 hr with hr | hr
    · obtain ⟨q, hq, h'⟩ := h.from' r hr
      exact ⟨q, by simp [hq], h'⟩
    · simp only [List.mem_singleton] at hr
      exact ⟨p, by simp, hr.symm, hcode⟩

/-- Two epochs that list the same run are different components. -/
def Apart (comp : Str → Str) (e e' : XChan σ ρ) : Prop :=
  ∀ r, r ∈ listed e.comments → r ∈ listed e'.comments → comp e.code ≠ comp e'.code

theorem good_step {comp : Str → Str} {ids : List Str} {done : List (Str × XChan σ ρ)} {st : List (XChan σ ρ)}
    (p : Str × XChan σ ρ) (hid : p.1 ∈ ids) (hcol : ':' ∉ p.1) (hp : Plain ids p.2.comments)
    (hnew : ∀ q ∈ done, q.1 = p.1 → comp q.2.code ≠ comp p.2.code)
    (hg : ∀ e ∈ st, Good comp ids done e) (ha : st.Pairwise (Apart comp)) :
    (∀ e ∈ step r3 r2 st p, Good comp ids (done ++ [p]) e) ∧ (step r3 r2 st p).Pairwise (Apart comp) := by
  have hno : ∀ e ∈ st, p.1 ∈ listed e.comments → comp e.code ≠ comp p.2.code := by
    intro e he hm
    obtain ⟨q, hq, h1, h2⟩ := (hg e he).from' _ hm
    rw [← h2]; exact hnew q hq h1
  rcases step_cases (r3 := r3) (r2 := r2) st p with hs | ⟨e, i, hi, hc, -, hs⟩ <;> rw [hs]
  · have hl : listed (fresh p.1 p.2).comments = [p.1] := by
      show listed (addId _ _) = _
      rw [addId_new (plain_values hp hid), listed_append, listed_plain hp, listed_id]; rfl
    refine ⟨?_, ?_⟩
    · intro a haa
      rcases List.mem_append.1 haa with h | h
      · exact (hg a h).mono p
      · simp only [List.mem_singleton] at h
        subst h; exact good_fresh done p hid hcol hp
    · rw [List.pairwise_append]
      refine ⟨ha, by simp, ?_⟩
      intro a haa b hb r hr hr'
      simp only [List.mem_singleton] at hb
      subst hb
      rw [hl] at hr'
      simp only [List.mem_singleton] at hr'
      subst hr'
      exact hno a haa hr
  · have hmem := List.mem_of_getElem? hi
    have hcode : p.2.code = e.code := (compare_iff.1 hc).1
    have hnl : p.1 ∉ listed e.comments := fun hm => hno e hmem hm (by rw [hcode])
    obtain ⟨hgood, hl⟩ := good_absorb hid hcol hcode hnl (hg e hmem)
    refine ⟨?_, ?_⟩
    · intro a haa
      rcases List.mem_or_eq_of_mem_set haa with h | rfl
      · exact (hg a h).mono p
      · exact hgood
    · refine set_pairwise ha hi ?_ ?_
      · intro y hy hye r hr hr'
        rw [hl, List.mem_append] at hr'
        rcases hr' with hr' | hr'
        · exact hye r hr hr'
        · simp only [List.mem_singleton] at hr'
          subst hr'
          have := hno y hy hr
          rw [hcode] at this; exact this
      · intro y hy hye r hr hr'
        rw [hl, List.mem_append] at hr
        rcases hr with hr | hr
        · exact hye r hr hr'
        · simp only [List.mem_singleton] at hr
          subst hr
          have := hno y hy hr'
          rw [hcode] at this; exact this.symm

theorem good_fold {comp : Str → Str} {ids : List Str} (l : List (Str × XChan σ ρ)) :
    ∀ (done : List (Str × XChan σ ρ)) (st : List (XChan σ ρ)),
    (∀ p ∈ l, p.1 ∈ ids ∧ ':' ∉ p.1 ∧ Plain ids p.2.comments) →
    (done ++ l).Pairwise (fun p q => p.1 = q.1 → comp p.2.code ≠ comp q.2.code) →
    (∀ e ∈ st, Good comp ids done e) → st.Pairwise (Apart comp) →
    (∀ e ∈ l.foldl (step r3 r2) st, Good comp ids (done ++ l) e) ∧
      (l.foldl (step r3 r2) st).Pairwise (Apart comp) := by
  induction l with
  | nil => intro done st _ _ h1 h2; simpa using ⟨h1, h2⟩
  | cons p l ih =>
    intro done st hl hp hg ha
    have e : done ++ p :: l = (done ++ [p]) ++ l := by simp
    rw [List.foldl_cons, e]
    obtain ⟨h1, h2, h3⟩ := hl p (by simp)
    have := good_step (r3 := r3) (r2 := r2) p h1 h2 h3 (fun q hq => (List.pairwise_append.1 hp).2.2 q hq p (by simp)) hg ha
    exact ih _ _ (fun q hq => hl q (by simp [hq])) (by rw [← e]; exact hp) this.1 this.2

/-! ## reading -/

omit [DecidableEq σ] in
theorem giveIds_eq (comp : Str → Str) (e : XChan σ ρ) : ∀ (ids : List Str) (runs : List (RunR σ ρ)),
    ids.Nodup → (∀ r ∈ ids, r ∈ runs.map RunR.id) →
    giveIds comp e runs ids = .ok (runs.map (fun r => if r.id ∈ ids then give comp e r else r)) := by
  intro ids
  induction ids with
  | nil => intro runs _ _; simp [giveIds]
  | cons i ids ih =>
    intro runs hn hm
    rw [List.nodup_cons] at hn
    rw [giveIds, giveId, if_pos (hm i (by simp))]
    have hids : (runs.map (fun r => if r.id = i then give comp e r else r)).map RunR.id = runs.map RunR.id := by
      rw [List.map_map]
      apply List.map_congr_left
      intro r _
      simp only [Function.comp]
      split <;> rfl
    simp only
    rw [ih _ hn.2 (by rw [hids]; exact fun r hr => hm r (by simp [hr])), List.map_map]
    congr 1
    apply List.map_congr_left
    intro r _
    simp only [Function.comp]
    by_cases h : r.id = i
    · have h' : (give comp e r).id = i := h
      rw [if_pos h, if_neg (by rw [h']; exact hn.1), if_pos (by simp [h])]
    · rw [if_neg h]
      by_cases h2 : r.id ∈ ids
      · rw [if_pos h2, if_pos (by simp [h2])]
      · rw [if_neg h2, if_neg (by simp [h, h2])]

/-- What a run has after reading. -/
def after (comp : Str → Str) (st : List (XChan σ ρ)) (r : RunR σ ρ) : RunR σ ρ :=
  (st.filter (fun e => decide (r.id ∈ listed e.comments))).foldl (fun r e => give comp e r) r

omit [DecidableEq σ] in
theorem readStation_eq (sh : CVal → Str) (comp : Str → Str) (ids : List Str) (st : List (XChan σ ρ)) :
    ∀ runs : List (RunR σ ρ), runs.map RunR.id = ids →
    (∀ e ∈ st, Readable e.comments ∧ (listed e.comments).Nodup ∧ listed e.comments ≠ [] ∧
      ∀ r ∈ listed e.comments, r ∈ ids) →
    readStation sh comp runs st = .ok (runs.map (after comp st)) := by
  induction st with
  | nil =>
    intro runs _ _
    have : runs.map (after comp []) = runs := by
      conv_rhs => rw [← List.map_id runs]
      rfl
    rw [readStation, this]
  | cons e st ih =>
    intro runs hids h
    obtain ⟨h1, h2, h3, h4⟩ := h e List.mem_cons_self
    obtain ⟨t, ht⟩ := parse_listed sh e.comments h1
    have hperm := pySorted_perm idLe (listed e.comments)
    rw [readStation, readChannel, ht]
    simp only [ne_eq, h3, not_false_eq_true, if_true]
    rw [giveIds_eq comp e _ runs (hperm.nodup_iff.2 h2)
      (fun r hr => by rw [hids]; exact h4 r (hperm.mem_iff.1 hr))]
    simp only
    rw [ih _ ?_ (fun e' he' => h e' (List.mem_cons_of_mem _ he')), List.map_map]
    · congr 1
      apply List.map_congr_left
      intro r _
      simp only [Function.comp]
      by_cases hr : r.id ∈ listed e.comments
      · rw [if_pos (hperm.mem_iff.2 hr)]
        unfold after
        rw [List.filter_cons_of_pos (by simpa using hr), List.foldl_cons]
        rfl
      · rw [if_neg (fun hh => hr (hperm.mem_iff.1 hh))]
        unfold after
        rw [List.filter_cons_of_neg (by simpa using hr)]
    · rw [← hids, List.map_map]
      apply List.map_congr_left
      intro r _
      simp only [Function.comp]
      split <;> rfl

omit [DecidableEq σ] in
theorem fold_give (comp : Str → Str) (l : List (XChan σ ρ)) : ∀ r : RunR σ ρ,
    l.Pairwise (fun e e' => comp e.code ≠ comp e'.code) →
    (l.foldl (fun r e => give comp e r) r).id = r.id ∧
    (l.foldl (fun r e => give comp e r) r).start = r.start ∧
    (l.foldl (fun r e => give comp e r) r).stop = r.stop ∧
    (∀ e ∈ l, OD.get? (l.foldl (fun r e => give comp e r) r).channels (comp e.code) =
      some { e with start := r.start, stop := r.stop }) ∧
    (∀ k, (∀ e ∈ l, comp e.code ≠ k) →
      OD.get? (l.foldl (fun r e => give comp e r) r).channels k = OD.get? r.channels k) := by
  induction l with
  | nil => intro r _; simp
  | cons a l ih =>
    intro r h
    rw [List.pairwise_cons] at h
    obtain ⟨i1, i2, i3, i4, i5⟩ := ih (give comp a r) h.2
    simp only [List.foldl_cons]
    refine ⟨i1, i2, i3, ?_, ?_⟩
    · intro e he
      rcases List.mem_cons.1 he with rfl | he
      · rw [i5 _ (fun b hb => (h.1 b hb).symm)]
        exact OD.get?_set_self _ _ _
      · exact i4 e he
    · intro k hk
      rw [i5 k (fun b hb => hk b (List.mem_cons_of_mem _ hb))]
      exact OD.get?_set_ne _ _ (hk a List.mem_cons_self).symm

omit [DecidableEq σ] in
theorem flat_pairwise {comp : Str → Str} {runs : List (Str × List (XChan σ ρ))} (hn : (runs.map Prod.fst).Nodup)
    (hc : ∀ r ∈ runs, r.2.Pairwise (fun x y => comp x.code ≠ comp y.code)) :
    (flat runs).Pairwise (fun p q => p.1 = q.1 → comp p.2.code ≠ comp q.2.code) := by
  unfold flat
  rw [List.pairwise_flatMap]
  refine ⟨?_, ?_⟩
  · intro r hr
    exact List.Pairwise.map _ (fun a b h _ => h) (hc r hr)
  · have := List.Pairwise.of_map (S := fun a b => a ≠ b) Prod.fst (fun a b h => h) hn
    refine this.imp ?_
    intro a b hab x hx y hy hxy
    obtain ⟨x', _, rfl⟩ := List.mem_map.1 hx
    obtain ⟨y', _, rfl⟩ := List.mem_map.1 hy
    exact absurd hxy hab

theorem inj_of_nodup {α β : Type} {f : α → β} {l : List α} (h : (l.map f).Nodup) {a b : α}
    (ha : a ∈ l) (hb : b ∈ l) (hab : f a = f b) : a = b := by
  induction l with
  | nil => cases ha
  | cons c l ih =>
    rw [List.map_cons, List.nodup_cons] at h
    rcases List.mem_cons.1 ha with rfl | ha <;> rcases List.mem_cons.1 hb with rfl | hb
    · rfl
    · exact absurd (List.mem_map.2 ⟨b, hb, hab.symm⟩) h.1
    · exact absurd (List.mem_map.2 ⟨a, by assumption, hab⟩) h.1
    · exact ih h.2 ha hb

/-- Every run gets its channels back, and no others: the runs have different ids without colons,
a run has at most one channel of each component, and the channels' own comments list no runs and do
not read like the id of one. -/
theorem C126_partial (sh : CVal → Str) (comp : Str → Str) (r3 r2 : Rat → Rat)
    (runs : List (Str × List (XChan σ ρ))) (eq : List (RunR σ ρ))
    (heq : eq.map RunR.id = runs.map Prod.fst) (hempty : ∀ r ∈ eq, r.channels = [])
    (hn : (runs.map Prod.fst).Nodup) (hcol : ∀ r ∈ runs, ':' ∉ r.1)
    (hc : ∀ r ∈ runs, r.2.Pairwise (fun x y => comp x.code ≠ comp y.code))
    (hp : ∀ r ∈ runs, ∀ x ∈ r.2, Plain (runs.map Prod.fst) x.comments) :
    ∃ out, readStation sh comp eq (writeStation r3 r2 runs) = .ok out ∧
      out.map RunR.id = runs.map Prod.fst ∧
      ∀ r ∈ out, ∀ run ∈ runs, r.id = run.1 →
        (∀ x ∈ run.2, ∃ e, OD.get? r.channels (comp x.code) = some e ∧ compare r3 r2 x e = true ∧
          e.start = r.start ∧ e.stop = r.stop) ∧
        (∀ k e, OD.get? r.channels k = some e → ∃ x ∈ run.2, comp x.code = k) := by
  have hheld := C74_held r3 r2 runs
  have hgood := good_fold (r3 := r3) (r2 := r2) (comp := comp) (ids := runs.map Prod.fst) (flat runs) [] []
    (by
      intro p hpf
      obtain ⟨r, hr, h1, h2⟩ := mem_flat.1 hpf
      exact ⟨List.mem_map.2 ⟨r, hr, h1⟩, by rw [← h1]; exact hcol r hr, hp r hr _ h2⟩)
    (by simpa using flat_pairwise hn hc) (by simp) (by simp)
  rw [← write_eq, List.nil_append] at hgood
  obtain ⟨hg, ha⟩ := hgood
  generalize hst : writeStation r3 r2 runs = st at *
  refine ⟨_, readStation_eq sh comp (runs.map Prod.fst) st eq heq
    (fun e he => ⟨(hg e he).readable, (hg e he).nodup, (hg e he).ne, (hg e he).only⟩), ?_, ?_⟩
  · have hid : ∀ r : RunR σ ρ, (after comp st r).id = r.id := by
      intro r
      unfold after
      generalize st.filter _ = l
      induction l generalizing r with
      | nil => rfl
      | cons a l ih => rw [List.foldl_cons, ih]; rfl
    rw [List.map_map, ← heq]
    apply List.map_congr_left
    intro r hr
    exact hid r
  · intro r hr run hrun hid
    obtain ⟨r0, hr0, rfl⟩ := List.mem_map.1 hr
    have hpw : (st.filter (fun e => decide (r0.id ∈ listed e.comments))).Pairwise
        (fun e e' => comp e.code ≠ comp e'.code) := by
      have h1 := ha.filter (fun e => decide (r0.id ∈ listed e.comments))
      refine List.Pairwise.imp_of_mem ?_ h1
      intro a b ha hb hab
      exact hab r0.id (by simpa using (List.mem_filter.1 ha).2) (by simpa using (List.mem_filter.1 hb).2)
    obtain ⟨f1, f2, f3, f4, f5⟩ := fold_give comp _ r0 hpw
    have hafter : (st.filter (fun e => decide (r0.id ∈ listed e.comments))).foldl (fun r e => give comp e r) r0 =
        after comp st r0 := rfl
    rw [hafter] at f1 f2 f3 f4 f5
    rw [f1] at hid
    refine ⟨?_, ?_⟩
    · intro x hx
      obtain ⟨e, he, hcmp, hv, -⟩ := hheld run hrun x hx
      have hl : r0.id ∈ listed e.comments := by
        rw [hid]
        exact (hg e he).values _ (List.mem_map.2 ⟨run, hrun, rfl⟩) hv
      have := f4 e (List.mem_filter.2 ⟨he, by simpa using hl⟩)
      have hk : comp x.code = comp e.code := by rw [(compare_iff.1 hcmp).1]
      exact ⟨{ e with start := r0.start, stop := r0.stop }, by rw [hk]; exact this, hcmp, f2.symm, f3.symm⟩
    · intro k e hk
      by_cases h : ∃ a ∈ st.filter (fun e => decide (r0.id ∈ listed e.comments)), comp a.code = k
      · obtain ⟨a, ham, rfl⟩ := h
        obtain ⟨ham, hal⟩ := List.mem_filter.1 ham
        obtain ⟨p, hpf, h1, h2⟩ := (hg a ham).from' r0.id (by simpa using hal)
        obtain ⟨run', hr', h3, h4⟩ := mem_flat.1 hpf
        have : run' = run := 
          inj_of_nodup hn hr' hrun (by rw [h3, h1, hid])
        subst this
        exact ⟨p.2, h4, by rw [h2]⟩
      · have := f5 k (by simpa using h)
        rw [hempty r0 hr0] at this
        rw [this] at hk
        cases hk

/-! ### cases -/

/-- The equipments of runs, with their times. -/
def eqs (l : List (Str × Int × Int)) : List (RunR Unit Nat) := l.map (fun r => ⟨r.1, r.2.1, r.2.2, 0, []⟩)

/-- Two runs with the same two channels, a third one turned. -/
def three : List (Str × List (XChan Unit Nat)) :=
  [(['a'], [ch ['L'] 0 0 10 1, ch ['M'] 0 0 10 1]), (['b'], [ch ['L'] 0 10 20 1]), (['c'], [ch ['L'] 90 20 30 1])]

example : (three.map Prod.fst).Nodup ∧ (∀ r ∈ three, ':' ∉ r.1) ∧
    (∀ r ∈ three, r.2.Pairwise (fun x y => x.code ≠ y.code)) ∧
    (∀ r ∈ three, ∀ x ∈ r.2, x.comments = []) := by decide +kernel

/-- Full claim: every run of a written station gets a channel like its own back. -/
def C126_claim : Prop := ∀ (runs : List (Str × List (XChan Unit Nat))) (eq out : List (RunR Unit Nat)),
  eq.map RunR.id = runs.map Prod.fst → (∀ r ∈ eq, r.channels = []) → (runs.map Prod.fst).Nodup →
  (∀ r ∈ runs, r.2.Pairwise (fun x y => x.code ≠ y.code)) →
  readStation (fun _ => []) id eq (writeStation id id runs) = .ok out →
  ∀ r ∈ out, ∀ run ∈ runs, r.id = run.1 → ∀ x ∈ run.2,
    ∃ e, OD.get? r.channels x.code = some e ∧ compare id id x e = true

/-- Channels read from StationXML carry the list of runs in their comment. If one of two such runs
is changed, both epochs list both runs and the later one wins in both. -/
theorem C126_refuted : ¬ C126_claim := by
  intro h
  have := h [(['a'], [{ ch ['L'] 0 0 10 1 with comments := [idComment ['a'], idComment ['b']] }]),
      (['b'], [{ ch ['L'] 90 10 20 1 with comments := [idComment ['a'], idComment ['b']] }])]
    (eqs [(['a'], 0, 10), (['b'], 10, 20)])
    [⟨['a'], 0, 10, 0, [(['L'], { ch ['L'] 90 0 10 1 with comments := [idComment ['a'], idComment ['b']] })]⟩,
     ⟨['b'], 10, 20, 0, [(['L'], { ch ['L'] 90 10 20 1 with comments := [idComment ['a'], idComment ['b']] })]⟩]
    (by decide +kernel) (by decide +kernel) (by decide +kernel) (by decide +kernel) (by decide +kernel)
    _ List.mem_cons_self _ List.mem_cons_self rfl _ List.mem_cons_self
  obtain ⟨e, he, hc⟩ := this
  have : e = { ch ['L'] 90 0 10 1 with comments := [idComment ['a'], idComment ['b']] } := by
    have he' : some { ch ['L'] 90 0 10 1 with comments := [idComment ['a'], idComment ['b']] } = some e := he
    exact (Option.some.inj he').symm
  subst this
  exact absurd hc (by decide +kernel)

/-- A run id in a channel's comment that is no longer a run of the station stops the reading. -/
theorem C126_stale_partial (sh : CVal → Str) (comp : Str → Str) (runs : List (RunR σ ρ)) (e : XChan σ ρ)
    (es : List (XChan σ ρ)) (r : Str) (hr : Readable e.comments) (hl : r ∈ listed e.comments)
    (hno : r ∉ runs.map RunR.id) :
    readStation sh comp runs (e :: es) = .error .attributeError := by
  obtain ⟨t, ht⟩ := parse_listed sh e.comments hr
  have hne : listed e.comments ≠ [] := by intro h; rw [h] at hl; cases hl
  rw [readStation, readChannel, ht]
  simp only [ne_eq, hne, not_false_eq_true, if_true]
  have key : ∀ (ids : List Str) (runs : List (RunR σ ρ)), r ∈ ids → r ∉ runs.map RunR.id →
      giveIds comp e runs ids = .error .attributeError := by
    intro ids
    induction ids with
    | nil => intro _ h; cases h
    | cons i ids ih =>
      intro runs hm hno
      rw [giveIds, giveId]
      by_cases hi : i ∈ runs.map RunR.id
      · rw [if_pos hi]
        simp only
        apply ih
        · rcases List.mem_cons.1 hm with rfl | h
          · exact absurd hi hno
          · exact h
        · intro h
          apply hno
          rw [List.map_map] at h
          obtain ⟨q, hq, hqr⟩ := List.mem_map.1 h
          refine List.mem_map.2 ⟨q, hq, ?_⟩
          rw [← hqr]
          simp only [Function.comp]
          split <;> rfl
      · rw [if_neg hi]
  rw [key _ runs ((pySorted_perm idLe _).mem_iff.2 hl) hno]

/-! ## channels without run ids (C127) -/

omit [DecidableEq σ] in
theorem readChannel_time (sh : CVal → Str) (comp : Str → Str) (runs : List (RunR σ ρ)) (e : XChan σ ρ)
    (hr : Readable e.comments) (hl : listed e.comments = []) (hne : runs ≠ []) :
    readChannel sh comp runs e = .ok (runs.map (giveByTime comp e)) := by
  obtain ⟨t, ht⟩ := parse_listed sh e.comments hr
  rw [readChannel, ht, hl]
  simp [hne]

omit [DecidableEq σ] in
/-- A channel that lists no run goes, as it is, to the runs of the station that lie within its times and
have its sample rate or none; it leaves all other runs, and the other components, alone. -/
theorem C127_by_time (sh : CVal → Str) (comp : Str → Str) (runs : List (RunR σ ρ)) (e : XChan σ ρ)
    (hr : Readable e.comments) (hl : listed e.comments = []) (hne : runs ≠ []) :
    ∃ out, readChannel sh comp runs e = .ok out ∧ out.length = runs.length ∧
      ∀ i (h : i < runs.length) (h' : i < out.length), 
        if (runs[i].rate = e.rate ∨ runs[i].rate = 0) ∧ e.start ≤ runs[i].start ∧ runs[i].stop ≤ e.stop then
          OD.get? out[i].channels (comp e.code) = some e ∧ out[i].rate = e.rate ∧
            out[i].id = runs[i].id ∧ out[i].start = runs[i].start ∧ out[i].stop = runs[i].stop ∧
            ∀ k, k ≠ comp e.code → OD.get? out[i].channels k = OD.get? runs[i].channels k
        else out[i] = runs[i] := by
  refine ⟨_, readChannel_time sh comp runs e hr hl hne, by simp, ?_⟩
  intro i h h'
  simp only [List.getElem_map, giveByTime]
  split
  · exact ⟨OD.get?_set_self _ _ _, rfl, rfl, rfl, rfl, fun k hk => OD.get?_set_ne _ _ hk⟩
  · rfl

/-- Full claim: every channel of a StationXML station is in some run after reading. -/
def C127_claim : Prop := ∀ (st : List (XChan Unit Nat)) (out : List (RunR Unit Nat)),
  readStation (fun _ => []) id [] st = .ok out →
  ∀ e ∈ st, ∃ r ∈ out, ∃ x, OD.get? r.channels e.code = some x ∧ compare id id e x = true

/-- A station without run ids: the first channel makes the run, and a later epoch, outside its times,
disappears. -/
theorem C127_refuted : ¬ C127_claim := by
  intro h
  obtain ⟨r, hr, x, hx, -⟩ := h [ch ['L'] 0 0 10 1, ch ['M'] 0 10 20 1]
    [⟨['0', '0', '1'], 0, 10, 1, [(['L'], ch ['L'] 0 0 10 1)]⟩] (by decide +kernel)
    (ch ['M'] 0 10 20 1) (by decide +kernel)
  simp only [List.mem_singleton] at hr
  subst hr
  cases hx

/-- Which channel a run has, of those given in turn. -/
def lastOf (comp : Str → Str) (k : Str) (l : List (XChan σ ρ)) : Option (XChan σ ρ) :=
  l.reverse.find? (fun e => decide (comp e.code = k))

omit [DecidableEq σ] in
theorem lastOf_append (comp : Str → Str) (k : Str) (l : List (XChan σ ρ)) (e : XChan σ ρ) :
    lastOf comp k (l ++ [e]) = if comp e.code = k then some e else lastOf comp k l := by
  unfold lastOf
  rw [List.reverse_append, List.reverse_singleton, List.singleton_append, List.find?_cons]
  by_cases h : comp e.code = k <;> simp [h]

omit [DecidableEq σ] in
/-- A station in which no channel lists a run, and no equipment is a run: one run, made by the first
channel, gets exactly the channels that have its rate and contain its times; all others are
lost. -/
theorem C127_one_run_partial (sh : CVal → Str) (comp : Str → Str) (e : XChan σ ρ) (es : List (XChan σ ρ))
    (h : ∀ x ∈ e :: es, Readable x.comments ∧ listed x.comments = []) (h0 : e.rate ≠ 0) :
    ∃ r, readStation sh comp [] (e :: es) = .ok [r] ∧ r.id = ['0', '0', '1'] ∧ r.start = e.start ∧
      r.stop = e.stop ∧ r.rate = e.rate ∧ ∀ k, OD.get? r.channels k = lastOf comp k ((e :: es).filter
        (fun x => decide (x.rate = e.rate ∧ x.start ≤ e.start ∧ e.stop ≤ x.stop))) := by
  have key : ∀ (l done : List (XChan σ ρ)) (r : RunR σ ρ), (∀ x ∈ l, Readable x.comments ∧ listed x.comments = []) →
      r.id = ['0', '0', '1'] → r.start = e.start → r.stop = e.stop → r.rate = e.rate →
      (∀ k, OD.get? r.channels k = lastOf comp k (done.filter
        (fun x => decide (x.rate = e.rate ∧ x.start ≤ e.start ∧ e.stop ≤ x.stop)))) →
      ∃ r', readStation sh comp [r] l = .ok [r'] ∧ r'.id = ['0', '0', '1'] ∧ r'.start = e.start ∧
        r'.stop = e.stop ∧ r'.rate = e.rate ∧ ∀ k, OD.get? r'.channels k = lastOf comp k ((done ++ l).filter
        (fun x => decide (x.rate = e.rate ∧ x.start ≤ e.start ∧ e.stop ≤ x.stop))) := by
    intro l
    induction l with
    | nil => intro done r _ h1 h2 h3 h4 h5; exact ⟨r, rfl, h1, h2, h3, h4, by simpa using h5⟩
    | cons x l ih =>
      intro done r hl h1 h2 h3 h4 h5
      obtain ⟨hr, hn⟩ := hl x List.mem_cons_self
      rw [readStation, readChannel_time sh comp [r] x hr hn (by simp)]
      simp only [List.map_cons, List.map_nil]
      have e1 : done ++ x :: l = (done ++ [x]) ++ l := by simp
      rw [e1]
      have hf : (giveByTime comp x r) = if x.rate = e.rate ∧ x.start ≤ e.start ∧ e.stop ≤ x.stop then
          { r with channels := OD.set r.channels (comp x.code) x, rate := x.rate } else r := by
        unfold giveByTime
        rw [h2, h3, h4]
        by_cases hx : x.rate = e.rate ∧ x.start ≤ e.start ∧ e.stop ≤ x.stop
        · rw [if_pos hx, if_pos ⟨Or.inl hx.1.symm, hx.2⟩]
        · rw [if_neg hx, if_neg]
          rintro ⟨h6 | h6, h7⟩
          · exact hx ⟨h6.symm, h7⟩
          · exact h0 h6
      rw [hf]
      by_cases hx : x.rate = e.rate ∧ x.start ≤ e.start ∧ e.stop ≤ x.stop
      · rw [if_pos hx]
        refine ih _ _ (fun y hy => hl y (List.mem_cons_of_mem _ hy)) h1 h2 h3 hx.1 ?_
        intro k
        rw [List.filter_append, List.filter_cons_of_pos (by simpa using hx), List.filter_nil, lastOf_append,
          OD.get?_set]
        rw [h5 k]
      · rw [if_neg hx]
        refine ih _ _ (fun y hy => hl y (List.mem_cons_of_mem _ hy)) h1 h2 h3 h4 ?_
        intro k
        rw [List.filter_append, List.filter_cons_of_neg (by simpa using hx), List.filter_nil, List.append_nil]
        exact h5 k
  obtain ⟨hr, hn⟩ := h e List.mem_cons_self
  obtain ⟨t, ht⟩ := parse_listed sh e.comments hr
  have hc : readChannel sh comp [] e = .ok [⟨['0', '0', '1'], e.start, e.stop, e.rate, [(comp e.code, e)]⟩] := by
    rw [readChannel, ht, hn]; simp
  rw [readStation, hc]
  simp only
  have := key es [e] ⟨['0', '0', '1'], e.start, e.stop, e.rate, [(comp e.code, e)]⟩
    (fun x hx => h x (List.mem_cons_of_mem _ hx)) rfl rfl rfl rfl (by
      intro k
      rw [List.filter_cons_of_pos (by simp), List.filter_nil]
      unfold lastOf
      simp only [List.reverse_singleton, List.find?_cons, List.find?_nil, OD.get?]
      by_cases hk : comp e.code = k <;> simp [hk])
  simpa using this

end Verif.XmlEpochs
