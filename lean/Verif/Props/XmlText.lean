import Verif.Model.XmlText
import Verif.Lemmas.Text
import Verif.Lemmas.OD

/-!
# C113 – C123: the texts inside a StationXML file
-/

namespace Verif.XmlText
open Verif.Text

theorem ws_space : ws ' ' = true := by decide +kernel

/-- A non-empty text with no blank at either end. -/
def Trim (s : Str) : Prop := s ≠ [] ∧ strip s = s

theorem Trim.space {s : Str} (h : Trim s) : strip (' ' :: s) = s := by
  rw [strip_cons_ws _ ws_space, h.2]

theorem Trim.head {s : Str} (h : Trim s) : ∀ c, s.head? = some c → ws c = false := by
  intro c hc; rw [← h.2] at hc; exact strip_head hc

theorem Trim.last {s : Str} (h : Trim s) : ∀ c, s.getLast? = some c → ws c = false := by
  intro c hc; rw [← h.2] at hc; exact strip_last hc

/-- Text between trimmed ends is trimmed. -/
theorem trim_mid {a b : Str} (ha : Trim a) (hb : Trim b) (m : Str) : Trim (a ++ m ++ b) := by
  refine ⟨by simp [ha.1], strip_of_ends ?_ ?_⟩
  · intro c hc
    apply ha.head
    cases a with
    | nil => exact absurd rfl ha.1
    | cons x a => simpa using hc
  · intro c hc
    apply hb.last
    rw [List.getLast?_append] at hc
    cases hg : b.getLast? with
    | none => rw [List.getLast?_eq_none_iff] at hg; exact absurd hg hb.1
    | some d => rw [hg] at hc; simpa using hc

/-! ## C113 — run ids in the channel comment -/

/-- A run id that can stand in the list: non-empty, trimmed, none of `[ ] , :`. -/
def RunId (r : Str) : Prop := Trim r ∧ '[' ∉ r ∧ ']' ∉ r ∧ ',' ∉ r ∧ ':' ∉ r

/-- The text the library writes for a channel of the runs `rs`. -/
def runText (rs : List Str) : Str := "run_ids: [".toList ++ join [','] rs ++ [']']

theorem join_notMem {c : Char} {sep : Str} {l : List Str} (hs : c ∉ sep) (h : ∀ p ∈ l, c ∉ p) :
    c ∉ join sep l := by
  induction l with
  | nil => simp [join]
  | cons a l ih =>
    cases l with
    | nil => simpa [join] using h a List.mem_cons_self
    | cons b l =>
      rw [join]
      simp only [List.mem_append, not_or]
      exact ⟨⟨h a List.mem_cons_self, hs⟩, ih (fun p hp => h p (List.mem_cons_of_mem _ hp))⟩

theorem runText_split (rs : List Str) (h : ∀ r ∈ rs, RunId r) :
    splitSub "run_ids:".toList (runText rs) = [[], ' ' :: '[' :: (join [','] rs ++ [']'])] := by
  have e : runText rs = "run_ids:".toList ++ (' ' :: '[' :: (join [','] rs ++ [']'])) := by
    unfold runText
    rw [show "run_ids: [".toList = "run_ids:".toList ++ [' ', '['] from by decide +kernel]
    simp only [List.append_assoc, List.cons_append, List.nil_append]
  rw [e, splitSub_start _ (by decide), splitSub_none]
  apply not_infix_of_not_mem (c := ':') (by decide)
  have : ':' ∉ join [','] rs := join_notMem (by decide) (fun p hp => (h p hp).2.2.2.2)
  simp [this]

theorem brackets_removed {s : Str} (h1 : '[' ∉ s) (h2 : ']' ∉ s) :
    replaceC ']' [] (replaceC '[' [] (' ' :: '[' :: (s ++ [']']))) = ' ' :: s := by
  have e1 : replaceC '[' [] (' ' :: '[' :: (s ++ [']'])) = ' ' :: (s ++ [']']) := by
    have := replaceC_none (b := []) (a := '[') (s := s ++ [']']) (by simp [h1])
    unfold replaceC at this ⊢
    simp only [List.flatMap_cons]
    rw [this]; rfl
  rw [e1]
  have := replaceC_none (b := []) h2
  unfold replaceC at this ⊢
  rw [List.flatMap_cons, List.flatMap_append, this]
  simp

theorem commentKey_run : commentKey (some "mt.run.id".toList) = "mt.run.id".toList := by
  decide +kernel

/-- The comments a list of run ids is written as. -/
def runComments (rs : List Str) : List XComment := rs.map (fun r => ⟨r, some "mt.run.id".toList⟩)

theorem make_runText (rs : List Str) (h : ∀ r ∈ rs, RunId r) :
    makeComments (some (runText rs)) = .ok (runComments rs) := by
  have hb1 : '[' ∉ join [','] rs := join_notMem (by decide) (fun p hp => (h p hp).2.1)
  have hb2 : ']' ∉ join [','] rs := join_notMem (by decide) (fun p hp => (h p hp).2.2.1)
  have hc : ':' ∉ join [','] rs := join_notMem (by decide) (fun p hp => (h p hp).2.2.2.2)
  simp only [makeComments, runText_split rs h, allComments]
  have e1 : itemComments [] = .ok [] := by decide +kernel
  have e2 : itemComments (' ' :: '[' :: (join [','] rs ++ [']'])) = .ok (runComments rs) := by
    unfold itemComments
    rw [if_neg (by simp [hc]), if_pos (by simp), brackets_removed hb1 hb2]
    congr 1
    cases rs with
    | nil => decide +kernel
    | cons r rs =>
      have hs : splitC ',' (' ' :: join [','] (r :: rs)) = (' ' :: r) :: rs := by
        have hj : ' ' :: join [','] (r :: rs) = join [','] ((' ' :: r) :: rs) := by
          cases rs <;> simp [join]
        rw [hj, splitC_join (by simp)]
        intro p hp
        rcases List.mem_cons.1 hp with rfl | hp
        · have := (h r List.mem_cons_self).2.2.2.1; simp [this]
        · exact (h p (List.mem_cons_of_mem _ hp)).2.2.2.1
      rw [hs, List.map_cons, (h r List.mem_cons_self).1.space, List.filterMap_cons_some (f := _)
        (b := ⟨r, some "mt.run.id".toList⟩) (by simp [(h r List.mem_cons_self).1.1])]
      simp only [runComments, List.map_cons]
      congr 1
      have hrest : ∀ p ∈ rs, RunId p := fun p hp => h p (List.mem_cons_of_mem _ hp)
      clear h hs hb1 hb2 hc
      induction rs with
      | nil => rfl
      | cons q rs ih =>
        have hq := (hrest q List.mem_cons_self).1
        rw [List.map_cons, hq.2, List.filterMap_cons_some (f := _)
          (b := ⟨q, some "mt.run.id".toList⟩) (by simp [hq.1]),
          ih (fun p hp => hrest p (List.mem_cons_of_mem _ hp)), List.map_cons]
  rw [e1]
  simp [e2]

theorem readLoop_runs (sh : CVal → Str) (rs : List Str) (h : ∀ r ∈ rs, ':' ∉ r) (st : List CVal) (t : Option Str) :
    readLoop sh (runComments rs) (st, t) = .ok (st ++ rs.map CVal.text, t) := by
  induction rs generalizing st with
  | nil => simp [runComments, readLoop]
  | cons r rs ih =>
    simp only [runComments, List.map_cons, readLoop]
    have hr : readComment ⟨r, some "mt.run.id".toList⟩ = .ok ("mt.run.id".toList, .text r) := by
      unfold readComment
      rw [if_neg (h r List.mem_cons_self), commentKey_run]
    rw [hr]
    simp only [if_true]
    have := ih (fun p hp => h p (List.mem_cons_of_mem _ hp)) (st ++ [CVal.text r])
    unfold runComments at this
    rw [this]; simp

theorem asTexts_texts (rs : List Str) : asTexts (rs.map CVal.text) = .ok rs := by
  induction rs with
  | nil => rfl
  | cons r rs ih => simp [asTexts, ih]

/-- Reading comments that hold run ids gives the runs, in order, and the text from which the
same comments are written again. -/
theorem C113_partial (sh : CVal → Str) (rs : List Str) (h : ∀ r ∈ rs, RunId r) :
    parseComments sh (runComments rs) = .ok (runText rs, rs) ∧
    makeComments (some (runText rs)) = .ok (runComments rs) := by
  refine ⟨?_, make_runText rs h⟩
  unfold parseComments
  rw [readLoop_runs sh rs (fun r hr => (h r hr).2.2.2.2), List.nil_append]
  simp only [asTexts_texts]
  rfl

/-- Full claim: for all non-empty, trimmed run ids without commas. -/
def C113_claim : Prop :=
  ∀ (sh : CVal → Str) (rs : List Str), (∀ r ∈ rs, Trim r ∧ ',' ∉ r) →
    ∃ t, parseComments sh (runComments rs) = .ok (t, rs)

/-- A run id with a colon is read as a dictionary, and joining the run list raises. -/
theorem C113_refuted : ¬ C113_claim := by
  intro h
  obtain ⟨t, ht⟩ := h (fun _ => []) ["a:1".toList] (by
    intro r hr; simp at hr; subst hr
    exact ⟨⟨by decide, by decide +kernel⟩, by decide⟩)
  have : parseComments (fun _ => []) (runComments ["a:1".toList]) = .error .typeError := by
    decide +kernel
  rw [this] at ht; cases ht

example : makeComments (some "run_ids: [a,b01]".toList)
    = .ok [⟨"a".toList, some "mt.run.id".toList⟩, ⟨"b01".toList, some "mt.run.id".toList⟩] := by
  have h : ∀ r ∈ ["a".toList, "b01".toList], RunId r := by
    intro r hr
    simp only [List.mem_cons, List.not_mem_nil, or_false] at hr
    rcases hr with rfl | rfl <;>
      exact ⟨⟨by decide, by decide +kernel⟩, by decide, by decide, by decide, by decide⟩
  exact (C113_partial (fun _ => []) _ h).2

/-! ## C114 — the text of a channel comment -/

/-- Full claim: a comment text that is written can be found in what is read back. -/
def C114_claim : Prop :=
  ∀ (sh : CVal → Str) (s : Str), (∀ t, sh (.text t) = t) →
    ∃ cs t rs, makeComments (some s) = .ok cs ∧ parseComments sh cs = .ok (t, rs) ∧ s <:+: t

/-- A plain text without colon or brackets is not written at all. -/
theorem C114_dropped_partial (sh : CVal → Str) (s : Str) (h1 : ':' ∉ s) (h2 : '[' ∉ s) :
    makeComments (some s) = .ok [] ∧ parseComments sh [] = .ok ("run_ids: []".toList, []) := by
  constructor
  · simp only [makeComments]
    rw [splitSub_none (not_infix_of_not_mem (c := ':') (by decide) h1)]
    simp [allComments, itemComments, h1, h2]
  · rfl

theorem C114_refuted : ¬ C114_claim := by
  intro h
  obtain ⟨cs, t, rs, h1, h2, h3⟩ := h
    (fun v => match v with | .text t => t | .dict _ => []) "failure at midnight".toList
    (fun _ => rfl)
  obtain ⟨d1, d2⟩ := C114_dropped_partial
    (fun v => match v with | .text t => t | .dict _ => []) "failure at midnight".toList
    (by decide) (by decide)
  rw [d1] at h1; cases h1
  rw [d2] at h2; cases h2
  have := hasSub_iff.2 h3
  exact absurd this (by decide +kernel)

/-- A text with two colons outside a run list cannot be written. -/
theorem C114_two_colons_partial (a b c : Str) (h1 : ':' ∉ a) (h2 : ':' ∉ b) (h3 : ':' ∉ c)
    (hr : ¬ "run_ids:".toList <:+: a ++ ':' :: (b ++ ':' :: c)) :
    makeComments (some (a ++ ':' :: (b ++ ':' :: c))) = .error .valueError := by
  simp only [makeComments]
  rw [splitSub_none hr]
  simp only [allComments, itemComments]
  rw [if_pos (by simp), splitC_append _ h1, splitC_append _ h2, splitC_none h3]

example : makeComments (some "from 10:30 to 11:45".toList) = .error .valueError :=
  C114_two_colons_partial "from 10".toList "30 to 11".toList "45".toList (by decide) (by decide)
    (by decide) (fun h => absurd (hasSub_iff.2 h) (by decide +kernel))

/-- Brackets in a plain text are taken for a list of runs. -/
theorem C114_brackets_partial :
    makeComments (some "noisy [see log, p. 3]".toList)
      = .ok [⟨"noisy see log".toList, some "mt.run.id".toList⟩, ⟨"p. 3".toList, some "mt.run.id".toList⟩] := by
  decide +kernel

/-! ## C115 — dictionary-like comments -/

/-- `k1: v1, k2: v2, …` -/
def render (ps : List (Str × Str)) : Str := join [',', ' '] (ps.map (fun p => p.1 ++ [':', ' '] ++ p.2))

/-- Keys and values: non-empty, trimmed, no colon, no comma. -/
def Plain (p : Str × Str) : Prop :=
  Trim p.1 ∧ Trim p.2 ∧ ':' ∉ p.1 ∧ ',' ∉ p.1 ∧ ':' ∉ p.2 ∧ ',' ∉ p.2

theorem render_trim {ps : List (Str × Str)} (hne : ps ≠ []) (h : ∀ p ∈ ps, Plain p) :
    Trim (render ps) := by
  induction ps with
  | nil => exact absurd rfl hne
  | cons p ps ih =>
    have hp := h p List.mem_cons_self
    cases ps with
    | nil => simpa [render, join] using trim_mid hp.1 hp.2.1 [':', ' ']
    | cons q ps =>
      have ih := ih (by simp) (fun r hr => h r (List.mem_cons_of_mem _ hr))
      have e : render (p :: q :: ps) = p.1 ++ ([':', ' '] ++ p.2 ++ [',', ' ']) ++ render (q :: ps) := by
        simp [render, join]
      rw [e]
      exact trim_mid hp.1 ih _

theorem render_cons (p q : Str × Str) (ps : List (Str × Str)) :
    render (p :: q :: ps) = p.1 ++ ':' :: ((' ' :: p.2) ++ ',' :: (' ' :: render (q :: ps))) := by
  simp [render, join]

theorem render_single (p : Str × Str) : render [p] = p.1 ++ ':' :: (' ' :: p.2) := by
  simp [render, join]

/-- What `parse` does with a spelled-out dictionary: it takes as many pairs as it has levels. -/
theorem parse_render (n : Nat) (ps : List (Str × Str)) (hne : ps ≠ []) (h : ∀ p ∈ ps, Plain p)
    (ha : ¬ "author:".toList <:+: render ps) (filled : OD Str (Option Str)) :
    parse n (render ps) filled
      = .ok ((ps.take n).foldl (fun d p => OD.set d p.1 (some p.2)) filled) := by
  induction n generalizing ps filled with
  | zero => simp [parse]
  | succ n ih =>
    have hauth : hasSub "author:".toList (render ps) = false := by
      cases hb : hasSub "author:".toList (render ps) with
      | false => rfl
      | true => exact absurd (hasSub_iff.1 hb) ha
    rw [parse, hauth]
    simp only [Bool.false_and, Bool.false_eq_true, if_false]
    cases ps with
    | nil => exact absurd rfl hne
    | cons p ps =>
      obtain ⟨hk, hv, hk1, hk2, hv1, hv2⟩ := h p List.mem_cons_self
      cases ps with
      | nil =>
        rw [render_single, split1_append _ hk1]
        simp only
        rw [find_singleton (c := ':') (by simp [hv1])]
        simp [hv.space]
      | cons q ps =>
        have hq := h q (List.mem_cons_of_mem _ List.mem_cons_self)
        have htrim := render_trim (ps := q :: ps) (by simp) (fun r hr => h r (List.mem_cons_of_mem _ hr))
        have hauth' : ¬ "author:".toList <:+: render (q :: ps) := by
          intro hi
          apply ha
          rw [render_cons]
          exact hi.trans ⟨p.1 ++ ':' :: ((' ' :: p.2) ++ ',' :: [' ']), [], by simp⟩
        have hi := ih (q :: ps) (by simp) (fun r hr => h r (List.mem_cons_of_mem _ hr)) hauth'
          (OD.set filled p.1 (some p.2))
        rw [render_cons, split1_append _ hk1]
        simp only
        -- where the next colon and comma are
        have hcolon : find [':'] ((' ' :: p.2) ++ ',' :: (' ' :: render (q :: ps)))
            = some ((' ' :: p.2) ++ ',' :: (' ' :: q.1)).length := by
          obtain ⟨y, hy⟩ : ∃ y, render (q :: ps) = q.1 ++ ':' :: y := by
            cases ps with
            | nil => exact ⟨_, render_single q⟩
            | cons r ps => exact ⟨_, render_cons q r ps⟩
          have e : (' ' :: p.2) ++ ',' :: (' ' :: render (q :: ps))
              = ((' ' :: p.2) ++ ',' :: (' ' :: q.1)) ++ ':' :: y := by
            rw [hy]; simp
          rw [e]
          exact find_char_append y (by simp [hv1, hq.2.2.1])
        have hcomma : find [','] ((' ' :: p.2) ++ ',' :: (' ' :: render (q :: ps)))
            = some (' ' :: p.2).length := find_char_append _ (by simp [hv2])
        rw [hcolon, hcomma]
        simp only
        rw [if_neg (by simp)]
        have hs : split1 ',' ((' ' :: p.2) ++ ',' :: (' ' :: render (q :: ps)))
            = (' ' :: p.2, some (' ' :: render (q :: ps))) := split1_append _ (by simp [hv2])
        rw [hs]
        simp only
        rw [hv.space, htrim.space, hi]
        simp

/-- Full claim: a spelled-out dictionary with distinct plain keys is read back. -/
def C115_claim : Prop :=
  ∀ ps : List (Str × Str), ps ≠ [] → (∀ p ∈ ps, Plain p) → (ps.map Prod.fst).Nodup →
    ¬ "author:".toList <:+: render ps →
    ∀ sub, ∃ key, readComment ⟨render ps, sub⟩ = .ok (key, .dict (ps.map (fun p => (p.1, some p.2))))

theorem foldl_pairs (ps : List (Str × Str)) (hn : (ps.map Prod.fst).Nodup) :
    ps.foldl (fun d p => OD.set d p.1 (some p.2)) ([] : OD Str (Option Str))
      = ps.map (fun p => (p.1, some p.2)) := by
  have key : ∀ (ps : List (Str × Str)) (d : OD Str (Option Str)),
      (OD.keys d ++ ps.map Prod.fst).Nodup →
      ps.foldl (fun d p => OD.set d p.1 (some p.2)) d = d ++ ps.map (fun p => (p.1, some p.2)) := by
    intro ps
    induction ps with
    | nil => intro d _; simp
    | cons p ps ih =>
      intro d hd
      have hp : p.1 ∉ OD.keys d := by
        simp only [List.map_cons, List.nodup_append] at hd
        intro hm; exact hd.2.2 _ hm _ List.mem_cons_self rfl
      rw [List.foldl_cons, OD.set_of_not_mem _ hp, ih]
      · simp
      · simpa [OD.keys] using hd
  simpa using key ps [] (by simpa [OD.keys] using hn)

/-- Up to twenty-one pairs it holds. -/
theorem C115_partial (ps : List (Str × Str)) (hne : ps ≠ []) (h : ∀ p ∈ ps, Plain p)
    (hn : (ps.map Prod.fst).Nodup) (ha : ¬ "author:".toList <:+: render ps)
    (hlen : ps.length ≤ 21) (sub : Option Str) :
    readComment ⟨render ps, sub⟩ = .ok (commentKey sub, .dict (ps.map (fun p => (p.1, some p.2)))) := by
  have hc : ':' ∈ render ps := by
    cases ps with
    | nil => exact absurd rfl hne
    | cons p ps =>
      cases ps with
      | nil => rw [render_single]; simp
      | cons q ps => rw [render_cons]; simp
  unfold readComment
  rw [if_pos hc, parse_render 21 ps hne h ha, List.take_of_length_le hlen, foldl_pairs ps hn]

/-- Beyond that the rest is dropped without notice: exactly the first twenty-one are kept. -/
theorem C115_truncated_partial (ps : List (Str × Str)) (hne : ps ≠ []) (h : ∀ p ∈ ps, Plain p)
    (hn : (ps.map Prod.fst).Nodup) (ha : ¬ "author:".toList <:+: render ps) (sub : Option Str) :
    readComment ⟨render ps, sub⟩
      = .ok (commentKey sub, .dict ((ps.take 21).map (fun p => (p.1, some p.2)))) := by
  have hc : ':' ∈ render ps := by
    cases ps with
    | nil => exact absurd rfl hne
    | cons p ps =>
      cases ps with
      | nil => rw [render_single]; simp
      | cons q ps => rw [render_cons]; simp
  unfold readComment
  rw [if_pos hc, parse_render 21 ps hne h ha, foldl_pairs]
  exact (List.Sublist.map Prod.fst (List.take_sublist 21 ps)).nodup hn

/-- Twenty-two pairs. -/
def manyPairs : List (Str × Str) :=
  (List.range 22).map (fun i => (List.replicate (i + 1) 'k', ['v']))

theorem manyPairs_plain : ∀ p ∈ manyPairs, Plain p := by
  have : ∀ p ∈ manyPairs, (p.1 ≠ [] ∧ strip p.1 = p.1) ∧ (p.2 ≠ [] ∧ strip p.2 = p.2) ∧
      ':' ∉ p.1 ∧ ',' ∉ p.1 ∧ ':' ∉ p.2 ∧ ',' ∉ p.2 := by decide +kernel
  exact this

theorem C115_refuted : ¬ C115_claim := by
  intro h
  have hn : (manyPairs.map Prod.fst).Nodup := by decide +kernel
  have ha : ¬ "author:".toList <:+: render manyPairs :=
    fun hi => absurd (hasSub_iff.2 hi) (by decide +kernel)
  obtain ⟨key, hk⟩ := h manyPairs (by decide) manyPairs_plain hn ha none
  rw [C115_truncated_partial manyPairs (by decide) manyPairs_plain hn ha none] at hk
  have : ((manyPairs.take 21).map (fun p => (p.1, some p.2))).length
      = (manyPairs.map (fun p => (p.1, some p.2))).length := by
    simp only [Except.ok.injEq, Prod.mk.injEq, CVal.dict.injEq] at hk
    rw [hk.2]
  simp [manyPairs] at this

/-- The example of the documentation (`'a: b:c, d:e' -> {'a': 'b:c', 'd':'e'}`) is not what is
returned, and a colon in the last value cuts it off. -/
theorem C115_colon_partial :
    readComment ⟨"a: b:c, d:e".toList, none⟩
      = .ok ("mt".toList, .dict [("a".toList, some "b--c".toList), ("d".toList, some "e".toList)]) ∧
    readComment ⟨"a: b:c".toList, none⟩
      = .ok ("mt".toList, .dict [("a".toList, some "b".toList)]) := by
  decide +kernel

/-- For all texts: the last value is cut at its first colon (unless it starts with it). -/
theorem C115_cut_partial (k v w : Str) (hk : ':' ∉ k) (hv : ':' ∉ v) (hne : v ≠ [])
    (hc : ',' ∉ v ++ w) (ha : ¬ "author:".toList <:+: k ++ ':' :: (v ++ ':' :: w)) (sub : Option Str) :
    readComment ⟨k ++ ':' :: (v ++ ':' :: w), sub⟩
      = .ok (commentKey sub, .dict [(k, some (strip v))]) := by
  unfold readComment
  rw [if_pos (by simp), parse]
  have hauth : hasSub "author:".toList (k ++ ':' :: (v ++ ':' :: w)) = false := by
    cases hb : hasSub "author:".toList (k ++ ':' :: (v ++ ':' :: w)) with
    | false => rfl
    | true => exact absurd (hasSub_iff.1 hb) ha
  rw [hauth]
  simp only [Bool.false_and, Bool.false_eq_true, if_false]
  rw [split1_append _ hk]
  simp only
  have hcw : ',' ∉ w := fun hm => hc (List.mem_append_right _ hm)
  have hcv : ',' ∉ v := fun hm => hc (List.mem_append_left _ hm)
  rw [find_char_append w hv, find_singleton (c := ',') (by simp [hcv, hcw])]
  simp only
  rw [if_pos (List.length_pos_iff.2 hne), split1_append _ hv]
  simp [OD.set]

example : readComment ⟨render [("a".toList, "b c".toList), ("d".toList, "e".toList)], none⟩
    = .ok ("mt".toList, .dict [("a".toList, some "b c".toList), ("d".toList, some "e".toList)]) :=
  C115_partial _ (by decide)
    (by
      intro p hp
      simp only [List.mem_cons, List.not_mem_nil, or_false] at hp
      rcases hp with rfl | rfl <;>
        exact ⟨⟨by decide, by decide +kernel⟩, ⟨by decide, by decide +kernel⟩, by decide, by decide,
          by decide, by decide⟩)
    (by decide +kernel) (fun h => absurd (hasSub_iff.2 h) (by decide +kernel)) (by decide) none

/-! ## C116 — author and comments of who acquired or described the data -/

/-- What `make_mt_comments` writes for the pair of fields. -/
def authorText (a c : Option Str) : Str :=
  fieldsText [("author".toList, a), ("comments".toList, c)]

/-- Full claim: author and comments are read back. -/
def C116_claim : Prop :=
  ∀ (a c : Option Str), (∀ x, a = some x → Trim x) → (∀ x, c = some x → Trim x) →
    a ≠ none ∨ c ≠ none → ∀ sub, ∃ d, readComment ⟨authorText a c, sub⟩ = .ok (commentKey sub, .dict d) ∧
      (OD.get? d "author".toList).join = a ∧ (OD.get? d "comments".toList).join = c

/-- Both given: any comments, an author without colon. -/
theorem C116_both_partial (a c : Str) (ha : Trim a) (hc : Trim c) (hcolon : ':' ∉ a)
    (sub : Option Str) :
    readComment ⟨authorText (some a) (some c), sub⟩
      = .ok (commentKey sub, .dict [("author".toList, some a), ("comments".toList, some c)]) := by
  have ht : authorText (some a) (some c)
      = "author:".toList ++ ((' ' :: (a ++ [',', ' '])) ++ ("comments:".toList ++ (' ' :: c))) := by
    simp [authorText, fieldsText, ha.1, hc.1, join]
  have h1 : hasSub "author:".toList (authorText (some a) (some c)) = true := by
    rw [hasSub_iff, ht]; exact (List.prefix_append _ _).isInfix
  have h2 : hasSub "comments:".toList (authorText (some a) (some c)) = true := by
    rw [hasSub_iff, ht]
    exact ⟨"author:".toList ++ (' ' :: (a ++ [',', ' '])), ' ' :: c, by simp⟩
  have hs1 : splitOnce "author:".toList (authorText (some a) (some c))
      = ([], some ((' ' :: (a ++ [',', ' '])) ++ ("comments:".toList ++ (' ' :: c)))) := by
    have := splitOnce_mark (w := "author".toList) (x := []) (m := ':')
      ((' ' :: (a ++ [',', ' '])) ++ ("comments:".toList ++ (' ' :: c))) (by simp) (by decide)
    rw [ht]; exact this
  have hs2 : splitOnce "comments:".toList
      ((' ' :: (a ++ [',', ' '])) ++ ("comments:".toList ++ (' ' :: c)))
      = (' ' :: (a ++ [',', ' ']), some (' ' :: c)) :=
    splitOnce_mark (w := "comments".toList) (m := ':') _ (by simp [hcolon]) (by decide)
  unfold readComment
  rw [if_pos (by rw [ht]; simp), parse, h1, h2]
  simp only [Bool.and_self, if_true, parseAuthor, hs1, Option.getD_some, hs2]
  have hstrip : strip (' ' :: (a ++ [',', ' '])) = a ++ [','] := by
    have e : (' ' :: (a ++ [',', ' '])) = [' '] ++ (a ++ [',']) ++ [' '] := by simp
    rw [e, strip_pad _ (by simp [ws_space]) (by simp [ws_space])]
    apply strip_of_ends
    · intro x hx
      apply ha.head
      cases a with
      | nil => exact absurd rfl ha.1
      | cons y a => simpa using hx
    · intro x hx
      rw [List.getLast?_append] at hx
      simp at hx; subst hx; decide +kernel
  rw [hstrip, hc.space]
  simp

/-- Only one of them: it must have no colon. -/
theorem C116_one_partial (x : Str) (hx : Trim x) (hcolon : ':' ∉ x) (sub : Option Str) :
    readComment ⟨authorText (some x) none, sub⟩ = .ok (commentKey sub, .dict [("author".toList, some x)]) ∧
    readComment ⟨authorText none (some x), sub⟩ = .ok (commentKey sub, .dict [("comments".toList, some x)]) := by
  have key : ∀ k : Str, ':' ∉ k → (∀ y, ¬ ("author:".toList <:+: k ++ ':' :: ' ' :: y ∧ "comments:".toList <:+: k ++ ':' :: ' ' :: y) ∨ ':' ∈ y) →
      readComment ⟨k ++ [':', ' '] ++ x, sub⟩ = .ok (commentKey sub, .dict [(k, some x)]) := by
    intro k hk hno
    have e : k ++ [':', ' '] ++ x = k ++ ':' :: (' ' :: x) := by simp
    unfold readComment
    rw [e, if_pos (by simp), parse]
    have hauth : (hasSub "author:".toList (k ++ ':' :: ' ' :: x) &&
        hasSub "comments:".toList (k ++ ':' :: ' ' :: x)) = false := by
      cases hb : (hasSub "author:".toList (k ++ ':' :: ' ' :: x) &&
        hasSub "comments:".toList (k ++ ':' :: ' ' :: x)) with
      | false => rfl
      | true =>
        exfalso
        rw [Bool.and_eq_true, hasSub_iff, hasSub_iff] at hb
        rcases hno x with h | h
        · exact h hb
        · exact hcolon h
    rw [hauth]
    simp only [Bool.false_eq_true, if_false]
    rw [split1_append _ hk]
    simp only
    rw [find_singleton (c := ':') (by simp [hcolon])]
    simp [hx.space, OD.set]
  -- one colon cannot end two different words
  have two : ∀ (w k y : Str), ':' ∉ k → ':' ∉ y → ':' ∉ w → (w ++ [':']) <:+: k ++ ':' :: y → w <:+ k := by
    intro w k y hk hy hw hi
    obtain ⟨s, t, hst⟩ := hi
    have h1 : s ++ (w ++ [':']) ++ t = (s ++ w) ++ ':' :: t := by simp
    rw [h1] at hst
    have hs : ':' ∉ s := by
      intro hm
      have hcount := congrArg (List.count ':') hst
      simp only [List.count_append, List.count_cons_self] at hcount
      have c1 : List.count ':' k = 0 := List.count_eq_zero.2 hk
      have c2 : List.count ':' y = 0 := List.count_eq_zero.2 hy
      have c3 : 0 < List.count ':' s := List.count_pos_iff.2 hm
      omega
    have a1 := split1_append (c := ':') (a := s ++ w) t (by simp [hs, hw])
    have a2 := split1_append (c := ':') (a := k) y hk
    rw [hst, a2] at a1
    simp only [Prod.mk.injEq] at a1
    exact ⟨s, a1.1.symm⟩
  constructor
  · have ht : authorText (some x) none = "author".toList ++ [':', ' '] ++ x := by
      simp [authorText, fieldsText, hx.1, join]
    rw [ht]
    refine key "author".toList (by decide) (fun y => ?_)
    by_cases hy : ':' ∈ y
    · exact .inr hy
    · refine .inl (fun ⟨_, h⟩ => ?_)
      have := two "comments".toList "author".toList (' ' :: y) (by decide) (by simp [hy]) (by decide) h
      exact absurd this (by decide +kernel)
  · have ht : authorText none (some x) = "comments".toList ++ [':', ' '] ++ x := by
      simp [authorText, fieldsText, hx.1, join]
    rw [ht]
    refine key "comments".toList (by decide) (fun y => ?_)
    by_cases hy : ':' ∈ y
    · exact .inr hy
    · refine .inl (fun ⟨h, _⟩ => ?_)
      have := two "author".toList "comments".toList (' ' :: y) (by decide) (by simp [hy]) (by decide) h
      exact absurd this (by decide +kernel)

/-- Comments with a time of day and no author lose everything after the first colon. -/
theorem C116_refuted : ¬ C116_claim := by
  intro h
  obtain ⟨d, h1, _, h3⟩ := h none (some "started 10:30".toList) (by simp)
    (by intro x hx; simp at hx; subst hx; exact ⟨by decide, by decide +kernel⟩) (by simp) none
  have : readComment ⟨authorText none (some "started 10:30".toList), none⟩
      = .ok ("mt".toList, .dict [("comments".toList, some "started 10".toList)]) := by decide +kernel
  rw [this] at h1
  simp only [Except.ok.injEq, Prod.mk.injEq, CVal.dict.injEq] at h1
  rw [← h1.2] at h3
  exact absurd h3 (by decide +kernel)

example : readComment ⟨authorText (some "J. Pedantic".toList) (some "started 10:30".toList), none⟩
    = .ok ("mt".toList, .dict [("author".toList, some "J. Pedantic".toList),
        ("comments".toList, some "started 10:30".toList)]) :=
  C116_both_partial _ _ ⟨by decide, by decide +kernel⟩ ⟨by decide, by decide +kernel⟩ (by decide) none

/-! ## C117 — the comment of a run -/

/-- Writing the comment of run `id` and reading the file into a station with the runs `runs`. -/
def runTrip (runs : OD Str (Option Str)) (id : Str) (text : Option Str) :
    Except PyErr (OD Str (Option Str)) :=
  readRunComments (writeRunComment id text) runs

/-- Full claim: for a run without comment yet, the text arrives. -/
def C117_claim : Prop :=
  ∀ (runs : OD Str (Option Str)) (id text : Str), OD.get? runs id = some none → Trim text →
    runTrip runs id (some text) = .ok (OD.set runs id (some text))

/-- A text without colon is not a dictionary, and is dropped. -/
theorem C117_plain_partial (runs : OD Str (Option Str)) (id text : Str) (h : ':' ∉ text) :
    runTrip runs id (some text) = .ok runs := by
  unfold runTrip writeRunComment
  simp only
  split
  · simp [readRunComments]
  · have hr : ∀ key, addRunComment runs key (.text text) = runs := by
      intro key
      unfold addRunComment
      repeat' split
      all_goals first | rfl | simp_all
    simp only [readRunComments, readComment]
    rw [if_neg h]
    simp only [hr, ite_self]

theorem C117_refuted : ¬ C117_claim := by
  intro h
  have h1 := h [("a".toList, none)] "a".toList "failure at midnight".toList (by decide +kernel)
    ⟨by decide, by decide +kernel⟩
  rw [C117_plain_partial _ _ _ (by decide)] at h1
  exact absurd h1 (by decide +kernel)

theorem lower_append (a b : Str) : lower (a ++ b) = lower a ++ lower b := by simp [lower]

theorem replaceC_append (a : Char) (b s t : Str) :
    replaceC a b (s ++ t) = replaceC a b s ++ replaceC a b t := by
  simp [replaceC, List.flatMap_append]

theorem runKey {id : Str} (hsp : ' ' ∉ id) :
    commentKey (some ("mt.run:".toList ++ id ++ ".comments".toList))
      = "mt.run".toList ++ ':' :: (lower id ++ '.' :: "comments".toList) := by
  have htrim : strip ("mt.run:".toList ++ id ++ ".comments".toList)
      = "mt.run:".toList ++ id ++ ".comments".toList := by
    have h1 : Trim "mt.run:".toList := ⟨by decide, by decide +kernel⟩
    have h2 : Trim ".comments".toList := ⟨by decide, by decide +kernel⟩
    exact (trim_mid h1 h2 id).2
  unfold commentKey
  simp only [htrim, replaceC_append, replaceC_none hsp, lower_append]
  have e1 : lower (replaceC ' ' ['_'] "mt.run:".toList) = "mt.run".toList ++ [':'] := by
    decide +kernel
  have e2 : lower (replaceC ' ' ['_'] ".comments".toList) = '.' :: "comments".toList := by
    decide +kernel
  rw [e1, e2]
  simp only [List.append_assoc, List.cons_append, List.nil_append]

theorem fold_addText (ps : List (Str × Str)) (p : Str × Str) :
    ((p :: ps).map (fun p => (p.1, some p.2))).foldl
      (fun t p => addText t (p.1 ++ [':', ' '] ++ showOpt p.2)) none = some (render (p :: ps)) := by
  have key : ∀ (ps : List (Str × Str)) (o : Str),
      (ps.map (fun p => (p.1, some p.2))).foldl
        (fun t p => addText t (p.1 ++ [':', ' '] ++ showOpt p.2)) (some o)
      = some (join [',', ' '] (o :: ps.map (fun p => p.1 ++ [':', ' '] ++ p.2))) := by
    intro ps
    induction ps with
    | nil => intro o; simp [join]
    | cons q ps ih =>
      intro o
      rw [List.map_cons, List.foldl_cons]
      exact (ih (o ++ ([',', ' '] ++ (q.1 ++ [':', ' '] ++ q.2)))).trans
        (by cases ps <;> simp [join])
  rw [List.map_cons, List.foldl_cons]
  exact (key ps (p.1 ++ [':', ' '] ++ p.2)).trans rfl

/-- A run id in lower case without blanks, dots (the key is lower-cased and cut at the first
dot): a comment that spells a dictionary arrives unchanged, and no other run is touched. -/
theorem C117_partial (runs : OD Str (Option Str)) (id : Str) (ps : List (Str × Str))
    (hid : OD.get? runs id = some none) (hsp : ' ' ∉ id) (hdot : '.' ∉ id) (hlow : lower id = id)
    (hne : ps ≠ []) (h : ∀ p ∈ ps, Plain p) (hn : (ps.map Prod.fst).Nodup)
    (ha : ¬ "author:".toList <:+: render ps) (hlen : ps.length ≤ 21) :
    runTrip runs id (some (render ps)) = .ok (OD.set runs id (some (render ps))) := by
  have hrne : render ps ≠ [] := (render_trim hne h).1
  unfold runTrip writeRunComment
  simp only [hrne, if_false, readRunComments]
  rw [C115_partial ps hne h hn ha hlen, runKey hsp, hlow]
  simp only
  have hmt : hasSub "mt.run".toList ("mt.run".toList ++ ':' :: (id ++ '.' :: "comments".toList)) = true := by
    rw [hasSub_iff]; exact (List.prefix_append _ _).isInfix
  rw [hmt]
  simp only [if_true, addRunComment]
  rw [split1_append _ (by decide)]
  simp only
  rw [split1_append _ hdot]
  simp only [hid, if_true]
  cases ps with
  | nil => exact absurd rfl hne
  | cons p ps => rw [fold_addText]

/-- An id that changes when lower-cased (`MT01a`) loses its comment, whatever it is, unless
another run bears the lower-case name. -/
theorem C117_case_partial (runs : OD Str (Option Str)) (id text : Str) (hsp : ' ' ∉ id)
    (hdot : '.' ∉ lower id) (hother : OD.get? runs (lower id) = none) (r : OD Str (Option Str))
    (h : runTrip runs id (some text) = .ok r) : r = runs := by
  unfold runTrip writeRunComment at h
  simp only at h
  split at h
  · simp only [readRunComments, Except.ok.injEq] at h; exact h.symm
  · simp only [readRunComments] at h
    split at h
    · cases h
    · rename_i k v hkv
      have hk : k = "mt.run".toList ++ ':' :: (lower id ++ '.' :: "comments".toList) := by
        rw [← runKey hsp]
        unfold readComment at hkv
        split at hkv
        · split at hkv
          · cases hkv; rfl
          · cases hkv
        · cases hkv; rfl
      subst hk
      have hadd : addRunComment runs ("mt.run".toList ++ ':' :: (lower id ++ '.' :: "comments".toList)) v
          = runs := by
        unfold addRunComment
        rw [split1_append _ (by decide)]
        simp only
        rw [split1_append _ hdot]
        simp only [hother]
      rw [hadd] at h
      simp only [ite_self, Except.ok.injEq] at h
      exact h.symm

example : runTrip [("A".toList, none)] "A".toList (some "a: b".toList) = .ok [("A".toList, none)] := by
  decide +kernel

example : runTrip [("a".toList, none)] "a".toList (some (render [("gain".toList, "10".toList)]))
    = .ok [("a".toList, some "gain: 10".toList)] := by
  have := C117_partial [("a".toList, none)] "a".toList [("gain".toList, "10".toList)]
    (by decide +kernel) (by decide) (by decide) (by decide +kernel) (by simp)
    (by
      intro p hp
      simp only [List.mem_cons, List.not_mem_nil, or_false] at hp
      subst hp
      exact ⟨⟨by decide, by decide +kernel⟩, ⟨by decide, by decide +kernel⟩, by decide, by decide,
          by decide, by decide⟩)
    (by simp) (fun h => absurd (hasSub_iff.2 h) (by decide +kernel)) (by simp)
  exact this

/-! ## C118 — the data logger description -/

/-- Full claim: what is written is read back. -/
def C118_claim : Prop :=
  ∀ fs : List (Str × Str), (∀ f ∈ fs, Trim f.1 ∧ ':' ∉ f.1 ∧ ',' ∉ f.1 ∧ Trim f.2) →
    parseDescription (makeDescription fs) = .ok fs

theorem descItem_ok {k v : Str} (pad : Str) (hpad : ∀ c ∈ pad, ws c = true) (hpc : ':' ∉ pad)
    (hk : Trim k) (hk1 : ':' ∉ k) (hv : Trim v) (hv1 : ':' ∉ v) (hnull : v ∉ ["None".toList, "null".toList]) :
    descItem (pad ++ (k ++ [':', ' '] ++ v)) = .ok (some (k, v)) := by
  have e : pad ++ (k ++ [':', ' '] ++ v) = (pad ++ k) ++ ':' :: (' ' :: v) := by simp
  unfold descItem
  rw [e, splitC_append _ (by simp [hpc, hk1]), splitC_none (by simp [hv1])]
  simp only [hv.space]
  have hkp : strip (pad ++ k) = k := by
    have := strip_pad (a := pad) (b := []) k hpad (by simp)
    simp only [List.append_nil] at this
    rw [this, hk.2]
  rw [if_neg, hkp]
  intro hm
  rcases List.mem_cons.1 hm with h | h
  · exact hv.1 h
  · exact hnull h

/-- It holds for at least one field and values without comma, colon and the words for nothing. -/
theorem C118_partial (fs : List (Str × Str)) (hne : fs ≠ [])
    (h : ∀ f ∈ fs, Plain f ∧ f.2 ∉ ["None".toList, "null".toList]) :
    parseDescription (makeDescription fs) = .ok fs := by
  have items : ∀ (fs : List (Str × Str)) (pad : Str), (∀ c ∈ pad, ws c = true) → ':' ∉ pad →
      (∀ f ∈ fs, Plain f ∧ f.2 ∉ ["None".toList, "null".toList]) →
      descItems ((fs.map (fun f => f.1 ++ [':', ' '] ++ f.2)).map (pad ++ ·)) = .ok fs := by
    intro fs pad hp hpc
    induction fs with
    | nil => intro _; rfl
    | cons f fs ih =>
      intro h
      obtain ⟨⟨hk, hv, hk1, _, hv1, _⟩, hnull⟩ := h f List.mem_cons_self
      simp only [List.map_cons, descItems]
      rw [descItem_ok pad hp hpc hk hk1 hv hv1 hnull]
      simp only
      rw [ih (fun g hg => h g (List.mem_cons_of_mem _ hg))]
      simp
  have comma : ∀ f ∈ fs, ',' ∉ f.1 ++ [':', ' '] ++ f.2 := by
    intro f hf
    obtain ⟨⟨_, _, _, h2, _, h4⟩, _⟩ := h f hf
    simp [h2, h4]
  unfold parseDescription makeDescription
  cases fs with
  | nil => exact absurd rfl hne
  | cons f fs =>
    rw [List.map_cons, splitC_join_pad (by decide) (comma f List.mem_cons_self) (by
      intro q hq
      obtain ⟨g, hg, rfl⟩ := List.mem_map.1 hq
      exact comma g (List.mem_cons_of_mem _ hg))]
    obtain ⟨⟨hk, hv, hk1, _, hv1, _⟩, hnull⟩ := h f List.mem_cons_self
    have h0 := descItem_ok [] (by simp) (by simp) hk hk1 hv hv1 hnull
    rw [List.nil_append] at h0
    simp only [descItems]
    rw [h0]
    simp only
    rw [items fs [' '] (by simp [ws_space]) (by simp) (fun g hg => h g (List.mem_cons_of_mem _ hg))]
    simp

/-- A run without any logger field, or with a colon in one value, cannot be read back. -/
theorem C118_error_partial :
    parseDescription (makeDescription []) = .error .valueError ∧
    ∀ (k v w : Str), ':' ∉ k → ':' ∉ v → ',' ∉ k → ',' ∉ v → ',' ∉ w →
      parseDescription (makeDescription [(k, v ++ ':' :: w)]) = .error .valueError := by
  refine ⟨by decide +kernel, ?_⟩
  intro k v w hk hv hk2 hv2 hw2
  unfold parseDescription makeDescription
  simp only [List.map_cons, List.map_nil, join]
  rw [splitC_none (by simp [hk2, hv2, hw2])]
  have e : k ++ [':', ' '] ++ (v ++ ':' :: w) = k ++ ':' :: ((' ' :: v) ++ ':' :: w) := by simp
  simp only [descItems, descItem]
  rw [e, splitC_append _ hk, splitC_append _ (by simp [hv])]
  cases hs : splitC ':' w with
  | nil => exact absurd hs (splitC_ne_nil _ _)
  | cons a l => cases l <;> rfl

theorem C118_refuted : ¬ C118_claim := by
  intro h
  have h1 := h [] (by simp)
  rw [C118_error_partial.1] at h1
  cases h1

example : parseDescription (makeDescription [("timing_system.type".toList, "GPS".toList),
    ("power_source.id".toList, "12 V".toList)])
    = .ok [("timing_system.type".toList, "GPS".toList), ("power_source.id".toList, "12 V".toList)] :=
  C118_partial _ (by simp) (by
    intro p hp
    simp only [List.mem_cons, List.not_mem_nil, or_false] at hp
    rcases hp with rfl | rfl <;>
      exact ⟨⟨⟨by decide, by decide +kernel⟩, ⟨by decide, by decide +kernel⟩, by decide, by decide,
        by decide, by decide⟩, by decide +kernel⟩)

/-! ## C119 — electrode ids -/

/-- Full claim: the two ids are read back. -/
def C119_claim : Prop :=
  ∀ p n : Option Str, (∀ x, p = some x → Trim x) → (∀ x, n = some x → Trim x) →
    ∃ a b, parseElectrodes (electrodeText p n) = .ok (a, b) ∧ p = some a ∧ n = some b

theorem C119_partial (p n : Str) (hp : strip p = p) (hn : strip n = n) (hp1 : ':' ∉ p)
    (hp2 : ',' ∉ p) (hn1 : ':' ∉ n) (hn2 : ',' ∉ n) :
    parseElectrodes (electrodeText (some p) (some n)) = .ok (p, n) := by
  have e : electrodeText (some p) (some n)
      = ("positive".toList ++ ':' :: (' ' :: p)) ++ ',' :: ((" negative".toList) ++ ':' :: (' ' :: n)) := by
    unfold electrodeText
    rw [show "positive: ".toList = "positive".toList ++ [':', ' '] from by decide +kernel,
      show ", negative: ".toList = ',' :: (" negative".toList ++ [':', ' ']) from by decide +kernel]
    simp only [showOpt, List.append_assoc, List.cons_append, List.nil_append]
  have c1 : ',' ∉ "positive".toList ++ ':' :: (' ' :: p) := by
    simp only [List.mem_append, List.mem_cons, not_or]
    exact ⟨by decide, by decide, by decide, hp2⟩
  have c2 : ',' ∉ " negative".toList ++ ':' :: (' ' :: n) := by
    simp only [List.mem_append, List.mem_cons, not_or]
    exact ⟨by decide, by decide, by decide, hn2⟩
  unfold parseElectrodes
  rw [e, if_pos ⟨by simp, by simp⟩, splitC_append _ c1, splitC_none c2]
  simp only
  rw [splitC_append _ (by decide), splitC_none (by simp [hp1]), splitC_append _ (by decide),
    splitC_none (by simp [hn1])]
  simp only [strip_cons_ws _ ws_space, hp, hn]

/-- Missing ids become the word `None`; a comma in an id makes the file unreadable; a colon
cuts the id. -/
theorem C119_failures_partial :
    parseElectrodes (electrodeText none none) = .ok ("None".toList, "None".toList) ∧
    parseElectrodes (electrodeText (some "1,2".toList) (some "3".toList)) = .error .valueError ∧
    parseElectrodes (electrodeText (some "a:1".toList) (some "b".toList)) = .ok ("a".toList, "b".toList) := by
  decide +kernel

theorem C119_refuted : ¬ C119_claim := by
  intro h
  obtain ⟨a, b, _, h2, _⟩ := h none none (by simp) (by simp)
  cases h2

example : parseElectrodes (electrodeText (some "101".toList) (some "102".toList))
    = .ok ("101".toList, "102".toList) :=
  C119_partial _ _ (by decide +kernel) (by decide +kernel) (by decide) (by decide) (by decide) (by decide)

/-! ## C120 — the reversed translator -/

/-- The names an entry stands for. -/
def FVal.names : FVal → List Str
  | .none => []
  | .one s => if s = "special".toList then [] else [s]
  | .many l => l

theorem flipEntry_eq (d : OD Str Str) (k : Str) (v : FVal) :
    flipEntry d k v = v.names.foldl (fun d n => OD.set d n k) d := by
  cases v with
  | none => rfl
  | one s =>
    by_cases h : s = "special".toList
    · simp only [flipEntry, FVal.names, if_pos h, List.foldl_nil]
    · simp only [flipEntry, FVal.names, if_neg h, List.foldl_cons, List.foldl_nil]
  | many l => rfl

/-- All pairs `(name, key)` in order. -/
def flatPairs (t : OD Str FVal) : List (Str × Str) := t.flatMap (fun p => p.2.names.map (fun n => (n, p.1)))

theorem flip_eq (t : OD Str FVal) : flip t = OD.ofPairs (flatPairs t) := by
  have key : ∀ (t : OD Str FVal) (d : OD Str Str),
      t.foldl (fun d p => flipEntry d p.1 p.2) d
      = (flatPairs t).foldl (fun d p => OD.set d p.1 p.2) d := by
    intro t
    induction t with
    | nil => intro d; rfl
    | cons p t ih =>
      intro d
      rw [List.foldl_cons, ih, flipEntry_eq]
      simp only [flatPairs, List.flatMap_cons, List.foldl_append]
      congr 1
      generalize p.2.names = l
      induction l generalizing d with
      | nil => rfl
      | cons n l ihl => simp only [List.foldl_cons, List.map_cons]; exact ihl _
  exact key t []

theorem C120_inverse_partial (t : OD Str FVal)
    (hdist : (t.flatMap (fun p => p.2.names)).Nodup) (n k : Str) :
    OD.get? (flip t) n = some k ↔ ∃ v, (k, v) ∈ t ∧ n ∈ v.names := by
  have hkeys : (flatPairs t).map Prod.fst = t.flatMap (fun p => p.2.names) := by
    unfold flatPairs
    induction t with
    | nil => rfl
    | cons p t ih =>
      simp only [List.flatMap_cons, List.map_append]
      rw [ih (by rw [List.flatMap_cons] at hdist; exact (List.nodup_append.1 hdist).2.1)]
      congr 1
      simp [Function.comp_def]
  have hwf : OD.WF (flatPairs t) := by unfold OD.WF OD.keys; rw [hkeys]; exact hdist
  rw [flip_eq, OD.ofPairs_of_wf hwf]
  constructor
  · intro h
    have := OD.mem_of_get? h
    unfold flatPairs at this
    obtain ⟨p, hp, hm⟩ := List.mem_flatMap.1 this
    obtain ⟨m, hm1, hm2⟩ := List.mem_map.1 hm
    simp only [Prod.mk.injEq] at hm2
    exact ⟨p.2, by rw [← hm2.2]; exact hp, by rw [← hm2.1]; exact hm1⟩
  · rintro ⟨v, hv, hn⟩
    apply OD.get?_of_mem hwf
    unfold flatPairs
    exact List.mem_flatMap.2 ⟨(k, v), hv, List.mem_map.2 ⟨n, hn, rfl⟩⟩

/-- Full claim: the reversed dictionary knows every entry of the original. -/
def C120_claim : Prop :=
  ∀ t : OD Str FVal, OD.WF t → ∀ k v n, (k, v) ∈ t → n ∈ v.names → OD.get? (flip t) n = some k

/-- The station translator maps two StationXML fields to `time_period.start`
(xml_station_mt_station.py L52, L65): only the last is kept.  (The class then sets the two
ambiguous names by hand, L77-78.) -/
theorem C120_refuted : ¬ C120_claim := by
  intro h
  have := h [("creation_date".toList, .one "time_period.start".toList),
    ("start_date".toList, .one "time_period.start".toList)] (by unfold OD.WF; decide +kernel)
    "creation_date".toList (.one "time_period.start".toList) "time_period.start".toList
    (by simp) (by decide +kernel)
  exact absurd this (by decide +kernel)

/-- In every case each name leads back to some key it stands under, and no other names occur. -/
theorem C120_sound (t : OD Str FVal) (n : Str) :
    (∀ k, OD.get? (flip t) n = some k → ∃ v, (k, v) ∈ t ∧ n ∈ v.names) ∧
    ((∃ p ∈ t, n ∈ p.2.names) → ∃ k, OD.get? (flip t) n = some k) := by
  rw [flip_eq]
  have key : ∀ (l : List (Str × Str)) (d : OD Str Str),
      (∀ k, OD.get? (l.foldl (fun d p => OD.set d p.1 p.2) d) n = some k →
        (n, k) ∈ l ∨ OD.get? d n = some k) ∧
      ((∃ k, (n, k) ∈ l) ∨ (∃ k, OD.get? d n = some k) →
        ∃ k, OD.get? (l.foldl (fun d p => OD.set d p.1 p.2) d) n = some k) := by
    intro l
    induction l with
    | nil => intro d; exact ⟨fun k h => .inr h, fun h => by simpa using h⟩
    | cons p l ih =>
      intro d
      rw [List.foldl_cons]
      obtain ⟨i1, i2⟩ := ih (OD.set d p.1 p.2)
      constructor
      · intro k hk
        rcases i1 k hk with h | h
        · exact .inl (List.mem_cons_of_mem _ h)
        · by_cases hp : n = p.1
          · subst hp
            rw [OD.get?_set_self] at h
            cases h
            exact .inl List.mem_cons_self
          · rw [OD.get?_set_ne _ _ hp] at h; exact .inr h
      · intro h
        apply i2
        by_cases hp : n = p.1
        · exact .inr ⟨p.2, by rw [hp, OD.get?_set_self]⟩
        · rcases h with ⟨k, hk⟩ | ⟨k, hk⟩
          · rcases List.mem_cons.1 hk with rfl | hk
            · exact absurd rfl hp
            · exact .inl ⟨k, hk⟩
          · exact .inr ⟨k, by rw [OD.get?_set_ne _ _ hp]; exact hk⟩
  obtain ⟨k1, k2⟩ := key (flatPairs t) []
  constructor
  · intro k hk
    rcases k1 k hk with h | h
    · unfold flatPairs at h
      obtain ⟨p, hp, hm⟩ := List.mem_flatMap.1 h
      obtain ⟨m, hm1, hm2⟩ := List.mem_map.1 hm
      simp only [Prod.mk.injEq] at hm2
      exact ⟨p.2, by rw [← hm2.2]; exact hp, by rw [← hm2.1]; exact hm1⟩
    · simp [OD.get?] at h
  · rintro ⟨p, hp, hn⟩
    exact k2 (.inl ⟨p.1, List.mem_flatMap.2 ⟨p, hp, List.mem_map.2 ⟨n, hn, rfl⟩⟩⟩)

example : OD.get? (flip [("code".toList, .one "id".toList), ("pos".toList, .many ["lat".toList, "lon".toList]),
    ("x".toList, .one "special".toList)]) "lon".toList = some "pos".toList := by decide +kernel

/-! ## C121 — the DOI of a survey -/

/-- Full claim: the DOI read back is the DOI written. -/
def C121_claim : Prop := ∀ d : Str, Trim d → readDois [writeDoi (some d)] = d

/-- Every DOI (that does not itself contain `DOI:`) is read back with the resolver's address in
front, also one that already is an address. -/
theorem C121_prefix_partial (d : Str) (h : Trim d) (hno : ¬ "DOI:".toList <:+: d) :
    readDois [writeDoi (some d)] = "https://doi.org/".toList ++ d := by
  have hs : strip ("DOI:".toList ++ d) = "DOI:".toList ++ d := by
    have := trim_mid (a := "DOI:".toList) ⟨by decide, by decide +kernel⟩ h []
    rw [List.append_nil] at this
    exact this.2
  simp only [readDois, writeDoi, showOpt, List.map_cons, List.map_nil, join, replaceSub]
  rw [hs, splitSub_start _ (by decide), splitSub_none hno]
  simp [join]

theorem C121_refuted : ¬ C121_claim := by
  intro h
  have h1 := h "10.5066/P9".toList ⟨by decide, by decide +kernel⟩
  rw [C121_prefix_partial _ ⟨by decide, by decide +kernel⟩
    (fun hi => absurd (hasSub_iff.2 hi) (by decide +kernel))] at h1
  exact absurd h1 (by decide +kernel)

/-- No such DOI survives, and a second trip adds the address once more. -/
theorem C121_grows_partial (d : Str) (h : Trim d) (hno : ¬ "DOI:".toList <:+: d) :
    readDois [writeDoi (some d)] ≠ d ∧
    (readDois [writeDoi (some d)]).length = d.length + 16 := by
  rw [C121_prefix_partial d h hno]
  constructor
  · intro he
    have := congrArg List.length he
    rw [List.length_append, show "https://doi.org/".toList.length = 16 from by decide +kernel] at this
    omega
  · rw [List.length_append, show "https://doi.org/".toList.length = 16 from by decide +kernel]
    omega

example : readDois [writeDoi (some "https://doi.org/10.5066/P9".toList)]
    = "https://doi.org/https://doi.org/10.5066/P9".toList := by decide +kernel

/-- A survey without DOI is given one. -/
theorem C121_none_partial : readDois [writeDoi none] = "https://doi.org/None".toList := by
  decide +kernel

/-! ## C122 — the model of a magnetic sensor -/

/-- Writing and reading a magnetic sensor. -/
def sensorTrip (s : Sensor) : Except PyErr Sensor :=
  match writeSensor s with
  | .ok x => .ok (readSensor x)
  | .error e => .error e

/-- Full claim: model and name are read back. -/
def C122_claim : Prop := ∀ s : Sensor, (∀ m, s.model = some m → Trim m) → sensorTrip s = .ok s

theorem C122_refuted : ¬ C122_claim := by
  intro h
  have h1 := h ⟨some "ANT-4".toList, some "coil".toList⟩
    (by intro m hm; simp at hm; subst hm; exact ⟨by decide, by decide +kernel⟩)
  exact absurd h1 (by decide +kernel)

/-- The name is kept; the model becomes its first word followed by the name (`None` for what is
missing). -/
theorem C122_model_partial (w rest : Str) (name : Option Str) (hw : w ≠ [])
    (hword : ∀ c ∈ w, ws c = false) (hrest : rest = [] ∨ ∃ c r, rest = c :: r ∧ ws c = true) :
    sensorTrip ⟨some (w ++ rest), name⟩ = .ok ⟨some (w ++ [' '] ++ showOpt name), name⟩ := by
  have hwords : ∃ l, words (w ++ rest) = w :: l := by
    rcases hrest with rfl | ⟨c, r, rfl, hc⟩
    · exact ⟨[], by rw [List.append_nil, words_token hword hw]⟩
    · exact ⟨words r, words_append r hword hw hc⟩
  obtain ⟨l, hl⟩ := hwords
  simp only [sensorTrip, writeSensor]
  rw [if_neg (by simp [hw]), hl]
  rfl

/-- So one trip is enough: the second changes nothing more. -/
theorem C122_stable_partial (s t : Sensor) (hm : ∀ m, s.model = some m → m ≠ [])
    (h : sensorTrip s = .ok t) : sensorTrip t = .ok t := by
  have build : ∀ (w : Str) (name : Option Str), w ≠ [] → (∀ c ∈ w, ws c = false) →
      sensorTrip ⟨some (w ++ [' '] ++ showOpt name), name⟩
        = .ok ⟨some (w ++ [' '] ++ showOpt name), name⟩ := by
    intro w name hw hword
    have := C122_model_partial w (' ' :: showOpt name) name hw hword
      (.inr ⟨' ', showOpt name, rfl, ws_space⟩)
    simpa only [List.append_assoc, List.cons_append, List.nil_append] using this
  obtain ⟨model, name⟩ := s
  cases model with
  | none =>
    simp only [sensorTrip, writeSensor, readSensor, showOpt, Except.ok.injEq] at h
    subst h
    exact build "None".toList name (by decide) (by decide +kernel)
  | some m =>
    simp only [sensorTrip, writeSensor] at h
    rw [if_neg (hm m rfl)] at h
    cases hwd : words m with
    | nil => rw [hwd] at h; cases h
    | cons w l =>
      rw [hwd] at h
      simp only [readSensor, showOpt, Except.ok.injEq] at h
      subst h
      have := words_tokens m w (by rw [hwd]; exact List.mem_cons_self)
      exact build w name this.1 this.2

example : sensorTrip ⟨some "ANT-4 coil".toList, some "north".toList⟩
    = .ok ⟨some "ANT-4 north".toList, some "north".toList⟩ := by decide +kernel

/-! ## C123 — the id of a run -/

/-- Full claim: the run id is read back from the resource id. -/
def C123_claim : Prop := ∀ id : Str, readResource (writeResource id) = .ok id

/-- It is read up to its first colon. -/
theorem C123_iff_partial (id : Str) :
    readResource (writeResource id) = .ok (split1 ':' id).1 ∧
    (readResource (writeResource id) = .ok id ↔ ':' ∉ id) := by
  have e : writeResource id = "mt.run.id".toList ++ ':' :: id := by
    unfold writeResource
    rw [show "mt.run.id:".toList = "mt.run.id".toList ++ [':'] from by decide +kernel]
    simp only [List.append_assoc, List.cons_append, List.nil_append]
  have hfirst : ∀ s : Str, ∃ l, splitC ':' s = (split1 ':' s).1 :: l := by
    intro s
    induction s with
    | nil => exact ⟨[], rfl⟩
    | cons x s ih =>
      by_cases hx : x = ':'
      · subst hx; exact ⟨splitC ':' s, by rw [splitC_cons_self]; simp [split1]⟩
      · obtain ⟨l, hl⟩ := ih
        refine ⟨l, ?_⟩
        rw [splitC_cons_ne _ hx, hl, split1, if_neg hx]; rfl
  obtain ⟨l, hl⟩ := hfirst id
  have h1 : readResource (writeResource id) = .ok (split1 ':' id).1 := by
    unfold readResource
    rw [e, splitC_append _ (by decide), hl]
  refine ⟨h1, ?_⟩
  rw [h1]
  constructor
  · intro h
    simp only [Except.ok.injEq] at h
    rw [← h]
    have := splitC_pieces ':' id (split1 ':' id).1 (by rw [hl]; exact List.mem_cons_self)
    exact this
  · intro h; rw [split1_none h]

theorem C123_refuted : ¬ C123_claim := by
  intro h
  exact absurd ((C123_iff_partial "a:b".toList).2.1 (h _)) (by decide)

example : readResource (writeResource "sr100_001".toList) = .ok "sr100_001".toList :=
  (C123_iff_partial _).2.2 (by decide)

end Verif.XmlText
