import Verif.Props.EdiInfo

/-! Properties C203-C206: the information sections of Phoenix and Empower files. -/

namespace Verif.EdiInfo
open Verif.Text

/-! ## C203 — two columns on one line -/

/-- Words with blanks between them. -/
def render : Str → List (Nat × Str) → Str
  | w, [] => w
  | w, (g, v) :: r => w ++ List.replicate g ' ' ++ render v r

/-- A word. -/
def Word (w : Str) : Prop := w ≠ [] ∧ ∀ c ∈ w, ws c = false

/-- Words at most three blanks apart. -/
def Near (w : Str) (r : List (Nat × Str)) : Prop := Word w ∧ ∀ p ∈ r, Word p.2 ∧ 1 ≤ p.1 ∧ p.1 ≤ 3

/-- A line of a Phoenix file: nothing of an Empower file in it. -/
def NoEmpower (l : Str) : Prop := ∀ w ∈ ["empower".toList, "electrics".toList, "magnetics".toList], ¬ w <:+: lower l

/-- Two names with their values on a line, more than three blanks apart, are read as if they stood on
two lines. -/
def C203_claim : Prop := ∀ (repr : List Str → Str) (a b : List Str) (w v : Str) (l r : List (Nat × Str)) (n : Nat),
  Near w l → Near v r → 3 < n →
  (∃ m ∈ a, "run information".toList <:+: lower (strip m)) →
  (∀ m ∈ a ++ [render w l, render v r, render w l ++ List.replicate n ' ' ++ render v r] ++ b, InInfo m ∧ NoEmpower m) →
  hasSep (render w l) = true → hasSep (render v r) = true →
  readInfo repr (">INFO".toList :: (a ++ [render w l ++ List.replicate n ' ' ++ render v r] ++ b)) =
    readInfo repr (">INFO".toList :: (a ++ [render w l, render v r] ++ b))

/-- A line with two words is not taken apart: the second one is lost. -/
theorem C203_refuted : ¬ C203_claim := by
  intro h
  have h1 := h (fun _ => []) ["RUN INFORMATION".toList] [] "Survey:a1".toList "Job:b2".toList [] [] 5
    ⟨by unfold Word; decide, by simp⟩ ⟨by unfold Word; decide, by simp⟩ (by decide)
    ⟨_, List.mem_singleton.2 rfl, by decide +kernel⟩ (by unfold InInfo NoEmpower; decide +kernel)
    (by decide +kernel) (by decide +kernel)
  exact absurd h1 (by decide +kernel)

/-- The words with their places. -/
def places : Nat → Str → List (Nat × Str) → List (Str × Nat)
  | i, w, [] => [(w, i)]
  | i, w, (g, v) :: r => (w, i) :: places (i + w.length + g) v r

theorem parts_word {w : Str} (h : ∀ c ∈ w, ws c = false) (i st : Nat) (cur s : Str) :
    parts i cur st (w ++ s) = parts (i + w.length) (cur ++ w) st s := by
  induction w generalizing i cur with
  | nil => simp
  | cons c w ih =>
    rw [List.cons_append, parts, if_neg (by rw [h c List.mem_cons_self]; simp), ih fun d hd => h d (List.mem_cons_of_mem _ hd)]
    simp [Nat.add_comm, Nat.add_left_comm]

theorem parts_blanks (g i : Nat) (s : Str) : parts i [] i (List.replicate g ' ' ++ s) = parts (i + g) [] (i + g) s := by
  induction g generalizing i with
  | zero => rfl
  | succ g ih =>
    rw [List.replicate_succ, List.cons_append, parts, if_pos (by decide), if_pos rfl, ih]
    congr 1 <;> omega

theorem parts_render (w : Str) (r : List (Nat × Str)) (hw : Word w) (hr : ∀ p ∈ r, Word p.2 ∧ 1 ≤ p.1) (i : Nat) :
    parts i [] i (render w r) = places i w r := by
  induction r generalizing i w with
  | nil =>
    have := parts_word hw.2 i i [] []
    rw [List.append_nil, List.nil_append] at this
    rw [render, this, parts, if_neg hw.1, places]
  | cons p r ih =>
    obtain ⟨g, v⟩ := p
    have hp := hr _ List.mem_cons_self
    rw [render, List.append_assoc, parts_word hw.2, List.nil_append]
    obtain ⟨g', rfl⟩ : ∃ g', g = g' + 1 := ⟨g - 1, by have := hp.2; simp only at this; omega⟩
    rw [List.replicate_succ, List.cons_append, parts, if_pos (by decide), if_neg hw.1, parts_blanks,
      ih v hp.1 fun q hq => hr q (List.mem_cons_of_mem _ hq), places]
    congr 2
    omega

theorem gaps_places (i : Nat) (w : Str) (r : List (Nat × Str)) : gaps (places i w r) = r.map (·.1) := by
  induction r generalizing i w with
  | nil => rfl
  | cons p r ih =>
    obtain ⟨g, v⟩ := p
    have h := ih (i + w.length + g) v
    cases r with
    | nil =>
      simp only [places, gaps, List.map_cons, List.map_nil]
      congr 1
      omega
    | cons q r =>
      obtain ⟨g', v'⟩ := q
      rw [places] at h
      rw [places, places, gaps, h, List.map_cons]
      congr 1
      simp only
      omega

theorem length_places (i : Nat) (w : Str) (r : List (Nat × Str)) : (places i w r).length = r.length + 1 := by
  induction r generalizing i w with
  | nil => rfl
  | cons p r ih => obtain ⟨g, v⟩ := p; rw [places, List.length_cons, ih, List.length_cons]

theorem length_render_append (w : Str) (l : List (Nat × Str)) (n : Nat) (v : Str) (r : List (Nat × Str)) :
    render w (l ++ (n, v) :: r) = render w l ++ List.replicate n ' ' ++ render v r := by
  induction l generalizing w with
  | nil => rfl
  | cons p l ih =>
    obtain ⟨g, u⟩ := p
    rw [List.cons_append, render, ih, render]
    simp

theorem wordAfter_places (n : Nat) (l : List (Nat × Str)) (h : ∀ p ∈ l, p.1 ≠ n) (i : Nat) (w v : Str) (r : List (Nat × Str)) :
    wordAfter n (places i w (l ++ (n, v) :: r)) = i + (render w l).length + n := by
  induction l generalizing i w with
  | nil =>
    rw [List.nil_append, places]
    have : ∃ t, places (i + w.length + n) v r = (v, i + w.length + n) :: t := by
      cases r with
      | nil => exact ⟨_, rfl⟩
      | cons q r => exact ⟨_, rfl⟩
    obtain ⟨t, ht⟩ := this
    rw [ht, wordAfter, if_pos (by simp only; omega), render]
  | cons p l ih =>
    obtain ⟨g, u⟩ := p
    have hg : g ≠ n := h _ List.mem_cons_self
    have ih := ih (fun q hq => h q (List.mem_cons_of_mem _ hq)) (i + w.length + g) u
    rw [List.cons_append, places]
    have : ∃ t, places (i + w.length + g) u (l ++ (n, v) :: r) = (u, i + w.length + g) :: t := by
      cases l with
      | nil => exact ⟨_, rfl⟩
      | cons q r => exact ⟨_, rfl⟩
    obtain ⟨t, ht⟩ := this
    rw [ht] at ih
    rw [ht, wordAfter, if_neg (by simp only; omega), ih, render]
    simp only [List.length_append, List.length_replicate]
    omega

theorem foldl_max_le (l : List Nat) (a b : Nat) (ha : a ≤ b) (h : ∀ x ∈ l, x ≤ b) : l.foldl max a ≤ b := by
  induction l generalizing a with
  | nil => exact ha
  | cons x l ih =>
    exact ih _ (Nat.max_le.2 ⟨ha, h x List.mem_cons_self⟩) fun y hy => h y (List.mem_cons_of_mem _ hy)

theorem le_foldl_max (l : List Nat) (a : Nat) : a ≤ l.foldl max a ∧ ∀ x ∈ l, x ≤ l.foldl max a := by
  induction l generalizing a with
  | nil => simp
  | cons x l ih =>
    obtain ⟨h1, h2⟩ := ih (max a x)
    refine ⟨Nat.le_trans (Nat.le_max_left _ _) h1, ?_⟩
    intro y hy
    rcases List.mem_cons.1 hy with rfl | hy
    · exact Nat.le_trans (Nat.le_max_right _ _) h1
    · exact h2 y hy

/-- A line whose words are near to one another is one column. -/
theorem columns_near {w : Str} {r : List (Nat × Str)} (h : Near w r) : columns (render w r) = [render w r] := by
  unfold columns
  simp only [parts_render w r h.1 (fun p hp => ⟨(h.2 p hp).1, (h.2 p hp).2.1⟩), gaps_places]
  split
  · rfl
  · split
    · rfl
    · rw [if_pos]
      refine foldl_max_le _ _ _ (by omega) ?_
      intro x hx
      obtain ⟨p, hp, rfl⟩ := List.mem_map.1 hx
      exact (h.2 p hp).2.2

theorem strip_render {w : Str} {r : List (Nat × Str)} (h : Near w r) : strip (render w r) = render w r := by
  refine strip_of_ends ?_ ?_
  · have : ∃ t, render w r = w ++ t := by
      cases r with
      | nil => exact ⟨[], (List.append_nil _).symm⟩
      | cons p r => exact ⟨_, by rw [render, List.append_assoc]⟩
    obtain ⟨t, ht⟩ := this
    intro c hc
    rw [ht] at hc
    obtain ⟨x, xs, hx⟩ := List.exists_cons_of_ne_nil h.1.1
    rw [hx, List.cons_append, List.head?_cons] at hc
    cases hc
    exact h.1.2 _ (by rw [hx]; exact List.mem_cons_self)
  · have : ∃ t v, render w r = t ++ v ∧ Word v := by
      have : ∀ (r : List (Nat × Str)) (w : Str), Near w r → ∃ t v, render w r = t ++ v ∧ Word v := by
        intro r
        induction r with
        | nil => exact fun w h => ⟨[], w, rfl, h.1⟩
        | cons p r ih =>
          intro w h
          obtain ⟨t, v, e, hv⟩ := ih p.2 ⟨(h.2 p List.mem_cons_self).1, fun q hq => h.2 q (List.mem_cons_of_mem _ hq)⟩
          exact ⟨w ++ List.replicate p.1 ' ' ++ t, v, by rw [render, e]; simp, hv⟩
      exact this r w h
    obtain ⟨t, v, e, hv⟩ := this
    intro c hc
    rw [e, List.getLast?_append] at hc
    have : ∃ x, v.getLast? = some x := by
      cases hl : v.getLast? with
      | none => exact absurd (List.getLast?_eq_none_iff.1 hl) hv.1
      | some x => exact ⟨x, rfl⟩
    obtain ⟨x, hx⟩ := this
    rw [hx, Option.some_or] at hc
    cases hc
    exact hv.2 _ (List.mem_of_getLast? hx)

theorem render_ne {w : Str} {r : List (Nat × Str)} (h : Near w r) : render w r ≠ [] := by
  cases r with
  | nil => exact h.1.1
  | cons p r =>
    rw [render]
    intro e
    rw [List.append_assoc] at e
    exact h.1.1 (List.append_eq_nil_iff.1 e).1

theorem columns_two {w v : Str} {l r : List (Nat × Str)} {n : Nat} (h1 : Near w l) (h2 : Near v r) (hn : 3 < n)
    (hc : 2 ≤ l.length + r.length) (s1 : hasSep (render w l) = true) (s2 : hasSep (render v r) = true) :
    columns (render w l ++ List.replicate n ' ' ++ render v r) = [render w l, render v r] := by
  have e : render w l ++ List.replicate n ' ' ++ render v r = render w (l ++ (n, v) :: r) :=
    (length_render_append w l n v r).symm
  have hparts : parts 0 [] 0 (render w l ++ List.replicate n ' ' ++ render v r) = places 0 w (l ++ (n, v) :: r) := by
    rw [e]
    refine parts_render _ _ h1.1 ?_ 0
    intro p hp
    rcases List.mem_append.1 hp with hp | hp
    · exact ⟨(h1.2 p hp).1, (h1.2 p hp).2.1⟩
    · rcases List.mem_cons.1 hp with rfl | hp
      · exact ⟨h2.1, by simp only; omega⟩
      · exact ⟨(h2.2 p hp).1, (h2.2 p hp).2.1⟩
  have hmax : maxGap (gaps (places 0 w (l ++ (n, v) :: r))) = n := by
    rw [gaps_places]
    refine Nat.le_antisymm ?_ ?_
    · refine foldl_max_le _ _ _ (by omega) ?_
      intro x hx
      obtain ⟨p, hp, rfl⟩ := List.mem_map.1 hx
      rcases List.mem_append.1 hp with hp | hp
      · have := (h1.2 p hp).2.2; omega
      · rcases List.mem_cons.1 hp with rfl | hp
        · exact Nat.le_refl _
        · have := (h2.2 p hp).2.2; omega
    · exact (le_foldl_max _ 0).2 n (List.mem_map.2 ⟨(n, v), by simp, rfl⟩)
  have hpos : wordAfter n (places 0 w (l ++ (n, v) :: r)) = (render w l).length + n := by
    rw [wordAfter_places n l (fun p hp => by have := (h1.2 p hp).2.2; omega)]
    omega
  have hlen : ∀ (u : Str) (q : List (Nat × Str)), Near u q → 2 * q.length + 1 ≤ (render u q).length := by
    intro u q
    induction q generalizing u with
    | nil =>
      intro h
      have := List.length_pos_of_ne_nil h.1.1
      simp only [List.length_nil, render]
      omega
    | cons p q ih =>
      intro h
      have i := ih p.2 ⟨(h.2 p List.mem_cons_self).1, fun x hx => h.2 x (List.mem_cons_of_mem _ hx)⟩
      have := List.length_pos_of_ne_nil h.1.1
      have := (h.2 p List.mem_cons_self).2.1
      rw [render]
      simp only [List.length_append, List.length_replicate, List.length_cons]
      omega
  have hl1 := hlen w l h1
  have hl2 := hlen v r h2
  unfold columns
  simp only [hparts, hmax, hpos]
  rw [if_neg, if_neg, if_neg (by omega)]
  · have ht : (render w l ++ List.replicate n ' ' ++ render v r).take ((render w l).length + n) =
        render w l ++ List.replicate n ' ' := by
      rw [List.take_append_of_le_length (by simp), List.take_of_length_le (by simp)]
    have hd : (render w l ++ List.replicate n ' ' ++ render v r).drop ((render w l).length + n) = render v r := by
      rw [List.drop_append_of_le_length (by simp), List.drop_of_length_le (by simp), List.nil_append]
    have hs : strip (render w l ++ List.replicate n ' ') = render w l := by
      have := strip_pad (a := []) (b := List.replicate n ' ') (render w l) (by simp)
        (fun c hc => by rw [List.eq_of_mem_replicate hc]; decide)
      rw [List.nil_append] at this
      rw [this, strip_render h1]
    rw [ht, hd, hs, strip_render h2, s1, s2]
    rfl
  · rw [length_places]
    simp only [List.length_append, List.length_cons]
    omega
  · simp only [List.length_append, List.length_replicate]
    omega

theorem phoenix_format {ls : List Str} (h1 : ∃ m ∈ ls, phoenixMark m = true) (h2 : ∀ m ∈ ls, NoEmpower m) :
    format ls = .phoenix := by
  have he : ∀ m ∈ ls, empowerMark m = false := by
    intro m hm
    have hw : ∀ w ∈ ["empower".toList, "electrics".toList, "magnetics".toList], hasSub w (lower m) = false := by
      intro w hw
      rw [Bool.eq_false_iff, ne_eq, hasSub_iff]
      exact h2 m hm w hw
    unfold empowerMark
    rw [hw "empower".toList (by simp), hw "electrics".toList (by simp), hw "magnetics".toList (by simp)]
    rfl
  unfold format
  rw [if_neg, if_pos]
  · rw [List.any_eq_true]; exact h1
  · rw [List.any_eq_true]
    rintro ⟨m, hm, e⟩
    rw [he m hm, Bool.and_false] at e
    cases e

/-- Two columns more than three blanks apart, with at least four words on the line, are read as if
they stood on two lines. -/
theorem C203_columns_partial (repr : List Str → Str) (a b : List Str) (w v : Str) (l r : List (Nat × Str)) (n : Nat)
    (h1 : Near w l) (h2 : Near v r) (hn : 3 < n) (hc : 4 ≤ (w :: l.map (·.2)).length + (v :: r.map (·.2)).length)
    (hp : ∃ m ∈ a, "run information".toList <:+: lower (strip m))
    (hl : ∀ m ∈ a ++ [render w l, render v r, render w l ++ List.replicate n ' ' ++ render v r] ++ b, InInfo m ∧ NoEmpower m)
    (s1 : hasSep (render w l) = true) (s2 : hasSep (render v r) = true) :
    readInfo repr (">INFO".toList :: (a ++ [render w l ++ List.replicate n ' ' ++ render v r] ++ b)) =
      readInfo repr (">INFO".toList :: (a ++ [render w l, render v r] ++ b)) := by
  have key : ∀ x : List Str, (∀ m ∈ x, m = render w l ∨ m = render v r ∨ m = render w l ++ List.replicate n ' ' ++ render v r) →
      (∀ m ∈ x, strip m = m ∧ m ≠ []) → x.flatMap columns = [render w l, render v r] →
      readInfo repr (">INFO".toList :: (a ++ x ++ b)) =
        ((((a.map strip).filter (fun l => decide (l ≠ []))).flatMap columns ++ [render w l, render v r] ++
          ((b.map strip).filter (fun l => decide (l ≠ []))).flatMap columns).foldlM phoenixColumn []).map joinComments := by
    intro x hx hxs hcol
    have hin : ∀ m ∈ a ++ x ++ b, InInfo m ∧ NoEmpower m := by
      intro m hm
      refine hl m ?_
      rcases List.mem_append.1 hm with hm | hm
      · rcases List.mem_append.1 hm with hm | hm
        · exact List.mem_append_left _ (List.mem_append_left _ hm)
        · refine List.mem_append_left _ (List.mem_append_right _ ?_)
          rcases hx m hm with e | e | e <;> simp [e]
      · exact List.mem_append_right _ hm
    have hsec : sectionLines false (">INFO".toList :: (a ++ x ++ b)) =
        (a.map strip).filter (fun l => decide (l ≠ [])) ++ x ++ (b.map strip).filter (fun l => decide (l ≠ [])) := by
      have := sectionLines_all (fun m hm => (hin m hm).1) []
      rw [List.append_nil, sectionLines, List.append_nil] at this
      rw [sectionLines_start, this]
      simp only [List.map_append, List.filter_append]
      congr 2
      rw [List.map_congr_left (g := id) (fun m hm => (hxs m hm).1), List.map_id]
      exact List.filter_eq_self.2 fun m hm => by simpa using (hxs m hm).2
    have hf : format (sectionLines false (">INFO".toList :: (a ++ x ++ b))) = .phoenix := by
      rw [hsec]
      refine phoenix_format ?_ ?_
      · obtain ⟨m, hm, hi⟩ := hp
        refine ⟨strip m, List.mem_append_left _ (List.mem_append_left _ (List.mem_filter.2 ⟨List.mem_map.2 ⟨m, hm, rfl⟩, ?_⟩)), ?_⟩
        · rw [decide_eq_true_eq]
          intro e
          rw [e] at hi
          exact absurd (hi.subset (a := 'r') (by decide)) (by simp [lower])
        · unfold phoenixMark
          rw [hasSub_iff]; exact hi
      · have hstr : ∀ m, NoEmpower m → NoEmpower (strip m) := fun m hm w hw hi => hm w hw (infix_lower_strip hi)
        intro m hm
        rcases List.mem_append.1 hm with hm | hm
        · rcases List.mem_append.1 hm with hm | hm
          · obtain ⟨y, hy, rfl⟩ := List.mem_map.1 (List.mem_filter.1 hm).1
            exact hstr y (hin y (List.mem_append_left _ (List.mem_append_left _ hy))).2
          · exact (hin m (List.mem_append_left _ (List.mem_append_right _ hm))).2
        · obtain ⟨y, hy, rfl⟩ := List.mem_map.1 (List.mem_filter.1 hm).1
          exact hstr y (hin y (List.mem_append_right _ hy)).2
    simp only [readInfo, hf]
    unfold phoenixInfo
    rw [hsec, List.flatMap_append, List.flatMap_append, hcol]
  rw [key [_] (by simp) ?_ ?_, key [_, _] (by simp) ?_ ?_]
  · intro m hm
    rcases List.mem_cons.1 hm with rfl | hm
    · exact ⟨strip_render h1, render_ne h1⟩
    · rw [List.mem_singleton] at hm
      subst hm
      exact ⟨strip_render h2, render_ne h2⟩
  · rw [List.flatMap_cons, List.flatMap_cons, columns_near h1, columns_near h2]
    rfl
  · intro m hm
    rw [List.mem_singleton] at hm
    subst hm
    refine ⟨?_, ?_⟩
    · refine strip_of_ends ?_ ?_
      · intro c hc
        rw [List.append_assoc, List.head?_append] at hc
        cases hh : (render w l).head? with
        | none => exact absurd (List.head?_eq_none_iff.1 hh) (render_ne h1)
        | some x =>
          rw [hh, Option.some_or] at hc
          cases hc
          refine strip_head (s := render w l) ?_
          rw [strip_render h1]; exact hh
      · intro c hc
        rw [List.getLast?_append] at hc
        cases hh : (render v r).getLast? with
        | none => exact absurd (List.getLast?_eq_none_iff.1 hh) (render_ne h2)
        | some x =>
          rw [hh, Option.some_or] at hc
          cases hc
          refine strip_last (s := render v r) ?_
          rw [strip_render h2]; exact hh
    · intro e
      exact render_ne h2 (List.append_eq_nil_iff.1 e).2
  · rw [List.flatMap_cons, columns_two h1 h2 hn (by simp only [List.length_cons, List.length_map] at hc; omega) s1 s2]
    rfl

/-- Two columns of a Phoenix file. -/
example : Near "Company:".toList [(1, "USGS".toList)] ∧ Near "Job:".toList [(2, "North".toList), (1, "2".toList)] ∧
    readInfo (fun _ => []) [">INFO".toList, "RUN INFORMATION".toList, "Company: USGS      Job:  North 2".toList] =
      .ok [("station.acquired_by.organization".toList, .text "USGS".toList), ("survey.project".toList, .text "North 2".toList)] := by
  unfold Near Word
  decide +kernel

/-! ## C204 — the names of Phoenix files -/

/-- What is meant by the names of Phoenix files. -/
def phoenixNames : OD Str Str :=
  [("survey", "survey.id"), ("company", "station.acquired_by.organization"), ("job", "survey.project"),
    ("hardware", "run.data_logger.model"), ("mtuprog version", "run.data_logger.firmware.version"),
    ("xpr weighting", "processing_parameter"), ("hx sen", "run.hx.sensor.id"), ("hy sen", "run.hy.sensor.id"),
    ("hz sen", "run.hz.sensor.id"), ("rx sen", "run.rrhx.sensor.id"), ("ry sen", "run.rrhy.sensor.id"),
    ("stn number", "station.id"), ("mtu-box serial number", "run.data_logger.id"),
    ("ex pot resist", "run.ex.contact_resistance.start"), ("ey pot resist", "run.ey.contact_resistance.start"),
    ("start-up", "station.time_period.start"), ("end-time", "station.time_period.end")].map
      fun p => (p.1.toList, p.2.toList)

/-- The name of a value; one name for all that are not known. -/
def phoenixName (k : Str) : Str := (phoenixNames.get? (lower k)).getD "phoenix_attribute".toList

/-- "name: value" -/
def colonLine (p : Str × Str) : Str := p.1 ++ ':' :: ' ' :: p.2

/-- A name and its value on a line of a Phoenix file. -/
def PhoenixOk (p : Str × Str) : Prop :=
  strip p.1 = p.1 ∧ (∀ c ∈ p.1, c ≠ ':' ∧ c ≠ '=') ∧ p.2 ≠ [] ∧ strip p.2 = p.2 ∧ ¬ "  ".toList <:+: p.2 ∧
  ¬ "voltage".toList <:+: lower p.1 ∧ (∃ w r, Near w r ∧ colonLine p = render w r) ∧
  InInfo (colonLine p) ∧ NoEmpower (colonLine p)

/-- Every value that has a name is kept. -/
def C204_claim : Prop := ∀ (repr : List Str → Str) (ps : List (Str × Str)) (d : Info), (∀ p ∈ ps, PhoenixOk p) →
  (∀ p q, p ∈ ps → q ∈ ps → p.1 = q.1 → p = q) →
  readInfo repr (">INFO".toList :: "RUN INFORMATION".toList :: ps.map colonLine) = .ok d →
  ∀ p ∈ ps, .text p.2 ∈ d.values

/-- All names that are not known become one. -/
theorem C204_refuted : ¬ C204_claim := by
  intro h
  have h1 := h (fun _ => []) [("Layout".toList, "A".toList), ("Egain".toList, "B".toList)]
    [("phoenix_attribute".toList, .text "B".toList)] (by
      intro p hp
      have : p = ("Layout".toList, "A".toList) ∨ p = ("Egain".toList, "B".toList) := by simpa using hp
      rcases this with rfl | rfl
      · exact ⟨by decide, by decide, by decide, by decide, by decide, by decide,
          ⟨"Layout:".toList, [(1, "A".toList)], by unfold Near Word; decide, by decide⟩,
          by unfold InInfo; decide +kernel, by unfold NoEmpower; decide +kernel⟩
      · exact ⟨by decide, by decide, by decide, by decide, by decide, by decide,
          ⟨"Egain:".toList, [(1, "B".toList)], by unfold Near Word; decide, by decide⟩,
          by unfold InInfo; decide +kernel, by unfold NoEmpower; decide +kernel⟩) (by
      intro p q hp hq e
      have h1 : p = ("Layout".toList, "A".toList) ∨ p = ("Egain".toList, "B".toList) := by simpa using hp
      have h2 : q = ("Layout".toList, "A".toList) ∨ q = ("Egain".toList, "B".toList) := by simpa using hq
      rcases h1 with rfl | rfl <;> rcases h2 with rfl | rfl <;> first | rfl | exact absurd e (by decide))
    (by decide +kernel)
  exact absurd (h1 _ List.mem_cons_self) (by decide)

/-- What is kept of a value: of the resistance of an electrode the first word. -/
def phoenixKept (p : Str × Str) : Str :=
  if "pot resist".toList <:+: lower p.1 then (words p.2).headD [] else p.2

/-- Whether a name is one of those of the makers of sensors. -/
def SensorName (n : Str) : Prop := ".sensor.manufacturer".toList <:+ n ∨ ".sensor.type".toList <:+ n

instance (n : Str) : Decidable (SensorName n) := inferInstanceAs (Decidable (_ ∨ _))

theorem words_ne_nil {s : Str} {c : Char} (h : c ∈ s) (hc : ws c = false) : words s ≠ [] := by
  induction s with
  | nil => cases h
  | cons x s ih =>
    cases hx : ws x with
    | true =>
      rw [words_cons_ws _ hx]
      rcases List.mem_cons.1 h with rfl | h
      · rw [hc] at hx; cases hx
      · exact ih h
    | false =>
      unfold words
      rw [splitP, hx]
      simp

theorem strip_ne_ws {s : Str} (h : strip s = s) (hne : s ≠ []) : ∃ c ∈ s, ws c = false := by
  obtain ⟨x, xs, rfl⟩ := List.exists_cons_of_ne_nil hne
  refine ⟨x, List.mem_cons_self, strip_head (s := x :: xs) ?_⟩
  rw [h]; rfl

theorem phoenixColumn_ok (d : Info) {p : Str × Str} (h : PhoenixOk p) :
    phoenixColumn d (colonLine p) =
      let e := d.set (phoenixName p.1) (.text (phoenixKept p))
      .ok (if " sen".toList <:+: lower p.1 then
        (e.set ((words (lower p.1)).headD [] ++ ".sensor.manufacturer".toList) (.text "Phoenix Geophysics".toList)).set
          ((words (lower p.1)).headD [] ++ ".sensor.type".toList) (.text "Induction Coil".toList) else e) := by
  obtain ⟨h1, h2, h3, h4, h5, h6, -, -, -⟩ := h
  unfold phoenixColumn
  rw [show colonLine p = p.1 ++ ':' :: (' ' :: p.2) from rfl, separator_first _ h2 (.inl rfl)]
  simp only [keyValue_of _ h2 (.inl rfl)]
  have hv : strip (' ' :: p.2) = p.2 := by
    have := strip_pad (a := [' ']) (b := []) p.2 (by decide) (by simp)
    rw [List.append_nil, List.singleton_append] at this
    rw [this, h4]
  rw [hv, h1]
  have hpv : phoenixValue p.2 = p.2 := by
    unfold phoenixValue
    rw [if_neg]
    rw [hasSub_iff]; exact h5
  rw [hpv]
  unfold applyPhoenix
  have hvolt : ¬ hasSub "voltage".toList (lower p.1) = true := by rw [hasSub_iff]; exact h6
  have hkept : potValue (lower p.1) p.2 = .ok (phoenixKept p) := by
    unfold phoenixKept potValue
    by_cases hp : "pot resist".toList <:+: lower p.1
    · rw [if_pos (hasSub_iff.2 hp), if_pos hp]
      obtain ⟨c, hc, hc'⟩ := strip_ne_ws h4 h3
      cases hw : words p.2 with
      | nil => exact absurd hw (words_ne_nil hc hc')
      | cons w ws' => rfl
    · rw [if_neg (by rw [hasSub_iff]; exact hp), if_neg hp]
  rw [hkept]
  show storePhoenix d (lower p.1) (phoenixKept p) = _
  unfold storePhoenix
  rw [if_neg hvolt]
  have htab : phoenixTranslation = phoenixNames := by decide +kernel
  simp only [htab]
  by_cases hs : " sen".toList <:+: lower p.1
  · rw [if_pos (hasSub_iff.2 hs), if_pos hs]
    have hc : 's' ∈ lower p.1 := hs.subset (by decide)
    cases hw : words (lower p.1) with
    | nil => exact absurd hw (words_ne_nil hc (by decide))
    | cons w ws' => rfl
  · rw [if_neg (by rw [hasSub_iff]; exact hs), if_neg hs]
    rfl

theorem phoenix_read (repr : List Str → Str) (ps : List (Str × Str)) (h : ∀ p ∈ ps, PhoenixOk p) :
    readInfo repr (">INFO".toList :: "RUN INFORMATION".toList :: ps.map colonLine) =
      ((ps.map colonLine).foldlM phoenixColumn []).map joinComments := by
  have hstr : ∀ p ∈ ps, strip (colonLine p) = colonLine p ∧ colonLine p ≠ [] ∧ columns (colonLine p) = [colonLine p] := by
    intro p hp
    obtain ⟨w, r, hn, e⟩ := (h p hp).2.2.2.2.2.2.1
    rw [e]
    exact ⟨strip_render hn, render_ne hn, columns_near hn⟩
  have hin : ∀ m ∈ "RUN INFORMATION".toList :: ps.map colonLine, InInfo m ∧ NoEmpower m := by
    intro m hm
    rcases List.mem_cons.1 hm with rfl | hm
    · unfold InInfo NoEmpower
      decide +kernel
    · obtain ⟨p, hp, rfl⟩ := List.mem_map.1 hm
      exact (h p hp).2.2.2.2.2.2.2
  have hsec : sectionLines false (">INFO".toList :: "RUN INFORMATION".toList :: ps.map colonLine) =
      "RUN INFORMATION".toList :: ps.map colonLine := by
    have := sectionLines_all (fun m hm => (hin m hm).1) []
    rw [List.append_nil, sectionLines, List.append_nil] at this
    rw [sectionLines_start, this, List.map_cons, List.map_map]
    rw [List.map_congr_left (f := strip ∘ colonLine) (g := colonLine) (fun p hp => (hstr p hp).1),
      show strip "RUN INFORMATION".toList = "RUN INFORMATION".toList by decide +kernel]
    refine List.filter_eq_self.2 ?_
    intro m hm
    rcases List.mem_cons.1 hm with rfl | hm
    · decide +kernel
    · obtain ⟨p, hp, rfl⟩ := List.mem_map.1 hm
      simpa using (hstr p hp).2.1
  have hf : format (sectionLines false (">INFO".toList :: "RUN INFORMATION".toList :: ps.map colonLine)) = .phoenix := by
    rw [hsec]
    exact phoenix_format ⟨_, List.mem_cons_self, by decide +kernel⟩ fun m hm => (hin m hm).2
  simp only [readInfo, hf]
  unfold phoenixInfo
  rw [hsec, List.flatMap_cons, show columns "RUN INFORMATION".toList = ["RUN INFORMATION".toList] by decide +kernel]
  have : (ps.map colonLine).flatMap columns = ps.map colonLine := by
    clear hf hsec hin
    induction ps with
    | nil => rfl
    | cons p ps ih =>
      rw [List.map_cons, List.flatMap_cons, (hstr p List.mem_cons_self).2.2,
        ih (fun q hq => h q (List.mem_cons_of_mem _ hq)) fun q hq => hstr q (List.mem_cons_of_mem _ hq)]
      rfl
  rw [this, List.singleton_append, List.foldlM_cons,
    show phoenixColumn [] "RUN INFORMATION".toList = .ok [] by decide +kernel]
  rfl

theorem joinComments_get? (d : Info) (h : ∀ p ∈ d, ∀ l, p.2 ≠ .list l) : joinComments d = d := by
  unfold joinComments
  conv => rhs; rw [← List.map_id d]
  refine List.map_congr_left ?_
  rintro ⟨k, v⟩ hp
  cases v with
  | null => rfl
  | text s => rfl
  | list l => exact absurd rfl (h _ hp l)

/-- One step: what is known of every name. -/
theorem phoenix_step (d : Info) {p : Str × Str} (h : PhoenixOk p) :
    ∃ e, phoenixColumn d (colonLine p) = .ok e ∧
      (∀ n, ¬ SensorName n → e.get? n = if phoenixName p.1 = n then some (.text (phoenixKept p)) else d.get? n) ∧
      (OD.WF d → (∀ p ∈ d, ∀ l, p.2 ≠ .list l) → OD.WF e ∧ ∀ p ∈ e, ∀ l, p.2 ≠ .list l) := by
  refine ⟨_, phoenixColumn_ok d h, ?_, ?_⟩
  · intro n hn
    have hset : (d.set (phoenixName p.1) (.text (phoenixKept p))).get? n =
        if phoenixName p.1 = n then some (.text (phoenixKept p)) else d.get? n := by
      rw [OD.get?_set]
    split
    · rw [OD.get?_set_ne, OD.get?_set_ne, hset]
      · rintro rfl
        exact hn (.inl (List.suffix_append _ _))
      · rintro rfl
        exact hn (.inr (List.suffix_append _ _))
    · exact hset
  · intro hw hd
    have hs : ∀ (d : Info) k s, OD.WF d ∧ (∀ p ∈ d, ∀ l, p.2 ≠ .list l) →
        OD.WF (d.set k (.text s)) ∧ ∀ p ∈ d.set k (.text s), ∀ l, p.2 ≠ .list l := by
      intro d k s hh
      refine ⟨OD.WF.set hh.1 _ _, ?_⟩
      intro q hq l
      rcases mem_set hh.1 hq with hq | rfl
      · exact hh.2 q hq l
      · simp
    split
    · exact hs _ _ _ (hs _ _ _ (hs _ _ _ ⟨hw, hd⟩))
    · exact hs _ _ _ ⟨hw, hd⟩

/-- A Phoenix section is read; each known name is kept under its standard name with the last of its
values, of the unknown ones the last. -/
theorem C204_names_partial (repr : List Str → Str) (ps : List (Str × Str)) (h : ∀ p ∈ ps, PhoenixOk p) :
    ∃ d, readInfo repr (">INFO".toList :: "RUN INFORMATION".toList :: ps.map colonLine) = .ok d ∧
      ∀ n, ¬ SensorName n →
        d.get? n = ((ps.filter fun p => decide (phoenixName p.1 = n)).getLast?).map fun p => .text (phoenixKept p) := by
  have key : ∀ (ps : List (Str × Str)) (d : Info), (∀ p ∈ ps, PhoenixOk p) → OD.WF d → (∀ p ∈ d, ∀ l, p.2 ≠ .list l) →
      ∃ e, (ps.map colonLine).foldlM phoenixColumn d = .ok e ∧ (∀ p ∈ e, ∀ l, p.2 ≠ .list l) ∧
        ∀ n, ¬ SensorName n → e.get? n =
          (((ps.filter fun p => decide (phoenixName p.1 = n)).getLast?).map fun p => IV.text (phoenixKept p)).or (d.get? n) := by
    intro ps
    induction ps with
    | nil => exact fun d _ _ hd => ⟨d, rfl, hd, fun n _ => rfl⟩
    | cons p ps ih =>
      intro d hps hw hd
      obtain ⟨e, h1, h2, h3⟩ := phoenix_step d (hps p List.mem_cons_self)
      obtain ⟨h3, h4⟩ := h3 hw hd
      obtain ⟨f, i1, i2, i3⟩ := ih e (fun q hq => hps q (List.mem_cons_of_mem _ hq)) h3 h4
      refine ⟨f, ?_, i2, ?_⟩
      · rw [List.map_cons, List.foldlM_cons, h1]
        exact i1
      · intro n hn
        rw [i3 n hn, h2 n hn, List.filter_cons]
        by_cases he : phoenixName p.1 = n
        · rw [if_pos he, if_pos (by simpa using he), List.getLast?_cons]
          cases (List.filter _ ps).getLast? <;> rfl
        · rw [if_neg he, if_neg (by simpa using he)]
  obtain ⟨e, h1, h2, h3⟩ := key ps [] h OD.WF_nil (by simp)
  refine ⟨e, ?_, ?_⟩
  · rw [phoenix_read repr ps h, h1]
    show Except.ok (joinComments e) = _
    rw [joinComments_get? e h2]
  · intro n hn
    rw [h3 n hn]
    simp

theorem phoenixName_not_sensor (k : Str) : ¬ SensorName (phoenixName k) := by
  unfold phoenixName
  cases h : phoenixNames.get? (lower k) with
  | none => exact (by decide +kernel : ¬ SensorName "phoenix_attribute".toList)
  | some n =>
    have : ∀ p ∈ phoenixNames, ¬ SensorName p.2 := by decide +kernel
    exact this _ (OD.mem_of_get? h)

theorem suffix_last {a b n : Str} (ha : a <:+ n) (hb : b <:+ n) (ha' : a ≠ []) (hb' : b ≠ []) : a.getLast? = b.getLast? := by
  obtain ⟨x, rfl⟩ := ha
  obtain ⟨y, hy⟩ := hb
  have e1 : (x ++ a).getLast? = a.getLast? := by
    rw [List.getLast?_append]
    cases h : a.getLast? with
    | none => exact absurd (List.getLast?_eq_none_iff.1 h) ha'
    | some c => rfl
  have e2 : (y ++ b).getLast? = b.getLast? := by
    rw [List.getLast?_append]
    cases h : b.getLast? with
    | none => exact absurd (List.getLast?_eq_none_iff.1 h) hb'
    | some c => rfl
  rw [← e1, ← e2, hy]

/-- The maker of each coil is noted. -/
theorem C204_sensors (repr : List Str → Str) (ps : List (Str × Str)) (h : ∀ p ∈ ps, PhoenixOk p) (d : Info)
    (hr : readInfo repr (">INFO".toList :: "RUN INFORMATION".toList :: ps.map colonLine) = .ok d)
    (p : Str × Str) (hp : p ∈ ps) (comp : Str) (hc : Word comp) (hk : lower p.1 = comp ++ " sen".toList) :
    d.get? (comp ++ ".sensor.manufacturer".toList) = some (.text "Phoenix Geophysics".toList) ∧
    d.get? (comp ++ ".sensor.type".toList) = some (.text "Induction Coil".toList) := by
  have hsuf : ∀ a b : Str, a ++ ".sensor.manufacturer".toList ≠ b ++ ".sensor.type".toList := by
    intro a b e
    have := suffix_last (List.suffix_append a ".sensor.manufacturer".toList) (e ▸ List.suffix_append b ".sensor.type".toList)
      (by decide) (by decide)
    exact absurd this (by decide)
  let Q : Info → Prop := fun d => d.get? (comp ++ ".sensor.manufacturer".toList) = some (.text "Phoenix Geophysics".toList) ∧
    d.get? (comp ++ ".sensor.type".toList) = some (.text "Induction Coil".toList)
  have hstep : ∀ (d e : Info) (q : Str × Str), PhoenixOk q → phoenixColumn d (colonLine q) = .ok e →
      (Q d ∨ lower q.1 = comp ++ " sen".toList) → Q e := by
    intro d e q hq he hQ
    rw [phoenixColumn_ok d hq] at he
    have he := Except.ok.inj he
    subst he
    have h0 : Q d → Q (d.set (phoenixName q.1) (.text (phoenixKept q))) := by
      rintro ⟨a, b⟩
      refine ⟨?_, ?_⟩
      · rw [OD.get?_set_ne]
        · exact a
        · intro e
          exact phoenixName_not_sensor q.1 (by rw [← e]; exact .inl (List.suffix_append _ _))
      · rw [OD.get?_set_ne]
        · exact b
        · intro e
          exact phoenixName_not_sensor q.1 (by rw [← e]; exact .inr (List.suffix_append _ _))
    show Q (if " sen".toList <:+: lower q.1 then _ else _)
    by_cases hs : " sen".toList <:+: lower q.1
    · rw [if_pos hs]
      refine ⟨?_, ?_⟩
      · rw [OD.get?_set_ne _ _ (hsuf _ _), OD.get?_set]
        split
        · rfl
        · next hne =>
          rcases hQ with hQ | hQ
          · exact (h0 hQ).1
          · refine absurd ?_ hne
            rw [hQ]
            show (words (comp ++ ' ' :: "sen".toList)).headD [] ++ _ = _
            rw [words_append _ hc.2 hc.1 (by decide)]
            rfl
      · rw [OD.get?_set]
        split
        · rfl
        · next hne =>
          rw [OD.get?_set_ne _ _ (fun e => hsuf _ _ e.symm)]
          rcases hQ with hQ | hQ
          · exact (h0 hQ).2
          · refine absurd ?_ hne
            rw [hQ]
            show (words (comp ++ ' ' :: "sen".toList)).headD [] ++ _ = _
            rw [words_append _ hc.2 hc.1 (by decide)]
            rfl
    · rw [if_neg hs]
      rcases hQ with hQ | hQ
      · exact h0 hQ
      · exact absurd (hQ ▸ (List.suffix_append comp " sen".toList).isInfix) hs
  have key : ∀ (ps : List (Str × Str)) (d e : Info), (∀ p ∈ ps, PhoenixOk p) → OD.WF d → (∀ p ∈ d, ∀ l, p.2 ≠ .list l) →
      (Q d ∨ p ∈ ps) → (ps.map colonLine).foldlM phoenixColumn d = .ok e → Q e ∧ ∀ p ∈ e, ∀ l, p.2 ≠ .list l := by
    intro ps
    induction ps with
    | nil =>
      intro d e _ _ hd hQ he
      have he : d = e := Except.ok.inj he
      subst he
      rcases hQ with hQ | hQ
      · exact ⟨hQ, hd⟩
      · cases hQ
    | cons q ps ih =>
      intro d e hps hw hd hQ he
      obtain ⟨f, h1, -, h3⟩ := phoenix_step d (hps q List.mem_cons_self)
      obtain ⟨h3, h4⟩ := h3 hw hd
      rw [List.map_cons, List.foldlM_cons, h1] at he
      refine ih f e (fun q hq => hps q (List.mem_cons_of_mem _ hq)) h3 h4 ?_ he
      rcases hQ with hQ | hQ
      · exact .inl (hstep d f q (hps q List.mem_cons_self) h1 (.inl hQ))
      · rcases List.mem_cons.1 hQ with rfl | hQ
        · exact .inl (hstep d f _ (hps _ List.mem_cons_self) h1 (.inr hk))
        · exact .inr hQ
  rw [phoenix_read repr ps h] at hr
  cases hf : (ps.map colonLine).foldlM phoenixColumn [] with
  | error e => rw [hf] at hr; cases hr
  | ok e =>
    obtain ⟨k1, k2⟩ := key ps [] e h OD.WF_nil (by simp) (.inr hp) hf
    rw [hf] at hr
    have hr : joinComments e = d := Except.ok.inj hr
    rw [joinComments_get? e k2] at hr
    exact hr ▸ k1

/-- Three lines of a Phoenix file. -/
example : readInfo (fun _ => []) (">INFO".toList :: "RUN INFORMATION".toList ::
      [("HX Sen".toList, "coil 12".toList), ("EX Pot Resist".toList, "3.1 Kohms".toList), ("Layout".toList, "x".toList)].map colonLine) =
    .ok [("run.hx.sensor.id".toList, .text "coil 12".toList),
      ("hx.sensor.manufacturer".toList, .text "Phoenix Geophysics".toList), ("hx.sensor.type".toList, .text "Induction Coil".toList),
      ("run.ex.contact_resistance.start".toList, .text "3.1".toList), ("phoenix_attribute".toList, .text "x".toList)] := by
  decide +kernel

/-! ## C205 — the channels of Empower files -/

/-- The names of channels and what they mean. -/
def channels : OD Str Str :=
  [("ex", "ex"), ("ey", "ey"), ("hx", "hx"), ("hy", "hy"), ("hz", "hz"), ("rx", "rrhx"), ("ry", "rrhy"), ("e1", "ex"),
    ("e2", "ey"), ("h1", "hx"), ("h2", "hy"), ("h3", "hz")].map fun p => (p.1.toList, p.2.toList)

/-- What can be told of any channel. -/
def anyAttrs : OD Str Str :=
  [("length", "dipole_length"), ("sensor type", "sensor.model"), ("sensor_type", "sensor.model"),
    ("detected sensor type", "sensor.model"), ("azimuth", "measured_azimuth"), ("sensor serial", "sensor.id"),
    ("sensor_serial", "sensor.id")].map fun p => (p.1.toList, p.2.toList)

/-- What can be told of channels of the electric field. -/
def electricAttrs : OD Str Str :=
  anyAttrs ++ [("ac", "ac.end"), ("dc", "dc.end"), ("negative res", "contact_resistance.start"),
    ("negative_res", "contact_resistance.start"), ("positive res", "contact_resistance.end"),
    ("positive_res", "contact_resistance.end")].map fun p => (p.1.toList, p.2.toList)

/-- What can be told of a channel. -/
def attrs (c : Str) : OD Str Str :=
  if c ∈ ["ex".toList, "ey".toList, "e1".toList, "e2".toList] then electricAttrs else anyAttrs

/-- A line of an Empower section. -/
inductive Item where
  | sect (s : Str)
  | comp (c : Str)
  | attr (k v : Str)

/-- The line. -/
def Item.line : Item → Str
  | .sect s => s
  | .comp c => c
  | .attr k v => k ++ ':' :: ' ' :: v

/-- A value without a unit. -/
def PlainValue (v : Str) : Prop := Word v ∧ ∀ c ∈ v, c ∉ "[°Â¦>".toList

/-- A line that is understood, `cur` being the channel it belongs to. -/
def Item.Ok (cur : Str) : Item → Prop
  | .sect s => lower s = "electrics".toList ∨ lower s = "magnetics".toList
  | .comp c => lower c ∈ channels.keys
  | .attr k v => strip k = k ∧ lower k ∈ (attrs cur).keys ∧ PlainValue v

/-- The channel after a line. -/
def Item.next (cur : Str) : Item → Str
  | .comp c => lower c
  | _ => cur

/-- All lines are understood. -/
def ItemsOk : Str → List Item → Prop
  | _, [] => True
  | cur, x :: r => x.Ok cur ∧ ItemsOk (x.next cur) r

/-- The name of a value of a channel. -/
def channelName (c k : Str) : Str :=
  "run.".toList ++ (channels.get? c).getD [] ++ '.' :: ((attrs c).get? (lower k)).getD []

/-- The values with the names they belong to: those of the channel named last. -/
def filed : Str → List Item → List (Str × Str)
  | _, [] => []
  | cur, .attr k v :: r => (channelName cur k, v) :: filed cur r
  | cur, x :: r => filed (x.next cur) r

/-- What is said of another part of the survey does not change what is known of a channel. -/
def C205_claim : Prop := ∀ (repr : List Str → Str) (s1 s2 c k v k' v' : Str) (d : Info),
  ItemsOk [] [.sect s1, .comp c, .attr k v, .sect s2, .attr k' v'] → lower s1 ≠ lower s2 →
  readInfo repr (">INFO".toList :: "EMPower v2.9".toList ::
    [Item.sect s1, .comp c, .attr k v, .sect s2, .attr k' v'].map Item.line) = .ok d →
  d.get? (channelName (lower c) k) = some (.text v)

/-- The last channel of a part is still the channel in the next part. -/
theorem C205_refuted : ¬ C205_claim := by
  intro h
  have h1 := h (fun _ => []) "Electrics".toList "Magnetics".toList "E1".toList "Length".toList "50".toList
    "Length".toList "7".toList [("run.ex.dipole_length".toList, .text "7".toList)]
    (by unfold ItemsOk ItemsOk ItemsOk ItemsOk ItemsOk ItemsOk Item.Ok PlainValue Word; decide +kernel) (by decide +kernel) (by decide +kernel)
  exact absurd h1 (by decide +kernel)

/-- A resistance of a channel of the magnetic field has a name nobody looks for. -/
example : readInfo (fun _ => []) (">INFO".toList :: "EMPower v2.9".toList ::
    [Item.sect "Magnetics".toList, .comp "H1".toList, .attr "Negative Res".toList "5".toList].map Item.line) =
    .ok [("run.hx.contcommentst_resistance.start".toList, .text "negative res=5".toList)] := by decide +kernel

theorem replaceSub_none {w s : Str} (h : ¬ w <:+: s) : replaceSub w [] s = s := by
  unfold replaceSub
  rw [splitSub_none h]
  rfl

theorem not_infix_of_mem {w s : Str} {c : Char} (h1 : c ∈ w) (h2 : c ∉ s) : ¬ w <:+: s := fun h => h2 (h.subset h1)

theorem strip_no_ws {s : Str} (h : ∀ c ∈ s, ws c = false) : strip s = s :=
  strip_of_ends (fun c hc => h c (List.mem_of_mem_head? hc)) (fun c hc => h c (List.mem_of_getLast? hc))

theorem dropSigns_plain {v : Str} (h : ∀ c ∈ v, ws c = false ∧ c ∉ "°Â¦".toList) : dropSigns v = v := by
  have hb : ' ' ∉ v := fun hm => absurd (h _ hm).1 (by decide)
  have hc : ∀ c ∈ "°Â¦".toList, c ∉ v := fun c hc hm => (h _ hm).2 hc
  unfold dropSigns
  rw [replaceSub_none (w := "°".toList) (not_infix_of_mem (c := '°') (by decide) (hc _ (by decide))),
    replaceSub_none (w := "Â".toList) (not_infix_of_mem (c := 'Â') (by decide) (hc _ (by decide))),
    replaceSub_none (w := " m".toList) (not_infix_of_mem (c := ' ') (by decide) hb),
    replaceSub_none (w := " V".toList) (not_infix_of_mem (c := ' ') (by decide) hb),
    replaceSub_none (w := " â„".toList) (not_infix_of_mem (c := ' ') (by decide) hb),
    replaceSub_none (w := "¦".toList) (not_infix_of_mem (c := '¦') (by decide) (hc _ (by decide))),
    replaceSub_none (w := " Ω".toList) (not_infix_of_mem (c := ' ') (by decide) hb)]
  exact strip_no_ws fun c hc => (h c hc).1

theorem dropUnit_plain {v : Str} (h : '[' ∉ v) : dropUnit v = v := by
  unfold dropUnit
  rw [find_singleton h]
  rfl

theorem channels_attrs : ∀ c ∈ channels.keys, ∀ p ∈ attrs c, c ≠ [] ∧
    stdKey ⟨"electrics".toList, c, "electrics".toList⟩ p.1 = some (channelName c p.1) ∧
    stdKey ⟨"magnetics".toList, c, "magnetics".toList⟩ p.1 = some (channelName c p.1) ∧
    skipped (channelName c p.1) = false ∧ hasSub "component".toList (channelName c p.1) = false ∧
    magneticKey (channelName c p.1) = channelName c p.1 ∧ hasSub "comments".toList (channelName c p.1) = false ∧
    finalKey (channelName c p.1) = channelName c p.1 := by decide +kernel

theorem attrs_plain : ∀ c ∈ channels.keys, ∀ p ∈ attrs c, p.1 ≠ [] ∧ ':' ∉ p.1 ∧ '=' ∉ p.1 ∧ '>' ∉ p.1 ∧ lower p.1 = p.1 := by
  decide +kernel

theorem not_mem_of_lower {c : Char} {s : Str} (h : c ∉ lower s) (hc : c.toLower = c) : c ∉ s :=
  fun hm => h (List.mem_map.2 ⟨c, hm, hc⟩)

theorem attr_key {cur k : Str} (hc : cur ∈ channels.keys) (h : lower k ∈ (attrs cur).keys) :
    (∀ c ∈ k, c ≠ ':' ∧ c ≠ '=') ∧ '>' ∉ k ∧ k ≠ [] := by
  obtain ⟨p, hp, e⟩ := List.mem_map.1 h
  obtain ⟨a1, a2, a3, a4, -⟩ := attrs_plain cur hc p hp
  rw [e] at a1 a2 a3 a4
  have b1 := not_mem_of_lower a2 (by decide)
  have b2 := not_mem_of_lower a3 (by decide)
  exact ⟨fun c hc' => ⟨fun e => b1 (e ▸ hc'), fun e => b2 (e ▸ hc')⟩, not_mem_of_lower a4 (by decide), fun e => a1 (by rw [e]; rfl)⟩

theorem Item.attr_line {cur k v : Str} (hc : cur ∈ channels.keys) (h : (Item.attr k v).Ok cur) :
    strip (Item.attr k v).line = (Item.attr k v).line ∧ (Item.attr k v).line ≠ [] ∧ '>' ∉ (Item.attr k v).line := by
  obtain ⟨h1, h2, h3, h4⟩ := h
  obtain ⟨-, b3, hk⟩ := attr_key hc h2
  refine ⟨?_, by simp [Item.line], ?_⟩
  · refine strip_of_ends ?_ ?_
    · intro c hc
      obtain ⟨x, xs, rfl⟩ := List.exists_cons_of_ne_nil hk
      refine strip_head (s := x :: xs) ?_
      rw [h1]; exact hc
    · intro c hc
      rw [Item.line, List.getLast?_append, List.getLast?_cons, List.getLast?_cons, Option.some_or] at hc
      cases hl : v.getLast? with
      | none => exact absurd (List.getLast?_eq_none_iff.1 hl) h3.1
      | some x =>
        rw [hl] at hc
        simp only [Option.getD_some, Option.some.injEq] at hc
        subst hc
        exact h3.2 _ (List.mem_of_getLast? hl)
  · intro hm
    rcases List.mem_append.1 hm with hm | hm
    · exact b3 hm
    · rcases List.mem_cons.1 hm with hm | hm
      · exact absurd hm (by decide)
      · rcases List.mem_cons.1 hm with hm | hm
        · exact absurd hm (by decide)
        · exact h4 _ hm (by decide)

/-- The state within a channel. -/
def At (st : Ctx × Info) (cur : Str) : Prop :=
  st.1 = ⟨"electrics".toList, cur, "electrics".toList⟩ ∨ st.1 = ⟨"magnetics".toList, cur, "magnetics".toList⟩

theorem step_value {st : Ctx × Info} {cur k v : Str} (hc : cur ∈ channels.keys) (h1 : strip k = k)
    (h2 : lower k ∈ (attrs cur).keys) (hv : strip v = v) (ha : At st cur) :
    empowerLine st (k ++ ':' :: ' ' :: v) = (st.1, st.2.set (channelName cur k) (.text (dropSigns (dropUnit v)))) := by
  obtain ⟨l4, -, l5⟩ := attr_key hc h2
  obtain ⟨p, hp, e⟩ := List.mem_map.1 h2
  obtain ⟨g0, g1, g2, g3, g4, g5, g6, g7⟩ := channels_attrs cur hc p hp
  have hl : lower p.1 = p.1 := (attrs_plain cur hc p hp).2.2.2.2
  have hname : channelName cur p.1 = channelName cur k := by
    unfold channelName
    rw [hl, e]
  have hcolon : ':' ∈ lower (k ++ ':' :: ' ' :: v) := List.mem_map.2 ⟨':', by simp, by decide⟩
  have hne : ∀ w : Str, ':' ∉ w → lower (k ++ ':' :: ' ' :: v) ≠ w := fun w hw e => hw (e ▸ hcolon)
  have hsep : separator (k ++ ':' :: ' ' :: v) = some ':' := separator_first _ l4 (.inl rfl)
  have hkv : keyValue ':' (k ++ ':' :: ' ' :: v) = (p.1, v) := by
    have := strip_pad (a := [' ']) (b := []) v (by decide) (by simp)
    rw [List.append_nil, List.singleton_append] at this
    rw [keyValue_of _ l4 (.inl rfl), this, hv, h1, ← e]
  have hstd : stdKey st.1 p.1 = some (channelName cur p.1) := by
    rcases ha with ha | ha <;> rw [ha]
    · exact g1
    · exact g2
  unfold empowerLine
  simp only
  rw [if_neg (by simp), if_neg (hne _ (by decide)), if_neg, if_neg (by rw [hsep]; simp), hsep]
  · simp only [hkv, hstd]
    unfold storeStd
    simp only [g3, g4, g5, g6, g7, Bool.false_eq_true, if_false]
    rw [hname]
  · intro hm
    have : ∀ w ∈ mainSections, ':' ∉ w := by decide
    exact this _ hm hcolon

theorem step_attr {st : Ctx × Info} {cur k v : Str} (hc : cur ∈ channels.keys) (h : (Item.attr k v).Ok cur) (ha : At st cur) :
    empowerLine st (Item.attr k v).line = (st.1, st.2.set (channelName cur k) (.text v)) := by
  obtain ⟨h1, h2, h3, h4⟩ := h
  have hval : dropSigns (dropUnit v) = v := by
    rw [dropUnit_plain fun hm => h4 _ hm (by decide), dropSigns_plain]
    intro c hc
    refine ⟨h3.2 c hc, fun hm => h4 c hc ?_⟩
    have : ∀ c ∈ "°Â¦".toList, c ∈ "[°Â¦>".toList := by decide
    exact this c hm
  have := step_value hc h1 h2 (strip_no_ws h3.2) ha
  rw [hval] at this
  exact this

theorem step_sect {st : Ctx × Info} {cur s : Str} (h : (Item.sect s).Ok cur) (hc : st.1.comp = cur) :
    (empowerLine st s).2 = st.2 ∧ At (empowerLine st s) cur := by
  have hne : s ≠ [] := by
    rintro rfl
    rcases h with h | h <;> cases h
  unfold empowerLine
  simp only
  rw [if_neg hne]
  rcases h with h | h
  · rw [h, if_neg (by decide), if_pos (by decide)]
    exact ⟨rfl, .inl (by simp only [← hc])⟩
  · rw [h, if_neg (by decide), if_pos (by decide)]
    exact ⟨rfl, .inr (by simp only [← hc])⟩

theorem channels_plain : ∀ c ∈ channels.keys, c ≠ [] ∧ c ≠ "stations".toList ∧ c ∉ mainSections ∧ ':' ∉ c ∧ '=' ∉ c ∧
    '>' ∉ c ∧ (componentMap.get? c).isSome = true ∧ ∀ x ∈ c, ws x = false := by decide +kernel

theorem step_comp {st : Ctx × Info} {cur c : Str} (h : lower c ∈ channels.keys) (ha : At st cur) :
    (empowerLine st c).2 = st.2 ∧ At (empowerLine st c) (lower c) := by
  obtain ⟨a1, a2, a3, a4, a5, -, a6, -⟩ := channels_plain _ h
  have hne : c ≠ [] := by
    rintro rfl
    exact a1 rfl
  have hs : separator c = none := by
    refine separator_none ?_
    intro x hx
    exact ⟨fun e => not_mem_of_lower a4 (by decide) (e ▸ hx), fun e => not_mem_of_lower a5 (by decide) (e ▸ hx)⟩
  unfold empowerLine
  simp only
  rw [if_neg hne, if_neg a2, if_neg a3, if_pos]
  · refine ⟨rfl, ?_⟩
    rcases ha with ha | ha
    · exact .inl (by rw [ha])
    · exact .inr (by rw [ha])
  · refine ⟨.inl ?_, hs, a6⟩
    rcases ha with ha | ha <;> rw [ha]
    · exact (by decide : "electrics".toList ∈ mainSections)
    · exact (by decide : "magnetics".toList ∈ mainSections)

/-- Words of a line that is understood. -/
theorem Item.line_ok {cur : Str} (hc : cur ∈ channels.keys) {x : Item} (h : x.Ok cur) :
    strip x.line = x.line ∧ x.line ≠ [] ∧ '>' ∉ x.line := by
  have hlow : ∀ s : Str, lower s ≠ [] → '>' ∉ lower s → (∀ c ∈ lower s, ws c = false) → strip s = s ∧ s ≠ [] ∧ '>' ∉ s := by
    intro s h1 h2 h3
    refine ⟨strip_no_ws ?_, fun e => h1 (by rw [e]; rfl), not_mem_of_lower h2 (by decide)⟩
    intro c hc
    have := h3 c.toLower (List.mem_map.2 ⟨c, hc, rfl⟩)
    rwa [ws_toLower] at this
  cases x with
  | sect s =>
    rcases h with h | h
    · exact hlow s (by rw [h]; decide) (by rw [h]; decide) (by rw [h]; decide)
    · exact hlow s (by rw [h]; decide) (by rw [h]; decide) (by rw [h]; decide)
  | comp c =>
    obtain ⟨a1, -, -, -, -, a2, -, a3⟩ := channels_plain _ h
    exact hlow c a1 a2 a3
  | attr k v =>
    exact Item.attr_line hc h

theorem items_fold (xs : List Item) (st : Ctx × Info) (cur : Str) (hc : cur ∈ channels.keys) (ha : At st cur)
    (h : ItemsOk cur xs) (hw : OD.WF st.2) (hl : ∀ p ∈ st.2, ∀ l, p.2 ≠ .list l) :
    let r := ((xs.map Item.line).foldl empowerLine st).2
    (∀ p ∈ r, ∀ l, p.2 ≠ .list l) ∧
    ∀ n, r.get? n = (((filed cur xs).filter fun p => decide (p.1 = n)).getLast?.map fun p => IV.text p.2).or (st.2.get? n) := by
  induction xs generalizing st cur with
  | nil => exact ⟨hl, fun n => rfl⟩
  | cons x xs ih =>
    simp only
    rw [List.map_cons, List.foldl_cons]
    cases x with
    | sect s =>
      obtain ⟨e, a⟩ := step_sect (st := st) h.1 (cur := cur) (by rcases ha with ha | ha <;> rw [ha])
      have := ih (empowerLine st s) cur hc a h.2 (by rw [e]; exact hw) (by rw [e]; exact hl)
      rw [e] at this
      exact this
    | comp c =>
      obtain ⟨e, a⟩ := step_comp (st := st) (c := c) h.1 ha
      have := ih (empowerLine st c) (lower c) h.1 a h.2 (by rw [e]; exact hw) (by rw [e]; exact hl)
      rw [e] at this
      exact this
    | attr k v =>
      have e := step_attr hc h.1 ha
      have := ih (empowerLine st (Item.attr k v).line) cur hc (by rw [e]; exact ha) h.2
        (by rw [e]; exact OD.WF.set hw _ _) (by
          rw [e]
          intro p hp l
          rcases mem_set hw hp with hp | rfl
          · exact hl p hp l
          · simp)
      refine ⟨this.1, ?_⟩
      intro n
      rw [this.2 n, e, filed, List.filter_cons, OD.get?_set]
      by_cases hn : channelName cur k = n
      · rw [if_pos hn, if_pos (by simpa using hn), List.getLast?_cons]
        cases (List.filter _ (filed cur xs)).getLast? <;> rfl
      · rw [if_neg hn, if_neg (by simpa using hn)]

/-- Every value is filed under the channel named last, with its standard name; of several the last
one is kept; there is nothing else. -/
theorem C205_filed_partial (repr : List Str → Str) (s c : Str) (xs : List Item)
    (h : ItemsOk [] (.sect s :: .comp c :: xs)) :
    ∃ d, readInfo repr (">INFO".toList :: "EMPower v2.9".toList :: (Item.sect s :: .comp c :: xs).map Item.line) = .ok d ∧
      ∀ n, d.get? n = (((filed [] (.sect s :: .comp c :: xs)).filter fun p => decide (p.1 = n)).getLast?).map fun p => .text p.2 := by
  have hlines : ∀ l ∈ (Item.sect s :: .comp c :: xs).map Item.line, strip l = l ∧ l ≠ [] ∧ '>' ∉ l := by
    have hin : ∀ (xs : List Item) (cur : Str), cur ∈ channels.keys → ItemsOk cur xs → ∀ l ∈ xs.map Item.line,
        strip l = l ∧ l ≠ [] ∧ '>' ∉ l := by
      intro xs
      induction xs with
      | nil => intro cur _ _ l hl; cases hl
      | cons x xs ih =>
        intro cur hc hx l hl
        rcases List.mem_cons.1 hl with rfl | hl
        · exact Item.line_ok hc hx.1
        · refine ih (x.next cur) ?_ hx.2 l hl
          cases x with
          | sect s => exact hc
          | comp c => exact hx.1
          | attr k v => exact hc
    intro l hl
    rcases List.mem_cons.1 hl with e | hl
    · rw [e]
      exact Item.line_ok (cur := "ex".toList) (x := .sect s) (by decide) h.1
    · rcases List.mem_cons.1 hl with e | hl
      · rw [e]
        exact Item.line_ok (cur := "ex".toList) (x := .comp c) (by decide) h.2.1
      · exact hin xs (lower c) h.2.1 h.2.2 l hl
  generalize hL : (Item.sect s :: .comp c :: xs).map Item.line = L at hlines
  have hsec : sectionLines false (">INFO".toList :: "EMPower v2.9".toList :: L) = "EMPower v2.9".toList :: L := by
    have hb : ∀ l ∈ "EMPower v2.9".toList :: L, strip l ≠ [] ∧ '>' ∉ strip l := by
      intro l hl
      rcases List.mem_cons.1 hl with rfl | hl
      · decide +kernel
      · rw [(hlines l hl).1]; exact (hlines l hl).2
    have := sectionLines_body hb []
    rw [List.append_nil, sectionLines, List.append_nil] at this
    rw [sectionLines_start, this, List.map_cons, List.map_congr_left (f := strip) (g := id) (fun l hl => (hlines l hl).1), List.map_id,
      show strip "EMPower v2.9".toList = "EMPower v2.9".toList by decide +kernel]
  have hf : format (sectionLines false (">INFO".toList :: "EMPower v2.9".toList :: L)) = .empower := by
    rw [hsec]
    unfold format
    rw [if_pos]
    rw [List.any_cons, show (!phoenixMark "EMPower v2.9".toList && empowerMark "EMPower v2.9".toList) = true by decide +kernel]
    rfl
  simp only [readInfo, hf, hsec]
  refine ⟨_, rfl, ?_⟩
  unfold empowerInfo
  rw [List.foldl_cons, show empowerLine (⟨"general".toList, [], []⟩, []) "EMPower v2.9".toList = (⟨"general".toList, [], []⟩, []) by
    decide +kernel, ← hL, List.map_cons, List.map_cons, List.foldl_cons, List.foldl_cons]
  obtain ⟨e1, a1⟩ := step_sect (st := (⟨"general".toList, [], []⟩, [])) (cur := []) h.1 rfl
  obtain ⟨e2, a2⟩ := step_comp (st := empowerLine (⟨"general".toList, [], []⟩, []) s) (c := c) h.2.1 a1
  have key := items_fold xs (empowerLine (empowerLine (⟨"general".toList, [], []⟩, []) s) c) (lower c) h.2.1 a2 h.2.2
    (by rw [e2, e1]; exact OD.WF_nil) (by rw [e2, e1]; simp)
  intro n
  show OD.get? (joinComments ((xs.map Item.line).foldl empowerLine (empowerLine (empowerLine (⟨"general".toList, [], []⟩, []) s) c)).2) n = _
  rw [joinComments_get? _ key.1, key.2 n, e2, e1]
  simp only [OD.get?_nil, Option.or_none]
  rfl

/-- Two channels. -/
example : ItemsOk [] [.sect "ELECTRICS".toList, .comp "E1".toList, .attr "Length".toList "50".toList, .attr "AC".toList "0.1".toList,
      .sect "Magnetics".toList, .comp "Hz".toList, .attr "Sensor Serial".toList "33".toList] ∧
    filed [] [.sect "ELECTRICS".toList, .comp "E1".toList, .attr "Length".toList "50".toList, .attr "AC".toList "0.1".toList,
      .sect "Magnetics".toList, .comp "Hz".toList, .attr "Sensor Serial".toList "33".toList] =
    [("run.ex.dipole_length".toList, "50".toList), ("run.ex.ac.end".toList, "0.1".toList), ("run.hz.sensor.id".toList, "33".toList)] := by
  simp only [ItemsOk, Item.Ok, PlainValue, Word]
  decide +kernel

/-! ## C206 — units of Empower files -/

/-- The file with the length of a dipole. -/
def lengthFile (v : Str) : List Str :=
  [">INFO".toList, "EMPower v2.9".toList, "Electrics".toList, "E1".toList, "Length: ".toList ++ v]

/-- A number. -/
def Number (n : Str) : Prop := n ≠ [] ∧ ∀ c ∈ n, c ∈ "0123456789+-.".toList

/-- A number is read without its unit. -/
def C206_claim : Prop := ∀ (repr : List Str → Str) (n u : Str), Number n →
  u ∈ [" m".toList, " V".toList, " mV".toList, " Ω".toList, "°".toList, " [m]".toList, " [mV]".toList, " [Ω]".toList] →
  readInfo repr (lengthFile (n ++ u)) = .ok [("run.ex.dipole_length".toList, .text n)]

/-- Millivolts lose their first letter. -/
theorem C206_refuted : ¬ C206_claim := by
  intro h
  have h1 := h (fun _ => []) "5".toList " mV".toList (by unfold Number; decide) (by decide)
  exact absurd h1 (by decide +kernel)

/-- A unit in brackets stays after a number of one digit. -/
example : readInfo (fun _ => []) (lengthFile "5 [m]".toList) = .ok [("run.ex.dipole_length".toList, .text "5 [m]".toList)] ∧
    readInfo (fun _ => []) (lengthFile "50 [m]".toList) = .ok [("run.ex.dipole_length".toList, .text "50".toList)] ∧
    readInfo (fun _ => []) (lengthFile "5 mV".toList) = .ok [("run.ex.dipole_length".toList, .text "5V".toList)] := by decide +kernel

theorem number_plain : ∀ c ∈ "0123456789+-.".toList, ws c = false ∧ c ∉ "°Â¦ mVΩâ„[],>:=<".toList := by decide +kernel

theorem replaceSub_end {w n : Str} {c : Char} {r : Str} (hw : w = c :: r) (h : c ∉ n) : replaceSub w [] (n ++ w) = n := by
  subst hw
  have hn : ∀ n : Str, c ∉ n → splitSub (c :: r) (n ++ c :: r) = [n, []] := by
    intro n
    induction n with
    | nil =>
      intro _
      have := splitSub_start (sub := c :: r) [] (by simp)
      rw [List.append_nil] at this
      rw [List.nil_append, this]
      rfl
    | cons x n ih =>
      intro hx
      have hne : c ≠ x := fun e => hx (e ▸ List.mem_cons_self)
      have ih := ih fun hm => hx (List.mem_cons_of_mem _ hm)
      unfold splitSub at ih ⊢
      rw [List.cons_append, splitSubAux, if_neg (by simp [List.isPrefixOf, hne]), ih]
      rfl
  unfold replaceSub
  rw [hn n h]
  simp [join]

theorem dropSigns_unit {n u : Str} (h : Number n) (hu : u ∈ [" m".toList, " V".toList, " Ω".toList, "°".toList]) :
    dropSigns (n ++ u) = n := by
  have hch : ∀ c ∈ "°Â¦ mVΩâ„[],>:=<".toList, c ∉ n := fun c hc hm => (number_plain c (h.2 c hm)).2 hc
  have hplain := dropSigns_plain (v := n) fun c hc => ⟨(number_plain c (h.2 c hc)).1, fun hm => by
    have : ∀ c ∈ "°Â¦".toList, c ∈ "°Â¦ mVΩâ„[],>:=<".toList := by decide
    exact (number_plain c (h.2 c hc)).2 (this c hm)⟩
  have hno : ∀ (w u : Str) (c : Char), c ∈ w → c ∈ "°Â¦ mVΩâ„[],>:=<".toList → c ∉ u → ¬ w <:+: n ++ u := by
    intro w u c h1 h2 h3
    refine not_infix_of_mem h1 ?_
    rw [List.mem_append]
    rintro (hm | hm)
    · exact hch c h2 hm
    · exact h3 hm
  unfold dropSigns at hplain ⊢
  have ho : ∀ w ∈ ["°".toList, "Â".toList, " m".toList, " V".toList, " â„".toList, "¦".toList, " Ω".toList], replaceSub w [] n = n := by
    have : ∀ w ∈ ["°".toList, "Â".toList, " m".toList, " V".toList, " â„".toList, "¦".toList, " Ω".toList],
        ∃ c ∈ w, c ∈ "°Â¦ mVΩâ„[],>:=<".toList := by decide
    intro w hw
    obtain ⟨c, h1, h2⟩ := this w hw
    exact replaceSub_none (not_infix_of_mem h1 (hch c h2))
  simp only [List.mem_cons, List.not_mem_nil, or_false] at hu
  rcases hu with rfl | rfl | rfl | rfl
  · rw [replaceSub_none (hno "°".toList _ '°' (by decide) (by decide) (by decide)),
      replaceSub_none (hno "Â".toList _ 'Â' (by decide) (by decide) (by decide)),
      replaceSub_end (w := " m".toList) (c := ' ') rfl (hch _ (by decide))]
    rw [ho "°".toList (by decide), ho "Â".toList (by decide), ho " m".toList (by decide)] at hplain
    exact hplain
  · rw [replaceSub_none (hno "°".toList _ '°' (by decide) (by decide) (by decide)),
      replaceSub_none (hno "Â".toList _ 'Â' (by decide) (by decide) (by decide)),
      replaceSub_none (hno " m".toList _ 'm' (by decide) (by decide) (by decide)),
      replaceSub_end (w := " V".toList) (c := ' ') rfl (hch _ (by decide))]
    rw [ho "°".toList (by decide), ho "Â".toList (by decide), ho " m".toList (by decide), ho " V".toList (by decide)] at hplain
    exact hplain
  · rw [replaceSub_none (hno "°".toList _ '°' (by decide) (by decide) (by decide)),
      replaceSub_none (hno "Â".toList _ 'Â' (by decide) (by decide) (by decide)),
      replaceSub_none (hno " m".toList _ 'm' (by decide) (by decide) (by decide)),
      replaceSub_none (hno " V".toList _ 'V' (by decide) (by decide) (by decide)),
      replaceSub_none (hno " â„".toList _ 'â' (by decide) (by decide) (by decide)),
      replaceSub_none (hno "¦".toList _ '¦' (by decide) (by decide) (by decide)),
      replaceSub_end (w := " Ω".toList) (c := ' ') rfl (hch _ (by decide))]
    exact strip_no_ws fun c hc => (number_plain c (h.2 c hc)).1
  · rw [replaceSub_end (w := "°".toList) (c := '°') rfl (hch _ (by decide))]
    rw [ho "°".toList (by decide)] at hplain
    exact hplain

theorem length_read (repr : List Str → Str) {v : Str} (h0 : v ≠ []) (h1 : strip v = v) (h2 : '>' ∉ v) :
    readInfo repr (lengthFile v) = .ok [("run.ex.dipole_length".toList, .text (dropSigns (dropUnit v)))] := by
  have hline : strip ("Length: ".toList ++ v) = "Length: ".toList ++ v := by
    refine strip_of_ends ?_ ?_
    · intro c hc
      have : c = 'L' := (Option.some.inj hc).symm
      subst this; decide
    · intro c hc
      rw [List.getLast?_append] at hc
      cases hl : v.getLast? with
      | none => exact absurd (List.getLast?_eq_none_iff.1 hl) h0
      | some x =>
        rw [hl, Option.some_or] at hc
        cases hc
        refine strip_last (s := v) ?_
        rw [h1]; exact hl
  have hgt : '>' ∉ "Length: ".toList ++ v := by
    rw [List.mem_append]
    rintro (hm | hm)
    · exact absurd hm (by decide)
    · exact h2 hm
  have hsec : sectionLines false (lengthFile v) =
      ["EMPower v2.9".toList, "Electrics".toList, "E1".toList, "Length: ".toList ++ v] := by
    have hb : ∀ l ∈ ["EMPower v2.9".toList, "Electrics".toList, "E1".toList, "Length: ".toList ++ v], strip l ≠ [] ∧ '>' ∉ strip l := by
      intro l hl
      simp only [List.mem_cons, List.not_mem_nil, or_false] at hl
      rcases hl with rfl | rfl | rfl | rfl
      · decide +kernel
      · decide +kernel
      · decide +kernel
      · rw [hline]; exact ⟨by simp, hgt⟩
    have := sectionLines_body hb []
    rw [List.append_nil, sectionLines, List.append_nil] at this
    unfold lengthFile
    rw [sectionLines_start, this]
    simp only [List.map_cons, List.map_nil, hline]
    rw [show strip "EMPower v2.9".toList = "EMPower v2.9".toList by decide +kernel,
      show strip "Electrics".toList = "Electrics".toList by decide +kernel, show strip "E1".toList = "E1".toList by decide +kernel]
  have hf : format (sectionLines false (lengthFile v)) = .empower := by
    rw [hsec]
    unfold format
    rw [if_pos]
    rw [List.any_cons, show (!phoenixMark "EMPower v2.9".toList && empowerMark "EMPower v2.9".toList) = true by decide +kernel]
    rfl
  simp only [readInfo, hf, hsec]
  unfold empowerInfo
  rw [List.foldl_cons, List.foldl_cons, List.foldl_cons, List.foldl_cons,
    show empowerLine (empowerLine (empowerLine (⟨"general".toList, [], []⟩, []) "EMPower v2.9".toList) "Electrics".toList) "E1".toList =
      (⟨"electrics".toList, "e1".toList, "electrics".toList⟩, []) by decide +kernel]
  have hstep := step_value (st := (⟨"electrics".toList, "e1".toList, "electrics".toList⟩, [])) (cur := "e1".toList) (k := "Length".toList)
    (by decide) (by decide) (by decide +kernel) h1 (.inl rfl)
  rw [show channelName "e1".toList "Length".toList = "run.ex.dipole_length".toList by decide +kernel] at hstep
  rw [show "Length: ".toList ++ v = "Length".toList ++ ':' :: (' ' :: v) from rfl, hstep]
  rfl

/-- A number is read without the signs of metres, volts, ohms and degrees, and a number of at least
two characters without any unit in brackets. -/
theorem C206_units_partial (repr : List Str → Str) (n : Str) (h : Number n) :
    (∀ u ∈ ["".toList, " m".toList, " V".toList, " Ω".toList, "°".toList],
      readInfo repr (lengthFile (n ++ u)) = .ok [("run.ex.dipole_length".toList, .text n)]) ∧
    (∀ u : Str, 2 ≤ n.length → (∀ c ∈ u, c ∉ "[],>".toList) →
      readInfo repr (lengthFile (n ++ " [".toList ++ u ++ [']'])) = .ok [("run.ex.dipole_length".toList, .text n)]) := by
  have hch : ∀ c ∈ "°Â¦ mVΩâ„[],>:=<".toList, c ∉ n := fun c hc hm => (number_plain c (h.2 c hm)).2 hc
  have hws : ∀ c ∈ n, ws c = false := fun c hc => (number_plain c (h.2 c hc)).1
  have hhead : ∀ r : Str, ∀ c, (n ++ r).head? = some c → ws c = false := by
    intro r c hc
    obtain ⟨x, xs, hx⟩ := List.exists_cons_of_ne_nil h.1
    rw [hx, List.cons_append, List.head?_cons] at hc
    cases hc
    exact hws _ (by rw [hx]; exact List.mem_cons_self)
  have hplain : dropSigns n = n := dropSigns_plain fun c hc => ⟨hws c hc, fun hm => by
    have : ∀ c ∈ "°Â¦".toList, c ∈ "°Â¦ mVΩâ„[],>:=<".toList := by decide
    exact (number_plain c (h.2 c hc)).2 (this c hm)⟩
  refine ⟨?_, ?_⟩
  · intro u hu
    have hu' : u = [] ∨ u ∈ [" m".toList, " V".toList, " Ω".toList, "°".toList] := by
      rcases List.mem_cons.1 hu with e | e
      · exact .inl e
      · exact .inr e
    have hbr : '[' ∉ n ++ u := by
      rw [List.mem_append]
      rintro (hm | hm)
      · exact hch _ (by decide) hm
      · have : ∀ u ∈ ["".toList, " m".toList, " V".toList, " Ω".toList, "°".toList], '[' ∉ u := by decide
        exact this u hu hm
    rw [length_read repr (by simp [h.1]) ?_ ?_, dropUnit_plain hbr]
    · rcases hu' with rfl | hu'
      · rw [List.append_nil, hplain]
      · rw [dropSigns_unit h hu']
    · refine strip_of_ends (hhead u) ?_
      intro c hc
      rcases hu' with rfl | hu'
      · rw [List.append_nil] at hc
        exact hws c (List.mem_of_getLast? hc)
      · rw [List.getLast?_append] at hc
        have : ∀ u ∈ [" m".toList, " V".toList, " Ω".toList, "°".toList], ∃ x, u.getLast? = some x ∧ ws x = false := by
          intro u hu
          simp only [List.mem_cons, List.not_mem_nil, or_false] at hu
          rcases hu with rfl | rfl | rfl | rfl
          · exact ⟨'m', rfl, by decide⟩
          · exact ⟨'V', rfl, by decide⟩
          · exact ⟨'Ω', rfl, by decide⟩
          · exact ⟨'°', rfl, by decide⟩
        obtain ⟨x, hx, hx'⟩ := this u hu'
        rw [hx, Option.some_or] at hc
        cases hc
        exact hx'
    · rw [List.mem_append]
      rintro (hm | hm)
      · exact hch _ (by decide) hm
      · have : ∀ u ∈ ["".toList, " m".toList, " V".toList, " Ω".toList, "°".toList], '>' ∉ u := by decide
        exact this u hu hm
  · intro u hlen hu
    have hsplit : ∀ a b : Str, ' ' ∉ a → (splitC ' ' (a ++ ' ' :: b)).headD [] = a := by
      intro a b ha
      unfold splitC
      rw [splitP_append b (p := (· == ' ')) (a := a) (c := ' ') (fun c hc => by
        have : c ≠ ' ' := fun e => ha (e ▸ hc)
        simpa using this) (by decide)]
      rfl
    have hdrop : dropUnit (n ++ " [".toList ++ u ++ [']']) = n := by
      unfold dropUnit
      have hfind : find ['['] (n ++ " [".toList ++ u ++ [']']) = some (n.length + 1) := by
        have e : n ++ " [".toList ++ u ++ [']'] = (n ++ [' ']) ++ '[' :: (u ++ [']']) := by simp
        rw [e, find_char_append _ (by
          rw [List.mem_append]
          rintro (hm | hm)
          · exact hch _ (by decide) hm
          · exact absurd hm (by decide))]
        simp
      rw [hfind, if_pos (by simp only [Option.any_some, decide_eq_true_eq]; omega)]
      have happ : ∀ (a : Char) (b s t : Str), replaceC a b (s ++ t) = replaceC a b s ++ replaceC a b t :=
        fun a b s t => List.flatMap_append
      have hrep : replaceC ']' [] (replaceC '[' [] (n ++ " [".toList ++ u ++ [']'])) = n ++ ' ' :: u := by
        simp only [happ]
        rw [replaceC_none (a := '[') (hch _ (by decide)), replaceC_none (a := ']') (hch _ (by decide)),
          replaceC_none (a := '[') (s := u) (fun hm => hu _ hm (by decide)),
          replaceC_none (a := ']') (s := u) (fun hm => hu _ hm (by decide)),
          show replaceC ']' [] (replaceC '[' [] " [".toList) = [' '] by decide,
          show replaceC ']' [] (replaceC '[' [] [']']) = [] by decide]
        simp
      rw [hrep]
      have hone : splitC ',' (n ++ ' ' :: u) = [n ++ ' ' :: u] := by
        unfold splitC
        refine splitP_none ?_
        intro c hc
        have : c ≠ ',' := by
          rintro rfl
          rcases List.mem_append.1 hc with hm | hm
          · exact hch _ (by decide) hm
          · rcases List.mem_cons.1 hm with hm | hm
            · exact absurd hm (by decide)
            · exact hu _ hm (by decide)
        simpa using this
      rw [hone]
      simp only
      have hb : ' ' ∉ n := hch _ (by decide)
      have hst : ∃ t, strip (n ++ ' ' :: u) = n ∨ strip (n ++ ' ' :: u) = n ++ ' ' :: t := by
        have hl : lstrip (n ++ ' ' :: u) = n ++ ' ' :: u := by
          obtain ⟨x, xs, hx⟩ := List.exists_cons_of_ne_nil h.1
          unfold lstrip
          rw [hx, List.cons_append, List.dropWhile_cons, if_neg]
          rw [hws x (by rw [hx]; exact List.mem_cons_self)]
          simp
        unfold strip
        rw [hl]
        unfold rstrip
        have hrev : (n ++ ' ' :: u).reverse = u.reverse ++ ' ' :: n.reverse := by simp
        rw [hrev, List.dropWhile_append]
        split
        · refine ⟨[], .inl ?_⟩
          rw [List.dropWhile_cons, if_pos (by decide)]
          have : n.reverse.dropWhile ws = n.reverse := by
            cases hr : n.reverse with
            | nil => rfl
            | cons y ys =>
              rw [List.dropWhile_cons, if_neg]
              rw [hws y (List.mem_reverse.1 (by rw [hr]; exact List.mem_cons_self))]
              simp
          rw [this, List.reverse_reverse]
        · exact ⟨(u.reverse.dropWhile ws).reverse, .inr (by simp)⟩
      obtain ⟨t, hst | hst⟩ := hst
      · rw [hst]
        unfold splitC
        rw [splitP_none]
        · rfl
        · intro c hc
          have : c ≠ ' ' := fun e => hb (e ▸ hc)
          simpa using this
      · rw [hst, hsplit n t hb]
    rw [length_read repr (by simp) ?_ ?_, hdrop, hplain]
    · refine strip_of_ends ?_ ?_
      · rw [List.append_assoc, List.append_assoc]
        exact hhead _
      · intro c hc
        rw [List.getLast?_append] at hc
        have : c = ']' := (Option.some.inj hc).symm
        subst this; decide
    · intro hm
      simp only [List.mem_append] at hm
      rcases hm with ((hm | hm) | hm) | hm
      · exact hch _ (by decide) hm
      · exact absurd hm (by decide)
      · exact hu _ hm (by decide)
      · exact absurd hm (by decide)

/-- A number with a unit. -/
example : Number "-12.5".toList ∧ readInfo (fun _ => []) (lengthFile "-12.5 [k m ]".toList) =
    .ok [("run.ex.dipole_length".toList, .text "-12.5".toList)] := by
  unfold Number
  decide +kernel

/-! ## Voltages of Phoenix files -/

/-- The line of the voltages of a channel. -/
def voltageLine (c n m : Str) : Str := c ++ " VOLTAGE: AC=".toList ++ n ++ "mV, DC=".toList ++ m ++ "mV".toList

/-- The voltages of a channel are read without their unit. -/
theorem C204_voltages (repr : List Str → Str) (c n m : Str) (hc : c = "EX".toList ∨ c = "EY".toList) (hn : Number n) (hm : Number m) :
    readInfo repr [">INFO".toList, "RUN INFORMATION".toList, voltageLine c n m] =
      .ok [("run.".toList ++ lower c ++ ".ac.start".toList, .text n), ("run.".toList ++ lower c ++ ".dc.start".toList, .text m)] := by
  have hch : ∀ n : Str, Number n → ∀ c ∈ "°Â¦ mVΩâ„[],>:=<".toList, c ∉ n := fun n h c hc hm => (number_plain c (h.2 c hm)).2 hc
  have hws : ∀ n : Str, Number n → ∀ c ∈ n, ws c = false := fun n h c hc => (number_plain c (h.2 c hc)).1
  have hnear : Near c [(1, "VOLTAGE:".toList), (1, "AC=".toList ++ n ++ "mV,".toList), (1, "DC=".toList ++ m ++ "mV".toList)] := by
    have hw : ∀ a b n : Str, a ≠ [] → (∀ c ∈ a, ws c = false) → (∀ c ∈ b, ws c = false) → Number n → Word (a ++ n ++ b) := by
      intro a b n h0 h1 h2 h3
      refine ⟨by simp [h0], ?_⟩
      intro c hc
      rcases List.mem_append.1 hc with hc | hc
      · rcases List.mem_append.1 hc with hc | hc
        · exact h1 c hc
        · exact hws n h3 c hc
      · exact h2 c hc
    refine ⟨by rcases hc with rfl | rfl <;> (unfold Word; decide), ?_⟩
    intro p hp
    simp only [List.mem_cons, List.not_mem_nil, or_false] at hp
    rcases hp with rfl | rfl | rfl
    · unfold Word; decide
    · exact ⟨hw _ _ _ (by decide) (by decide) (by decide) hn, by simp⟩
    · exact ⟨hw _ _ _ (by decide) (by decide) (by decide) hm, by simp⟩
  have hline : voltageLine c n m =
      render c [(1, "VOLTAGE:".toList), (1, "AC=".toList ++ n ++ "mV,".toList), (1, "DC=".toList ++ m ++ "mV".toList)] := by
    simp only [voltageLine, render, List.append_assoc]
    rfl
  have hgt : '>' ∉ voltageLine c n m := by
    simp only [voltageLine, List.mem_append]
    rintro (((((h | h) | h) | h) | h) | h)
    · rcases hc with rfl | rfl <;> exact absurd h (by decide)
    · exact absurd h (by decide)
    · exact hch n hn _ (by decide) h
    · exact absurd h (by decide)
    · exact hch m hm _ (by decide) h
    · exact absurd h (by decide)
  have hsec : sectionLines false [">INFO".toList, "RUN INFORMATION".toList, voltageLine c n m] =
      ["RUN INFORMATION".toList, voltageLine c n m] := by
    have hb : ∀ l ∈ ["RUN INFORMATION".toList, voltageLine c n m], strip l ≠ [] ∧ '>' ∉ strip l := by
      intro l hl
      simp only [List.mem_cons, List.not_mem_nil, or_false] at hl
      rcases hl with rfl | rfl
      · decide +kernel
      · rw [hline, strip_render hnear]
        exact ⟨render_ne hnear, hline ▸ hgt⟩
    have := sectionLines_body hb []
    rw [List.append_nil, sectionLines, List.append_nil] at this
    rw [sectionLines_start, this]
    simp only [List.map_cons, List.map_nil]
    rw [show strip "RUN INFORMATION".toList = "RUN INFORMATION".toList by decide +kernel]
    congr 2
    rw [hline, strip_render hnear]
  have hf : format (sectionLines false [">INFO".toList, "RUN INFORMATION".toList, voltageLine c n m]) = .phoenix := by
    rw [hsec]
    refine phoenix_format ⟨_, List.mem_cons_self, by decide +kernel⟩ ?_
    intro l hl w hw hi
    simp only [List.mem_cons, List.not_mem_nil, or_false] at hl
    rcases hl with rfl | rfl
    · revert w
      decide +kernel
    · have hr : 'r' ∈ lower (voltageLine c n m) ∨ 'n' ∈ lower (voltageLine c n m) := by
        simp only [List.mem_cons, List.not_mem_nil, or_false] at hw
        rcases hw with rfl | rfl | rfl
        · exact .inl (hi.subset (by decide))
        · exact .inl (hi.subset (by decide))
        · exact .inr (hi.subset (by decide))
      have hnum : ∀ c ∈ "0123456789+-.".toList, c.toLower ≠ 'r' ∧ c.toLower ≠ 'n' := by decide +kernel
      have hno : ∀ n : Str, Number n → 'r' ∉ lower n ∧ 'n' ∉ lower n := by
        intro n hn
        refine ⟨fun h => ?_, fun h => ?_⟩
        · obtain ⟨x, hx, e⟩ := List.mem_map.1 h
          exact (hnum x (hn.2 x hx)).1 e
        · obtain ⟨x, hx, e⟩ := List.mem_map.1 h
          exact (hnum x (hn.2 x hx)).2 e
      simp only [voltageLine, lower_append, List.mem_append] at hr
      rcases hr with (((((h | h) | h) | h) | h) | h) | (((((h | h) | h) | h) | h) | h)
      · rcases hc with rfl | rfl <;> exact absurd h (by decide)
      · exact absurd h (by decide)
      · exact (hno n hn).1 h
      · exact absurd h (by decide)
      · exact (hno m hm).1 h
      · exact absurd h (by decide)
      · rcases hc with rfl | rfl <;> exact absurd h (by decide)
      · exact absurd h (by decide)
      · exact (hno n hn).2 h
      · exact absurd h (by decide)
      · exact (hno m hm).2 h
      · exact absurd h (by decide)
  have hsplit1 : ∀ (a b : Str) (x : Char), x ∉ a → splitC x (a ++ x :: b) = a :: splitC x b := by
    intro a b x ha
    unfold splitC
    exact splitP_append b (p := (· == x)) (a := a) (c := x) (fun c hc => by
      have : c ≠ x := fun e => ha (e ▸ hc)
      simpa using this) (by simp)
  have hsplit0 : ∀ (a : Str) (x : Char), x ∉ a → splitC x a = [a] := by
    intro a x ha
    unfold splitC
    refine splitP_none (p := (· == x)) fun c hc => ?_
    have : c ≠ x := fun e => ha (e ▸ hc)
    simpa using this
  have hvolt : ∀ (k : Str) (d : Info) (t n : Str), t = "AC".toList ∨ t = "DC".toList → Number n →
      voltage k d (t ++ '=' :: (n ++ "mV".toList)) =
        .ok (d.set ("run.".toList ++ k.take 2 ++ '.' :: (lower t ++ ".start".toList)) (.text n)) := by
    intro k d t n ht hn
    unfold voltage
    have h1 : '=' ∉ t := by rcases ht with rfl | rfl <;> decide
    have h2 : '=' ∉ n ++ "mV".toList := by
      rw [List.mem_append]
      rintro (h | h)
      · exact hch n hn _ (by decide) h
      · exact absurd h (by decide)
    rw [if_pos (by simp), hsplit1 t _ '=' h1, hsplit0 _ _ h2]
    simp only
    rw [replaceSub_end (w := "mV".toList) (c := 'm') rfl (hch n hn _ (by decide))]
  simp only [readInfo, hf]
  unfold phoenixInfo
  rw [hsec]
  have hcols : ["RUN INFORMATION".toList, voltageLine c n m].flatMap columns = ["RUN INFORMATION".toList, voltageLine c n m] := by
    rw [List.flatMap_cons, List.flatMap_cons, show columns "RUN INFORMATION".toList = ["RUN INFORMATION".toList] by decide +kernel,
      hline, columns_near hnear]
    rfl
  rw [hcols, List.foldlM_cons, show phoenixColumn [] "RUN INFORMATION".toList = .ok [] by decide +kernel]
  show Except.map joinComments (List.foldlM phoenixColumn [] [voltageLine c n m]) = _
  have hkey : ∀ x ∈ c ++ " VOLTAGE".toList, x ≠ ':' ∧ x ≠ '=' := by rcases hc with rfl | rfl <;> decide
  have hl2 : voltageLine c n m = (c ++ " VOLTAGE".toList) ++ ':' :: (" AC=".toList ++ n ++ "mV, DC=".toList ++ m ++ "mV".toList) := by
    simp only [voltageLine, List.append_assoc]
    rfl
  have hval : strip (" AC=".toList ++ n ++ "mV, DC=".toList ++ m ++ "mV".toList) =
      "AC=".toList ++ n ++ "mV, DC=".toList ++ m ++ "mV".toList := by
    have hp := strip_pad (a := [' ']) (b := []) ("AC=".toList ++ n ++ "mV, DC=".toList ++ m ++ "mV".toList) (by decide) (by simp)
    rw [List.append_nil] at hp
    refine Eq.trans ?_ (hp.trans ?_)
    · rfl
    · refine strip_of_ends ?_ ?_
      · intro x hx
        have : x = 'A' := (Option.some.inj hx).symm
        subst this; decide
      · intro x hx
        rw [List.getLast?_append] at hx
        have : x = 'V' := (Option.some.inj hx).symm
        subst this; decide
  have hcnt : ¬ "  ".toList <:+: "AC=".toList ++ n ++ "mV, DC=".toList ++ m ++ "mV".toList := by
    intro hi
    have h2 := hi.sublist.count_le ' '
    simp only [List.count_append] at h2
    rw [List.count_eq_zero.2 (hch n hn _ (by decide)), List.count_eq_zero.2 (hch m hm _ (by decide))] at h2
    exact absurd h2 (by decide)
  have hcol : phoenixColumn [] (voltageLine c n m) =
      .ok [("run.".toList ++ lower c ++ ".ac.start".toList, .text n), ("run.".toList ++ lower c ++ ".dc.start".toList, .text m)] := by
    unfold phoenixColumn
    rw [hl2, separator_first _ hkey (.inl rfl)]
    simp only [keyValue_of _ hkey (.inl rfl), hval]
    have hpv : phoenixValue ("AC=".toList ++ n ++ "mV, DC=".toList ++ m ++ "mV".toList) =
        "AC=".toList ++ n ++ "mV, DC=".toList ++ m ++ "mV".toList := by
      unfold phoenixValue
      rw [if_neg]
      rw [hasSub_iff]; exact hcnt
    rw [hpv]
    have hk : lower (strip (c ++ " VOLTAGE".toList)) = lower c ++ " voltage".toList := by
      rcases hc with rfl | rfl <;> decide +kernel
    rw [hk]
    unfold applyPhoenix potValue
    rw [if_neg (by rcases hc with rfl | rfl <;> decide +kernel)]
    show storePhoenix [] (lower c ++ " voltage".toList) _ = _
    unfold storePhoenix
    rw [if_pos (by rcases hc with rfl | rfl <;> decide +kernel)]
    have happ : ∀ (a : Char) (b s t : Str), replaceC a b (s ++ t) = replaceC a b s ++ replaceC a b t :=
      fun a b s t => List.flatMap_append
    have hrep : replaceC ' ' [] ("AC=".toList ++ n ++ "mV, DC=".toList ++ m ++ "mV".toList) =
        ("AC".toList ++ '=' :: (n ++ "mV".toList)) ++ ',' :: ("DC".toList ++ '=' :: (m ++ "mV".toList)) := by
      simp only [happ]
      rw [replaceC_none (hch n hn _ (by decide)), replaceC_none (hch m hm _ (by decide)),
        show replaceC ' ' [] "AC=".toList = "AC=".toList by decide +kernel,
        show replaceC ' ' [] "mV, DC=".toList = "mV,DC=".toList by decide +kernel,
        show replaceC ' ' [] "mV".toList = "mV".toList by decide +kernel]
      simp only [List.append_assoc, List.cons_append]
      rfl
    have hcomma : ∀ t n : Str, t = "AC".toList ∨ t = "DC".toList → Number n → ',' ∉ t ++ '=' :: (n ++ "mV".toList) := by
      intro t n ht hn h
      rcases List.mem_append.1 h with h | h
      · rcases ht with rfl | rfl <;> exact absurd h (by decide)
      · rcases List.mem_cons.1 h with h | h
        · exact absurd h (by decide)
        · rcases List.mem_append.1 h with h | h
          · exact hch n hn _ (by decide) h
          · exact absurd h (by decide)
    rw [hrep, hsplit1 _ _ ',' (hcomma _ n (.inl rfl) hn), hsplit0 _ _ (hcomma _ m (.inr rfl) hm), List.foldlM_cons,
      hvolt _ _ _ n (.inl rfl) hn]
    show List.foldlM _ _ _ = _
    rw [List.foldlM_cons, hvolt _ _ _ m (.inr rfl) hm]
    rcases hc with rfl | rfl <;> rfl
  rw [List.foldlM_cons, hcol]
  rfl

/-- The voltages of a channel. -/
example : readInfo (fun _ => []) [">INFO".toList, "RUN INFORMATION".toList, "EX VOLTAGE: AC=1.2mV, DC=-30mV".toList] =
    .ok [("run.ex.ac.start".toList, .text "1.2".toList), ("run.ex.dc.start".toList, .text "-30".toList)] := by decide +kernel

end Verif.EdiInfo
