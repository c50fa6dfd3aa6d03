import Verif.Model.RunLists
import Verif.Props.Run
import Verif.Props.Rename
import Verif.Lemmas.Text

/-! # C366-C370: lists of channel names of a run -/

namespace Verif.RunLists
open Verif.Runs Verif.Text

/-! ### C366: names given as texts, lists and arrays -/

/-- A name that text with commas can hold: no comma, no blanks at its ends. -/
def Item (n : Str) : Prop := ',' ∉ n ∧ strip n = n

/-- C366: a list of names may be given as a list, as a text with commas or as an array. -/
def C366_claim : Prop := ∀ (emptyOk : Bool) (l : List Str), (∀ n ∈ l, Item n) →
  namesIn emptyOk (.items l) = .ok l ∧ namesIn emptyOk (.text (join ", ".toList l)) = .ok l ∧ namesIn emptyOk (.array l) = .ok l

theorem item_cut (l : List Str) (hne : l ≠ []) (h : ∀ n ∈ l, Item n) : (splitC ',' (join ", ".toList l)).map strip = l := by
  cases l with
  | nil => exact absurd rfl hne
  | cons p l =>
    have e := splitC_join_pad (c := ',') (pad := " ".toList) (by decide) (p := p) (l := l) (h p (by simp)).1 (fun q hq => (h q (by simp [hq])).1)
    have e2 : (", ".toList : Str) = ',' :: " ".toList := by decide
    rw [e2, e, List.map_cons, (h p (by simp)).2, List.map_map]
    congr 1
    have : ∀ q ∈ l, (strip ∘ fun p => " ".toList ++ p) q = id q := by
      intro q hq
      have : (" ".toList ++ q : Str) = ' ' :: q := rfl
      simp only [Function.comp, this, strip_cons_ws q (by decide : ws ' ' = true), (h q (by simp [hq])).2, id]
    rw [List.map_congr_left this, List.map_id]

/-- C366 (part): a list is taken as it is, and a text with the names, unless there are none or the text is a word for none. -/
theorem C366_read_partial (emptyOk : Bool) (l : List Str) :
    namesIn emptyOk (.items l) = .ok l ∧ ((∀ n ∈ l, Item n) → l ≠ [] → l ∉ [["None".toList], ["none".toList], ["NONE".toList], ["null".toList]] →
      namesIn emptyOk (.text (join ", ".toList l)) = .ok l) := by
  refine ⟨rfl, fun h hne hw => ?_⟩
  have hs : join ", ".toList l ∉ nullWords := by
    intro hm
    have e := item_cut l hne h
    have : ∀ w ∈ nullWords, (splitC ',' w).map strip = [w] := by decide +kernel
    rw [this _ hm] at e
    rw [← e] at hw
    exact hw (by simpa [nullWords] using hm)
  show (if join ", ".toList l ∈ nullWords then Except.ok [] else .ok ((splitC ',' (join ", ".toList l)).map strip)) = _
  rw [if_neg hs, item_cut l hne h]

/-- C366 (part): nothing and the words None, none, NONE and null are no names; an empty text is one name without letters. -/
theorem C366_none_partial (emptyOk : Bool) : namesIn emptyOk .none = .ok [] ∧
    (∀ w ∈ ["None".toList, "none".toList, "NONE".toList, "null".toList], namesIn emptyOk (.text w) = .ok []) ∧
    namesIn emptyOk (.text []) = .ok [[]] := by
  cases emptyOk <;> decide +kernel

/-- C366 (part): an array of two or more names is refused. -/
theorem C366_array_partial (emptyOk : Bool) (l : List Str) : (2 ≤ l.length → namesIn emptyOk (.array l) = .error .valueError) ∧
    (∀ n, n ∉ ["None".toList, "none".toList, "NONE".toList, "null".toList] → namesIn emptyOk (.array [n]) = .ok [n]) := by
  constructor
  · intro h
    match l, h with
    | _ :: _ :: _, _ => rfl
  · intro n hn
    exact if_neg hn

/-- C366 is false: the names of an array are refused. -/
theorem C366_refuted : ¬ C366_claim := by
  intro h
  have := (h true ["ex".toList, "ey".toList] (by
    intro n hn
    rcases List.mem_cons.1 hn with rfl | hn
    · unfold Item; decide +kernel
    · rcases List.mem_cons.1 hn with rfl | hn
      · unfold Item; decide +kernel
      · cases hn)).2.2
  cases this

example : namesIn true (.text "ex, ey".toList) = .ok ["ex".toList, "ey".toList] := by decide +kernel

/-! ### The loops -/

/-- The class of channels takes the name: lower case, the first letter and the characters are those of the class. -/
def Fits (word : Char → Bool) : Kind → Str → Prop
  | .electric, n => ∃ cs, n = 'e' :: cs ∧ ∀ c ∈ cs, c.isAlphanum = true ∨ c = '_'
  | .magnetic, n => ∃ c cs, n = c :: cs ∧ c ∈ ['h', 'b', 'r'] ∧ ∀ c ∈ cs, c.isAlphanum = true ∨ c = '_'
  | .auxiliary, n => ∃ c ∈ n, word c = true

/-- The name is written in lower case. -/
def Low (n : String) : Prop := ∀ c ∈ n.toList, c.toLower = c

theorem lower_of_low {n : String} (h : Low n) : lower n.toList = n.toList := by
  unfold lower
  conv => rhs; rw [← List.map_id n.toList]
  exact List.map_congr_left h

theorem lowerName_of_low {n : String} (h : Low n) : lowerName n = n := by
  unfold lowerName
  rw [lower_of_low h, String.ofList_toList]

theorem all_nameChar (cs : Str) : cs.all nameChar = true ↔ ∀ c ∈ cs, c.isAlphanum = true ∨ c = '_' := by
  simp only [List.all_eq_true, nameChar, Bool.or_eq_true, beq_iff_eq]

theorem nameOk_iff (word : Char → Bool) (k : Kind) {n : String} (h : Low n) : nameOk word k (lower n.toList) = true ↔ Fits word k n.toList := by
  rw [lower_of_low h]
  unfold Low at h
  generalize n.toList = s at h ⊢
  cases k with
  | electric =>
    cases s with
    | nil => simp [nameOk, Fits]
    | cons c cs =>
      have hc := h c (by simp)
      have hE : c ≠ 'E' := by rintro rfl; exact absurd hc (by decide)
      simp only [nameOk, Fits, Bool.and_eq_true, Bool.or_eq_true, beq_iff_eq, all_nameChar]
      constructor
      · rintro ⟨a | a, b⟩
        · exact ⟨cs, by rw [a], b⟩
        · exact absurd a hE
      · rintro ⟨cs', e, b⟩
        cases e
        exact ⟨Or.inl rfl, b⟩
  | magnetic =>
    cases s with
    | nil => simp [nameOk, Fits]
    | cons c cs =>
      have hc := h c (by simp)
      have hH : c ≠ 'H' := by rintro rfl; exact absurd hc (by decide)
      have hB : c ≠ 'B' := by rintro rfl; exact absurd hc (by decide)
      have hR : c ≠ 'R' := by rintro rfl; exact absurd hc (by decide)
      simp only [nameOk, Fits, Bool.and_eq_true, List.contains_iff_mem, all_nameChar]
      constructor
      · rintro ⟨a, b⟩
        refine ⟨c, cs, rfl, ?_, b⟩
        simp only [List.mem_cons, List.not_mem_nil, or_false] at a ⊢
        tauto
      · rintro ⟨c', cs', e, a, b⟩
        cases e
        refine ⟨?_, b⟩
        simp only [List.mem_cons, List.not_mem_nil, or_false] at a ⊢
        tauto
  | auxiliary => simp only [nameOk, Fits, List.any_eq_true]

/-- A name that has a channel, or that the class takes. -/
def Good (word : Char → Bool) (k : Kind) (r : Run) (n : String) : Prop := n ∈ OD.keys r.channels ∨ Fits word k n.toList

theorem ensureS_good (word : Char → Bool) (req : List String) (k : Kind) {r : Run} (hi : Inv r) {n : String} (hl : Low n) (hg : Good word k r n) :
    ∃ q, ensureS word req k r n = (q, none) ∧ ensure req k r n = .ok q := by
  unfold ensureS ensure
  by_cases hn : n ∈ OD.keys r.channels
  · exact ⟨r, if_pos hn, if_pos hn⟩
  · rw [if_neg hn, if_neg hn, if_pos ((nameOk_iff word k hl).2 (hg.resolve_left hn)), lowerName_of_low hl]
    obtain ⟨q, e, _⟩ := addChannel_of_inv hi req { comp := n, kind := k } true
    exact ⟨q, by rw [e], e⟩

theorem ensure_inv (req : List String) (k : Kind) {r q : Run} (hi : Inv r) {n : String} (h : ensure req k r n = .ok q) :
    Inv q ∧ ∀ m, m ∈ OD.keys q.channels ↔ m ∈ OD.keys r.channels ∨ m = n := by
  obtain ⟨q', e, i, _, m, _⟩ := ensureAll_of_inv req k [n] hi
  unfold ensureAll at e
  rw [h] at e
  cases e
  exact ⟨i, fun x => (m x).trans (by simp)⟩

theorem good_mono {word : Char → Bool} {k : Kind} {r q : Run} (h : ∀ m, m ∈ OD.keys r.channels → m ∈ OD.keys q.channels) {n : String}
    (g : Good word k r n) : Good word k q n := g.imp (h n) id

theorem ensureAllS_good (word : Char → Bool) (req : List String) (k : Kind) (ns : List String) {r : Run} (hi : Inv r) (hl : ∀ n ∈ ns, Low n)
    (hg : ∀ n ∈ ns, Good word k r n) : ∃ q, ensureAllS word req k ns r = (q, none) ∧ ensureAll req k ns r = .ok q := by
  induction ns generalizing r with
  | nil => exact ⟨r, rfl, rfl⟩
  | cons n ns ih =>
    obtain ⟨q, e1, e2⟩ := ensureS_good word req k hi (hl n (by simp)) (hg n (by simp))
    obtain ⟨hq, hk⟩ := ensure_inv req k hi e2
    obtain ⟨q', f1, f2⟩ := ih hq (fun m hm => hl m (by simp [hm])) (fun m hm => good_mono (fun x hx => (hk x).2 (Or.inl hx)) (hg m (by simp [hm])))
    refine ⟨q', ?_, ?_⟩
    · unfold ensureAllS; rw [e1]; exact f1
    · unfold ensureAll; rw [e2]; exact f2

/-- The loop stops at the first name that is refused. -/
theorem ensureAllS_bad (word : Char → Bool) (req : List String) (k : Kind) (pre post : List String) (bad : String) {r : Run} (hi : Inv r)
    (hl : ∀ n ∈ pre, Low n) (hg : ∀ n ∈ pre, Good word k r n) (hb : Low bad) (hn : bad ∉ OD.keys r.channels) (hf : ¬ Fits word k bad.toList) :
    ∃ q, ensureAllS word req k (pre ++ bad :: post) r = (q, some .valueError) ∧ ensureAll req k pre r = .ok q := by
  induction pre generalizing r with
  | nil =>
    refine ⟨r, ?_, rfl⟩
    show ensureAllS word req k (bad :: post) r = _
    unfold ensureAllS ensureS
    rw [if_neg hn, if_neg (fun c => hf ((nameOk_iff word k hb).1 c))]
  | cons n ns ih =>
    obtain ⟨q, e1, e2⟩ := ensureS_good word req k hi (hl n (by simp)) (hg n (by simp))
    obtain ⟨hq, hk⟩ := ensure_inv req k hi e2
    have hne : bad ≠ n := by
      rintro rfl
      exact (hg bad (by simp)).elim hn hf
    obtain ⟨q', f1, f2⟩ := ih hq (fun m hm => hl m (by simp [hm])) (fun m hm => good_mono (fun x hx => (hk x).2 (Or.inl hx)) (hg m (by simp [hm])))
      (fun c => ((hk bad).1 c).elim hn hne)
    refine ⟨q', ?_, ?_⟩
    · rw [List.cons_append]; unfold ensureAllS; rw [e1]; exact f1
    · unfold ensureAll; rw [e2]; exact f2

/-- The channels that the loop adds are empty ones of its class. -/
theorem ensureAll_new (req : List String) (k : Kind) (ns : List String) {r q : Run} (hi : Inv r) (h : ensureAll req k ns r = .ok q) :
    ∀ n ∈ ns, n ∉ OD.keys r.channels → OD.get? q.channels n = some { comp := n, kind := k } := by
  induction ns generalizing r with
  | nil => intro n hn; cases hn
  | cons m ns ih =>
    unfold ensureAll at h
    cases e : ensure req k r m with
    | error x => rw [e] at h; cases h
    | ok r1 =>
      rw [e] at h
      obtain ⟨i1, k1⟩ := ensure_inv req k hi e
      intro n hn hr
      by_cases hm : n = m
      · subst hm
        unfold ensure at e
        rw [if_neg hr] at e
        obtain ⟨q1, e1, _, _, c1⟩ := addChannel_of_inv hi req { comp := n, kind := k } true
        rw [e1] at e
        cases e
        obtain ⟨q2, e2, _, g2, _⟩ := ensureAll_of_inv req k ns i1
        simp only at h
        rw [h] at e2
        cases e2
        rw [g2 n ((k1 n).2 (Or.inr rfl)), c1, OD.get?_set_self, (OD.get?_eq_none_iff _ _).2 hr]
        rfl
      · exact ih i1 h n ((List.mem_cons.1 hn).resolve_left hm) (fun c => ((k1 n).1 c).elim hr hm)

theorem ensureAllS_noop (word : Char → Bool) (req : List String) (k : Kind) (ns : List String) (r : Run) (h : ∀ n ∈ ns, n ∈ OD.keys r.channels) :
    ensureAllS word req k ns r = (r, none) := by
  induction ns with
  | nil => rfl
  | cons n ns ih =>
    unfold ensureAllS ensureS
    rw [if_pos (h n (by simp))]
    exact ih (fun m hm => h m (by simp [hm]))

/-! ### C367: a run made with lists of names -/

/-- C367: a run made with lists of names has channels with all these names, each of the class of its list. -/
def C367_claim : Prop := ∀ (word : Char → Bool) (req : List String) (e m a : List String),
  (∀ n ∈ e, Low n ∧ Fits word .electric n.toList) → (∀ n ∈ m, Low n ∧ Fits word .magnetic n.toList) →
  (∀ n ∈ a, Low n ∧ Fits word .auxiliary n.toList) → (e ++ m ++ a).Nodup →
  ∃ r, makeRun word req e m a = .ok r ∧ (∀ n ∈ e, OD.get? r.channels n = some { comp := n, kind := .electric }) ∧
    (∀ n ∈ m, OD.get? r.channels n = some { comp := n, kind := .magnetic }) ∧ ∀ n ∈ a, OD.get? r.channels n = some { comp := n, kind := .auxiliary }

theorem new_inv (e m a : List String) : Inv { elec := e, mag := m, aux := a } := ⟨List.nodup_nil, fun _ h => nomatch h⟩

theorem cons_not_all {ns : List String} (h : ns ≠ []) : ¬ ∀ n ∈ ns, n ∈ OD.keys ([] : OD String Chan) := by
  obtain ⟨n, hn⟩ := List.exists_mem_of_ne_nil _ h
  exact fun c => nomatch c n hn

/-- C367 (part): it has the channels of the first list that is not empty, in the order electric, magnetic, auxiliary, and no others;
the names of the other lists are lost. The lists of the run have the names of its channels. -/
theorem C367_first_partial (word : Char → Bool) (req : List String) (e m a : List String)
    (he : ∀ n ∈ e, Low n ∧ Fits word .electric n.toList) (hm : ∀ n ∈ m, Low n ∧ Fits word .magnetic n.toList)
    (ha : ∀ n ∈ a, Low n ∧ Fits word .auxiliary n.toList) :
    ∃ r k ns, makeRun word req e m a = .ok r ∧
      ((k, ns) = if e ≠ [] then (Kind.electric, e) else if m ≠ [] then (Kind.magnetic, m) else (Kind.auxiliary, a)) ∧
      (∀ n, n ∈ OD.keys r.channels ↔ n ∈ ns) ∧ (∀ n ∈ ns, OD.get? r.channels n = some { comp := n, kind := k }) ∧
      Mirrors .electric "e_default" r.elec r ∧ Mirrors .magnetic "h_default" r.mag r ∧ Mirrors .auxiliary "auxiliary_default" r.aux r := by
  have mir : ∀ {r : Run}, Inv r → InSync r → Mirrors .electric "e_default" r.elec r ∧ Mirrors .magnetic "h_default" r.mag r ∧
      Mirrors .auxiliary "auxiliary_default" r.aux r := by
    intro r hi hs
    refine ⟨?_, ?_, ?_⟩
    · rw [hs.2.1]; exact ⟨namesOf_lt hi _, mem_namesOf hi _⟩
    · rw [hs.2.2]; exact ⟨namesOf_lt hi _, mem_namesOf hi _⟩
    · rw [hs.1]; exact ⟨namesOf_lt hi _, mem_namesOf hi _⟩
  have hi := new_inv e m a
  have hnk : ∀ n, n ∉ OD.keys ({ elec := e, mag := m, aux := a } : Run).channels := fun n h => nomatch h
  unfold makeRun validateS
  by_cases ce : e = []
  · subst ce
    have e1 : ensureAllS word req .electric [] { elec := [], mag := m, aux := a } = ({ elec := [], mag := m, aux := a }, none) := rfl
    rw [e1]
    simp only
    by_cases cm : m = []
    · subst cm
      have e2 : ensureAllS word req .magnetic [] { elec := [], mag := [], aux := a } = ({ elec := [], mag := [], aux := a }, none) := rfl
      rw [e2]
      simp only
      obtain ⟨q, f1, f2⟩ := ensureAllS_good word req .auxiliary a hi (fun n h => (ha n h).1) (fun n h => Or.inr (ha n h).2)
      rw [f1]
      obtain ⟨q', g1, g2, _, g4, g5, g6⟩ := Rename.step req .auxiliary a hi
      rw [f2] at g1
      cases g1
      refine ⟨q, .auxiliary, a, rfl, rfl, fun n => (g4 n).trans (by simp [OD.keys]), fun n hn => ensureAll_new req _ _ hi f2 n hn (hnk n), ?_⟩
      by_cases ca : a = []
      · subst ca
        have := g5 (fun n h => nomatch h)
        subst this
        exact mir hi ⟨rfl, rfl, rfl⟩
      · exact mir g2 (g6 (cons_not_all ca))
    · obtain ⟨q, f1, f2⟩ := ensureAllS_good word req .magnetic m hi (fun n h => (hm n h).1) (fun n h => Or.inr (hm n h).2)
      rw [f1]
      obtain ⟨q', g1, g2, _, g4, _, g6⟩ := Rename.step req .magnetic m hi
      rw [f2] at g1
      cases g1
      have hs := g6 (cons_not_all cm)
      simp only
      rw [ensureAllS_noop word req _ _ _ (hs.listed g2).2.2]
      exact ⟨q, .magnetic, m, rfl, by rw [if_neg (by simp), if_pos cm], fun n => (g4 n).trans (by simp [OD.keys]),
        fun n hn => ensureAll_new req _ _ hi f2 n hn (hnk n), mir g2 hs⟩
  · obtain ⟨q, f1, f2⟩ := ensureAllS_good word req .electric e hi (fun n h => (he n h).1) (fun n h => Or.inr (he n h).2)
    rw [f1]
    obtain ⟨q', g1, g2, _, g4, _, g6⟩ := Rename.step req .electric e hi
    rw [f2] at g1
    cases g1
    have hs := g6 (cons_not_all ce)
    simp only
    rw [ensureAllS_noop word req _ _ _ (hs.listed g2).2.1]
    simp only
    rw [ensureAllS_noop word req _ _ _ (hs.listed g2).2.2]
    exact ⟨q, .electric, e, rfl, by rw [if_pos ce], fun n => (g4 n).trans (by simp [OD.keys]),
      fun n hn => ensureAll_new req _ _ hi f2 n hn (hnk n), mir g2 hs⟩

theorem low_ex : Low "ex" := by unfold Low; decide +kernel
theorem low_hx : Low "hx" := by unfold Low; decide +kernel
theorem fits_ex (word : Char → Bool) : Fits word .electric "ex".toList := ⟨['x'], by decide +kernel, by decide +kernel⟩
theorem fits_hx (word : Char → Bool) : Fits word .magnetic "hx".toList := ⟨'h', ['x'], by decide +kernel, by decide +kernel, by decide +kernel⟩

/-- C367 is false: the magnetic channel of a run with an electric one is lost. -/
theorem C367_refuted : ¬ C367_claim := by
  intro h
  obtain ⟨r, e, _, hm, _⟩ := h (fun _ => true) [] ["ex"] ["hx"] [] (by simpa using ⟨low_ex, fits_ex _⟩) (by simpa using ⟨low_hx, fits_hx _⟩)
    (by simp) (by decide)
  have : makeRun (fun _ => true) [] ["ex"] ["hx"] [] = .ok { channels := [("ex", { comp := "ex", kind := .electric })], elec := ["ex"] } := by
    decide +kernel
  rw [this] at e
  cases e
  have := hm "hx" (by simp)
  revert this
  decide +kernel

example : makeRun (fun _ => true) [] [] ["hy", "hx"] [] =
    .ok { channels := [("hy", { comp := "hy", kind := .magnetic }), ("hx", { comp := "hx", kind := .magnetic })], mag := ["hx", "hy"] } := by
  decide +kernel

/-! ### C368: the lists after an assignment -/

/-- The list of a class. -/
def listOf (k : Kind) (r : Run) : List String :=
  match k with
  | .electric => r.elec
  | .magnetic => r.mag
  | .auxiliary => r.aux

theorem validateS_put (word : Char → Bool) (req : List String) (k : Kind) (ns : List String) {r : Run} (hs : Listed r)
    (q : Run) (x : Option PyErr) (h : ensureAllS word req k ns (put k ns r) = (q, x)) (hq : x = none → Listed q) :
    validateS word req (put k ns r) = (q, x) := by
  unfold validateS
  cases k with
  | electric =>
    have h' : ensureAllS word req .electric (put .electric ns r).elec (put .electric ns r) = (q, x) := h
    rw [h']
    cases x with
    | some e => rfl
    | none =>
      have hl := hq rfl
      simp only
      rw [ensureAllS_noop word req _ _ _ hl.2.1]
      exact ensureAllS_noop word req _ _ _ hl.2.2
  | magnetic =>
    have h0 : ensureAllS word req .electric (put .magnetic ns r).elec (put .magnetic ns r) = (put .magnetic ns r, none) :=
      ensureAllS_noop word req _ _ _ hs.1
    have h' : ensureAllS word req .magnetic (put .magnetic ns r).mag (put .magnetic ns r) = (q, x) := h
    rw [h0]
    simp only
    rw [h']
    cases x with
    | some e => rfl
    | none => exact ensureAllS_noop word req _ _ _ (hq rfl).2.2
  | auxiliary =>
    have h0 : ensureAllS word req .electric (put .auxiliary ns r).elec (put .auxiliary ns r) = (put .auxiliary ns r, none) :=
      ensureAllS_noop word req _ _ _ hs.1
    have h1 : ensureAllS word req .magnetic (put .auxiliary ns r).mag (put .auxiliary ns r) = (put .auxiliary ns r, none) :=
      ensureAllS_noop word req _ _ _ hs.2.1
    rw [h0]
    simp only
    rw [h1]
    exact h

theorem put_channels (k : Kind) (ns : List String) (r : Run) : (put k ns r).channels = r.channels := by cases k <;> rfl

theorem put_inv (k : Kind) (ns : List String) {r : Run} (h : Inv r) : Inv (put k ns r) :=
  ⟨by rw [put_channels]; exact h.wf, by rw [put_channels]; exact h.key⟩

theorem put_listed (k : Kind) {ns : List String} {r : Run} (hl : Listed r) (h : ∀ n ∈ ns, n ∈ OD.keys r.channels) : Listed (put k ns r) := by
  cases k
  · exact ⟨h, hl.2.1, hl.2.2⟩
  · exact ⟨hl.1, h, hl.2.2⟩
  · exact ⟨hl.1, hl.2.1, h⟩

/-- The texts of names. -/
def texts (ns : List String) : List Str := ns.map String.toList

theorem texts_names (ns : List String) : (texts ns).map String.ofList = ns := by
  unfold texts
  rw [List.map_map]
  conv => rhs; rw [← List.map_id ns]
  exact List.map_congr_left (fun n _ => String.ofList_toList)

/-- C368: after names were assigned to a list, the list has the names of the channels of its class. -/
def C368_claim : Prop := ∀ (word : Char → Bool) (emptyOk : Bool) (req : List String) (k : Kind) (ns : List String) (r : Run), Reachable req r →
  (∀ n ∈ ns, Low n ∧ Fits word k n.toList) → ∃ r', assign word emptyOk req k (.items (texts ns)) r = (r', none) ∧
    Mirrors k (reserved k) (listOf k r') r'

/-- C368 (part): every name has a channel afterwards, the new ones are empty ones of the class of the list, all others are as they
were. If a name was new, all three lists have the names of the channels; otherwise the run has the list as it was given, and nothing
else is different. -/
theorem C368_after_partial (word : Char → Bool) (emptyOk : Bool) (req : List String) (k : Kind) (ns : List String) (r : Run) (h : Reachable req r)
    (hn : ∀ n ∈ ns, Low n ∧ (n ∈ OD.keys r.channels ∨ Fits word k n.toList)) :
    ∃ r', assign word emptyOk req k (.items (texts ns)) r = (r', none) ∧
      (∀ n, n ∈ OD.keys r'.channels ↔ n ∈ OD.keys r.channels ∨ n ∈ ns) ∧
      (∀ n, n ∈ OD.keys r.channels → OD.get? r'.channels n = OD.get? r.channels n) ∧
      (∀ n ∈ ns, n ∉ OD.keys r.channels → OD.get? r'.channels n = some { comp := n, kind := k }) ∧
      ((∃ n ∈ ns, n ∉ OD.keys r.channels) → Mirrors .electric "e_default" r'.elec r' ∧ Mirrors .magnetic "h_default" r'.mag r' ∧
        Mirrors .auxiliary "auxiliary_default" r'.aux r') ∧
      ((∀ n ∈ ns, n ∈ OD.keys r.channels) → r'.elec = (if k = .electric then ns else r.elec) ∧ r'.mag = (if k = .magnetic then ns else r.mag) ∧
        r'.aux = (if k = .auxiliary then ns else r.aux) ∧ r'.channels = r.channels ∧ r'.start = r.start ∧ r'.stop = r.stop) := by
  obtain ⟨hi, hs⟩ := reachable_inv h
  have hl := hs.listed hi
  have hi' := put_inv k ns hi
  have hg : ∀ n ∈ ns, Good word k (put k ns r) n := fun n m => by
    unfold Good
    rw [put_channels]
    exact (hn n m).2
  obtain ⟨q, f1, f2⟩ := ensureAllS_good word req k ns hi' (fun n m => (hn n m).1) hg
  obtain ⟨q', g1, g2, g3, g4, g5, g6⟩ := Rename.step req k ns hi'
  rw [f2] at g1
  cases g1
  rw [put_channels] at g3 g4 g5 g6
  have hq : Listed q := by
    by_cases c : ∀ n ∈ ns, n ∈ OD.keys r.channels
    · rw [g5 c]; exact put_listed k hl c
    · exact (g6 c).listed g2
  refine ⟨q, ?_, g4, g3, fun n m hr => ensureAll_new req k ns hi' f2 n m (by rw [put_channels]; exact hr), ?_, ?_⟩
  · show validateS word req (put k ((texts ns).map String.ofList) r) = _
    rw [texts_names]
    exact validateS_put word req k ns hl q none f1 (fun _ => hq)
  · rintro ⟨n, m, hr⟩
    have hs := g6 (fun c => hr (c n m))
    refine ⟨?_, ?_, ?_⟩
    · rw [hs.2.1]; exact ⟨namesOf_lt g2 _, mem_namesOf g2 _⟩
    · rw [hs.2.2]; exact ⟨namesOf_lt g2 _, mem_namesOf g2 _⟩
    · rw [hs.1]; exact ⟨namesOf_lt g2 _, mem_namesOf g2 _⟩
  · intro c
    rw [g5 c]
    cases k <;> exact ⟨rfl, rfl, rfl, rfl, rfl, rfl⟩

/-- C368 is false: the empty list is taken, and the channels stay. -/
theorem C368_refuted : ¬ C368_claim := by
  intro h
  obtain ⟨r', e, m⟩ := h (fun _ => true) true [] .electric [] exRun exRun_reachable (by simp)
  have : assign (fun _ => true) true [] .electric (.items (texts [])) exRun = ({ exRun with elec := [] }, none) := by decide +kernel
  rw [this] at e
  cases e
  exact nomatch (m.2 "ex").2 ⟨by decide, exEx, by decide +kernel, rfl⟩

/-! ### C369: names that are refused -/

/-- C369: when an assignment is refused, the run is as it was. -/
def C369_claim : Prop := ∀ (word : Char → Bool) (emptyOk : Bool) (req : List String) (k : Kind) (v : Input) (r : Run), Reachable req r →
  (assign word emptyOk req k v r).2 ≠ none → (assign word emptyOk req k v r).1 = r

theorem first_bad {P : String → Prop} (ns : List String) (h : ¬ ∀ n ∈ ns, P n) : ∃ pre bad post, ns = pre ++ bad :: post ∧ (∀ n ∈ pre, P n) ∧ ¬ P bad := by
  induction ns with
  | nil => exact absurd (fun n h => nomatch h) h
  | cons n ns ih =>
    by_cases hn : P n
    · obtain ⟨pre, bad, post, e, a, b⟩ := ih (fun c => h (fun m hm => (List.mem_cons.1 hm).elim (fun e => e ▸ hn) (c m)))
      refine ⟨n :: pre, bad, post, by rw [e, List.cons_append], ?_, b⟩
      intro m hm
      exact (List.mem_cons.1 hm).elim (fun e => e ▸ hn) (a m)
    · exact ⟨[], n, ns, rfl, (fun _ h => nomatch h), hn⟩

theorem assign_bad (word : Char → Bool) (emptyOk : Bool) (req : List String) (k : Kind) (pre post : List String) (bad : String) (r : Run)
    (h : Reachable req r) (hl : ∀ n ∈ pre, Low n) (hg : ∀ n ∈ pre, n ∈ OD.keys r.channels ∨ Fits word k n.toList)
    (hb : Low bad) (hr : bad ∉ OD.keys r.channels) (hf : ¬ Fits word k bad.toList) :
    ∃ q, assign word emptyOk req k (.items (texts (pre ++ bad :: post))) r = (q, some .valueError) ∧
      ensureAll req k pre (put k (pre ++ bad :: post) r) = .ok q := by
  obtain ⟨hi, hs⟩ := reachable_inv h
  have hi' := put_inv k (pre ++ bad :: post) hi
  obtain ⟨q, e1, e2⟩ := ensureAllS_bad word req k pre post bad hi' hl
    (fun n m => by unfold Good; rw [put_channels]; exact hg n m) hb (by rw [put_channels]; exact hr) hf
  refine ⟨q, ?_, e2⟩
  show validateS word req (put k ((texts (pre ++ bad :: post)).map String.ofList) r) = _
  rw [texts_names]
  exact validateS_put word req k _ (hs.listed hi) q _ e1 (fun c => nomatch c)

/-- C369 (part): names are refused if and only if one of them has no channel and is no name for the class. -/
theorem C369_iff_partial (word : Char → Bool) (emptyOk : Bool) (req : List String) (k : Kind) (ns : List String) (r : Run) (h : Reachable req r)
    (hn : ∀ n ∈ ns, Low n) : (assign word emptyOk req k (.items (texts ns)) r).2 ≠ none ↔
      ∃ n ∈ ns, n ∉ OD.keys r.channels ∧ ¬ Fits word k n.toList := by
  by_cases c : ∀ n ∈ ns, n ∈ OD.keys r.channels ∨ Fits word k n.toList
  · obtain ⟨r', e, _⟩ := C368_after_partial word emptyOk req k ns r h (fun n m => ⟨hn n m, c n m⟩)
    rw [e]
    refine ⟨fun x => absurd rfl x, ?_⟩
    rintro ⟨n, m, a, b⟩
    exact absurd (c n m) (not_or.2 ⟨a, b⟩)
  · obtain ⟨pre, bad, post, e, a, b⟩ := first_bad ns c
    subst e
    obtain ⟨b1, b2⟩ := not_or.1 b
    obtain ⟨q, e, _⟩ := assign_bad word emptyOk req k pre post bad r h (fun n m => hn n (by simp [m])) a (hn bad (by simp)) b1 b2
    rw [e]
    exact ⟨fun _ => ⟨bad, by simp, b1, b2⟩, fun _ => by simp⟩

/-- C369 (part): when names are refused, the run has new channels for those before the first one that is refused. All channels that it
had are as they were. -/
theorem C369_left_partial (word : Char → Bool) (emptyOk : Bool) (req : List String) (k : Kind) (pre post : List String) (bad : String) (r : Run)
    (h : Reachable req r) (hl : ∀ n ∈ pre, Low n) (hg : ∀ n ∈ pre, n ∈ OD.keys r.channels ∨ Fits word k n.toList)
    (hb : Low bad) (hr : bad ∉ OD.keys r.channels) (hf : ¬ Fits word k bad.toList) :
    ∃ q, assign word emptyOk req k (.items (texts (pre ++ bad :: post))) r = (q, some .valueError) ∧
      (∀ n, n ∈ OD.keys q.channels ↔ n ∈ OD.keys r.channels ∨ n ∈ pre) ∧
      (∀ n, n ∈ OD.keys r.channels → OD.get? q.channels n = OD.get? r.channels n) ∧
      ((∀ n ∈ pre, n ∈ OD.keys r.channels) → listOf k q = pre ++ bad :: post) := by
  obtain ⟨hi, hs⟩ := reachable_inv h
  obtain ⟨q, e1, e2⟩ := assign_bad word emptyOk req k pre post bad r h hl hg hb hr hf
  obtain ⟨q', g1, g2, g3, g4, g5, g6⟩ := Rename.step req k pre (put_inv k (pre ++ bad :: post) hi)
  rw [e2] at g1
  cases g1
  rw [put_channels] at g3 g4 g5 g6
  refine ⟨q, e1, g4, g3, fun c => ?_⟩
  rw [g5 c]
  cases k <;> rfl

/-- C369 (part): what is no list of names at all (and an array with several) leaves the run as it was. -/
theorem C369_input_partial (word : Char → Bool) (emptyOk : Bool) (req : List String) (k : Kind) (r : Run) :
    assign word emptyOk req k .other r = (r, some .typeError) ∧
    ∀ l : List Str, 2 ≤ l.length → assign word emptyOk req k (.array l) r = (r, some .valueError) := by
  refine ⟨rfl, fun l h => ?_⟩
  unfold assign
  rw [(C366_array_partial emptyOk l).1 h]

/-- C369 is false: the first name has a channel, although the second was refused. -/
theorem C369_refuted : ¬ C369_claim := by
  intro h
  have := h (fun _ => true) true [] .electric (.items (texts ["ex", "hx"])) {} (Reachable.new 0 0) (by decide +kernel)
  revert this
  decide +kernel

/-! ### C370: positions of channels -/

/-- C370: `run.channels[run.channel_index(c)]` is the channel `c`. -/
def C370_claim : Prop := ∀ (req : List String) (r : Run) (c : String) (i : Nat), Reachable req r → channelIndex r c = some i →
  ∃ ch, (OD.values r.channels)[i]? = some ch ∧ ch.comp = c

theorem lt_index {l : List String} (h : l.Pairwise (· < ·)) {c : String} (hc : c ∈ l) : l.idxOf c = (l.filter (fun n => decide (n < c))).length := by
  induction l with
  | nil => cases hc
  | cons x l ih =>
    obtain ⟨h1, h2⟩ := List.pairwise_cons.1 h
    by_cases hx : x = c
    · subst hx
      have : (x :: l).filter (fun n => decide (n < x)) = [] := by
        rw [List.filter_eq_nil_iff]
        intro n hn
        rcases List.mem_cons.1 hn with rfl | hn
        · simp
        · simp [not_lt.2 (h1 n hn).le]
      rw [this, List.idxOf_cons_self]; rfl
    · have hm := (List.mem_cons.1 hc).resolve_left (fun e => hx e.symm)
      rw [List.idxOf_cons_ne _ hx, ih h2 hm, List.filter_cons_of_pos (by simpa using h1 c hm), List.length_cons]

/-- C370 (part): there is an index if and only if there is such a channel; it is the number of channels with smaller names. -/
theorem C370_index_partial (req : List String) (r : Run) (c : String) (h : Reachable req r) :
    (c ∉ OD.keys r.channels → channelIndex r c = none) ∧
    (c ∈ OD.keys r.channels → channelIndex r c = some ((OD.keys r.channels).filter (fun n => decide (n < c))).length) := by
  obtain ⟨hi, _⟩ := reachable_inv h
  unfold channelIndex
  constructor
  · intro hc
    exact if_neg (fun x => hc ((hasChannel_iff hi c).1 x))
  · intro hc
    rw [if_pos ((hasChannel_iff hi c).2 hc)]
    unfold recordedAll
    rw [map_comp_of_inv hi]
    have hp : (sortNames (OD.keys r.channels)).Perm (OD.keys r.channels) := pySorted_perm _ _
    rw [lt_index (sortNames_lt _ hi.wf) ((mem_sortNames _ _).2 hc), (hp.filter _).length_eq]

/-- C370 is false: channels are stored in the order in which they were added. -/
theorem C370_refuted : ¬ C370_claim := by
  intro h
  obtain ⟨ch, e, hc⟩ := h [] exRun "ex" 0 exRun_reachable (by decide +kernel)
  have : (OD.values exRun.channels)[0]? = some exHy := by decide +kernel
  rw [this] at e
  cases e
  revert hc
  decide +kernel

end Verif.RunLists
