import Verif.Lemmas.Run

/-!
C30-C34: channel bookkeeping of `mt_metadata/timeseries/run.py`.
-/

namespace Verif.Runs

/-! ### Vocabulary -/

/-- `l` lists, strictly increasing, the names of the stored channels of class `k`, leaving out the
class's reserved default name. -/
def Mirrors (k : Kind) (dflt : String) (l : List String) (r : Run) : Prop :=
  l.Pairwise (· < ·) ∧
    ∀ n, n ∈ l ↔ n ≠ dflt ∧ ∃ ch, OD.get? r.channels n = some ch ∧ ch.kind = k

/-- Runs obtained from a new one (with any time period) by any sequence of calls. The
second argument of merge and update is itself such a run. -/
inductive Reachable (req : List String) : Run → Prop
  | new (s e : Int) : Reachable req { start := s, stop := e }
  | add {r r' : Run} (ch : Chan) (upd : Bool) : Reachable req r →
      addChannel req r ch upd = .ok r' → Reachable req r'
  | remove {r r' : Run} (c : String) : Reachable req r → removeChannel r c = .ok r' → Reachable req r'
  | merge {r o r' : Run} (inplace : Bool) (ret : Option Run) : Reachable req r → Reachable req o →
      merge r o inplace = .ok (r', ret) → Reachable req r'
  | update {r o r' : Run} : Reachable req r → Reachable req o → update req r o = .ok r' →
      Reachable req r'
  | time {r : Run} : Reachable req r → Reachable req (updateTime r)

theorem reachable_inv {req : List String} {r : Run} (h : Reachable req r) : Inv r ∧ InSync r := by
  induction h with
  | new s e => exact ⟨⟨OD.WF_nil, by simp⟩, rfl, rfl, rfl⟩
  | add ch upd _ he ih =>
    obtain ⟨r1, e1, i1, s1, _⟩ := addChannel_of_inv ih.1 req ch upd
    rw [he] at e1
    simp only [Except.ok.injEq] at e1
    subst e1; exact ⟨i1, s1⟩
  | remove c _ he ih =>
    obtain ⟨r1, e1, i1, h1, _⟩ := removeChannel_of_inv ih.1 c
    rw [he] at e1
    simp only [Except.ok.injEq] at e1
    subst e1
    rcases h1 with h | h
    · exact ⟨i1, h.2.1⟩
    · exact ⟨i1, h.2 ▸ ih.2⟩
  | merge inplace ret _ _ he ih1 ih2 =>
    obtain ⟨r1, ret1, e1, i1, s1, _⟩ := merge_of_inv ih1.1 ih2.1 inplace
    rw [he] at e1
    simp only [Except.ok.injEq, Prod.mk.injEq] at e1
    obtain ⟨e1, _⟩ := e1
    subst e1; exact ⟨i1, s1⟩
  | update _ _ he ih1 ih2 =>
    obtain ⟨r1, e1, i1, s1, _⟩ := update_of_inv req ih1.1 ih1.2 ih2.1 ih2.2
    rw [he] at e1
    simp only [Except.ok.injEq] at e1
    subst e1; exact ⟨i1, s1⟩
  | time _ ih => exact ⟨⟨ih.1.wf, ih.1.key⟩, ih.2⟩

/-! ### C30 -/

/-- C30: after any sequence of calls the three lists are exactly the sorted names of the stored
channels of their class (without the reserved default names). -/
theorem C30_lists (req : List String) (r : Run) (h : Reachable req r) :
    Mirrors .electric "e_default" r.elec r ∧ Mirrors .magnetic "h_default" r.mag r ∧
      Mirrors .auxiliary "auxiliary_default" r.aux r := by
  obtain ⟨hi, h1, h2, h3⟩ := reachable_inv h
  rw [h1, h2, h3]
  exact ⟨⟨namesOf_lt hi _, mem_namesOf hi _⟩, ⟨namesOf_lt hi _, mem_namesOf hi _⟩,
    ⟨namesOf_lt hi _, mem_namesOf hi _⟩⟩

/-- C30: `has_channel(c)` holds exactly for the names in one of the three lists; it also holds
for a channel kept under a reserved default name. -/
theorem C30_has_channel (req : List String) (r : Run) (h : Reachable req r) (c : String) :
    (hasChannel r c = true ↔ ∃ ch, OD.get? r.channels c = some ch) ∧
    (c ∉ ["e_default", "h_default", "auxiliary_default"] → (hasChannel r c = true ↔ c ∈ r.elec ∨ c ∈ r.mag ∨ c ∈ r.aux)) := by
  obtain ⟨hi, h1, h2, h3⟩ := reachable_inv h
  have hh : hasChannel r c = true ↔ ∃ ch, OD.get? r.channels c = some ch := by
    rw [hasChannel_iff hi, ← OD.get?_isSome_iff, Option.isSome_iff_exists]
  refine ⟨hh, fun hc' => ?_⟩
  have hc : ∀ k, c ≠ reserved k := by
    simp only [List.mem_cons, List.not_mem_nil, or_false, not_or] at hc'
    intro k
    cases k
    · exact hc'.1
    · exact hc'.2.1
    · exact hc'.2.2
  rw [hh, h1, h2, h3, mem_namesOf hi, mem_namesOf hi, mem_namesOf hi]
  constructor
  · rintro ⟨ch, hg⟩
    cases hk : ch.kind with
    | electric => exact Or.inl ⟨hc _, ch, hg, hk⟩
    | magnetic => exact Or.inr (Or.inl ⟨hc _, ch, hg, hk⟩)
    | auxiliary => exact Or.inr (Or.inr ⟨hc _, ch, hg, hk⟩)
  · rintro (⟨_, ch, hg, _⟩ | ⟨_, ch, hg, _⟩ | ⟨_, ch, hg, _⟩) <;> exact ⟨ch, hg⟩

/-- C30: none of the calls raises. -/
theorem C30_total (req : List String) (r o : Run) (h : Reachable req r) (ho : Reachable req o)
    (ch : Chan) (upd : Bool) (c : String) :
    (∃ r', addChannel req r ch upd = .ok r') ∧ (∃ r', removeChannel r c = .ok r') ∧
    (∃ p, merge r o upd = .ok p) ∧ (∃ r', update req r o = .ok r') := by
  obtain ⟨hi, hs⟩ := reachable_inv h
  obtain ⟨hio, hso⟩ := reachable_inv ho
  refine ⟨?_, ?_, ?_, ?_⟩
  · obtain ⟨r', e, _⟩ := addChannel_of_inv hi req ch upd; exact ⟨r', e⟩
  · obtain ⟨r', e, _⟩ := removeChannel_of_inv hi c; exact ⟨r', e⟩
  · obtain ⟨r', ret, e, _⟩ := merge_of_inv hi hio upd; exact ⟨_, e⟩
  · obtain ⟨r', e, _⟩ := update_of_inv req hi hs hio hso; exact ⟨r', e⟩

/-- C30: assigning one of the lists creates the channels it names and keeps all others; it never
removes a channel. -/
theorem C30_assign (req : List String) (r : Run) (h : Reachable req r) (k : Kind)
    (ns : List String) :
    ∃ r', assignList req k ns r = .ok r' ∧
      (∀ n, n ∈ OD.keys r.channels → OD.get? r'.channels n = OD.get? r.channels n) ∧
      (∀ n, n ∈ OD.keys r'.channels ↔ n ∈ OD.keys r.channels ∨ n ∈ ns) := by
  obtain ⟨hi, hs⟩ := reachable_inv h
  obtain ⟨r', e, _, _, a, b, _⟩ := assignList_of_inv req k ns hi (hs.listed hi)
  exact ⟨r', e, a, b⟩

/-- An electric channel with a time span. -/
def exEx : Chan := { comp := "ex", kind := .electric, start := 10, stop := 20 }
/-- A magnetic channel with a longer time span. -/
def exHy : Chan := { comp := "hy", kind := .magnetic, start := 5, stop := 15 }

/-- The run with both. -/
def exRun : Run :=
  { channels := [("hy", exHy), ("ex", exEx)], elec := ["ex"], mag := ["hy"], start := 5, stop := 20 }

theorem exRun_reachable : Reachable [] exRun := by
  have h1 : Reachable [] { channels := [("hy", exHy)], mag := ["hy"], start := 5, stop := 15 } :=
    Reachable.add exHy true (Reachable.new 0 0) (by decide +kernel)
  exact Reachable.add exEx true h1 (by decide +kernel)

example : hasChannel exRun "ex" = true ∧ hasChannel exRun "ey" = false := by decide +kernel
example : removeChannel exRun "ex" =
    .ok { channels := [("hy", exHy)], mag := ["hy"], start := 5, stop := 20 } := by decide +kernel

/-! ### C31 -/

/-- C31: `add_channel` of a new name stores exactly that channel; of a known name it updates
the stored one; every other channel is untouched. -/
theorem C31_add (req : List String) (r : Run) (h : Reachable req r) (ch : Chan) (upd : Bool)
    (r' : Run) (he : addChannel req r ch upd = .ok r') :
    (OD.get? r.channels ch.comp = none → getChannel r' ch.comp = .ok (some ch)) ∧
    (∀ old, OD.get? r.channels ch.comp = some old →
      getChannel r' ch.comp = .ok (some (old.update req ch))) ∧
    (∀ c, c ≠ ch.comp → getChannel r' c = getChannel r c) := by
  obtain ⟨hi, _⟩ := reachable_inv h
  obtain ⟨r1, e1, i1, _, c1⟩ := addChannel_of_inv hi req ch upd
  rw [he] at e1
  simp only [Except.ok.injEq] at e1
  subst e1
  have hget : ∀ (s : Run) (c : String), Inv s →
      getChannel s c = .ok (OD.get? s.channels c) := by
    intro s c hs
    unfold getChannel
    split
    · next hh =>
      rw [hasChannel_iff hs, ← OD.get?_isSome_iff] at hh
      obtain ⟨v, hv⟩ := Option.isSome_iff_exists.1 hh
      rw [hv]
    · next hh =>
      rw [hasChannel_iff hs, ← OD.get?_eq_none_iff] at hh
      rw [hh]
  rw [hget r' _ i1, c1]
  refine ⟨?_, ?_, ?_⟩
  · intro hn; rw [hn, OD.get?_set, if_pos rfl]; rfl
  · intro old ho; rw [ho, OD.get?_set, if_pos rfl]; rfl
  · intro c hc
    rw [hget r' c i1, hget r c hi, c1, OD.get?_set_ne _ _ hc]

/-- C31 as documented: after `add_channel(ch)` the stored channel carries ch's times when set. -/
def C31_claim : Prop :=
  ∀ (req : List String) (r r' : Run) (ch : Chan) (upd : Bool), Reachable req r →
    addChannel req r ch upd = .ok r' → ch.start ≠ 0 →
    ∃ st, getChannel r' ch.comp = .ok (some st) ∧ st.start = ch.start

/-- C31 is false when a channel of another class is stored under the name: the new metadata
is dropped (only a warning is logged). -/
theorem C31_refuted : ¬ C31_claim := by
  intro h
  obtain ⟨st, h1, h2⟩ := h [] exRun exRun { comp := "ex", kind := .auxiliary, start := 3, stop := 4 }
    true exRun_reachable (by decide +kernel) (by decide)
  have e : getChannel exRun "ex" = .ok (some exEx) := by decide +kernel
  rw [show ({ comp := "ex", kind := Kind.auxiliary, start := 3, stop := 4 } : Chan).comp = "ex" from rfl,
    e] at h1
  simp only [Except.ok.injEq, Option.some.injEq] at h1
  subst h1
  exact absurd h2 (by decide)

/-- C31: for a new name or one of the same class, the stored channel carries the new times when
set and the old ones otherwise, the name and the class. Missing: a clash of classes, where it fails. -/
theorem C31_carries_partial (req : List String) (r r' : Run) (ch : Chan) (upd : Bool)
    (h : Reachable req r) (he : addChannel req r ch upd = .ok r')
    (hk : ∀ old, OD.get? r.channels ch.comp = some old → old.kind = ch.kind) :
    ∃ st, getChannel r' ch.comp = .ok (some st) ∧ st.kind = ch.kind ∧ st.comp = ch.comp ∧
      (ch.start ≠ 0 → st.start = ch.start) ∧ (ch.stop ≠ 0 → st.stop = ch.stop) ∧
      (∀ old, OD.get? r.channels ch.comp = some old → ch.start = 0 → st.start = old.start) := by
  obtain ⟨a, b, _⟩ := C31_add req r h ch upd r' he
  cases hg : OD.get? r.channels ch.comp with
  | none => exact ⟨ch, a hg, rfl, rfl, fun _ => rfl, fun _ => rfl, fun old ho => by simp at ho⟩
  | some old =>
    have hkk := hk old hg
    refine ⟨_, b old hg, ?_, ?_, ?_, ?_, ?_⟩
    · rw [Chan.update_kind, hkk]
    · rw [Chan.update_comp]; exact comp_of_get? (reachable_inv h).1 hg
    · intro h0; simp [Chan.update, hkk, h0]
    · intro h0; simp [Chan.update, hkk, h0]
    · intro old' ho h0
      simp only [Option.some.injEq] at ho
      subst ho
      simp [Chan.update, hkk, h0]

example : addChannel [] exRun { comp := "ex", kind := .electric, start := 2 } true =
    .ok { exRun with channels := [("hy", exHy), ("ex", { exEx with start := 2 })], start := 2 } := by
  decide +kernel

/-- C31: `remove_channel(c)` removes exactly c; for an unknown name nothing changes. -/
theorem C31_remove (req : List String) (r : Run) (h : Reachable req r) (c : String) :
    ∃ r', removeChannel r c = .ok r' ∧ OD.get? r'.channels c = none ∧
      (∀ d, d ≠ c → OD.get? r'.channels d = OD.get? r.channels d) ∧
      (hasChannel r c = false → r' = r) := by
  obtain ⟨hi, _⟩ := reachable_inv h
  obtain ⟨r', e, _, hd, hc⟩ := removeChannel_of_inv hi c
  refine ⟨r', e, ?_, ?_, ?_⟩
  · rw [hc, OD.get?_erase hi.wf, if_pos rfl]
  · intro d hd'; rw [hc, OD.get?_erase hi.wf, if_neg (Ne.symm hd')]
  · intro hf
    rcases hd with h | h
    · rw [(hasChannel_iff hi c).2 h.1] at hf; simp at hf
    · exact h.2

/-! ### C32 -/

/-- C32 as documented: name, `{'component': name, 'type': None}` and a dict without type give
the same class. -/
def C32_claim : Prop :=
  ∀ name : Str, name ≠ [] → kindOfDict (some none) (some name) = .ok (kindOfName name) ∧
    kindOfDict none (some name) = .ok (kindOfName name)

/-- C32 is false: a dict without type raises KeyError, and "hx" with type None is auxiliary. -/
theorem C32_refuted : ¬ C32_claim := by
  intro h
  have := (h "hx".toList (by decide)).1
  exact absurd this (by decide)

theorem C32_missing_type (name : Option Str) : kindOfDict none name = .error .keyError := rfl

/-- C32: where the two rules agree: every name that does not start with h/H. -/
theorem C32_agree_partial (c : Char) (cs : Str) (h : c.toLower ≠ 'h')
    (hm : (c :: cs).map Char.toLower ≠ "magnetic".toList) :
    kindOfDict (some none) (some (c :: cs)) = .ok (kindOfName (c :: cs)) := by
  have h' : ('h' == c.toLower) = false := by simpa using Ne.symm h
  have e1 : [c.toLower] ≠ "magnetic".toList := by
    intro e; simpa using congrArg List.length e
  simp only [kindOfDict, kindOfType, kindOfName, List.map_cons, List.map_nil, List.isPrefixOf,
    Bool.and_true, h', false_or, Bool.false_eq_true] at *
  simp only [e1, hm, or_false, or_self]

/-- C32: every name starting with h/H differs: auxiliary as a dict, magnetic as a name. -/
theorem C32_h_differs (c : Char) (cs : Str) (h : c.toLower = 'h') :
    kindOfName (c :: cs) = .magnetic ∧
      kindOfDict (some none) (some (c :: cs)) = .ok .auxiliary := by
  constructor
  · simp [kindOfName, List.isPrefixOf, h]
  · simp [kindOfDict, kindOfType, List.isPrefixOf, h]

example : kindOfName "Bx".toList = .magnetic ∧ kindOfName "EX".toList = .electric ∧
    kindOfName "temperature".toList = .auxiliary := by decide
example : kindOfDict (some (some "magnetic".toList)) (some "hx".toList) = .ok .magnetic := by decide

/-! ### C33 -/

/-- C33: after `update_time_period` the run covers every channel time that is set, contains its
own former period where set, and its ends are former ends or channel ends. -/
theorem C33_covers (r : Run) :
    (∀ p ∈ r.channels, p.2.start ≠ 0 → (updateTime r).start ≤ p.2.start) ∧
    (∀ p ∈ r.channels, p.2.stop ≠ 0 → p.2.stop ≤ (updateTime r).stop) ∧
    (r.start ≠ 0 → (updateTime r).start ≤ r.start) ∧ (r.stop ≠ 0 → r.stop ≤ (updateTime r).stop) ∧
    ((updateTime r).start = r.start ∨ ∃ p ∈ r.channels, p.2.start ≠ 0 ∧ (updateTime r).start = p.2.start) ∧
    ((updateTime r).stop = r.stop ∨ ∃ p ∈ r.channels, p.2.stop ≠ 0 ∧ (updateTime r).stop = p.2.stop) := by
  have s1 := newStart_spec r.start (((OD.values r.channels).map Chan.start).filter (· ≠ 0))
  have s2 := newStop_spec r.stop (((OD.values r.channels).map Chan.stop).filter (· ≠ 0))
  refine ⟨?_, ?_, s1.2.1, s2.2.1, ?_, ?_⟩
  · intro p hp h0
    apply s1.1
    simp only [List.mem_filter, List.mem_map, OD.values, decide_eq_true_eq]
    exact ⟨⟨p.2, ⟨p, hp, rfl⟩, rfl⟩, h0⟩
  · intro p hp h0
    apply s2.1
    simp only [List.mem_filter, List.mem_map, OD.values, decide_eq_true_eq]
    exact ⟨⟨p.2, ⟨p, hp, rfl⟩, rfl⟩, h0⟩
  · rcases s1.2.2.1 with h | h
    · exact Or.inl h
    · simp only [List.mem_filter, List.mem_map, OD.values, decide_eq_true_eq] at h
      obtain ⟨⟨ch, ⟨p, hp, rfl⟩, e⟩, h0⟩ := h
      exact Or.inr ⟨p, hp, by rw [e]; exact h0, e.symm⟩
  · rcases s2.2.2.1 with h | h
    · exact Or.inl h
    · simp only [List.mem_filter, List.mem_map, OD.values, decide_eq_true_eq] at h
      obtain ⟨⟨ch, ⟨p, hp, rfl⟩, e⟩, h0⟩ := h
      exact Or.inr ⟨p, hp, by rw [e]; exact h0, e.symm⟩

/-- C33: `add_channel` with update leaves a period that covers every channel of the run, the new one
included, and the former period; without update the period stays. -/
theorem C33_add_channel (req : List String) (r r' : Run) (ch : Chan) (upd : Bool) (h : Reachable req r)
    (he : addChannel req r ch upd = .ok r') :
    (upd = true → (∀ p ∈ r'.channels, p.2.start ≠ 0 → r'.start ≤ p.2.start) ∧
      (∀ p ∈ r'.channels, p.2.stop ≠ 0 → p.2.stop ≤ r'.stop) ∧
      (r.start ≠ 0 → r'.start ≤ r.start) ∧ (r.stop ≠ 0 → r.stop ≤ r'.stop)) ∧
    (upd = false → r'.start = r.start ∧ r'.stop = r.stop) := by
  obtain ⟨hi, _⟩ := reachable_inv h
  have h1 := inv_set hi (merged req (OD.get? r.channels ch.comp) ch) ch.comp (merged_comp hi req ch)
  unfold addChannel at he
  rw [putChannel_of_inv hi] at he
  simp only at he
  rw [updateRecorded_of_inv h1] at he
  simp only [Except.ok.injEq] at he
  subst he
  constructor
  · rintro rfl
    rw [if_pos rfl]
    generalize hg : ({ channels := _, elec := _, mag := _, aux := _, start := _, stop := _ } : Run) = g
    have h1 : r.start = g.start := by rw [← hg]
    have h2 : r.stop = g.stop := by rw [← hg]
    rw [h1, h2]
    have hc := C33_covers g
    exact ⟨hc.1, hc.2.1, hc.2.2.1, hc.2.2.2.1⟩
  · rintro rfl
    exact ⟨rfl, rfl⟩

/-- C33: a default start (end) is replaced as soon as a channel has one. -/
theorem C33_default_replaced (r : Run) (p : String × Chan) (hp : p ∈ r.channels) :
    (p.2.start ≠ 0 → (updateTime r).start ≠ 0) ∧ (p.2.stop ≠ 0 → (updateTime r).stop ≠ 0) := by
  have s1 := newStart_spec r.start (((OD.values r.channels).map Chan.start).filter (· ≠ 0))
  have s2 := newStop_spec r.stop (((OD.values r.channels).map Chan.stop).filter (· ≠ 0))
  constructor
  · intro h0
    have hm : p.2.start ∈ ((OD.values r.channels).map Chan.start).filter (· ≠ 0) := by
      simp only [List.mem_filter, List.mem_map, OD.values, decide_eq_true_eq]
      exact ⟨⟨p.2, ⟨p, hp, rfl⟩, rfl⟩, h0⟩
    show newStart _ _ ≠ 0
    by_cases hr : r.start = 0
    · have := s1.2.2.2 hr (List.ne_nil_of_mem hm)
      simp only [List.mem_filter, decide_eq_true_eq] at this
      exact this.2
    · rcases s1.2.2.1 with h | h
      · rw [h]; exact hr
      · simp only [List.mem_filter, decide_eq_true_eq] at h
        exact h.2
  · intro h0
    have hm : p.2.stop ∈ ((OD.values r.channels).map Chan.stop).filter (· ≠ 0) := by
      simp only [List.mem_filter, List.mem_map, OD.values, decide_eq_true_eq]
      exact ⟨⟨p.2, ⟨p, hp, rfl⟩, rfl⟩, h0⟩
    show newStop _ _ ≠ 0
    by_cases hr : r.stop = 0
    · have := s2.2.2.2 hr (List.ne_nil_of_mem hm)
      simp only [List.mem_filter, decide_eq_true_eq] at this
      exact this.2
    · rcases s2.2.2.1 with h | h
      · rw [h]; exact hr
      · simp only [List.mem_filter, decide_eq_true_eq] at h
        exact h.2

/-- C33: the call is idempotent. -/
theorem C33_idempotent (r : Run) : updateTime (updateTime r) = updateTime r := by
  unfold updateTime
  simp only
  rw [newStart_idem _ _ (by simp), newStop_idem _ _ (by simp)]

example : (updateTime { channels := [("hy", exHy), ("ex", exEx)], start := 7 }).start = 5 ∧
    (updateTime { channels := [("hy", exHy), ("ex", exEx)], start := 7 }).stop = 20 := by decide +kernel

/-! ### C34 -/

/-- C34 as documented: `merge(other, inplace=False)` leaves the receiver unchanged. -/
def C34_claim : Prop :=
  ∀ (req : List String) (r o r' : Run) (ret : Option Run), Reachable req r → Reachable req o →
    merge r o false = .ok (r', ret) → r' = r

/-- C34 is false: the receiver is modified. -/
theorem C34_refuted : ¬ C34_claim := by
  intro h
  have := h [] {} exRun { exRun with start := 0, stop := 0 } (some { exRun with start := 0, stop := 0 })
    (Reachable.new 0 0) exRun_reachable (by decide +kernel)
  exact absurd this (by decide +kernel)

/-- C34, what does hold: merge keeps every channel of both runs under its name, the other's on a
clash, in place or not; what `inplace=False` returns is the (modified) receiver. -/
theorem C34_merge_partial (req : List String) (r o : Run) (hr : Reachable req r)
    (ho : Reachable req o) (inplace : Bool) :
    ∃ r' ret, merge r o inplace = .ok (r', ret) ∧
      (∀ c, OD.get? r'.channels c = (OD.get? o.channels c).or (OD.get? r.channels c)) ∧
      (inplace = false → ret = some r') := by
  obtain ⟨hi, _⟩ := reachable_inv hr
  obtain ⟨hio, _⟩ := reachable_inv ho
  obtain ⟨r', ret, e, _, _, hc, hret⟩ := merge_of_inv hi hio inplace
  refine ⟨r', ret, e, ?_, hret⟩
  intro c
  rw [hc]
  have : ∀ (l d : OD String Chan), OD.WF l →
      OD.get? (l.foldl (fun (acc : OD String Chan) q => OD.set acc q.1 q.2) d) c =
        (OD.get? l c).or (OD.get? d c) := by
    intro l
    induction l with
    | nil => intro d _; simp [OD.get?]
    | cons p l ih =>
      intro d wf
      have hk : p.1 ∉ OD.keys l := (List.nodup_cons.1 wf).1
      rw [List.foldl_cons, ih _ (List.nodup_cons.1 wf).2, OD.get?_cons, OD.get?_set]
      by_cases e : p.1 = c
      · subst e; simp [(OD.get?_eq_none_iff l p.1).2 hk]
      · simp [e]
  exact this _ _ hio.wf

end Verif.Runs
