import Verif.Model.EmtfNotes
import Verif.Lemmas.OD
import Verif.Lemmas.Text
import Verif.Lemmas.Words

/-! # C323 – C326: comments about electrodes and magnetometers -/

namespace Verif.EmtfNotes
open Verif.Text

/-! ## The keys -/

/-- The key of a comment about an attribute of an electrode. -/
def eKey (comp f : Str) : Str := "fieldnotes.electrode_".toList ++ comp ++ '.' :: f

/-- The key of a comment about an attribute of a magnetometer. -/
def mKey (comp f : Str) : Str := "fieldnotes.magnetometer_".toList ++ comp ++ '.' :: f

/-- A name without dots and underscores. -/
def Plain (s : Str) : Prop := '.' ∉ s ∧ '_' ∉ s

theorem keyOf_eq (pre w dflt comp f : Str) (hw : w ++ ['_'] = pre) (hc : Plain comp) (hf : Plain f) :
    keyOf pre dflt ("fieldnotes.".toList ++ pre ++ comp ++ '.' :: f) = .ok (comp, f) := by
  have h1 : (split1 '.' ("fieldnotes.".toList ++ pre ++ comp ++ '.' :: f)).2 = some (pre ++ (comp ++ '.' :: f)) := by
    have : "fieldnotes.".toList ++ pre ++ comp ++ '.' :: f = "fieldnotes.".toList ++ (pre ++ (comp ++ '.' :: f)) := by
      simp only [List.append_assoc]
    rw [this]
    rfl
  have hn : ¬ pre <:+: comp ++ '.' :: f := by
    rintro ⟨a, b, hab⟩
    have hm : '_' ∈ comp ++ '.' :: f := by
      rw [← hab, ← hw]
      simp
    rcases List.mem_append.1 hm with h | h
    · exact hc.2 h
    · rcases List.mem_cons.1 h with h | h
      · exact absurd h (by decide)
      · exact hf.2 h
  have hne : pre ≠ [] := by rw [← hw]; simp
  have h2 : replaceSub pre [] (pre ++ (comp ++ '.' :: f)) = comp ++ '.' :: f := by
    unfold replaceSub
    rw [splitSub_start _ hne, splitSub_none hn]
    rfl
  have h3 : splitC '.' (comp ++ '.' :: f) = [comp, f] := by
    rw [splitC_append _ hc.1, splitC_none hf.1]
  unfold keyOf
  simp only [h1, h2, h3]

theorem keyOf_e (comp f : Str) (hc : Plain comp) (hf : Plain f) :
    keyOf "electrode_".toList "ex".toList (eKey comp f) = .ok (comp, f) :=
  keyOf_eq _ "electrode".toList _ comp f rfl hc hf

theorem keyOf_m (comp f : Str) (hc : Plain comp) (hf : Plain f) :
    keyOf "magnetometer_".toList "hx".toList (mKey comp f) = .ok (comp, f) :=
  keyOf_eq _ "magnetometer".toList _ comp f rfl hc hf

/-! ## Finding an instrument -/

theorem indexOf_none {a : Option Str} {l : List (Option Str)} (h : a ∉ l) : indexOf a l = none := by
  induction l with
  | nil => rfl
  | cons x l ih =>
    have hx : x ≠ a := fun e => h (e ▸ List.mem_cons_self)
    rw [indexOf, if_neg hx, ih (fun hm => h (List.mem_cons_of_mem _ hm))]
    rfl

theorem indexOf_first {a : Option Str} {l r : List (Option Str)} (h : a ∉ l) : indexOf a (l ++ a :: r) = some l.length := by
  induction l with
  | nil => simp [indexOf]
  | cons x l ih =>
    have hx : x ≠ a := fun e => h (e ▸ List.mem_cons_self)
    rw [List.cons_append, indexOf, if_neg hx, ih (fun hm => h (List.mem_cons_of_mem _ hm))]
    rfl

theorem setAt_mid (l r : List Fields) (t : Fields) (k v : Str) :
    setAt (l ++ t :: r) l.length k v = l ++ OD.set t k v :: r := by
  unfold setAt
  induction l with
  | nil => rfl
  | cons x l ih => simp only [List.cons_append, List.length_cons, List.modify_succ_cons, ih]

/-- No instrument has the name, in whatever case. -/
def Unknown (comp : Str) (l : List Fields) : Prop := ∀ t ∈ l, ∀ n, nameOf t = some n → lower n ≠ lower comp

/-- All instruments have names. -/
def AllNamed (l : List Fields) : Prop := ∀ t ∈ l, nameOf t ≠ none

theorem not_mem_names {comp : Str} {l : List Fields} (h : Unknown comp l) : some (lower comp) ∉ names l := by
  intro hm
  obtain ⟨t, ht, e⟩ := List.mem_map.1 hm
  cases hn : nameOf t with
  | none => rw [hn] at e; cases e
  | some n => rw [hn] at e; injection e with e; exact h t ht n hn e

theorem none_not_mem {l : List Fields} (h : AllNamed l) : none ∉ names l := by
  intro hm
  obtain ⟨t, ht, e⟩ := List.mem_map.1 hm
  cases hn : nameOf t with
  | none => exact h t ht hn
  | some n => rw [hn] at e; cases e

theorem locate_known {comp n : Str} {l r : List Fields} {t : Fields} (hlow : lower comp = comp) (hl : Unknown comp l)
    (ht : nameOf t = some n) (hn : lower n = comp) : locate (names (l ++ t :: r)) comp = .ok (some l.length) := by
  have e : names (l ++ t :: r) = names l ++ some comp :: names r := by
    unfold names; rw [List.map_append, List.map_cons, ht, ← hn]; rfl
  have hl' : some comp ∉ names l := by
    have := not_mem_names hl
    rwa [hlow] at this
  unfold locate
  rw [e, hlow, if_pos (List.mem_append_right _ List.mem_cons_self), indexOf_first hl']
  simp [names]

theorem locate_case {comp : Str} {l : List Fields} (hlow : lower comp ≠ comp) (h : ¬ Unknown comp l) :
    locate (names l) comp = .error .valueError := by
  have hm : some (lower comp) ∈ names l := by
    simp only [Unknown, not_forall, Classical.not_not] at h
    obtain ⟨t, ht, n, hn, e⟩ := h
    exact List.mem_map.2 ⟨t, ht, by rw [hn, Option.map_some, e]⟩
  have hno : some comp ∉ names l := by
    intro hm
    obtain ⟨t, ht, e⟩ := List.mem_map.1 hm
    cases hn : nameOf t with
    | none => rw [hn] at e; cases e
    | some n =>
      rw [hn] at e; injection e with e
      exact hlow (by rw [← e, lower_lower])
  unfold locate
  rw [if_pos hm, indexOf_none hno]

theorem locate_unknown {comp : Str} {l : List Fields} (h : Unknown comp l) (hn : AllNamed l) :
    locate (names l) comp = .ok none := by
  unfold locate
  rw [if_neg (not_mem_names h), indexOf_none (none_not_mem hn)]

theorem locate_unnamed {comp : Str} {l r : List Fields} {t : Fields} (h : Unknown comp (l ++ t :: r)) (hl : AllNamed l)
    (ht : nameOf t = none) : locate (names (l ++ t :: r)) comp = .ok (some l.length) := by
  unfold locate
  rw [if_neg (not_mem_names h)]
  have e : names (l ++ t :: r) = names l ++ none :: names r := by
    unfold names; rw [List.map_append, List.map_cons, ht]; rfl
  rw [e, indexOf_first (none_not_mem hl)]
  simp [names]

/-- What comments about electrodes may tell, and the attribute of a dipole it is. -/
def ETells (f k : Str) : Prop :=
  (f, k) ∈ [("chtype".toList, "name".toList), ("manufacturer".toList, "manufacturer".toList), ("azm".toList, "azimuth".toList)]

/-- What comments about magnetometers may tell, and the attribute of a magnetometer it is. -/
def MTells (f k : Str) : Prop :=
  (f, k) ∈ [("chtype".toList, "name".toList), ("manufacturer".toList, "manufacturer".toList), ("azm".toList, "azimuth".toList),
    ("type".toList, "type".toList), ("acqchan".toList, "id".toList)]

theorem eTells {f k : Str} (h : ETells f k) : eAttr f = some k ∧ Plain f := by
  simp only [ETells, List.mem_cons, List.not_mem_nil, or_false, Prod.mk.injEq] at h
  rcases h with ⟨rfl, rfl⟩ | ⟨rfl, rfl⟩ | ⟨rfl, rfl⟩ <;> exact ⟨by decide, by unfold Plain; decide⟩

theorem mTells {f k : Str} (h : MTells f k) : mAttr f = some k ∧ Plain f := by
  simp only [MTells, List.mem_cons, List.not_mem_nil, or_false, Prod.mk.injEq] at h
  rcases h with ⟨rfl, rfl⟩ | ⟨rfl, rfl⟩ | ⟨rfl, rfl⟩ | ⟨rfl, rfl⟩ | ⟨rfl, rfl⟩ <;> exact ⟨by decide, by unfold Plain; decide⟩

theorem electric_attr (w : World) (st : St) (comp f k v : Str) (hc : Plain comp) (hk : ETells f k) :
    electric w st (eKey comp f) v = setDipole w st comp k v := by
  unfold electric
  rw [keyOf_e comp f hc (eTells hk).2]
  simp only [Except.bind, (eTells hk).1]

theorem magnetic_attr (w : World) (st : St) (comp f k v : Str) (hc : Plain comp) (hk : MTells f k) :
    magnetic w st (mKey comp f) v = setMag st comp k v := by
  unfold magnetic
  rw [keyOf_m comp f hc (mTells hk).2]
  simp only [Except.bind, (mTells hk).1]

/-! ## C323: dipoles -/

/-- The dipole has the value of the attribute, or it may not: azimuths are numbers. -/
def Fits (w : World) (k v : Str) : Prop := k = "azimuth".toList → w v = true

theorem checkDipole_ok {w : World} {k v : Str} (h : Fits w k v) : checkDipole w k v = .ok () := by
  unfold checkDipole
  rw [if_neg]
  rintro ⟨h1, h2⟩
  rw [h h1] at h2
  cases h2

/-- The claim: a comment about the manufacturer or azimuth of an electrode is found at the dipole of that name. -/
def C323_claim : Prop :=
  ∀ (w : World) (st st' : St) (comp f k v : Str), Plain comp → ETells f k → f ≠ "chtype".toList →
    electric w st (eKey comp f) v = .ok st' →
    ∃ t ∈ st'.dipoles, nameOf t = some comp ∧ OD.get? t k = some v

/-- Field notes with a dipole called ex and nothing else. -/
def exSt : St := ⟨[[("name".toList, "ex".toList)]], [], [[("name".toList, "hx".toList)]], [[("name".toList, "ex".toList)]]⟩

/-- The claim is false: with a dipole ex only, the manufacturer of ey is given to ex. -/
theorem C323_refuted : ¬ C323_claim := by
  intro h
  obtain ⟨t, ht, hn, -⟩ := h (fun _ => true) exSt
    ⟨[[("name".toList, "ex".toList), ("manufacturer".toList, "Acme".toList)]], [[("name".toList, "ey".toList)]],
      [[("name".toList, "hx".toList)]], [[("name".toList, "ex".toList)]]⟩
    "ey".toList "manufacturer".toList "manufacturer".toList "Acme".toList
    (by unfold Plain; decide) (by unfold ETells; decide) (by decide) (by decide +kernel)
  simp only [List.mem_singleton] at ht
  subst ht
  revert hn
  decide

/-- A dipole of the name, given in lower case, is found, and only it is changed. -/
theorem C323_known_partial (w : World) (st : St) (comp f k v n : Str) (l r : List Fields) (t : Fields)
    (hc : Plain comp) (hk : ETells f k) (hv : Fits w k v)
    (hlow : lower comp = comp) (hd : st.dipoles = l ++ t :: r) (hl : Unknown comp l) (ht : nameOf t = some n)
    (hn : lower n = comp) :
    electric w st (eKey comp f) v = .ok { st with dipoles := l ++ OD.set t k v :: r } := by
  rw [electric_attr w st comp f k v hc hk]
  unfold setDipole
  rw [hd, locate_known hlow hl ht hn]
  simp only [Except.bind, checkDipole_ok hv, setAt_mid]

/-- A name with capitals that is there raises ValueError. -/
theorem C323_case_partial (w : World) (st : St) (comp f k v : Str) (hc : Plain comp) (hk : ETells f k)
    (hlow : lower comp ≠ comp) (hd : ¬ Unknown comp st.dipoles) : electric w st (eKey comp f) v = .error .valueError := by
  rw [electric_attr w st comp f k v hc hk]
  unfold setDipole
  rw [locate_case hlow hd]
  rfl

/-- A dipole that is not there: the first one without a name is changed if there is one; if not, the last dipole is changed
and a magnetometer of the name appears; without dipoles it raises IndexError. -/
theorem C323_unknown_partial (w : World) (st : St) (comp f k v : Str) (hc : Plain comp)
    (hk : ETells f k) (hv : Fits w k v) (hu : Unknown comp st.dipoles) :
    (∀ l t r, st.dipoles = l ++ t :: r → AllNamed l → nameOf t = none →
      electric w st (eKey comp f) v = .ok { st with dipoles := l ++ OD.set t k v :: r }) ∧
    (AllNamed st.dipoles → ∀ l t, st.dipoles = l ++ [t] →
      electric w st (eKey comp f) v = .ok { st with dipoles := l ++ [OD.set t k v]
                                                    mags := st.mags ++ [[("name".toList, comp)]] }) ∧
    (st.dipoles = [] → electric w st (eKey comp f) v = .error .indexError) := by
  rw [electric_attr w st comp f k v hc hk]
  refine ⟨fun l t r hd hl ht => ?_, fun ha l t hd => ?_, fun hd => ?_⟩
  · unfold setDipole
    rw [hd, locate_unnamed (hd ▸ hu) hl ht]
    simp only [Except.bind, checkDipole_ok hv, setAt_mid]
  · unfold setDipole
    rw [locate_unknown hu ha, hd]
    have hlen : (l ++ [t]).length - 1 = l.length := by simp
    simp only [Except.bind, checkDipole_ok hv, hlen, setAt_mid]
    rw [if_neg (by simp)]
  · unfold setDipole
    rw [hd]
    simp [names, locate, indexOf, Except.bind]

/-! ## C324: magnetometers -/

/-- The claim: a comment about an attribute of a magnetometer (other than its name) is found at the magnetometer of that name. -/
def C324_claim : Prop :=
  ∀ (w : World) (st st' : St) (comp f k v : Str), Plain comp → MTells f k → f ≠ "chtype".toList →
    magnetic w st (mKey comp f) v = .ok st' →
    ∃ t ∈ st'.mags, nameOf t = some comp ∧ OD.get? t k = some v

/-- The claim is false: a magnetometer without a name is taken for any one, and gets no name. -/
theorem C324_refuted : ¬ C324_claim := by
  intro h
  obtain ⟨t, ht, hn, -⟩ := h (fun _ => true) ⟨[], [[]], [], []⟩
    ⟨[], [[("type".toList, "coil".toList)]], [], []⟩
    "hy".toList "type".toList "type".toList "coil".toList
    (by unfold Plain; decide) (by unfold MTells; decide) (by decide) (by decide +kernel)
  simp only [List.mem_singleton] at ht
  subst ht
  revert hn
  decide

/-- A magnetometer of the name, given in lower case, is found, and only it is changed; a new one is made if there is none
of the name and none without a name. -/
theorem C324_known_partial (w : World) (st : St) (comp f k v : Str) (hc : Plain comp)
    (hk : MTells f k) :
    (∀ n l t r, lower comp = comp → st.mags = l ++ t :: r → Unknown comp l → nameOf t = some n → lower n = comp →
      magnetic w st (mKey comp f) v = .ok { st with mags := l ++ OD.set t k v :: r }) ∧
    (Unknown comp st.mags → AllNamed st.mags →
      magnetic w st (mKey comp f) v = .ok { st with mags := st.mags ++ [OD.set [("name".toList, comp)] k v] }) := by
  rw [magnetic_attr w st comp f k v hc hk]
  refine ⟨fun n l t r hlow hd hl ht hn => ?_, fun hu ha => ?_⟩
  · unfold setMag
    rw [hd, locate_known hlow hl ht hn]
    simp only [Except.bind, setAt_mid]
  · unfold setMag
    rw [locate_unknown hu ha]
    simp only [Except.bind, setAt_mid]

/-- A name with capitals that is there raises ValueError, and the first magnetometer without a name is taken for one that is
not there. -/
theorem C324_other_partial (w : World) (st : St) (comp f k v : Str) (hc : Plain comp)
    (hk : MTells f k) :
    (lower comp ≠ comp → ¬ Unknown comp st.mags → magnetic w st (mKey comp f) v = .error .valueError) ∧
    (∀ l t r, Unknown comp st.mags → st.mags = l ++ t :: r → AllNamed l → nameOf t = none →
      magnetic w st (mKey comp f) v = .ok { st with mags := l ++ OD.set t k v :: r }) := by
  rw [magnetic_attr w st comp f k v hc hk]
  refine ⟨fun hlow hd => ?_, fun l t r hu hd hl ht => ?_⟩
  · unfold setMag
    rw [locate_case hlow hd]
    rfl
  · unfold setMag
    rw [hd, locate_unnamed (hd ▸ hu) hl ht]
    simp only [Except.bind, setAt_mid]

/-! ## C325: places of magnetometers -/

/-- The names of coordinates. -/
def Coord (f : Str) : Prop := f = "x".toList ∨ f = "y".toList ∨ f = "z".toList

theorem magnetic_place (w : World) (st : St) (comp f v : Str) (hc : Plain comp) (hf : Coord f) :
    magnetic w st (mKey comp f) v = setMagPlace w st comp f v := by
  unfold magnetic
  have hp : Plain f := by
    rcases hf with h | h | h <;> subst h <;> (unfold Plain; decide)
  rw [keyOf_m comp f hc hp]
  rcases hf with h | h | h <;> subst h <;> rfl

/-- The claim: the coordinate of a magnetometer given in a comment is that of the channel of that name. -/
def C325_claim : Prop :=
  ∀ (w : World) (st st' : St) (comp f v : Str), comp ∈ ["hx", "hy", "hz"].map String.toList → Coord f →
    magnetic w st (mKey comp f) v = .ok st' →
    ∃ t ∈ st'.inputs ++ st'.outputs, nameOf t = some comp ∧ OD.get? t f = some v

/-- The claim is false: the x of hx is given to the first output channel, ex. -/
theorem C325_refuted : ¬ C325_claim := by
  intro h
  obtain ⟨t, ht, hn, hx⟩ := h (fun _ => true) exSt
    ⟨[[("name".toList, "ex".toList)]], [], [[("name".toList, "hx".toList)]],
      [[("name".toList, "ex".toList), ("x".toList, "5.0".toList)]]⟩
    "hx".toList "x".toList "5.0".toList (by decide) (Or.inl rfl) (by decide +kernel)
  simp only [List.cons_append, List.nil_append, List.mem_cons, List.not_mem_nil, or_false] at ht
  rcases ht with rfl | rfl
  · revert hx; decide
  · revert hn; decide

theorem setPlace_found (w : World) (l r : List Fields) (t : Fields) (comp k v : Str) (hw : w v = true)
    (hl : ∀ u ∈ l, nameOf u ≠ some comp) (ht : nameOf t = some comp) :
    setPlace w (l ++ t :: r) comp k v = .ok (l ++ OD.set t k v :: r) := by
  have hno : some comp ∉ l.map nameOf := by
    intro hm
    obtain ⟨u, hu, e⟩ := List.mem_map.1 hm
    exact hl u hu e
  unfold setPlace
  rw [if_neg (by simp), hw, if_neg (by simp), List.map_append, List.map_cons, ht, indexOf_first hno]
  simp only [Option.getD_some, List.length_map, setAt_mid]

theorem setPlace_first (w : World) (r : List Fields) (t : Fields) (comp k v : Str) (hw : w v = true)
    (hl : ∀ u ∈ t :: r, nameOf u ≠ some comp) :
    setPlace w (t :: r) comp k v = .ok (OD.set t k v :: r) := by
  have hno : some comp ∉ (t :: r).map nameOf := by
    intro hm
    obtain ⟨u, hu, e⟩ := List.mem_map.1 hm
    exact hl u hu e
  unfold setPlace
  rw [if_neg (by simp), hw, if_neg (by simp), indexOf_none hno]
  rfl

/-- Exactly what happens: an output channel of that name is given the coordinate, if there is none the first output channel;
without output channels hx and hy raise IndexError, hz is made; input channels never change. -/
theorem C325_outputs_partial (w : World) (st : St) (comp f v : Str) (hcomp : comp ∈ ["hx", "hy", "hz"].map String.toList)
    (hf : Coord f) (hw : w v = true) :
    (∀ l t r, st.outputs = l ++ t :: r → (∀ u ∈ l, nameOf u ≠ some comp) → nameOf t = some comp →
      magnetic w st (mKey comp f) v = .ok { st with outputs := l ++ OD.set t f v :: r }) ∧
    (∀ t r, st.outputs = t :: r → (∀ u ∈ t :: r, nameOf u ≠ some comp) →
      magnetic w st (mKey comp f) v = .ok { st with outputs := OD.set t f v :: r }) ∧
    (st.outputs = [] → comp ≠ "hz".toList → magnetic w st (mKey comp f) v = .error .indexError) ∧
    (st.outputs = [] → comp = "hz".toList →
      magnetic w st (mKey comp f) v = .ok { st with outputs := [OD.set [("name".toList, comp)] f v] }) := by
  have hc : Plain comp := by
    simp only [List.map_cons, List.map_nil, List.mem_cons, List.not_mem_nil, or_false] at hcomp
    rcases hcomp with h | h | h <;> subst h <;> (unfold Plain; decide)
  rw [magnetic_place w st comp f v hc hf]
  have two : (comp = "hx".toList ∨ comp = "hy".toList) ∨
      (¬ (comp = "hx".toList ∨ comp = "hy".toList) ∧ comp = "hz".toList) := by
    simp only [List.map_cons, List.map_nil, List.mem_cons, List.not_mem_nil, or_false] at hcomp
    rcases hcomp with h | h | h
    · exact .inl (.inl h)
    · exact .inl (.inr h)
    · exact .inr ⟨by rw [h]; decide, h⟩
  refine ⟨fun l t r ho hl ht => ?_, fun t r ho hl => ?_, fun ho hz => ?_, fun ho hz => ?_⟩
  · have hne : st.outputs ≠ [] := by rw [ho]; simp
    unfold setMagPlace
    rcases two with h | ⟨h, h'⟩
    · rw [if_pos h, if_neg hne, ho, setPlace_found w l r t comp f v hw hl ht]; rfl
    · rw [if_neg h, if_pos h', if_neg hne, ho, setPlace_found w l r t comp f v hw hl ht]; rfl
  · have hne : st.outputs ≠ [] := by rw [ho]; simp
    unfold setMagPlace
    rcases two with h | ⟨h, h'⟩
    · rw [if_pos h, if_neg hne, ho, setPlace_first w r t comp f v hw hl]; rfl
    · rw [if_neg h, if_pos h', if_neg hne, ho, setPlace_first w r t comp f v hw hl]; rfl
  · unfold setMagPlace
    rcases two with h | ⟨h, h'⟩
    · rw [if_pos h, ho]; rfl
    · exact absurd h' hz
  · unfold setMagPlace
    rcases two with h | ⟨h, h'⟩
    · exfalso
      rw [hz] at h
      revert h; decide
    · rw [if_neg h, if_pos h', ho, if_pos rfl]
      have := setPlace_found w [] [] (channel comp) comp f v hw (fun u hu => (by cases hu)) rfl
      simp only [List.nil_append] at this
      rw [this]
      rfl

/-! ## C326: places of electrodes -/

/-- The names of coordinates of electrodes. -/
def ECoord (f : Str) : Prop := f ∈ ["x", "x2", "y", "y2", "z", "z2"].map String.toList

theorem electric_place (w : World) (st : St) (comp f v : Str) (hc : Plain comp) (hf : ECoord f) :
    electric w st (eKey comp f) v = setElectrode w st comp f v := by
  unfold electric
  have hf' := hf
  simp only [ECoord, List.map_cons, List.map_nil, List.mem_cons, List.not_mem_nil, or_false] at hf'
  have hp : Plain f := by
    rcases hf' with h | h | h | h | h | h <;> subst h <;> (unfold Plain; decide)
  have ha : eAttr f = none := by
    rcases hf' with h | h | h | h | h | h <;> subst h <;> decide
  rw [keyOf_e comp f hc hp]
  simp only [Except.bind, ha]
  exact if_pos hf

/-- The claim: the coordinate of an electrode given in a comment is that of the channel of that name. -/
def C326_claim : Prop :=
  ∀ (w : World) (st st' : St) (comp f v : Str), Plain comp → ECoord f →
    electric w st (eKey comp f) v = .ok st' →
    ∃ t ∈ st'.outputs, nameOf t = some comp ∧ OD.get? t f = some v

/-- The claim is false: with ex the only channel, coordinates of ey are given to it. -/
theorem C326_refuted : ¬ C326_claim := by
  intro h
  obtain ⟨t, ht, hn, -⟩ := h (fun _ => true) exSt
    ⟨[[("name".toList, "ex".toList)]], [], [[("name".toList, "hx".toList)]],
      [[("name".toList, "ex".toList), ("y2".toList, "50".toList)]]⟩
    "ey".toList "y2".toList "50".toList (by unfold Plain; decide) (by unfold ECoord; decide) (by decide +kernel)
  simp only [List.mem_singleton] at ht
  subst ht
  revert hn
  decide

/-- Exactly what happens: the first channel of the name is given the coordinate, and only it; the first channel if none has
the name; without channels one of the name is made; a value that is no number raises ValueError. -/
theorem C326_channel_partial (w : World) (st : St) (comp f v : Str) (hc : Plain comp) (hf : ECoord f) :
    (w v = false → electric w st (eKey comp f) v = .error .valueError) ∧
    (w v = true →
      (∀ l t r, st.outputs = l ++ t :: r → (∀ u ∈ l, nameOf u ≠ some comp) → nameOf t = some comp →
        electric w st (eKey comp f) v = .ok { st with outputs := l ++ OD.set t f v :: r }) ∧
      (∀ t r, st.outputs = t :: r → (∀ u ∈ t :: r, nameOf u ≠ some comp) →
        electric w st (eKey comp f) v = .ok { st with outputs := OD.set t f v :: r }) ∧
      (st.outputs = [] →
        electric w st (eKey comp f) v = .ok { st with outputs := [OD.set [("name".toList, comp)] f v] })) := by
  rw [electric_place w st comp f v hc hf]
  refine ⟨fun hw => ?_, fun hw => ⟨fun l t r ho hl ht => ?_, fun t r ho hl => ?_, fun ho => ?_⟩⟩
  · unfold setElectrode setPlace
    have hne : (if st.outputs = [] then [channel comp] else st.outputs) ≠ [] := by
      split
      · simp
      · assumption
    rw [if_neg hne, if_pos hw]
    rfl
  · have hne : st.outputs ≠ [] := by rw [ho]; simp
    unfold setElectrode
    rw [if_neg hne, ho, setPlace_found w l r t comp f v hw hl ht]; rfl
  · have hne : st.outputs ≠ [] := by rw [ho]; simp
    unfold setElectrode
    rw [if_neg hne, ho, setPlace_first w r t comp f v hw hl]; rfl
  · unfold setElectrode
    rw [if_pos ho]
    have := setPlace_found w [] [] (channel comp) comp f v hw (fun u hu => (by cases hu)) rfl
    simp only [List.nil_append] at this
    rw [this]
    rfl

/-! ## The hypotheses are met -/

example : Plain "ex".toList ∧ ETells "azm".toList "azimuth".toList ∧ MTells "acqchan".toList "id".toList ∧
    lower "ex".toList = "ex".toList ∧ Coord "x".toList ∧ ECoord "x2".toList := by
  refine ⟨by unfold Plain; decide, by unfold ETells; decide, by unfold MTells; decide, by decide, .inl rfl, by unfold ECoord; decide⟩

example : Unknown "ey".toList exSt.dipoles ∧ AllNamed exSt.dipoles := by
  constructor
  · intro t ht n hn
    simp only [exSt, List.mem_singleton] at ht
    subst ht
    have : n = "ex".toList := by injection hn with hn; exact hn.symm
    subst this
    decide
  · intro t ht
    simp only [exSt, List.mem_singleton] at ht
    subst ht
    decide

example : electric (fun _ => true) exSt (eKey "ex".toList "azm".toList) "12".toList =
    .ok { exSt with dipoles := [[("name".toList, "ex".toList), ("azimuth".toList, "12".toList)]] } := by decide +kernel

end Verif.EmtfNotes
