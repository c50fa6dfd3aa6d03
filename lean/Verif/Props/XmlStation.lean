import Verif.Model.XmlStation
import Mathlib.Data.List.Forall2
import Verif.Lemmas.Run
import Verif.Lemmas.Text
import Verif.Lemmas.Words
import Verif.Props.XmlText

/-! # C282 – C284: stations in StationXML -/

namespace Verif.XmlStation
open Verif.Text Verif.XmlText

variable {F ρ : Type}

/-! ## Periods -/

theorem newStart_sub {a b : List Int} (own : Int) (h : ∀ x ∈ a, x ∈ b) (h0 : (0 : Int) ∉ b) :
    Runs.newStart (Runs.newStart own a) b = Runs.newStart own b := by
  by_cases ha : a = []
  · subst ha; rfl
  have hb : b ≠ [] := by
    intro hb; subst hb
    cases a with
    | nil => exact ha rfl
    | cons x a => exact absurd (h x List.mem_cons_self) (by simp)
  obtain ⟨n1, n2, n3, n4⟩ := Runs.newStart_spec own a
  obtain ⟨l1, l2, l3, l4⟩ := Runs.newStart_spec (Runs.newStart own a) b
  obtain ⟨r1, r2, r3, r4⟩ := Runs.newStart_spec own b
  have nz : ∀ x ∈ b, x ≠ 0 := fun x hx e => h0 (e ▸ hx)
  generalize Runs.newStart own a = n at *
  generalize Runs.newStart n b = L at *
  generalize Runs.newStart own b = R at *
  by_cases ho : own = 0
  · have hn := h n (n4 ho ha)
    have hL : L ∈ b := by rcases l3 with e | e; (· exact e ▸ hn); exact e
    have := l1 R (r4 ho hb)
    have := r1 L hL
    omega
  · have hn : n ≠ 0 := by rcases n3 with e | e; (· omega); exact nz n (h n e)
    have e1 := l2 hn
    have e2 := n2 ho
    have e3 := r2 ho
    have e4 : L = own ∨ L ∈ b := by
      rcases l3 with e | e
      · rcases n3 with f | f
        · exact Or.inl (e.trans f)
        · exact Or.inr (e ▸ h n f)
      · exact Or.inr e
    rcases r3 with e | e
    · rcases e4 with f | f
      · omega
      · have := r1 L f; omega
    · have := l1 R e
      rcases e4 with f | f
      · omega
      · have := r1 L f; omega

theorem newStop_sub {a b : List Int} (own : Int) (h : ∀ x ∈ a, x ∈ b) (h0 : (0 : Int) ∉ b) :
    Runs.newStop (Runs.newStop own a) b = Runs.newStop own b := by
  by_cases ha : a = []
  · subst ha; rfl
  have hb : b ≠ [] := by
    intro hb; subst hb
    cases a with
    | nil => exact ha rfl
    | cons x a => exact absurd (h x List.mem_cons_self) (by simp)
  obtain ⟨n1, n2, n3, n4⟩ := Runs.newStop_spec own a
  obtain ⟨l1, l2, l3, l4⟩ := Runs.newStop_spec (Runs.newStop own a) b
  obtain ⟨r1, r2, r3, r4⟩ := Runs.newStop_spec own b
  have nz : ∀ x ∈ b, x ≠ 0 := fun x hx e => h0 (e ▸ hx)
  generalize Runs.newStop own a = n at *
  generalize Runs.newStop n b = L at *
  generalize Runs.newStop own b = R at *
  by_cases ho : own = 0
  · have hn := h n (n4 ho ha)
    have hL : L ∈ b := by rcases l3 with e | e; (· exact e ▸ hn); exact e
    have := l1 R (r4 ho hb)
    have := r1 L hL
    omega
  · have hn : n ≠ 0 := by rcases n3 with e | e; (· omega); exact nz n (h n e)
    have e1 := l2 hn
    have e2 := n2 ho
    have e3 := r2 ho
    have e4 : L = own ∨ L ∈ b := by
      rcases l3 with e | e
      · rcases n3 with f | f
        · exact Or.inl (e.trans f)
        · exact Or.inr (e ▸ h n f)
      · exact Or.inr e
    rcases r3 with e | e
    · rcases e4 with f | f
      · omega
      · have := r1 L f; omega
    · have := l1 R e
      rcases e4 with f | f
      · omega
      · have := r1 L f; omega

/-! ## Names of runs -/

/-- What the pattern of the names of runs lets through, without the words for nothing. -/
def RunName (i : Str) : Prop := (∀ c ∈ i, c.isAlphanum = true ∨ c = '_') ∧ i ∉ nulls

theorem nil_nulls : ([] : Str) ∈ nulls := by decide +kernel

theorem RunName.ne {i : Str} (h : RunName i) : i ≠ [] := fun e => h.2 (e ▸ nil_nulls)

theorem RunName.not {i : Str} (h : RunName i) {c : Char} (hc : c.isAlphanum = false) (hu : c ≠ '_') : c ∉ i := by
  intro hm
  rcases h.1 c hm with e | e
  · rw [hc] at e; exact Bool.noConfusion e
  · exact hu e

theorem not_ws {c : Char} (h : c.isAlphanum = true ∨ c = '_') : ws c = false := by
  rcases h with h | h
  · apply ws_range
    simp only [Char.isAlphanum, Char.isAlpha, Char.isUpper, Char.isLower, Char.isDigit, Bool.or_eq_true, Bool.and_eq_true,
      decide_eq_true_eq, UInt32.le_iff_toNat_le, ge_iff_le] at h
    have h1 : 'A'.val.toNat = 65 := rfl
    have h2 : 'Z'.val.toNat = 90 := rfl
    have h3 : 'a'.val.toNat = 97 := rfl
    have h4 : 'z'.val.toNat = 122 := rfl
    have h5 : '0'.val.toNat = 48 := rfl
    have h6 : '9'.val.toNat = 57 := rfl
    have h7 : c.toNat = c.val.toNat := rfl
    omega
  · subst h; decide +kernel

theorem RunName.strip {i : Str} (h : RunName i) : strip i = i :=
  strip_of_ends (fun c hc => not_ws (h.1 c (List.mem_of_head? hc))) (fun c hc => not_ws (h.1 c (List.mem_of_getLast? hc)))

theorem RunName.colon {i : Str} (h : RunName i) : ':' ∉ i := h.not (by decide) (by decide)
theorem RunName.comma {i : Str} (h : RunName i) : ',' ∉ i := h.not (by decide) (by decide)

theorem comma_nulls : ∀ t ∈ nulls, ',' ∉ t := by decide +kernel

/-- The list of runs comes back from its text. -/
theorem list_back {l : List Str} (hne : l ≠ []) (h : ∀ i ∈ l, RunName i) :
    join [',', ' '] l ≠ [] ∧ join [',', ' '] l ∉ nulls ∧ ':' ∉ join [',', ' '] l ∧ (splitC ',' (join [',', ' '] l)).map Text.strip = l := by
  cases l with
  | nil => exact absurd rfl hne
  | cons p l =>
    have hp := h p List.mem_cons_self
    have hl : ∀ i ∈ l, RunName i := fun i hi => h i (List.mem_cons_of_mem _ hi)
    have hnull : join [',', ' '] (p :: l) ∉ nulls := by
      cases l with
      | nil => simpa [join] using hp.2
      | cons q l => exact fun hm => comma_nulls _ hm (by simp [join])
    refine ⟨fun e => hnull (by rw [e]; exact nil_nulls), hnull, join_notMem (by decide) (fun i hi => (h i hi).colon), ?_⟩
    rw [splitC_join_pad (by decide) hp.comma (fun q hq => (hl q hq).comma), List.map_cons, hp.strip, List.map_map]
    congr 1
    conv => rhs; rw [← List.map_id l]
    apply List.map_congr_left
    intro q hq
    show Text.strip (' ' :: q) = q
    rw [strip_cons_ws _ ws_space, (hl q hq).strip]

/-- New runs of the list, none being there. -/
theorem makeRuns_new (e : ρ) (a : List (Run ρ)) (l : List Str) (h : (a.map Run.id ++ l).Nodup) :
    makeRuns e a l = a ++ l.map (fun i => ⟨i, 0, 0, e⟩) := by
  unfold makeRuns
  induction l generalizing a with
  | nil => simp
  | cons i l ih =>
    rw [List.foldl_cons, if_neg, ih]
    · simp
    · simpa using h
    · intro hm
      rw [List.nodup_append] at h
      exact h.2.2 i hm i List.mem_cons_self rfl

/-! ## Equipments -/

theorem readRun_writeRun (r : Run ρ) (h : ':' ∉ r.id) : readRun (writeRun r) = .ok r := by
  have hs : splitC ':' (writeResource r.id) = ["mt.run.id".toList, r.id] := by
    show splitC ':' ("mt.run.id".toList ++ ':' :: r.id) = _
    rw [splitC_append _ (by decide), splitC_none h]
  simp only [readRun, writeRun, readResource, hs]
  rfl

/-- A run that is updated to the other one. -/
def Fits (o r : Run ρ) : Prop := o.id = r.id ∧ updateRun o r = r

theorem fits_self (r : Run ρ) : Fits r r := ⟨rfl, by cases r; simp [updateRun]⟩

theorem fits_blank (e : ρ) (r : Run ρ) : Fits ⟨r.id, 0, 0, e⟩ r := by
  refine ⟨rfl, ?_⟩
  cases r with
  | mk i a b c =>
    simp only [updateRun, Run.mk.injEq, and_true, true_and]
    constructor <;> (split <;> simp_all)

theorem idx_at {a : List Str} {i : Str} {b : List Str} (h : i ∉ a) : (a ++ i :: b).idxOf? i = some a.length := by
  induction a with
  | nil => simp [List.idxOf?_cons]
  | cons x a ih =>
    have hx : (x == i) = false := by
      rw [beq_eq_false_iff_ne]; intro e; exact h (e ▸ List.mem_cons_self)
    rw [List.cons_append, List.idxOf?_cons, hx, ih (fun hm => h (List.mem_cons_of_mem _ hm))]
    simp

theorem step_set (s : Station F ρ) (a : List (Run ρ)) (x o r : Run ρ) (b : List (Run ρ)) (hr : ':' ∉ r.id) (hs : s.runs = x :: a ++ o :: b)
    (hl : s.runList = s.runs.map Run.id) (hn : (s.runs.map Run.id).Nodup) (hf : Fits o r) :
    equipStep s (writeRun r) = .ok { s with runs := x :: a ++ r :: b } := by
  have hidx : s.runList.idxOf? r.id = some (a.length + 1) := by
    rw [hl, hs, List.map_append, List.map_cons, List.map_cons, hf.1]
    have := idx_at (a := x.id :: a.map Run.id) (i := r.id) (b := b.map Run.id) (by
      rw [hs, List.map_append, List.nodup_append] at hn
      intro hm
      exact hn.2.2 r.id (by simpa using hm) r.id (by simp [hf.1]) rfl)
    simpa using this
  unfold equipStep
  rw [readRun_writeRun r hr]
  simp only [Except.bind, hidx]
  rw [if_pos (by rw [hs]; simp), hs]
  simp

theorem step_first (s : Station F ρ) (o r : Run ρ) (b : List (Run ρ)) (hr : ':' ∉ r.id) (hs : s.runs = o :: b)
    (hl : s.runList = s.runs.map Run.id) (hn : (s.runs.map Run.id).Nodup) (hf : Fits o r) :
    equipStep s (writeRun r) = .ok (updateAll { s with runs := r :: b }) := by
  have hidx : s.runList.idxOf? r.id = some 0 := by
    rw [hl, hs, List.map_cons, hf.1]
    exact idx_at (a := []) (by simp)
  have hm : r.id ∈ s.runs.map Run.id := by rw [hs]; simp [hf.1]
  unfold equipStep
  rw [readRun_writeRun r hr]
  simp only [Except.bind, hidx, addRun]
  rw [if_pos (hl ▸ hm), if_pos hm, hs]
  have hb : b.map (fun o => if o.id = r.id then updateRun o r else o) = b := by
    conv => rhs; rw [← List.map_id b]
    apply List.map_congr_left
    intro y hy
    rw [if_neg, id]
    rw [hs, List.map_cons, List.nodup_cons] at hn
    intro e
    exact hn.1 (List.mem_map.2 ⟨y, hy, e.trans hf.1.symm⟩)
  rw [List.map_cons, if_pos hf.1, hf.2, hb]

theorem pass_rest (s : Station F ρ) (x : Run ρ) (a os l : List (Run ρ)) (hr : ∀ r ∈ l, ':' ∉ r.id) (hs : s.runs = x :: a ++ os)
    (hl : s.runList = s.runs.map Run.id) (hn : (s.runs.map Run.id).Nodup) (hf : List.Forall₂ Fits os l) :
    equipments s (l.map writeRun) = .ok { s with runs := x :: a ++ l } := by
  induction hf generalizing s a with
  | nil => simp only [equipments, List.map_nil, List.foldlM_nil, ← hs]; rfl
  | @cons o r os l hf hfs ih =>
    unfold equipments at ih ⊢
    rw [List.map_cons, List.foldlM_cons, step_set s a x o r os (hr r List.mem_cons_self) hs hl hn hf]
    have hid : (x :: a ++ r :: os).map Run.id = s.runs.map Run.id := by rw [hs]; simp [hf.1]
    have := ih { s with runs := x :: a ++ r :: os } (a ++ [r]) (fun q hq => hr q (List.mem_cons_of_mem _ hq)) (by simp)
      (by rw [hid]; exact hl) (by rw [hid]; exact hn)
    show List.foldlM equipStep _ _ = _
    rw [this]
    simp

theorem pass (s : Station F ρ) (o r : Run ρ) (os l : List (Run ρ)) (hr : ∀ q ∈ r :: l, ':' ∉ q.id) (hs : s.runs = o :: os)
    (hl : s.runList = s.runs.map Run.id) (hn : (s.runs.map Run.id).Nodup) (hf : Fits o r) (hfs : List.Forall₂ Fits os l) :
    equipments s ((r :: l).map writeRun) = .ok { updateAll { s with runs := r :: os } with runs := r :: l } := by
  unfold equipments
  rw [List.map_cons, List.foldlM_cons, step_first s o r os (hr r List.mem_cons_self) hs hl hn hf]
  have hid : (r :: os).map Run.id = s.runs.map Run.id := by rw [hs]; simp [hf.1]
  have := pass_rest (updateAll { s with runs := r :: os }) r [] os l (fun q hq => hr q (List.mem_cons_of_mem _ hq)) rfl rfl
    (by show ((r :: os).map Run.id).Nodup; rw [hid]; exact hn) hfs
  exact this

/-- Times of runs that are not the default. -/
def starts (l : List (Run ρ)) : List Int := (l.map Run.start).filter (· ≠ 0)
def stops (l : List (Run ρ)) : List Int := (l.map Run.stop).filter (· ≠ 0)

theorem filter_zeros {α : Type} (f : α → Int) (l : List α) (h : ∀ x ∈ l, f x = 0) : (l.map f).filter (· ≠ 0) = [] := by
  rw [List.filter_eq_nil_iff]
  intro x hx
  obtain ⟨y, hy, e⟩ := List.mem_map.1 hx
  simp [← e, h y hy]

/-- Both readings of the equipments of a station that has the runs by name only. -/
theorem both (e : ρ) (s : Station F ρ) (l : List (Run ρ)) (hr : ∀ q ∈ l, ':' ∉ q.id) (hn : (l.map Run.id).Nodup)
    (hs : s.runs = l.map (fun q => ⟨q.id, 0, 0, e⟩)) (hl : s.runList = l.map Run.id) :
    ((equipments s (l.map writeRun)).bind fun s => equipments s (l.map writeRun))
      = .ok { s with runs := l, start := Runs.newStart s.start (starts l), stop := Runs.newStop s.stop (stops l) } := by
  cases l with
  | nil =>
    cases s
    simp only [List.map_nil] at hs hl
    subst hs; subst hl
    rfl
  | cons r l =>
    have hid : (s.runs.map Run.id) = (r :: l).map Run.id := by rw [hs, List.map_map]; rfl
    have hblank : ∀ m : List (Run ρ), List.Forall₂ Fits (m.map (fun q => (⟨q.id, 0, 0, e⟩ : Run ρ))) m := by
      intro m
      induction m with
      | nil => exact .nil
      | cons q m ih => exact .cons (fits_blank e q) ih
    have hself : ∀ m : List (Run ρ), List.Forall₂ Fits m m := by
      intro m
      induction m with
      | nil => exact .nil
      | cons q m ih => exact .cons (fits_self q) ih
    rw [pass s ⟨r.id, 0, 0, e⟩ r (l.map (fun q => ⟨q.id, 0, 0, e⟩)) l hr (by rw [hs]; rfl) (by rw [hl, hid]) (by rw [hid]; exact hn)
      (fits_blank e r) (hblank l)]
    simp only [Except.bind]
    have hid2 : ((r :: l.map (fun q => (⟨q.id, 0, 0, e⟩ : Run ρ))).map Run.id) = (r :: l).map Run.id := by
      rw [List.map_cons, List.map_map]; rfl
    rw [pass _ r r l l hr rfl (by simp only [updateAll]; exact hid2) hn (fits_self r) (hself l)]
    have z1 : (l.map (fun q => (⟨q.id, 0, 0, e⟩ : Run ρ))).map Run.start = l.map (fun _ => (0 : Int)) := by rw [List.map_map]; rfl
    have z2 : (l.map (fun q => (⟨q.id, 0, 0, e⟩ : Run ρ))).map Run.stop = l.map (fun _ => (0 : Int)) := by rw [List.map_map]; rfl
    have m1 : ∀ x ∈ ((r :: l.map (fun q => (⟨q.id, 0, 0, e⟩ : Run ρ))).map Run.start).filter (· ≠ 0), x ∈ starts (r :: l) := by
      intro x hx
      rw [List.map_cons, z1, List.mem_filter, List.mem_cons] at hx
      rcases hx.1 with h | h
      · exact List.mem_filter.2 ⟨by simp [h], hx.2⟩
      · obtain ⟨_, _, h⟩ := List.mem_map.1 h
        simp [← h] at hx
    have m2 : ∀ x ∈ ((r :: l.map (fun q => (⟨q.id, 0, 0, e⟩ : Run ρ))).map Run.stop).filter (· ≠ 0), x ∈ stops (r :: l) := by
      intro x hx
      rw [List.map_cons, z2, List.mem_filter, List.mem_cons] at hx
      rcases hx.1 with h | h
      · exact List.mem_filter.2 ⟨by simp [h], hx.2⟩
      · obtain ⟨_, _, h⟩ := List.mem_map.1 h
        simp [← h] at hx
    have e1 := newStart_sub s.start m1 (by simp [starts])
    have e2 := newStop_sub s.stop m2 (by simp [stops])
    congr 1
    simp only [updateAll]
    rw [show ((r :: l).map Run.start).filter (· ≠ 0) = starts (r :: l) from rfl, show ((r :: l).map Run.stop).filter (· ≠ 0) = stops (r :: l) from rfl,
      e1, e2, hl]

/-! ## Comments -/

/-- Numbers come back from their texts, and these have no colon. -/
def Lawful (W : World F) : Prop := ∀ x, W.readF (W.showF x) = .ok x ∧ ':' ∉ W.showF x

/-- The key of a comment is found again. -/
def Key (key : Str) : Prop :=
  hasSub "mt.run".toList (commentKey (some ("mt.station.".toList ++ key))) = false ∧
    stationKey (commentKey (some ("mt.station.".toList ++ key))) = key

theorem key1 : Key "data_type".toList := by unfold Key; decide +kernel
theorem key2 : Key "location.declination.comments".toList := by unfold Key; decide +kernel
theorem key3 : Key "location.declination.model".toList := by unfold Key; decide +kernel
theorem key4 : Key "location.declination.value".toList := by unfold Key; decide +kernel
theorem key5 : Key "orientation.method".toList := by unfold Key; decide +kernel
theorem key6 : Key "orientation.reference_frame".toList := by unfold Key; decide +kernel
theorem key7 : Key "provenance.software.author".toList := by unfold Key; decide +kernel
theorem key8 : Key "provenance.software.name".toList := by unfold Key; decide +kernel
theorem key9 : Key "provenance.software.version".toList := by unfold Key; decide +kernel
theorem key10 : Key "run_list".toList := by unfold Key; decide +kernel

theorem readOne_text (W : World F) (e : ρ) (s : Station F ρ) {key v : Str} (hk : Key key) (hv : ':' ∉ v) :
    readOne W e s ⟨v, some ("mt.station.".toList ++ key)⟩ = setField W e s key (.text v) := by
  unfold readOne readComment
  rw [if_neg hv]
  simp only [Except.bind]
  rw [hk.1, hk.2]
  simp

theorem read_text (W : World F) (e : ρ) (s : Station F ρ) {key v : Str} (hk : Key key) (hv : ':' ∉ v) (rest : List XComment) :
    readComments W e s (textComment key v ++ rest)
      = (if v = [] then .ok s else setField W e s key (.text v)).bind fun s => readComments W e s rest := by
  unfold textComment readComments
  by_cases h : v = []
  · rw [if_pos h, if_pos h]; rfl
  · rw [if_neg h, if_neg h, List.singleton_append, List.foldlM_cons, readOne_text W e s hk hv]; rfl

theorem read_num [DecidableEq F] (W : World F) (hW : Lawful W) (e : ρ) (s : Station F ρ) {key : Str} (v : F) (hk : Key key) (rest : List XComment) :
    readComments W e s (numComment W key v ++ rest)
      = (if v = W.zero then .ok s else setField W e s key (.text (W.showF v))).bind fun s => readComments W e s rest := by
  unfold numComment readComments
  by_cases h : v = W.zero
  · rw [if_pos h, if_pos h]; rfl
  · rw [if_neg h, if_neg h, List.singleton_append, List.foldlM_cons, readOne_text W e s hk (hW v).2]; rfl

/-- A text, or what a new object has. -/
def orNew (v new : Str) : Str := if v = [] then new else v

section fields
variable (W : World F) (e : ρ) (s : Station F ρ) (v : Str)

theorem set1 : setField W e s "data_type".toList (.text v) = .ok { s with dataType := v } := by
  unfold setField; rw [if_pos rfl]; rfl
theorem set2 : setField W e s "location.declination.comments".toList (.text v) = .ok { s with declComments := some v } := by
  unfold setField; rw [if_neg (by decide), if_pos rfl]; rfl
theorem set3 : setField W e s "location.declination.model".toList (.text v) = .ok { s with declModel := v } := by
  unfold setField; rw [if_neg (by decide), if_neg (by decide), if_pos rfl]; rfl
theorem set4 (hW : Lawful W) (x : F) : setField W e s "location.declination.value".toList (.text (W.showF x)) = .ok { s with declValue := x } := by
  unfold setField; rw [if_neg (by decide), if_neg (by decide), if_neg (by decide), if_pos rfl]
  simp only [asText, Except.bind, (hW x).1]; rfl
theorem set5 : setField W e s "orientation.method".toList (.text v) = .ok { s with method := v } := by
  unfold setField; rw [if_neg (by decide), if_neg (by decide), if_neg (by decide), if_neg (by decide), if_pos rfl]; rfl
theorem set6 : setField W e s "orientation.reference_frame".toList (.text v) = .ok { s with frame := v } := by
  unfold setField
  rw [if_neg (by decide), if_neg (by decide), if_neg (by decide), if_neg (by decide), if_neg (by decide), if_pos rfl]; rfl
theorem set7 : setField W e s "provenance.software.author".toList (.text v) = .ok { s with swAuthor := some v } := by
  unfold setField
  rw [if_neg (by decide), if_neg (by decide), if_neg (by decide), if_neg (by decide), if_neg (by decide), if_neg (by decide), if_pos rfl]; rfl
theorem set8 : setField W e s "provenance.software.name".toList (.text v) = .ok { s with swName := v } := by
  unfold setField
  rw [if_neg (by decide), if_neg (by decide), if_neg (by decide), if_neg (by decide), if_neg (by decide), if_neg (by decide),
    if_neg (by decide), if_pos rfl]; rfl
theorem set9 : setField W e s "provenance.software.version".toList (.text v) = .ok { s with swVersion := v } := by
  unfold setField
  rw [if_neg (by decide), if_neg (by decide), if_neg (by decide), if_neg (by decide), if_neg (by decide), if_neg (by decide),
    if_neg (by decide), if_neg (by decide), if_pos rfl]; rfl
theorem set10 : setField W e s "run_list".toList (.text v) = setRunList e s v := by
  unfold setField
  rw [if_neg (by decide), if_neg (by decide), if_neg (by decide), if_neg (by decide), if_neg (by decide), if_neg (by decide),
    if_neg (by decide), if_neg (by decide), if_neg (by decide), if_pos rfl]; rfl
end fields

/-- Texts in the comments without a colon. -/
structure Plain (s : Station F ρ) : Prop where
  dataType : ':' ∉ s.dataType
  declComments : ':' ∉ s.declComments.getD []
  declModel : ':' ∉ s.declModel
  method : ':' ∉ s.method
  frame : ':' ∉ s.frame
  swAuthor : ':' ∉ s.swAuthor.getD []
  swName : ':' ∉ s.swName
  swVersion : ':' ∉ s.swVersion

/-- Runs as the library keeps them: distinct names, listed. -/
structure Named (s : Station F ρ) : Prop where
  names : ∀ r ∈ s.runs, RunName r.id
  distinct : (s.runs.map Run.id).Nodup
  listed : s.runList = s.runs.map Run.id

/-- What the comments give. -/
def fromComments (W : World F) (e : ρ) (s : Station F ρ) : Station F ρ :=
  { (blank W : Station F ρ) with
    dataType := orNew s.dataType "BBMT".toList
    declComments := if s.declComments.getD [] = [] then none else some (s.declComments.getD [])
    declModel := orNew s.declModel "IGRF".toList
    declValue := s.declValue
    method := orNew s.method "compass".toList
    frame := orNew s.frame "geographic".toList
    swAuthor := some (s.swAuthor.getD [])
    swName := s.swName
    swVersion := s.swVersion
    runList := s.runList
    runs := s.runs.map fun q => ⟨q.id, 0, 0, e⟩ }

theorem ite_ok {α : Type} {p : Prop} [Decidable p] (a b : α) : (if p then Except.ok a else Except.ok b : Except PyErr α) = .ok (if p then a else b) := by
  split <;> rfl

/-- A new station with the fields of the comments. -/
def made (W : World F) (dt : Str) (dc : Option Str) (dm : Str) (dv : F) (m f : Str) (sa : Option Str) (sn sv : Str) : Station F ρ :=
  { (blank W : Station F ρ) with
    dataType := dt, declComments := dc, declModel := dm, declValue := dv, method := m, frame := f, swAuthor := sa, swName := sn, swVersion := sv }

theorem made1 (W : World F) (p : Prop) [Decidable p] (x : Str) (dt : Str) (dc : Option Str) (dm : Str) (dv : F) (m f : Str) (sa : Option Str)
    (sn sv : Str) : (if p then (made W dt dc dm dv m f sa sn sv : Station F ρ) else { (made W dt dc dm dv m f sa sn sv : Station F ρ) with dataType := x }) = made W (if p then dt else x) dc dm dv m f sa sn sv := by
  split <;> rfl
theorem made2 (W : World F) (p : Prop) [Decidable p] (x : Option Str) (dt : Str) (dc : Option Str) (dm : Str) (dv : F) (m f : Str) (sa : Option Str)
    (sn sv : Str) : (if p then (made W dt dc dm dv m f sa sn sv : Station F ρ) else { (made W dt dc dm dv m f sa sn sv : Station F ρ) with declComments := x }) = made W dt (if p then dc else x) dm dv m f sa sn sv := by
  split <;> rfl
theorem made3 (W : World F) (p : Prop) [Decidable p] (x : Str) (dt : Str) (dc : Option Str) (dm : Str) (dv : F) (m f : Str) (sa : Option Str)
    (sn sv : Str) : (if p then (made W dt dc dm dv m f sa sn sv : Station F ρ) else { (made W dt dc dm dv m f sa sn sv : Station F ρ) with declModel := x }) = made W dt dc (if p then dm else x) dv m f sa sn sv := by
  split <;> rfl
theorem made4 (W : World F) (p : Prop) [Decidable p] (x : F) (dt : Str) (dc : Option Str) (dm : Str) (dv : F) (m f : Str) (sa : Option Str)
    (sn sv : Str) : (if p then (made W dt dc dm dv m f sa sn sv : Station F ρ) else { (made W dt dc dm dv m f sa sn sv : Station F ρ) with declValue := x }) = made W dt dc dm (if p then dv else x) m f sa sn sv := by
  split <;> rfl
theorem made5 (W : World F) (p : Prop) [Decidable p] (x : Str) (dt : Str) (dc : Option Str) (dm : Str) (dv : F) (m f : Str) (sa : Option Str)
    (sn sv : Str) : (if p then (made W dt dc dm dv m f sa sn sv : Station F ρ) else { (made W dt dc dm dv m f sa sn sv : Station F ρ) with method := x }) = made W dt dc dm dv (if p then m else x) f sa sn sv := by
  split <;> rfl
theorem made6 (W : World F) (p : Prop) [Decidable p] (x : Str) (dt : Str) (dc : Option Str) (dm : Str) (dv : F) (m f : Str) (sa : Option Str)
    (sn sv : Str) : (if p then (made W dt dc dm dv m f sa sn sv : Station F ρ) else { (made W dt dc dm dv m f sa sn sv : Station F ρ) with frame := x }) = made W dt dc dm dv m (if p then f else x) sa sn sv := by
  split <;> rfl
theorem made7 (W : World F) (p : Prop) [Decidable p] (x : Option Str) (dt : Str) (dc : Option Str) (dm : Str) (dv : F) (m f : Str) (sa : Option Str)
    (sn sv : Str) : (if p then (made W dt dc dm dv m f sa sn sv : Station F ρ) else { (made W dt dc dm dv m f sa sn sv : Station F ρ) with swAuthor := x }) = made W dt dc dm dv m f (if p then sa else x) sn sv := by
  split <;> rfl
theorem made8 (W : World F) (p : Prop) [Decidable p] (x : Str) (dt : Str) (dc : Option Str) (dm : Str) (dv : F) (m f : Str) (sa : Option Str)
    (sn sv : Str) : (if p then (made W dt dc dm dv m f sa sn sv : Station F ρ) else { (made W dt dc dm dv m f sa sn sv : Station F ρ) with swName := x }) = made W dt dc dm dv m f sa (if p then sn else x) sv := by
  split <;> rfl
theorem made9 (W : World F) (p : Prop) [Decidable p] (x : Str) (dt : Str) (dc : Option Str) (dm : Str) (dv : F) (m f : Str) (sa : Option Str)
    (sn sv : Str) : (if p then (made W dt dc dm dv m f sa sn sv : Station F ρ) else { (made W dt dc dm dv m f sa sn sv : Station F ρ) with swVersion := x }) = made W dt dc dm dv m f sa sn (if p then sv else x) := by
  split <;> rfl

theorem comments_read [DecidableEq F] (W : World F) (hW : Lawful W) (e : ρ) (s : Station F ρ) (hp : Plain s) (hn : Named s) :
    readComments W e (blank W) (stationComments W s) = .ok (fromComments W e s) := by
  have hlist : ∀ z : Station F ρ, z.runs = [] → z.runList = [] →
      readComments W e z (textComment "run_list".toList (join [',', ' '] s.runList))
        = .ok { z with runList := s.runList, runs := s.runs.map fun q => ⟨q.id, 0, 0, e⟩ } := by
    intro z h1 h2
    by_cases hr : s.runs = []
    · have hl : s.runList = [] := by rw [hn.listed, hr]; rfl
      rw [hl, hr]
      cases z
      simp only at h1 h2
      subst h1; subst h2
      rfl
    · have hl : s.runList ≠ [] := by rw [hn.listed]; simpa using hr
      have hlb := list_back hl (by
        intro i hi
        rw [hn.listed] at hi
        obtain ⟨r, hr, e⟩ := List.mem_map.1 hi
        exact e ▸ hn.names r hr)
      have := read_text W e z key10 hlb.2.2.1 []
      rw [List.append_nil] at this
      rw [this, if_neg hlb.1, set10]
      unfold setRunList
      rw [if_neg hlb.2.1]
      simp only [hlb.2.2.2]
      rw [if_neg (by rw [h1]; exact hl), if_pos (by rw [h1]; exact List.length_pos_iff.2 hl), h1,
        makeRuns_new e [] s.runList (by rw [hn.listed]; simpa using hn.distinct)]
      have : s.runList.map (fun i => (⟨i, 0, 0, e⟩ : Run ρ)) = s.runs.map fun q => ⟨q.id, 0, 0, e⟩ := by
        rw [hn.listed, List.map_map]; rfl
      rw [List.nil_append, this]
      rfl
  unfold stationComments
  simp only [List.append_assoc]
  have h0 : (blank W : Station F ρ)
      = made W "BBMT".toList none "IGRF".toList W.zero "compass".toList "geographic".toList (some []) [] [] := rfl
  rw [h0]
  rw [read_text W e _ key1 hp.dataType, set1, ite_ok, made1]
  simp only [Except.bind]
  rw [read_text W e _ key2 hp.declComments, set2, ite_ok, made2]
  simp only [Except.bind]
  rw [read_text W e _ key3 hp.declModel, set3, ite_ok, made3]
  simp only [Except.bind]
  rw [read_num W hW e _ _ key4, set4 W e _ hW, ite_ok, made4]
  simp only [Except.bind]
  rw [read_text W e _ key5 hp.method, set5, ite_ok, made5]
  simp only [Except.bind]
  rw [read_text W e _ key6 hp.frame, set6, ite_ok, made6]
  simp only [Except.bind]
  rw [read_text W e _ key7 hp.swAuthor, set7, ite_ok, made7]
  simp only [Except.bind]
  rw [read_text W e _ key8 hp.swName, set8, ite_ok, made8]
  simp only [Except.bind]
  rw [read_text W e _ key9 hp.swVersion, set9, ite_ok, made9]
  simp only [Except.bind]
  rw [hlist _ rfl rfl]
  unfold fromComments made orNew
  have hv : (if s.declValue = W.zero then W.zero else s.declValue) = s.declValue := by split <;> simp_all
  have ha : (if s.swAuthor.getD [] = [] then some [] else some (s.swAuthor.getD [])) = some (s.swAuthor.getD []) := by split <;> simp_all
  have hnm : (if s.swName = [] then [] else s.swName) = s.swName := by split <;> simp_all
  have hvs : (if s.swVersion = [] then [] else s.swVersion) = s.swVersion := by split <;> simp_all
  rw [hv, ha, hnm, hvs]

/-- What is read back. -/
def seen (s : Station F ρ) : Station F ρ :=
  { s with
    id := upper s.id
    fdsn := some (upper s.id)
    start := Runs.newStart s.start (starts s.runs)
    stop := Runs.newStop s.stop (stops s.runs)
    author := some []
    organization := none
    dataType := orNew s.dataType "BBMT".toList
    declComments := if s.declComments.getD [] = [] then none else some (s.declComments.getD [])
    declModel := orNew s.declModel "IGRF".toList
    method := orNew s.method "compass".toList
    frame := orNew s.frame "geographic".toList
    swAuthor := some (s.swAuthor.getD []) }

theorem read_write [DecidableEq F] (W : World F) (hW : Lawful W) (e : ρ) (s : Station F ρ) (hp : Plain s) (hn : Named s) :
    read W e (write W s) = .ok (seen s) := by
  unfold read
  rw [show (write W s).comments = stationComments W s from rfl, comments_read W hW e s hp hn]
  simp only [Except.bind]
  have := both e (readFields (write W s) (fromComments W e s)) s.runs (fun q hq => (hn.names q hq).colon) hn.distinct rfl hn.listed
  rw [show (write W s).equipments = s.runs.map writeRun from rfl]
  refine Eq.trans this ?_
  congr 1
  cases s with
  | mk _ _ _ _ _ com _ _ _ _ _ _ _ _ _ _ _ _ _ _ _ _ => cases com <;> rfl

/-! ## Examples -/

/-- Numbers as texts of unary digits. -/
def W0 : World Nat := ⟨fun n => List.replicate n '1', fun t => .ok t.length, 0⟩

theorem W0_lawful : Lawful W0 := by
  intro x
  constructor
  · simp [W0]
  · intro h
    have := List.eq_of_mem_replicate h
    exact absurd this (by decide)

/-- A station with two runs. -/
def s0 : Station Nat Nat where
  id := "mt1".toList
  fdsn := some "CAS04".toList
  lat := 40
  lon := 7
  elev := 3
  comments := some "good".toList
  geographic := "here".toList
  start := 5
  stop := 20
  author := some "A".toList
  organization := none
  dataType := "BBMT".toList
  method := "compass".toList
  frame := "geographic".toList
  declModel := "WMM".toList
  declValue := 2
  declComments := some "ok".toList
  swAuthor := some [] 
  swName := "mth5".toList
  swVersion := "1".toList
  runList := ["a".toList, "b_1".toList]
  runs := [⟨"a".toList, 4, 9, 1⟩, ⟨"b_1".toList, 0, 30, 2⟩]

instance (i : Str) : Decidable (RunName i) := by unfold RunName; exact inferInstance

theorem s0_plain : Plain s0 := by constructor <;> decide
theorem s0_named : Named s0 := by constructor <;> decide +kernel

/-- The same, with what comes back as it was. -/
def s1 : Station Nat Nat := { s0 with id := "MT1".toList, fdsn := some "MT1".toList, start := 4, stop := 30, author := some [] }

/-! ## C282 -/

/-- C282: a station read from the StationXML that it was written to is the same station. -/
def C282_claim : Prop :=
  ∀ (W : World Nat) (s : Station Nat Nat), Lawful W → Plain s → Named s → read W 0 (write W s) = .ok s

theorem C282_refuted : ¬ C282_claim := by
  intro h
  have h1 := h W0 s0 W0_lawful s0_plain s0_named
  rw [read_write W0 W0_lawful 0 s0 s0_plain s0_named] at h1
  injection h1 with h1
  have h2 : (seen s0).id = s0.id := by rw [h1]
  exact absurd h2 (by decide +kernel)

/-- What comes back: the name in capitals, also as the FDSN code; nobody who acquired it; a period extended to the runs; the rest as it
was. -/
theorem C282_read_partial [DecidableEq F] (W : World F) (hW : Lawful W) (e : ρ) (s : Station F ρ) (hp : Plain s) (hn : Named s)
    (hd : s.dataType ≠ []) (hm : s.declModel ≠ []) (ho : s.method ≠ []) (hf : s.frame ≠ []) :
    ∃ t, read W e (write W s) = .ok t ∧
      t.id = s.id.map Char.toUpper ∧ t.fdsn = some (s.id.map Char.toUpper) ∧ t.author = some [] ∧ t.organization = none ∧
      (t.lat, t.lon, t.elev, t.comments, t.geographic) = (s.lat, s.lon, s.elev, s.comments, s.geographic) ∧
      (t.dataType, t.method, t.frame, t.declModel, t.declValue) = (s.dataType, s.method, s.frame, s.declModel, s.declValue) ∧
      t.declComments.getD [] = s.declComments.getD [] ∧ t.declComments ≠ some [] ∧
      (t.swAuthor, t.swName, t.swVersion) = (some (s.swAuthor.getD []), s.swName, s.swVersion) ∧
      (t.runList, t.runs) = (s.runList, s.runs) ∧
      (∀ r ∈ s.runs, r.start ≠ 0 → t.start ≤ r.start) ∧ (s.start ≠ 0 → t.start ≤ s.start) ∧
      (t.start = s.start ∨ ∃ r ∈ s.runs, r.start ≠ 0 ∧ t.start = r.start) ∧
      (∀ r ∈ s.runs, r.stop ≠ 0 → r.stop ≤ t.stop) ∧ (s.stop ≠ 0 → s.stop ≤ t.stop) ∧
      (t.stop = s.stop ∨ ∃ r ∈ s.runs, r.stop ≠ 0 ∧ t.stop = r.stop) := by
  obtain ⟨a1, a2, a3, -⟩ := Runs.newStart_spec s.start (starts s.runs)
  obtain ⟨b1, b2, b3, -⟩ := Runs.newStop_spec s.stop (stops s.runs)
  have e1 : ∀ x, x ∈ starts s.runs ↔ ∃ r ∈ s.runs, r.start ≠ 0 ∧ x = r.start := by
    intro x
    simp only [starts, List.mem_filter, List.mem_map, decide_eq_true_eq]
    constructor
    · rintro ⟨⟨r, h, e⟩, h0⟩; exact ⟨r, h, e ▸ h0, e.symm⟩
    · rintro ⟨r, h, h0, e⟩; exact ⟨⟨r, h, e.symm⟩, e ▸ h0⟩
  have e2 : ∀ x, x ∈ stops s.runs ↔ ∃ r ∈ s.runs, r.stop ≠ 0 ∧ x = r.stop := by
    intro x
    simp only [stops, List.mem_filter, List.mem_map, decide_eq_true_eq]
    constructor
    · rintro ⟨⟨r, h, e⟩, h0⟩; exact ⟨r, h, e ▸ h0, e.symm⟩
    · rintro ⟨r, h, h0, e⟩; exact ⟨⟨r, h, e.symm⟩, e ▸ h0⟩
  refine ⟨seen s, read_write W hW e s hp hn, rfl, rfl, rfl, rfl, rfl, ?_, ?_, ?_, rfl, rfl,
    fun r hr h0 => a1 _ ((e1 _).2 ⟨r, hr, h0, rfl⟩), a2, a3.imp id (fun h => (e1 _).1 h),
    fun r hr h0 => b1 _ ((e2 _).2 ⟨r, hr, h0, rfl⟩), b2, b3.imp id (fun h => (e2 _).1 h)⟩
  · simp only [seen, orNew, if_neg hd, if_neg hm, if_neg ho, if_neg hf]
  · show (if s.declComments.getD [] = [] then none else some (s.declComments.getD []) : Option Str).getD [] = _
    split
    · rename_i h; rw [h]; rfl
    · rfl
  · show (if s.declComments.getD [] = [] then none else some (s.declComments.getD []) : Option Str) ≠ _
    split
    · simp
    · rename_i h; simpa using h

/-- Stations that come back as they were. -/
theorem C282_same_partial [DecidableEq F] (W : World F) (hW : Lawful W) (e : ρ) (s : Station F ρ) (hp : Plain s) (hn : Named s)
    (hd : s.dataType ≠ []) (hm : s.declModel ≠ []) (ho : s.method ≠ []) (hf : s.frame ≠ [])
    (hi : s.id.map Char.toUpper = s.id) (hc : s.fdsn = some s.id) (ha : s.author = some []) (hg : s.organization = none)
    (hdc : s.declComments ≠ some []) (hsa : s.swAuthor ≠ none)
    (h1 : ∀ r ∈ s.runs, r.start ≠ 0 → s.start ≠ 0 ∧ s.start ≤ r.start) (h2 : ∀ r ∈ s.runs, r.stop ≠ 0 → s.stop ≠ 0 ∧ r.stop ≤ s.stop) :
    read W e (write W s) = .ok s := by
  obtain ⟨t, ht, c1, c2, c3, c4, c5, c6, c7, c8, c9, c10, p1, p2, p3, q1, q2, q3⟩ := C282_read_partial W hW e s hp hn hd hm ho hf
  rw [ht]
  congr 1
  have e1 : t.start = s.start := by
    rcases p3 with h | ⟨r, hr, h0, h⟩
    · exact h
    · have := h1 r hr h0
      have := p2 this.1
      omega
  have e2 : t.stop = s.stop := by
    rcases q3 with h | ⟨r, hr, h0, h⟩
    · exact h
    · have := h2 r hr h0
      have := q2 this.1
      omega
  have e3 : t.declComments = s.declComments := by
    cases ht : t.declComments with
    | none =>
      cases hs : s.declComments with
      | none => rfl
      | some x => rw [ht, hs] at c7; exact absurd (by rw [hs]; exact congrArg some c7.symm) hdc
    | some y =>
      cases hs : s.declComments with
      | none => rw [ht, hs] at c7; exact absurd (by rw [ht]; exact congrArg some c7) c8
      | some x => rw [ht, hs] at c7; exact congrArg some c7
  have e4 : some (s.swAuthor.getD []) = s.swAuthor := by
    cases h : s.swAuthor with
    | none => exact absurd h hsa
    | some x => rfl
  rw [e4] at c9
  rw [hi] at c1 c2
  rw [← hc] at c2
  rw [← ha] at c3
  rw [← hg] at c4
  simp only [Prod.mk.injEq] at c5 c6 c9 c10
  obtain ⟨c51, c52, c53, c54, c55⟩ := c5
  obtain ⟨c61, c62, c63, c64, c65⟩ := c6
  obtain ⟨c91, c92, c93⟩ := c9
  cases t
  cases s
  simp_all

theorem readComments_fails (W : World F) (e : ρ) (c : XComment) (hc : ∀ s : Station F ρ, ∃ x, readOne W e s c = .error x)
    (cs : List XComment) (h : c ∈ cs) (s : Station F ρ) : ∃ x, readComments W e s cs = .error x := by
  unfold readComments
  induction cs generalizing s with
  | nil => exact absurd h (by simp)
  | cons d cs ih =>
    rw [List.foldlM_cons]
    rcases List.mem_cons.1 h with e1 | h
    · obtain ⟨x, hx⟩ := hc s
      rw [← e1, hx]; exact ⟨x, rfl⟩
    · cases hd : readOne W e s d with
      | error x => exact ⟨x, rfl⟩
      | ok s1 => exact ih h s1

/-- A colon in the author, name or version of the software: the file cannot be read. -/
theorem C282_colon_partial [DecidableEq F] (W : World F) (e : ρ) (s : Station F ρ)
    (h : ':' ∈ s.swAuthor.getD [] ∨ ':' ∈ s.swName ∨ ':' ∈ s.swVersion) : ∃ x, read W e (write W s) = .error x := by
  have gen : ∀ (key v : Str), Key key → ':' ∈ v → (∀ (z : Station F ρ) d, setField W e z key (.dict d) = .error .valueError) →
      (⟨v, some ("mt.station.".toList ++ key)⟩ : XComment) ∈ stationComments W s → ∃ x, read W e (write W s) = .error x := by
    intro key v hk hv hs hm
    obtain ⟨x, hx⟩ := readComments_fails W e _ (fun z => by
      unfold readOne readComment
      rw [if_pos hv]
      cases parse 21 v [] with
      | error x => exact ⟨x, rfl⟩
      | ok d =>
        simp only [Except.bind]
        rw [hk.1, hk.2]
        exact ⟨_, hs z d⟩) _ hm (blank W : Station F ρ)
    refine ⟨x, ?_⟩
    unfold read
    rw [show (write W s).comments = stationComments W s from rfl, hx]
    rfl
  have ne : ∀ {v : Str}, ':' ∈ v → v ≠ [] := by intro v hv e; rw [e] at hv; exact absurd hv (by simp)
  have mt : ∀ (key v : Str), ':' ∈ v → (⟨v, some ("mt.station.".toList ++ key)⟩ : XComment) ∈ textComment key v := by
    intro key v hv
    unfold textComment
    rw [if_neg (ne hv)]; simp
  rcases h with h | h | h
  · refine gen _ _ key7 h (fun z d => ?_) (by have := mt "provenance.software.author".toList _ h; unfold stationComments; simp only [List.mem_append, this, true_or, or_true])
    unfold setField
    rw [if_neg (by decide), if_neg (by decide), if_neg (by decide), if_neg (by decide), if_neg (by decide), if_neg (by decide), if_pos rfl]; rfl
  · refine gen _ _ key8 h (fun z d => ?_) (by have := mt "provenance.software.name".toList _ h; unfold stationComments; simp only [List.mem_append, this, true_or, or_true])
    unfold setField
    rw [if_neg (by decide), if_neg (by decide), if_neg (by decide), if_neg (by decide), if_neg (by decide), if_neg (by decide),
      if_neg (by decide), if_pos rfl]; rfl
  · refine gen _ _ key9 h (fun z d => ?_) (by have := mt "provenance.software.version".toList _ h; unfold stationComments; simp only [List.mem_append, this, true_or, or_true])
    unfold setField
    rw [if_neg (by decide), if_neg (by decide), if_neg (by decide), if_neg (by decide), if_neg (by decide), if_neg (by decide),
      if_neg (by decide), if_neg (by decide), if_pos rfl]; rfl

/-- The hypotheses of `C282_same_partial` are met. -/
example : read W0 0 (write W0 s1) = .ok s1 :=
  C282_same_partial W0 W0_lawful 0 s1 (by constructor <;> decide) (by constructor <;> decide +kernel) (by decide) (by decide) (by decide)
    (by decide) (by decide +kernel) rfl rfl rfl (by decide) (by decide) (by decide) (by decide)

/-- The comment of the declination is lost if it has a colon. -/
example : (read W0 0 (write W0 { s1 with declComments := some "see: here".toList })).toOption.map (·.declComments) = some none := by
  decide +kernel

/-! ## C283 -/

/-- C283: writing a station leaves it as it was. -/
def C283_claim : Prop := ∀ s : Station Nat Nat, prepared s = s

theorem C283_refuted : ¬ C283_claim := by
  intro h
  have h1 : (prepared { s0 with fdsn := none }).fdsn = none := by rw [h]
  exact absurd h1 (by decide)

/-- What is changed: no FDSN code becomes the name; no organization becomes a blank if somebody acquired the station. -/
theorem C283_changes_partial (s : Station F ρ) :
    ∃ f o, prepared s = { s with fdsn := f, organization := o } ∧ f = some (s.fdsn.getD s.id) ∧ (s.fdsn ≠ none → f = s.fdsn) ∧
      (s.author.getD [] = [] → o = s.organization) ∧ (s.organization ≠ none → o = s.organization) ∧
      (s.author.getD [] ≠ [] → s.organization = none → o = some [' ']) := by
  refine ⟨_, _, rfl, rfl, ?_, ?_, ?_, ?_⟩
  · intro h
    cases hf : s.fdsn with
    | none => exact absurd hf h
    | some x => rfl
  · intro h; rw [if_pos h]
  · intro h
    cases ho : s.organization with
    | none => exact absurd ho h
    | some x => split <;> rfl
  · intro h1 h2; rw [if_neg h1, h2]; rfl

/-- Writing again gives the same and changes nothing more; the FDSN code is not written. -/
theorem C283_again_partial [DecidableEq F] (W : World F) (s : Station F ρ) :
    write W (prepared s) = write W s ∧ prepared (prepared s) = prepared s ∧
      ∀ f, write W { s with fdsn := f } = write W s := by
  refine ⟨?_, ?_, fun _ => rfl⟩
  · unfold write
    simp only [XStation.mk.injEq, true_and]
    refine ⟨rfl, rfl, rfl, rfl, rfl, rfl, rfl, rfl, rfl, ?_, rfl, rfl⟩
    show (if s.author.getD [] = [] then none else some ((prepared s).organization.getD [' '], s.author.getD [])) = _
    by_cases h : s.author.getD [] = []
    · rw [if_pos h, if_pos h]
    · rw [if_neg h, if_neg h]
      simp only [prepared, if_neg h]
      rfl
  · unfold prepared
    simp only [Station.mk.injEq, true_and, and_true, Option.getD_some]
    by_cases h : s.author.getD [] = []
    · rw [if_pos h, if_pos h]
    · rw [if_neg h, if_neg h]; rfl

example : (write W0 s0).code = "MT1".toList ∧ (write W0 s0).operator = some ([' '], "A".toList) := by decide +kernel

/-! ## C284 -/

/-- C284: the runs of a station, their names, times and the rest come back in their order, and the list of runs. -/
theorem C284_runs [DecidableEq F] (W : World F) (hW : Lawful W) (e : ρ) (s : Station F ρ) (hp : Plain s) (hn : Named s) :
    ∃ t, read W e (write W s) = .ok t ∧ t.runs = s.runs ∧ t.runList = s.runs.map Run.id :=
  ⟨seen s, read_write W hW e s hp hn, rfl, hn.listed⟩

/-- Stations that are written alike have the same runs. -/
theorem C284_alike [DecidableEq F] (W : World F) (hW : Lawful W) (s t : Station F ρ) (hp : Plain s) (hn : Named s) (hp' : Plain t) (hn' : Named t)
    (h : write W s = write W t) : s.runs = t.runs := by
  cases hs : s.runs with
  | nil =>
    have : (write W t).equipments = [] := by rw [← h]; show s.runs.map writeRun = []; rw [hs]; rfl
    have : t.runs.map writeRun = [] := this
    rw [List.map_eq_nil_iff.1 this]
  | cons r l =>
    have h1 := read_write W hW r.rest s hp hn
    have h2 := read_write W hW r.rest t hp' hn'
    rw [h, h2] at h1
    injection h1 with h1
    have : (seen t).runs = (seen s).runs := by rw [h1]
    rw [← hs]
    exact this.symm

/-- The one exception to the pattern of names: the only run of a station is called by a word for nothing. -/
theorem C284_null [DecidableEq F] (W : World F) (e : ρ) (s : Station F ρ) (i : Str) (hi : s.runList = [i])
    (h0 : i ≠ []) (hc : ':' ∉ i) (h : i ∈ nulls) : ∃ x, read W e (write W s) = .error x := by
  obtain ⟨x, hx⟩ := readComments_fails W e ⟨i, some ("mt.station.".toList ++ "run_list".toList)⟩ (fun z => by
    rw [readOne_text W e z key10 hc, set10]
    unfold setRunList
    rw [if_pos h]
    exact ⟨_, rfl⟩) (stationComments W s) (by
      have : (⟨i, some ("mt.station.".toList ++ "run_list".toList)⟩ : XComment) ∈ textComment "run_list".toList (join [',', ' '] s.runList) := by
        rw [hi]
        unfold textComment
        rw [if_neg (by simpa [join] using h0)]
        simp [join]
      unfold stationComments
      simp only [List.mem_append, this, or_true]) (blank W : Station F ρ)
  refine ⟨x, ?_⟩
  unfold read
  rw [show (write W s).comments = stationComments W s from rfl, hx]
  rfl

example : ∃ t, read W0 0 (write W0 s0) = .ok t ∧ t.runs = s0.runs ∧ t.runList = s0.runs.map Run.id :=
  C284_runs W0 W0_lawful 0 s0 s0_plain s0_named

end Verif.XmlStation
