import Verif.Model.Run
import Verif.Lemmas.OD
import Verif.Lemmas.Sorted
import Mathlib.Data.String.Basic

namespace Verif.Runs

theorem strLe_trans (a b c : String) (h1 : strLe a b = true) (h2 : strLe b c = true) :
    strLe a c = true := by
  simp only [strLe, decide_eq_true_eq] at *
  exact le_trans h1 h2

theorem strLe_total (a b : String) : (strLe a b || strLe b a) = true := by
  simp only [strLe, Bool.or_eq_true, decide_eq_true_eq]
  exact le_total a b

theorem mem_sortNames (l : List String) (n : String) : n ∈ sortNames l ↔ n ∈ l :=
  (pySorted_perm strLe l).mem_iff

theorem sortNames_lt (l : List String) (h : l.Nodup) : (sortNames l).Pairwise (· < ·) := by
  have h1 := pySorted_pairwise strLe_trans strLe_total l
  have h2 : (sortNames l).Nodup := (pySorted_perm strLe l).nodup_iff.2 h
  have h3 : (sortNames l).Pairwise (fun a b => strLe a b = true ∧ a ≠ b) :=
    List.pairwise_and_iff.2 ⟨h1, h2⟩
  refine h3.imp ?_
  intro a b hab
  simp only [strLe, decide_eq_true_eq] at hab
  exact lt_of_le_of_ne hab.1 hab.2

/-- Keys are distinct and every channel is stored under its component. -/
structure Inv (r : Run) : Prop where
  wf : OD.WF r.channels
  key : ∀ p ∈ r.channels, p.2.comp = p.1

theorem map_comp_of_inv {r : Run} (h : Inv r) :
    r.channels.map (fun p => p.2.comp) = OD.keys r.channels :=
  List.map_congr_left (fun p hp => h.key p hp)

theorem hasChannel_iff_exists (r : Run) (c : String) :
    hasChannel r c = true ↔ ∃ p ∈ r.channels, p.2.comp = c := by
  simp only [hasChannel, List.contains_iff_mem, recordedAll, mem_sortNames, List.mem_map]

theorem hasChannel_iff {r : Run} (h : Inv r) (c : String) :
    hasChannel r c = true ↔ c ∈ OD.keys r.channels := by
  rw [← map_comp_of_inv h, hasChannel_iff_exists, List.mem_map]

theorem comp_of_get? {r : Run} (h : Inv r) {c : String} {ch : Chan}
    (hg : OD.get? r.channels c = some ch) : ch.comp = c := h.key _ (OD.mem_of_get? hg)

theorem mem_namesOf {r : Run} (h : Inv r) (k : Kind) (n : String) :
    n ∈ namesOf k r ↔ n ≠ reserved k ∧ ∃ ch, OD.get? r.channels n = some ch ∧ ch.kind = k := by
  simp only [namesOf, mem_sortNames, List.mem_map, List.mem_filter, Bool.and_eq_true,
    decide_eq_true_eq, OD.values]
  constructor
  · rintro ⟨ch, ⟨⟨p, hp, rfl⟩, hk, hr⟩, rfl⟩
    refine ⟨hr, p.2, ?_, hk⟩
    rw [h.key p hp]
    exact OD.get?_of_mem h.wf hp
  · rintro ⟨hr, ch, hg, hk⟩
    have hc := comp_of_get? h hg
    exact ⟨ch, ⟨⟨(n, ch), OD.mem_of_get? hg, rfl⟩, hk, by rw [hc]; exact hr⟩, hc⟩

theorem namesOf_lt {r : Run} (h : Inv r) (k : Kind) : (namesOf k r).Pairwise (· < ·) := by
  apply sortNames_lt
  have : ((OD.values r.channels).filter
      (fun ch => decide (ch.kind = k) && decide (ch.comp ≠ reserved k))).map Chan.comp |>.Sublist
      ((OD.values r.channels).map Chan.comp) := List.filter_sublist.map _
  apply this.nodup
  rw [OD.values, List.map_map]
  have e : r.channels.map (Chan.comp ∘ Prod.snd) = OD.keys r.channels := map_comp_of_inv h
  rw [e]; exact h.wf

theorem updateRecorded_of_inv {r : Run} (h : Inv r) :
    updateRecorded r = .ok { r with aux := namesOf .auxiliary r, elec := namesOf .electric r,
                                    mag := namesOf .magnetic r } := by
  unfold updateRecorded
  rw [if_pos]
  intro k _ n hn
  obtain ⟨_, ch, hg, _⟩ := (mem_namesOf h k n).1 hn
  exact OD.mem_keys_of_get? hg

theorem inv_set {r : Run} (h : Inv r) (ch : Chan) (c : String) (hc : ch.comp = c) :
    Inv { r with channels := OD.set r.channels c ch } where
  wf := OD.WF.set h.wf _ _
  key := by
    intro p hp
    have wf : OD.WF (OD.set r.channels c ch) := OD.WF.set h.wf _ _
    have hg := OD.get?_of_mem wf (k := p.1) (v := p.2) hp
    rw [OD.get?_set] at hg
    split at hg
    · next e => simp only [Option.some.injEq] at hg; rw [← hg, hc, e]
    · exact comp_of_get? h hg

theorem inv_erase {r : Run} (h : Inv r) (c : String) :
    Inv { r with channels := OD.erase r.channels c } where
  wf := OD.WF.erase h.wf _
  key := by
    intro p hp
    apply h.key p
    simp only [OD.WF.erase_eq_filter h.wf, List.mem_filter] at hp
    exact hp.1

theorem Chan.update_comp (req : List String) (a b : Chan) : (a.update req b).comp = a.comp := by
  unfold Chan.update; split <;> rfl

theorem Chan.update_kind (req : List String) (a b : Chan) : (a.update req b).kind = a.kind := by
  unfold Chan.update; split <;> rfl

/-- What the channel of that name becomes. -/
def merged (req : List String) (old : Option Chan) (ch : Chan) : Chan :=
  match old with
  | some o => o.update req ch
  | none => ch

theorem putChannel_of_inv {r : Run} (h : Inv r) (req : List String) (ch : Chan) :
    putChannel req r ch = .ok { r with
      channels := OD.set r.channels ch.comp (merged req (OD.get? r.channels ch.comp) ch) } := by
  unfold putChannel
  split
  · next hh =>
    rw [hasChannel_iff h, ← OD.get?_isSome_iff] at hh
    obtain ⟨o, ho⟩ := Option.isSome_iff_exists.1 hh
    rw [ho]; rfl
  · next hh =>
    rw [hasChannel_iff h, ← OD.get?_eq_none_iff] at hh
    rw [hh]; rfl

theorem merged_comp {r : Run} (h : Inv r) (req : List String) (ch : Chan) :
    (merged req (OD.get? r.channels ch.comp) ch).comp = ch.comp := by
  cases hg : OD.get? r.channels ch.comp with
  | none => rfl
  | some o => simp only [merged, Chan.update_comp]; exact comp_of_get? h hg

/-- The three lists are exactly the stored names of each class. -/
def InSync (r : Run) : Prop :=
  r.aux = namesOf .auxiliary r ∧ r.elec = namesOf .electric r ∧ r.mag = namesOf .magnetic r

theorem addChannel_of_inv {r : Run} (h : Inv r) (req : List String) (ch : Chan) (upd : Bool) :
    ∃ r', addChannel req r ch upd = .ok r' ∧ Inv r' ∧ InSync r' ∧
      r'.channels = OD.set r.channels ch.comp (merged req (OD.get? r.channels ch.comp) ch) := by
  have h1 := inv_set h (merged req (OD.get? r.channels ch.comp) ch) ch.comp (merged_comp h req ch)
  unfold addChannel
  rw [putChannel_of_inv h]
  simp only
  rw [updateRecorded_of_inv h1]
  simp only
  refine ⟨_, rfl, ?_⟩
  cases upd
  · exact ⟨⟨h1.wf, h1.key⟩, ⟨rfl, rfl, rfl⟩, rfl⟩
  · exact ⟨⟨h1.wf, h1.key⟩, ⟨rfl, rfl, rfl⟩, rfl⟩

theorem removeChannel_of_inv {r : Run} (h : Inv r) (c : String) :
    ∃ r', removeChannel r c = .ok r' ∧ Inv r' ∧
      ((c ∈ OD.keys r.channels ∧ InSync r' ∧ r'.start = r.start ∧ r'.stop = r.stop) ∨
        (c ∉ OD.keys r.channels ∧ r' = r)) ∧
      r'.channels = OD.erase r.channels c := by
  unfold removeChannel
  split
  · next hh =>
    rw [hasChannel_iff h] at hh
    have h1 := inv_erase h c
    rw [if_pos hh, updateRecorded_of_inv h1]
    exact ⟨_, rfl, ⟨h1.wf, h1.key⟩, Or.inl ⟨hh, ⟨rfl, rfl, rfl⟩, rfl, rfl⟩, rfl⟩
  · next hh =>
    rw [hasChannel_iff h] at hh
    exact ⟨r, rfl, h, Or.inr ⟨hh, rfl⟩, (OD.erase_of_not_mem hh).symm⟩

theorem inv_extend {r : Run} (h : Inv r) (l : OD String Chan) (hl : ∀ p ∈ l, p.2.comp = p.1) :
    Inv { r with channels := l.foldl (fun (acc : OD String Chan) p => OD.set acc p.1 p.2) r.channels } := by
  induction l generalizing r with
  | nil => exact ⟨h.wf, h.key⟩
  | cons p l ih =>
    have h1 := inv_set h p.2 p.1 (hl p (by simp))
    exact ih h1 (fun q hq => hl q (by simp [hq]))

theorem merge_of_inv {r o : Run} (h : Inv r) (ho : Inv o) (inplace : Bool) :
    ∃ r' ret, merge r o inplace = .ok (r', ret) ∧ Inv r' ∧ InSync r' ∧
      r'.channels = o.channels.foldl (fun (acc : OD String Chan) p => OD.set acc p.1 p.2) r.channels ∧
      (inplace = false → ret = some r') := by
  have h1 := inv_extend h o.channels ho.key
  unfold merge
  rw [updateRecorded_of_inv h1]
  simp only
  cases inplace
  · exact ⟨_, _, rfl, ⟨h1.wf, h1.key⟩, ⟨rfl, rfl, rfl⟩, rfl, fun _ => rfl⟩
  · exact ⟨_, _, rfl, ⟨h1.wf, h1.key⟩, ⟨rfl, rfl, rfl⟩, rfl, fun h => by simp at h⟩

theorem ensureAll_of_inv (req : List String) (k : Kind) (ns : List String) {r : Run} (h : Inv r) :
    ∃ r', ensureAll req k ns r = .ok r' ∧ Inv r' ∧
      (∀ n, n ∈ OD.keys r.channels → OD.get? r'.channels n = OD.get? r.channels n) ∧
      (∀ n, n ∈ OD.keys r'.channels ↔ n ∈ OD.keys r.channels ∨ n ∈ ns) ∧
      (r' = r ∨ InSync r') := by
  induction ns generalizing r with
  | nil => exact ⟨r, rfl, h, fun _ _ => rfl, by simp, Or.inl rfl⟩
  | cons n ns ih =>
    unfold ensureAll ensure
    by_cases hn : n ∈ OD.keys r.channels
    · rw [if_pos hn]
      obtain ⟨r', e, hi, h1, h2, h3⟩ := ih h
      refine ⟨r', e, hi, h1, ?_, h3⟩
      intro m
      rw [h2, List.mem_cons]
      constructor
      · rintro (h | h)
        · exact Or.inl h
        · exact Or.inr (Or.inr h)
      · rintro (h | h | h)
        · exact Or.inl h
        · exact Or.inl (h ▸ hn)
        · exact Or.inr h
    · rw [if_neg hn]
      obtain ⟨r1, e1, hi1, hs1, hc1⟩ := addChannel_of_inv h req { comp := n, kind := k } true
      rw [e1]
      simp only
      obtain ⟨r', e, hi, h1, h2, h3⟩ := ih hi1
      have hk1 : ∀ m, m ∈ OD.keys r1.channels ↔ m = n ∨ m ∈ OD.keys r.channels := by
        intro m; rw [hc1, OD.mem_keys_set]
      refine ⟨r', e, hi, ?_, ?_, ?_⟩
      · intro m hm
        rw [h1 m ((hk1 m).2 (Or.inr hm)), hc1, OD.get?_set_ne]
        intro (e : m = n); exact hn (e ▸ hm)
      · intro m
        rw [h2, hk1, List.mem_cons]
        tauto
      · rcases h3 with h3 | h3
        · rw [h3]; exact Or.inr hs1
        · exact Or.inr h3

/-- Every listed name has a channel. -/
def Listed (r : Run) : Prop :=
  (∀ n ∈ r.elec, n ∈ OD.keys r.channels) ∧ (∀ n ∈ r.mag, n ∈ OD.keys r.channels) ∧
    (∀ n ∈ r.aux, n ∈ OD.keys r.channels)

theorem namesOf_sub {r : Run} (h : Inv r) (k : Kind) : ∀ n ∈ namesOf k r, n ∈ OD.keys r.channels := by
  intro n hn
  obtain ⟨_, ch, hg, _⟩ := (mem_namesOf h k n).1 hn
  exact OD.mem_keys_of_get? hg

theorem InSync.listed {r : Run} (h : Inv r) (hs : InSync r) : Listed r := by
  obtain ⟨h1, h2, h3⟩ := hs
  refine ⟨?_, ?_, ?_⟩
  · rw [h2]; exact namesOf_sub h _
  · rw [h3]; exact namesOf_sub h _
  · rw [h1]; exact namesOf_sub h _

theorem ensureAll_noop (req : List String) (k : Kind) (ns : List String) (r : Run)
    (h : ∀ n ∈ ns, n ∈ OD.keys r.channels) : ensureAll req k ns r = .ok r := by
  induction ns with
  | nil => rfl
  | cons n ns ih =>
    unfold ensureAll ensure
    rw [if_pos (h n (by simp))]
    exact ih (fun m hm => h m (by simp [hm]))

theorem validate_noop (req : List String) (r : Run) (h : Listed r) : validate req r = .ok r := by
  unfold validate
  rw [ensureAll_noop req _ _ r h.1]
  simp only
  rw [ensureAll_noop req _ _ r h.2.1]
  simp only
  rw [ensureAll_noop req _ _ r h.2.2]

/-- The state right after the list was stored, before the validator. -/
def stored (k : Kind) (ns : List String) (r : Run) : Run :=
  match k with
  | .electric => { r with elec := ns }
  | .magnetic => { r with mag := ns }
  | .auxiliary => { r with aux := ns }

theorem stored_channels (k : Kind) (ns : List String) (r : Run) :
    (stored k ns r).channels = r.channels := by cases k <;> rfl

/-- Assigning a list creates the missing channels and changes no existing one. -/
theorem assignList_of_inv (req : List String) (k : Kind) (ns : List String) {r : Run} (h : Inv r)
    (hl : Listed r) :
    ∃ r', assignList req k ns r = .ok r' ∧ Inv r' ∧ Listed r' ∧
      (∀ n, n ∈ OD.keys r.channels → OD.get? r'.channels n = OD.get? r.channels n) ∧
      (∀ n, n ∈ OD.keys r'.channels ↔ n ∈ OD.keys r.channels ∨ n ∈ ns) ∧
      (r' = stored k ns r ∨ InSync r') := by
  have h0 : Inv (stored k ns r) := ⟨by rw [stored_channels]; exact h.wf, by
    rw [stored_channels]; exact h.key⟩
  obtain ⟨r1, e1, i1, a1, b1, c1⟩ := ensureAll_of_inv req k ns h0
  have hl1 : Listed r1 := by
    rcases c1 with c | c
    · subst c
      simp only [stored_channels] at b1
      have hns : ∀ n ∈ ns, n ∈ OD.keys r.channels := fun n hn => (b1 n).2 (Or.inr hn)
      cases k
      · exact ⟨hns, hl.2.1, hl.2.2⟩
      · exact ⟨hl.1, hns, hl.2.2⟩
      · exact ⟨hl.1, hl.2.1, hns⟩
    · exact c.listed i1
  simp only [stored_channels] at a1 b1
  refine ⟨r1, ?_, i1, hl1, a1, b1, c1⟩
  have : assignList req k ns r = validate req (stored k ns r) := by cases k <;> rfl
  rw [this]
  unfold validate
  cases k with
  | electric =>
    have e : ensureAll req .electric (stored .electric ns r).elec (stored .electric ns r) = .ok r1 := e1
    rw [e]
    simp only [ensureAll_noop req _ _ r1 hl1.2.1, ensureAll_noop req _ _ r1 hl1.2.2]
  | magnetic =>
    have e0 : ensureAll req .electric (stored .magnetic ns r).elec (stored .magnetic ns r) =
        .ok (stored .magnetic ns r) := ensureAll_noop req _ _ _ hl.1
    have e : ensureAll req .magnetic (stored .magnetic ns r).mag (stored .magnetic ns r) = .ok r1 := e1
    rw [e0]
    simp only [e, ensureAll_noop req _ _ r1 hl1.2.2]
  | auxiliary =>
    have e0 : ensureAll req .electric (stored .auxiliary ns r).elec (stored .auxiliary ns r) =
        .ok (stored .auxiliary ns r) := ensureAll_noop req _ _ _ hl.1
    have e2 : ensureAll req .magnetic (stored .auxiliary ns r).mag (stored .auxiliary ns r) =
        .ok (stored .auxiliary ns r) := ensureAll_noop req _ _ _ hl.2.1
    have e : ensureAll req .auxiliary (stored .auxiliary ns r).aux (stored .auxiliary ns r) = .ok r1 := e1
    rw [e0]
    simp only [e2, e]

theorem updateList_of_inv (req : List String) (k : Kind) (ns : List String) {r : Run} (h : Inv r)
    (hl : Listed r) :
    ∃ r', updateList req k ns r = .ok r' ∧ Inv r' ∧ Listed r' ∧
      (∀ n, n ∈ OD.keys r.channels → OD.get? r'.channels n = OD.get? r.channels n) ∧
      (∀ n, n ∈ OD.keys r'.channels ↔ n ∈ OD.keys r.channels ∨ n ∈ ns) ∧
      (ns = [] → r' = r) := by
  unfold updateList
  split
  · next e => subst e; exact ⟨r, rfl, h, hl, fun _ _ => rfl, by simp, fun _ => rfl⟩
  · next e =>
    obtain ⟨r', e1, i1, l1, a1, b1, _⟩ := assignList_of_inv req k ns h hl
    exact ⟨r', e1, i1, l1, a1, b1, fun h => absurd h e⟩

theorem addAll_of_inv (req : List String) (chs : List Chan) {r : Run} (h : Inv r) :
    ∃ r', addAll req chs r = .ok r' ∧ Inv r' ∧ (chs ≠ [] → InSync r') ∧ (chs = [] → r' = r) ∧
      (∀ n, n ∈ OD.keys r'.channels ↔ n ∈ OD.keys r.channels ∨ n ∈ chs.map Chan.comp) := by
  induction chs generalizing r with
  | nil => exact ⟨r, rfl, h, fun h => absurd rfl h, fun _ => rfl, by simp⟩
  | cons ch chs ih =>
    obtain ⟨r1, e1, i1, s1, c1⟩ := addChannel_of_inv h req ch true
    obtain ⟨r', e, i, s, n0, k⟩ := ih i1
    refine ⟨r', ?_, i, ?_, fun h => by simp at h, ?_⟩
    · unfold addAll; rw [e1]; exact e
    · intro _
      by_cases hc : chs = []
      · rw [n0 hc]; exact s1
      · exact s hc
    · intro n
      rw [k, c1, OD.mem_keys_set, List.map_cons, List.mem_cons]
      tauto

theorem update_of_inv (req : List String) {r o : Run} (h : Inv r) (hs : InSync r) (ho : Inv o)
    (hso : InSync o) :
    ∃ r', update req r o = .ok r' ∧ Inv r' ∧ InSync r' ∧
      (∀ n, n ∈ OD.keys r'.channels ↔ n ∈ OD.keys r.channels ∨ n ∈ OD.keys o.channels) := by
  have hlo := hso.listed ho
  obtain ⟨r1, e1, i1, l1, _, b1, z1⟩ := updateList_of_inv req .auxiliary o.aux h (hs.listed h)
  obtain ⟨r2, e2, i2, l2, _, b2, z2⟩ := updateList_of_inv req .electric o.elec i1 l1
  obtain ⟨r3, e3, i3, l3, _, b3, z3⟩ := updateList_of_inv req .magnetic o.mag i2 l2
  have i4 : Inv { r3 with
      stop := if o.stop = 0 then r3.stop else o.stop
      start := if o.start = 0 then r3.start else o.start } := ⟨i3.wf, i3.key⟩
  obtain ⟨r', e, i, s, z, k⟩ := addAll_of_inv req (OD.values o.channels) i4
  refine ⟨r', ?_, i, ?_, ?_⟩
  · unfold update; rw [e1]; simp only [e2, e3]; exact e
  · by_cases hc : OD.values o.channels = []
    · have hoc : o.channels = [] := by simpa [OD.values] using hc
      have hk : ∀ k, namesOf k o = [] := by
        intro k; simp [namesOf, hoc, OD.values, sortNames, pySorted]
      rw [z hc, z3 (by rw [hso.2.2, hk]), z2 (by rw [hso.2.1, hk]), z1 (by rw [hso.1, hk])]
      exact hs
    · exact s hc
  · intro n
    have hv : (OD.values o.channels).map Chan.comp = OD.keys o.channels := by
      rw [← map_comp_of_inv ho, OD.values, List.map_map]; rfl
    rw [k, b3, b2, b1, hv]
    constructor
    · rintro ((((h | h) | h) | h) | h)
      · exact Or.inl h
      · exact Or.inr (hlo.2.2 n h)
      · exact Or.inr (hlo.1 n h)
      · exact Or.inr (hlo.2.1 n h)
      · exact Or.inr h
    · rintro (h | h)
      · exact Or.inl (Or.inl (Or.inl (Or.inl h)))
      · exact Or.inr h

/-! ### Time periods -/

theorem minList_le (m : Int) (l : List Int) : minList m l ≤ m ∧ ∀ x ∈ l, minList m l ≤ x := by
  induction l generalizing m with
  | nil => simp [minList]
  | cons y l ih =>
    unfold minList
    obtain ⟨h1, h2⟩ := ih (if y < m then y else m)
    have h3 : (if y < m then y else m) ≤ m ∧ (if y < m then y else m) ≤ y := by
      split <;> constructor <;> omega
    refine ⟨by omega, ?_⟩
    intro x hx
    rcases List.mem_cons.1 hx with rfl | hx
    · omega
    · exact h2 x hx

theorem minList_mem (m : Int) (l : List Int) : minList m l = m ∨ minList m l ∈ l := by
  induction l generalizing m with
  | nil => simp [minList]
  | cons y l ih =>
    unfold minList
    rcases ih (if y < m then y else m) with h | h
    · rw [h]; split <;> simp
    · exact Or.inr (List.mem_cons_of_mem _ h)

theorem le_maxList (m : Int) (l : List Int) : m ≤ maxList m l ∧ ∀ x ∈ l, x ≤ maxList m l := by
  induction l generalizing m with
  | nil => simp [maxList]
  | cons y l ih =>
    unfold maxList
    obtain ⟨h1, h2⟩ := ih (if m < y then y else m)
    have h3 : (if m < y then y else m) ≥ m ∧ (if m < y then y else m) ≥ y := by
      split <;> constructor <;> omega
    refine ⟨by omega, ?_⟩
    intro x hx
    rcases List.mem_cons.1 hx with rfl | hx
    · omega
    · exact h2 x hx

theorem maxList_mem (m : Int) (l : List Int) : maxList m l = m ∨ maxList m l ∈ l := by
  induction l generalizing m with
  | nil => simp [maxList]
  | cons y l ih =>
    unfold maxList
    rcases ih (if m < y then y else m) with h | h
    · rw [h]; split <;> simp
    · exact Or.inr (List.mem_cons_of_mem _ h)

/-- The new start: not later than any listed start, not later than a set own start, and
one of these values. -/
theorem newStart_spec (own : Int) (l : List Int) :
    (∀ x ∈ l, newStart own l ≤ x) ∧ (own ≠ 0 → newStart own l ≤ own) ∧
      (newStart own l = own ∨ newStart own l ∈ l) ∧ (own = 0 → l ≠ [] → newStart own l ∈ l) := by
  cases l with
  | nil => simp [newStart]
  | cons x xs =>
    have h1 := minList_le x xs
    have h2 : minList x xs ∈ x :: xs := by
      rcases minList_mem x xs with h | h
      · rw [h]; simp
      · simp [h]
    have h3 : ∀ y ∈ x :: xs, minList x xs ≤ y := by
      intro y hy
      rcases List.mem_cons.1 hy with rfl | hy
      · exact h1.1
      · exact h1.2 y hy
    have e : newStart own (x :: xs) = if own = 0 then minList x xs else if minList x xs < own then minList x xs else own := rfl
    rw [e]
    split
    · exact ⟨h3, fun h => absurd ‹own = 0› h, Or.inr h2, fun _ _ => h2⟩
    · next hne =>
      split
      · next hlt => exact ⟨h3, fun _ => by omega, Or.inr h2, fun h => absurd h hne⟩
      · next hge =>
        refine ⟨fun y hy => ?_, fun _ => by omega, Or.inl rfl, fun h => absurd h hne⟩
        have := h3 y hy
        omega

theorem newStop_spec (own : Int) (l : List Int) :
    (∀ x ∈ l, x ≤ newStop own l) ∧ (own ≠ 0 → own ≤ newStop own l) ∧
      (newStop own l = own ∨ newStop own l ∈ l) ∧ (own = 0 → l ≠ [] → newStop own l ∈ l) := by
  cases l with
  | nil => simp [newStop]
  | cons x xs =>
    have h1 := le_maxList x xs
    have h2 : maxList x xs ∈ x :: xs := by
      rcases maxList_mem x xs with h | h
      · rw [h]; simp
      · simp [h]
    have h3 : ∀ y ∈ x :: xs, y ≤ maxList x xs := by
      intro y hy
      rcases List.mem_cons.1 hy with rfl | hy
      · exact h1.1
      · exact h1.2 y hy
    have e : newStop own (x :: xs) = if own = 0 then maxList x xs else if own < maxList x xs then maxList x xs else own := rfl
    rw [e]
    split
    · exact ⟨h3, fun h => absurd ‹own = 0› h, Or.inr h2, fun _ _ => h2⟩
    · next hne =>
      split
      · next hlt => exact ⟨h3, fun _ => by omega, Or.inr h2, fun h => absurd h hne⟩
      · next hge =>
        refine ⟨fun y hy => ?_, fun _ => by omega, Or.inl rfl, fun h => absurd h hne⟩
        have := h3 y hy
        omega

theorem newStart_idem (own : Int) (l : List Int) (hl : (0 : Int) ∉ l) :
    newStart (newStart own l) l = newStart own l := by
  cases l with
  | nil => rfl
  | cons x xs =>
    have s := newStart_spec own (x :: xs)
    have t := newStart_spec (newStart own (x :: xs)) (x :: xs)
    have hne : newStart own (x :: xs) ≠ 0 := by
      intro e
      by_cases h0 : own = 0
      · exact hl (e ▸ s.2.2.2 h0 (by simp))
      · rcases s.2.2.1 with h | h
        · exact h0 (h ▸ e)
        · exact hl (e ▸ h)
    rcases t.2.2.1 with h | h
    · exact h
    · have h1 := s.1 _ h
      have h2 := t.2.1 hne
      omega

theorem newStop_idem (own : Int) (l : List Int) (hl : (0 : Int) ∉ l) :
    newStop (newStop own l) l = newStop own l := by
  cases l with
  | nil => rfl
  | cons x xs =>
    have s := newStop_spec own (x :: xs)
    have t := newStop_spec (newStop own (x :: xs)) (x :: xs)
    have hne : newStop own (x :: xs) ≠ 0 := by
      intro e
      by_cases h0 : own = 0
      · exact hl (e ▸ s.2.2.2 h0 (by simp))
      · rcases s.2.2.1 with h | h
        · exact h0 (h ▸ e)
        · exact hl (e ▸ h)
    rcases t.2.2.1 with h | h
    · exact h
    · have h1 := s.1 _ h
      have h2 := t.2.1 hne
      omega

end Verif.Runs
