import Verif.Model.FC
import Verif.Lemmas.OD
import Verif.Lemmas.Run

/-!
Properties C61-C63: bookkeeping of Fourier coefficient channels and levels.
-/

namespace Verif.FCs
open Verif.Runs (newStart newStop newStart_spec newStop_spec)

/-- Iterating over a set lists its elements in some order. -/
def SomeOrder (ord : List String → List String) : Prop := ∀ l, (ord l).Perm l

/-! ### C61 -/

/-- C61 as a claim: after any history of adding and removing channels, exactly the stored channels are
reported. -/
def C61_claim : Prop :=
  ∀ (ord : List String → List String) (req : List String) (ops : List Op) (d : Dec),
    SomeOrder ord → (∀ o ∈ ops, (∃ c, o = .add c) ∨ ∃ n, o = .remove n) →
    Hist ord req {} ops d → ∀ c, hasChannel d c = true ↔ c ∈ OD.keys d.channels

def chEx : FcChan := { comp := "ex", start := 5, stop := 9 }

/-- The level after `add_channel(FCChannel(component="ex"))`. -/
def decEx : Dec := { channels := [("ex", chEx)], start := 5, stop := 9 }

theorem decEx_hist : Hist id [] {} [.add chEx] decEx := .cons (by decide +kernel) (.nil _)

/-- C61 is false of the code: `add_channel` does not list the channel it stores. -/
theorem C61_refuted : ¬ C61_claim := by
  intro h
  have := (h id [] [.add chEx] decEx (fun _ => List.Perm.refl _) (by simp) decEx_hist "ex").2
    (by decide +kernel)
  revert this
  decide +kernel

theorem mem_keys_foldl (ns : List String) : ∀ (d : OD String FcChan) (k : String),
    k ∈ OD.keys (ns.foldl (fun (acc : OD String FcChan) n => OD.set acc n { comp := n }) d) ↔
      k ∈ OD.keys d ∨ k ∈ ns := by
  induction ns with
  | nil => intro d k; simp
  | cons n ns ih =>
    intro d k
    rw [List.foldl_cons, ih, OD.mem_keys_set, List.mem_cons]
    constructor
    · rintro ((h | h) | h)
      · exact Or.inr (Or.inl h)
      · exact Or.inl h
      · exact Or.inr (Or.inr h)
    · rintro (h | h | h)
      · exact Or.inl (Or.inr h)
      · exact Or.inl (Or.inl h)
      · exact Or.inr h

theorem wf_foldl (ns : List String) : ∀ (d : OD String FcChan), OD.WF d →
    OD.WF (ns.foldl (fun (acc : OD String FcChan) n => OD.set acc n { comp := n }) d) := by
  induction ns with
  | nil => intro d h; exact h
  | cons n ns ih => intro d h; rw [List.foldl_cons]; exact ih _ (OD.WF.set h _ _)

theorem get?_foldl (ns : List String) : ∀ (d : OD String FcChan) (k : String), k ∉ ns →
    OD.get? (ns.foldl (fun (acc : OD String FcChan) n => OD.set acc n { comp := n }) d) k =
      OD.get? d k := by
  induction ns with
  | nil => intro d k _; rfl
  | cons n ns ih =>
    intro d k hk
    rw [List.foldl_cons, ih _ _ (fun h => hk (by simp [h])),
      OD.get?_set_ne _ _ (fun h => hk (by simp [h]))]

theorem mem_missing (d : Dec) (n : String) :
    n ∈ missing d ↔ n ∈ d.estimated ∧ n ∉ OD.keys d.channels := by
  simp [missing, List.mem_eraseDups]

theorem mem_extra (d : Dec) (n : String) :
    n ∈ extra d ↔ n ∈ OD.keys d.channels ∧ n ∉ d.estimated := by
  simp [extra]

theorem mem_keys_sync {ord : List String → List String} (ho : SomeOrder ord) (d : Dec) (c : String) :
    c ∈ OD.keys (sync ord d).channels ↔ c ∈ OD.keys d.channels ∨ c ∈ d.estimated := by
  simp only [sync]
  rw [mem_keys_foldl, (ho _).mem_iff, mem_missing]
  constructor
  · rintro (h | h)
    · exact Or.inl h
    · exact Or.inr h.1
  · intro h
    by_cases hk : c ∈ OD.keys d.channels
    · exact Or.inl hk
    · rcases h with h | h
      · exact Or.inl h
      · exact Or.inr ⟨h, hk⟩

theorem mem_est_sync {ord : List String → List String} (ho : SomeOrder ord) (d : Dec) (c : String) :
    c ∈ (sync ord d).estimated ↔ c ∈ d.estimated ∨ c ∈ OD.keys d.channels := by
  simp only [sync]
  rw [List.mem_append, (ho _).mem_iff, mem_extra]
  constructor
  · rintro (h | h)
    · exact Or.inl h
    · exact Or.inr h.1
  · intro h
    by_cases hk : c ∈ d.estimated
    · exact Or.inl hk
    · rcases h with h | h
      · exact Or.inl h
      · exact Or.inr ⟨h, hk⟩

/-- C61: after assigning any attribute of the level, exactly the stored channels are reported: those
stored before and those listed before. Stored channels are kept as they are. -/
theorem C61_assign_partial (ord : List String → List String) (ho : SomeOrder ord) (d : Dec)
    (c : String) :
    (hasChannel (sync ord d) c = true ↔ c ∈ OD.keys (sync ord d).channels) ∧
    (hasChannel (sync ord d) c = true ↔ c ∈ d.estimated ∨ c ∈ OD.keys d.channels) ∧
    (∀ ch, OD.get? d.channels c = some ch → OD.get? (sync ord d).channels c = some ch) := by
  have h1 : hasChannel (sync ord d) c = true ↔ c ∈ (sync ord d).estimated := by simp [hasChannel]
  refine ⟨?_, ?_, ?_⟩
  · rw [h1, mem_est_sync ho, mem_keys_sync ho, or_comm]
  · rw [h1, mem_est_sync ho]
  · intro ch hc
    simp only [sync]
    rw [get?_foldl]
    · exact hc
    · rw [(ho _).mem_iff, mem_missing]
      exact fun h => h.2 (OD.mem_keys_of_get? hc)

/-- What holds between calls: the names listed are distinct and stored. -/
structure Inv (d : Dec) : Prop where
  wf : OD.WF d.channels
  nodup : d.estimated.Nodup
  sub : ∀ c ∈ d.estimated, c ∈ OD.keys d.channels

theorem inv_sync {ord : List String → List String} (ho : SomeOrder ord) {d : Dec}
    (wf : OD.WF d.channels) (nd : d.estimated.Nodup) : Inv (sync ord d) where
  wf := wf_foldl _ _ wf
  nodup := by
    simp only [sync]
    rw [List.nodup_append]
    refine ⟨nd, ?_, ?_⟩
    · rw [(ho _).nodup_iff]
      exact wf.filter _
    · intro a ha b hb hab
      rw [(ho _).mem_iff, mem_extra] at hb
      exact hb.2 (hab ▸ ha)
  sub := by
    intro c hc
    rw [mem_est_sync ho] at hc
    rw [mem_keys_sync ho]
    exact hc.symm

theorem inv_updateTime {d : Dec} (h : Inv d) : Inv (updateTime d) := ⟨h.wf, h.nodup, h.sub⟩

theorem addChannel_ok {d : Dec} (req : List String) (h : Inv d) (ch : FcChan) :
    ∃ d', addChannel req d ch = .ok d' ∧ Inv d' ∧ d'.estimated = d.estimated ∧
      (∀ c, c ∈ OD.keys d'.channels ↔ c = ch.comp ∨ c ∈ OD.keys d.channels) := by
  unfold addChannel
  by_cases hh : hasChannel d ch.comp = true
  · rw [if_pos hh]
    have hm : ch.comp ∈ OD.keys d.channels := h.sub _ (by simpa [hasChannel] using hh)
    obtain ⟨old, ho⟩ := Option.isSome_iff_exists.1 ((OD.get?_isSome_iff _ _).2 hm)
    simp only [ho]
    refine ⟨_, rfl, inv_updateTime ⟨OD.WF.set h.wf _ _, h.nodup, ?_⟩, rfl, ?_⟩
    · intro c hc; exact (OD.mem_keys_set _ _ _ _).2 (Or.inr (h.sub c hc))
    · intro c; exact (OD.mem_keys_set _ _ _ _)
  · rw [if_neg hh]
    refine ⟨_, rfl, inv_updateTime ⟨OD.WF.set h.wf _ _, h.nodup, ?_⟩, rfl, ?_⟩
    · intro c hc; exact (OD.mem_keys_set _ _ _ _).2 (Or.inr (h.sub c hc))
    · intro c; exact (OD.mem_keys_set _ _ _ _)

theorem removeChannel_ok {d : Dec} (h : Inv d) (c : String) :
    ∃ d', removeChannel d c = .ok d' ∧ Inv d' ∧
      (c ∈ d.estimated → d'.estimated = d.estimated.erase c ∧
        d'.channels = OD.erase d.channels c) ∧
      (c ∉ d.estimated → d'.estimated = d.estimated ∧ d'.channels = d.channels) := by
  unfold removeChannel
  by_cases hh : hasChannel d c = true
  · have he : c ∈ d.estimated := by simpa [hasChannel] using hh
    rw [if_pos hh, if_pos (h.sub c he)]
    refine ⟨_, rfl, inv_updateTime ⟨OD.WF.erase h.wf _, h.nodup.erase _, ?_⟩, fun _ => ⟨rfl, rfl⟩,
      fun hc => absurd he hc⟩
    intro x hx
    simp only at hx ⊢
    rw [OD.keys_erase]
    have hx' := (List.Nodup.mem_erase_iff h.nodup).1 hx
    exact (List.Nodup.mem_erase_iff h.wf).2 ⟨hx'.1, h.sub x hx'.2⟩
  · have he : c ∉ d.estimated := by simpa [hasChannel] using hh
    rw [if_neg hh]
    exact ⟨_, rfl, inv_updateTime h, fun hc => absurd hc he, fun _ => ⟨rfl, rfl⟩⟩

/-- A call that assigns no list with a name in it twice. -/
def Op.Distinct : Op → Prop
  | .setEstimated names => names.Nodup
  | _ => True

theorem step_ok {ord : List String → List String} (ho : SomeOrder ord) (req : List String) {d : Dec}
    (h : Inv d) (o : Op) (hd : o.Distinct) : ∃ d', step ord req d o = .ok d' ∧ Inv d' := by
  cases o with
  | add ch => obtain ⟨d', h1, h2, _⟩ := addChannel_ok req h ch; exact ⟨d', h1, h2⟩
  | remove c => obtain ⟨d', h1, h2, _⟩ := removeChannel_ok h c; exact ⟨d', h1, h2⟩
  | touch => exact ⟨_, rfl, inv_sync ho h.wf h.nodup⟩
  | setEstimated names => exact ⟨_, rfl, inv_sync ho h.wf hd⟩
  | setChannels chs => exact ⟨_, rfl, inv_sync ho (OD.WF_ofPairs _) h.nodup⟩

theorem inv_empty : Inv {} := ⟨OD.WF_nil, List.nodup_nil, by simp⟩

theorem hist_inv {ord : List String → List String} (ho : SomeOrder ord) {req : List String}
    {d d' : Dec} {ops : List Op} (hh : Hist ord req d ops d') (h : Inv d)
    (hd : ∀ o ∈ ops, o.Distinct) : Inv d' := by
  induction hh with
  | nil d => exact h
  | cons hs _ ih =>
    obtain ⟨d1, e, i⟩ := step_ok ho req h _ (hd _ List.mem_cons_self)
    rw [hs] at e
    cases e
    exact ih i (fun o ho => hd o (by simp [ho]))

/-- C61: no history of calls raises (no list with a repeated name being assigned). -/
theorem C61_total_partial (ord : List String → List String) (ho : SomeOrder ord)
    (req : List String) (ops : List Op) (hd : ∀ o ∈ ops, o.Distinct) :
    ∃ d, Hist ord req {} ops d := by
  have key : ∀ (ops : List Op) (d : Dec), Inv d → (∀ o ∈ ops, o.Distinct) →
      ∃ d', Hist ord req d ops d' := by
    intro ops
    induction ops with
    | nil => intro d _ _; exact ⟨d, .nil d⟩
    | cons o os ih =>
      intro d h hd
      obtain ⟨d1, e, i⟩ := step_ok ho req h o (hd o (by simp))
      obtain ⟨d2, h2⟩ := ih d1 i (fun x hx => hd x (by simp [hx]))
      exact ⟨d2, .cons e h2⟩
  exact key ops {} inv_empty hd

/-- C61: after any history, a channel that is reported is stored and `get_channel` returns it. -/
theorem C61_reported_partial (ord : List String → List String) (ho : SomeOrder ord)
    (req : List String) (ops : List Op) (hd : ∀ o ∈ ops, o.Distinct) (d : Dec)
    (hh : Hist ord req {} ops d) (c : String) (hc : hasChannel d c = true) :
    ∃ ch, OD.get? d.channels c = some ch ∧ getChannel d c = .ok (some ch) := by
  have i := hist_inv ho hh inv_empty hd
  have hm := i.sub c (by simpa [hasChannel] using hc)
  obtain ⟨ch, h⟩ := Option.isSome_iff_exists.1 ((OD.get?_isSome_iff _ _).2 hm)
  exact ⟨ch, h, by simp only [getChannel, if_pos hc, h]⟩

/-- C61: after any history ending in an assignment, exactly the stored channels are reported. -/
theorem C61_synced_partial (ord : List String → List String) (ho : SomeOrder ord)
    (req : List String) (ops : List Op) (d : Dec) (hh : Hist ord req {} (ops ++ [.touch]) d)
    (c : String) : hasChannel d c = true ↔ c ∈ OD.keys d.channels := by
  have key : ∀ (ops : List Op) (e : Dec), Hist ord req e (ops ++ [.touch]) d → ∃ e', d = sync ord e' := by
    intro ops
    induction ops with
    | nil =>
      intro e h
      cases h with
      | cons hs hr =>
        cases hr
        simp only [step, Except.ok.injEq] at hs
        exact ⟨e, hs.symm⟩
    | cons o os ih =>
      intro e h
      cases h with
      | cons hs hr => exact ih _ hr
  obtain ⟨e, rfl⟩ := key ops {} hh
  exact (C61_assign_partial ord ho e c).1

/-- C61: the effect of one `add_channel`: the channel is stored, the report does not change. -/
theorem C61_add_partial (req : List String) (d : Dec) (ch : FcChan) (d' : Dec)
    (h : addChannel req d ch = .ok d') :
    ch.comp ∈ OD.keys d'.channels ∧ (∀ c, hasChannel d' c = hasChannel d c) ∧
      (∀ c, c ≠ ch.comp → OD.get? d'.channels c = OD.get? d.channels c) ∧
      (hasChannel d ch.comp = false → OD.get? d'.channels ch.comp = some ch) := by
  unfold addChannel at h
  by_cases hh : hasChannel d ch.comp = true
  · rw [if_pos hh] at h
    cases ho : OD.get? d.channels ch.comp with
    | none => simp only [ho] at h; cases h
    | some old =>
      simp only [ho, Except.ok.injEq] at h
      subst h
      refine ⟨(OD.mem_keys_set _ _ _ _).2 (Or.inl rfl), fun _ => rfl, ?_, ?_⟩
      · intro c hc; exact OD.get?_set_ne _ _ hc
      · intro hf; rw [hh] at hf; cases hf
  · rw [if_neg hh, Except.ok.injEq] at h
    subst h
    refine ⟨(OD.mem_keys_set _ _ _ _).2 (Or.inl rfl), fun _ => rfl, ?_, ?_⟩
    · intro c hc; exact OD.get?_set_ne _ _ hc
    · intro _; exact OD.get?_set_self _ _ _

/-- C61: `remove_channel` removes a channel that is reported from both lists, and nothing else; one
that is only stored stays. -/
theorem C61_remove_partial (ord : List String → List String) (ho : SomeOrder ord)
    (req : List String) (ops : List Op) (hd : ∀ o ∈ ops, o.Distinct) (d : Dec)
    (hh : Hist ord req {} ops d) (c : String) :
    ∃ d', removeChannel d c = .ok d' ∧ hasChannel d' c = false ∧
      (∀ x, x ≠ c → hasChannel d' x = hasChannel d x ∧
        OD.get? d'.channels x = OD.get? d.channels x) ∧
      (hasChannel d c = true → OD.get? d'.channels c = none) ∧
      (hasChannel d c = false → OD.get? d'.channels c = OD.get? d.channels c) := by
  have i := hist_inv ho hh inv_empty hd
  obtain ⟨d', e, i', h1, h2⟩ := removeChannel_ok i c
  refine ⟨d', e, ?_⟩
  by_cases hc : c ∈ d.estimated
  · obtain ⟨a, b⟩ := h1 hc
    refine ⟨?_, ?_, ?_, ?_⟩
    · have : c ∉ d.estimated.erase c := List.Nodup.not_mem_erase i.nodup
      simp [hasChannel, a, this]
    · intro x hx
      refine ⟨?_, ?_⟩
      · simp [hasChannel, a, List.mem_erase_of_ne hx]
      · rw [b, OD.get?_erase i.wf, if_neg (Ne.symm hx)]
    · intro _; rw [b, OD.get?_erase i.wf, if_pos rfl]
    · intro hf
      have : hasChannel d c = true := by simpa [hasChannel] using hc
      rw [this] at hf; cases hf
  · obtain ⟨a, b⟩ := h2 hc
    have hf : hasChannel d c = false := by simpa [hasChannel] using hc
    refine ⟨?_, ?_, ?_, ?_⟩
    · simp [hasChannel, a, hc]
    · intro x _; exact ⟨by simp [hasChannel, a], by rw [b]⟩
    · intro ht; rw [hf] at ht; cases ht
    · intro _; rw [b]

/-- A list with a repeated name: removing the name leaves it reported, but `get_channel` raises. -/
theorem C61_repeated_partial : ∃ d, Hist id [] {} [.setEstimated ["ex", "ex"], .remove "ex"] d ∧
    hasChannel d "ex" = true ∧ getChannel d "ex" = .error .keyError :=
  ⟨{ estimated := ["ex"] },
    .cons (d1 := { estimated := ["ex", "ex"], channels := [("ex", { comp := "ex" })] })
      (by decide +kernel) (.cons (by decide +kernel) (.nil _)),
    by decide +kernel⟩

example : Hist id [] {} [.add chEx, .touch, .remove "ex"] { start := 5, stop := 9 } :=
  .cons (d1 := decEx) (by decide +kernel) (.cons (d1 := { decEx with estimated := ["ex"] })
    (by decide +kernel) (.cons (by decide +kernel) (.nil _)))

/-- C61: adding a channel that is listed updates the stored one: its times are replaced by times that
are set, its other metadata as in C22. -/
theorem C61_known_partial (req : List String) (d : Dec) (ch : FcChan) (d' : Dec)
    (hl : hasChannel d ch.comp = true) (h : addChannel req d ch = .ok d') :
    ∃ old new, OD.get? d.channels ch.comp = some old ∧ OD.get? d'.channels ch.comp = some new ∧
      new.comp = old.comp ∧
      (ch.start ≠ 0 → new.start = ch.start) ∧ (ch.start = 0 → new.start = old.start) ∧
      (ch.stop ≠ 0 → new.stop = ch.stop) ∧ (ch.stop = 0 → new.stop = old.stop) ∧
      Metadata.update req old.info ch.info [] = .ok new.info := by
  unfold addChannel at h
  rw [if_pos hl] at h
  cases ho : OD.get? d.channels ch.comp with
  | none => simp only [ho] at h; cases h
  | some old =>
    simp only [ho, Except.ok.injEq] at h
    subst h
    refine ⟨old, old.update req ch, rfl, OD.get?_set_self _ _ _, rfl, ?_, ?_, ?_, ?_, rfl⟩
    · intro h0; simp [FcChan.update, h0]
    · intro h0; simp [FcChan.update, h0]
    · intro h0; simp [FcChan.update, h0]
    · intro h0; simp [FcChan.update, h0]

example : ∃ d', addChannel [] { estimated := ["ex"], channels := [("ex", { comp := "ex", start := 3, stop := 4 })] }
      { comp := "ex", start := 5 } = .ok d' ∧
    OD.get? d'.channels "ex" = some { comp := "ex", start := 5, stop := 4 } := by
  refine ⟨_, rfl, ?_⟩
  decide +kernel

theorem get?_foldl_set (l : OD String FcChan) (wf : OD.WF l) (c : String) : ∀ d : OD String FcChan,
    OD.get? (l.foldl (fun (acc : OD String FcChan) p => OD.set acc p.1 p.2) d) c =
      (OD.get? l c).or (OD.get? d c) := by
  induction l with
  | nil => intro d; rfl
  | cons p l ih =>
    intro d
    have wf' : OD.WF l := (List.nodup_cons.1 wf).2
    have hn : p.1 ∉ OD.keys l := (List.nodup_cons.1 wf).1
    rw [List.foldl_cons, ih wf']
    by_cases e : p.1 = c
    · subst e
      rw [(OD.get?_eq_none_iff l p.1).2 hn, OD.get?_set_self]
      simp [OD.get?]
    · rw [OD.get?_set_ne _ _ (Ne.symm e)]
      simp [OD.get?, e]

/-- C61: merging another level (`add`) takes all its channels, keeps the others, and lists none of them. -/
theorem C61_merge_partial (d o : Dec) (wf : OD.WF o.channels) (c : String) :
    (∀ ch, OD.get? o.channels c = some ch → OD.get? (merge d o).channels c = some ch) ∧
    (c ∉ OD.keys o.channels → OD.get? (merge d o).channels c = OD.get? d.channels c) ∧
    hasChannel (merge d o) c = hasChannel d c := by
  have h : OD.get? (merge d o).channels c = (OD.get? o.channels c).or (OD.get? d.channels c) :=
    get?_foldl_set o.channels wf c d.channels
  refine ⟨?_, ?_, rfl⟩
  · intro ch hc; rw [h, hc]; rfl
  · intro hc; rw [h, (OD.get?_eq_none_iff _ _).2 hc]; rfl

example : OD.keys (merge { channels := [("ex", chEx)] } { channels := [("hy", { comp := "hy" })] }).channels
    = ["ex", "hy"] := by decide +kernel

/-! ### C62 -/

/-- C62 as a claim: after `update_time_period` the period covers all times that are set. -/
def C62_claim : Prop :=
  ∀ d : Dec, ∀ p ∈ d.channels,
    (p.2.start ≠ 0 → (updateTime d).start ≤ p.2.start) ∧
    (p.2.stop ≠ 0 → p.2.stop ≤ (updateTime d).stop)

/-- C62 is false of the code: the end of a channel without start is ignored. -/
theorem C62_refuted : ¬ C62_claim := by
  intro h
  have := (h { channels := [("ex", { comp := "ex", stop := 9 })] }
    ("ex", { comp := "ex", stop := 9 }) (by decide +kernel)).2
  revert this
  decide +kernel

/-- C62: right for channels with a start; a period that is set never shrinks; its ends are former
ends or those of a channel. -/
theorem C62_covers_partial (d : Dec) :
    (∀ p ∈ d.channels, p.2.start ≠ 0 →
      (updateTime d).start ≤ p.2.start ∧ p.2.stop ≤ (updateTime d).stop) ∧
    (d.start ≠ 0 → (updateTime d).start ≤ d.start) ∧ (d.stop ≠ 0 → d.stop ≤ (updateTime d).stop) ∧
    ((updateTime d).start = d.start ∨
      ∃ p ∈ d.channels, p.2.start ≠ 0 ∧ (updateTime d).start = p.2.start) ∧
    ((updateTime d).stop = d.stop ∨
      ∃ p ∈ d.channels, p.2.start ≠ 0 ∧ (updateTime d).stop = p.2.stop) ∧
    (updateTime d).channels = d.channels ∧ (updateTime d).estimated = d.estimated := by
  have s1 := newStart_spec d.start (((OD.values d.channels).map FcChan.start).filter (· ≠ 0))
  have s2 := newStop_spec d.stop
    (((OD.values d.channels).filter (fun c => c.start ≠ 0)).map FcChan.stop)
  refine ⟨?_, s1.2.1, s2.2.1, ?_, ?_, rfl, rfl⟩
  · intro p hp h0
    refine ⟨?_, ?_⟩
    · apply s1.1
      simp only [List.mem_filter, List.mem_map, OD.values, decide_eq_true_eq]
      exact ⟨⟨p.2, ⟨p, hp, rfl⟩, rfl⟩, h0⟩
    · apply s2.1
      simp only [List.mem_filter, List.mem_map, OD.values, decide_eq_true_eq]
      exact ⟨p.2, ⟨⟨p, hp, rfl⟩, h0⟩, rfl⟩
  · rcases s1.2.2.1 with h | h
    · exact Or.inl h
    · simp only [List.mem_filter, List.mem_map, OD.values, decide_eq_true_eq] at h
      obtain ⟨⟨ch, ⟨p, hp, rfl⟩, e⟩, h0⟩ := h
      exact Or.inr ⟨p, hp, by rw [e]; exact h0, e.symm⟩
  · rcases s2.2.2.1 with h | h
    · exact Or.inl h
    · simp only [List.mem_filter, List.mem_map, OD.values, decide_eq_true_eq] at h
      obtain ⟨ch, ⟨⟨p, hp, rfl⟩, h0⟩, e⟩ := h
      exact Or.inr ⟨p, hp, h0, e.symm⟩

/-- C62: the same for the group and its levels. -/
theorem C62_levels_partial (f : FC) :
    (∀ p ∈ f.levels, p.2.start ≠ 0 →
      (updateTimes f).start ≤ p.2.start ∧ p.2.stop ≤ (updateTimes f).stop) ∧
    (f.start ≠ 0 → (updateTimes f).start ≤ f.start) ∧
    (f.stop ≠ 0 → f.stop ≤ (updateTimes f).stop) ∧
    ((updateTimes f).start = f.start ∨
      ∃ p ∈ f.levels, p.2.start ≠ 0 ∧ (updateTimes f).start = p.2.start) ∧
    ((updateTimes f).stop = f.stop ∨
      ∃ p ∈ f.levels, p.2.start ≠ 0 ∧ (updateTimes f).stop = p.2.stop) ∧
    (updateTimes f).levels = f.levels ∧ (updateTimes f).names = f.names := by
  have s1 := newStart_spec f.start (((OD.values f.levels).map Dec.start).filter (· ≠ 0))
  have s2 := newStop_spec f.stop
    (((OD.values f.levels).filter (fun d => d.start ≠ 0)).map Dec.stop)
  refine ⟨?_, s1.2.1, s2.2.1, ?_, ?_, rfl, rfl⟩
  · intro p hp h0
    refine ⟨?_, ?_⟩
    · apply s1.1
      simp only [List.mem_filter, List.mem_map, OD.values, decide_eq_true_eq]
      exact ⟨⟨p.2, ⟨p, hp, rfl⟩, rfl⟩, h0⟩
    · apply s2.1
      simp only [List.mem_filter, List.mem_map, OD.values, decide_eq_true_eq]
      exact ⟨p.2, ⟨⟨p, hp, rfl⟩, h0⟩, rfl⟩
  · rcases s1.2.2.1 with h | h
    · exact Or.inl h
    · simp only [List.mem_filter, List.mem_map, OD.values, decide_eq_true_eq] at h
      obtain ⟨⟨ch, ⟨p, hp, rfl⟩, e⟩, h0⟩ := h
      exact Or.inr ⟨p, hp, by rw [e]; exact h0, e.symm⟩
  · rcases s2.2.2.1 with h | h
    · exact Or.inl h
    · simp only [List.mem_filter, List.mem_map, OD.values, decide_eq_true_eq] at h
      obtain ⟨ch, ⟨⟨p, hp, rfl⟩, h0⟩, e⟩ := h
      exact Or.inr ⟨p, hp, h0, e.symm⟩

/-- C62: when the levels are up to date, the group covers every channel with a start. -/
theorem C62_nested_partial (f : FC) (hl : ∀ p ∈ f.levels, updateTime p.2 = p.2)
    (p : String × Dec) (hp : p ∈ f.levels) (q : String × FcChan) (hq : q ∈ p.2.channels)
    (h0 : q.2.start ≠ 0) :
    (updateTimes f).start ≤ q.2.start ∧ q.2.stop ≤ (updateTimes f).stop := by
  obtain ⟨c1, c2⟩ := (C62_covers_partial p.2).1 q hq h0
  rw [hl p hp] at c1 c2
  have hs : p.2.start ≠ 0 := by
    have s1 := newStart_spec p.2.start
      (((OD.values p.2.channels).map FcChan.start).filter (· ≠ 0))
    have hmem : q.2.start ∈ ((OD.values p.2.channels).map FcChan.start).filter (· ≠ 0) := by
      simp only [List.mem_filter, List.mem_map, OD.values, decide_eq_true_eq]
      exact ⟨⟨q.2, ⟨q, hq, rfl⟩, rfl⟩, h0⟩
    intro hz
    have hm := s1.2.2.2 hz (List.ne_nil_of_mem hmem)
    have he : newStart p.2.start (((OD.values p.2.channels).map FcChan.start).filter (· ≠ 0)) =
        p.2.start := congrArg Dec.start (hl p hp)
    rw [he, hz] at hm
    simp at hm
  obtain ⟨g1, g2⟩ := (C62_levels_partial f).1 p hp hs
  exact ⟨g1.trans c1, c2.trans g2⟩

/-- C62: `add_channel` and `remove_channel` leave the period up to date. -/
theorem C62_after_calls_partial (req : List String) (d d' : Dec)
    (h : (∃ ch, addChannel req d ch = .ok d') ∨ ∃ c, removeChannel d c = .ok d') :
    ∀ p ∈ d'.channels, p.2.start ≠ 0 → d'.start ≤ p.2.start ∧ p.2.stop ≤ d'.stop := by
  have key : ∃ e, d' = updateTime e := by
    rcases h with ⟨ch, h⟩ | ⟨c, h⟩
    · unfold addChannel at h
      split at h
      · split at h
        · exact ⟨_, (Except.ok.inj h).symm⟩
        · cases h
      · exact ⟨_, (Except.ok.inj h).symm⟩
    · unfold removeChannel at h
      split at h
      · split at h
        · exact ⟨_, (Except.ok.inj h).symm⟩
        · cases h
      · exact ⟨_, (Except.ok.inj h).symm⟩
  obtain ⟨e, rfl⟩ := key
  exact (C62_covers_partial e).1

/-- A level whose period is out of date. -/
def exTimes : Dec where
  channels := [("ex", chEx), ("hy", { comp := "hy", start := 3, stop := 7 })]
  start := 4

example : (updateTime exTimes).start = 3 ∧ (updateTime exTimes).stop = 9 := by decide +kernel

/-! ### C63 -/

theorem addAll_ok (req : List String) (cs : List FcChan) : ∀ d : Dec, Inv d →
    ∃ d', addAll req cs d = .ok d' ∧ Inv d' := by
  induction cs with
  | nil => intro d h; exact ⟨d, rfl, h⟩
  | cons c cs ih =>
    intro d h
    obtain ⟨d1, e1, i1, _⟩ := addChannel_ok req h c
    obtain ⟨d2, e2, i2⟩ := ih d1 i1
    exact ⟨d2, by simp only [addAll, e1, e2], i2⟩

theorem update_ok {ord : List String → List String} (ho : SomeOrder ord) (req : List String)
    {d o : Dec} (h : Inv d) (hn : o.estimated.Nodup) : ∃ d', update ord req d o = .ok d' ∧ Inv d' := by
  unfold update
  apply addAll_ok
  have h1 : Inv (if o.estimated = [] then d else assignEstimated ord d o.estimated) := by
    split
    · exact h
    · exact inv_sync ho h.wf hn
  have h2 : Inv (if o.id = "" then
      (if o.estimated = [] then d else assignEstimated ord d o.estimated)
      else sync ord (let d1 := if o.estimated = [] then d else assignEstimated ord d o.estimated
        { d1 with id := o.id })) := by
    split
    · exact h1
    · exact inv_sync ho h1.wf h1.nodup
  exact ⟨h2.wf, h2.nodup, h2.sub⟩

/-- What holds of the group between calls. -/
structure LevelInv (f : FC) : Prop where
  wf : OD.WF f.levels
  nodup : f.names.Nodup
  same : ∀ l, l ∈ f.names ↔ l ∈ OD.keys f.levels
  good : ∀ p ∈ f.levels, Inv p.2

theorem keys_createMissing (ns : List String) : ∀ (ls : OD String Dec) (k : String),
    k ∈ OD.keys (createMissing ns ls) ↔ k ∈ OD.keys ls ∨ k ∈ ns := by
  induction ns with
  | nil => intro ls k; simp [createMissing]
  | cons n ns ih =>
    intro ls k
    rw [createMissing, ih]
    by_cases hn : n ∈ OD.keys ls
    · rw [if_pos hn, List.mem_cons]
      constructor
      · rintro (h | h)
        · exact Or.inl h
        · exact Or.inr (Or.inr h)
      · rintro (h | rfl | h)
        · exact Or.inl h
        · exact Or.inl hn
        · exact Or.inr h
    · rw [if_neg hn, OD.mem_keys_set, List.mem_cons]
      constructor
      · rintro ((h | h) | h)
        · exact Or.inr (Or.inl h)
        · exact Or.inl h
        · exact Or.inr (Or.inr h)
      · rintro (h | h | h)
        · exact Or.inl (Or.inr h)
        · exact Or.inl (Or.inl h)
        · exact Or.inr h

theorem mem_set_value {ls : OD String Dec} {k : String} {v : Dec} {p : String × Dec}
    (h : p ∈ OD.set ls k v) : p.2 = v ∨ p ∈ ls := by
  induction ls with
  | nil => simp [OD.set] at h; exact Or.inl (by rw [h])
  | cons q ls ih =>
    rw [OD.set] at h
    split at h
    · rcases List.mem_cons.1 h with rfl | h
      · exact Or.inl rfl
      · exact Or.inr (by simp [h])
    · rcases List.mem_cons.1 h with rfl | h
      · exact Or.inr (by simp)
      · rcases ih h with h | h
        · exact Or.inl h
        · exact Or.inr (by simp [h])

theorem createMissing_inv (ns : List String) : ∀ (ls : OD String Dec), OD.WF ls →
    (∀ p ∈ ls, Inv p.2) →
    OD.WF (createMissing ns ls) ∧ ∀ p ∈ createMissing ns ls, Inv p.2 := by
  induction ns with
  | nil => intro ls h g; exact ⟨h, g⟩
  | cons n ns ih =>
    intro ls h g
    rw [createMissing]
    by_cases hn : n ∈ OD.keys ls
    · rw [if_pos hn]; exact ih ls h g
    · rw [if_neg hn]
      apply ih _ (OD.WF.set h _ _)
      intro p hp
      rcases mem_set_value hp with hp | hp
      · rw [hp]; exact ⟨OD.WF_nil, List.nodup_nil, by simp⟩
      · exact g p hp

theorem addNames_spec (ks : List String) : ∀ (ns : List String), ns.Nodup →
    (addNames ks ns).Nodup ∧ ∀ n, n ∈ addNames ks ns ↔ n ∈ ns ∨ n ∈ ks := by
  induction ks with
  | nil => intro ns h; exact ⟨h, by simp [addNames]⟩
  | cons k ks ih =>
    intro ns h
    rw [addNames]
    by_cases hk : k ∈ ns
    · rw [if_pos hk]
      obtain ⟨a, b⟩ := ih ns h
      refine ⟨a, ?_⟩
      intro n
      rw [b, List.mem_cons]
      constructor
      · rintro (h | h)
        · exact Or.inl h
        · exact Or.inr (Or.inr h)
      · rintro (h | rfl | h)
        · exact Or.inl h
        · exact Or.inl hk
        · exact Or.inr h
    · rw [if_neg hk]
      have hnd : (ns ++ [k]).Nodup := by
        rw [List.nodup_append]
        refine ⟨h, by simp, ?_⟩
        intro a ha b hb hab
        simp at hb
        exact hk (hb ▸ hab ▸ ha)
      obtain ⟨a, b⟩ := ih _ hnd
      refine ⟨a, ?_⟩
      intro n
      rw [b, List.mem_append, List.mem_singleton, List.mem_cons, or_assoc]

theorem inv_syncLevels {f : FC} (wf : OD.WF f.levels) (nd : f.names.Nodup)
    (g : ∀ p ∈ f.levels, Inv p.2) : LevelInv (syncLevels f) := by
  obtain ⟨w, g'⟩ := createMissing_inv f.names f.levels wf g
  obtain ⟨a, b⟩ := addNames_spec (OD.keys (createMissing f.names f.levels)) f.names nd
  refine ⟨w, a, ?_, g'⟩
  intro l
  simp only [syncLevels]
  rw [b, keys_createMissing]
  constructor
  · rintro (h | h)
    · exact Or.inr h
    · exact h
  · intro h; exact Or.inr h

/-- A call that assigns no list with a name in it twice, neither here nor in the level it adds. -/
def LevelOp.Distinct : LevelOp → Prop
  | .setNames names => names.Nodup
  | .add d => Inv d
  | _ => True

theorem levelStep_ok {ord : List String → List String} (ho : SomeOrder ord) (req : List String)
    {f : FC} (h : LevelInv f) (o : LevelOp) (hd : o.Distinct) :
    ∃ f', levelStep ord req f o = .ok f' ∧ LevelInv f' := by
  cases o with
  | touch => exact ⟨_, rfl, inv_syncLevels h.wf h.nodup h.good⟩
  | setNames names => exact ⟨_, rfl, inv_syncLevels h.wf hd h.good⟩
  | add d =>
    simp only [levelStep, addLevel]
    by_cases hh : hasLevel f d.id = true
    · rw [if_pos hh]
      have hm : d.id ∈ OD.keys f.levels := (h.same _).1 (by simpa [hasLevel] using hh)
      obtain ⟨old, hold⟩ := Option.isSome_iff_exists.1 ((OD.get?_isSome_iff _ _).2 hm)
      obtain ⟨new, e, i⟩ := update_ok ho req (h.good _ (OD.mem_of_get? hold)) (o := d) hd.nodup
      simp only [hold, e]
      refine ⟨_, rfl, OD.WF.set h.wf _ _, h.nodup, ?_, ?_⟩
      · intro l
        refine (h.same l).trans ?_
        rw [show (updateTimes { f with levels := OD.set f.levels d.id new }).levels =
          OD.set f.levels d.id new from rfl, OD.mem_keys_set]
        constructor
        · exact Or.inr
        · rintro (rfl | h)
          · exact hm
          · exact h
      · intro p hp
        rcases mem_set_value hp with hp | hp
        · rw [hp]; exact i
        · exact h.good p hp
    · rw [if_neg hh]
      have hn : d.id ∉ f.names := by simpa [hasLevel] using hh
      refine ⟨_, rfl, OD.WF.set h.wf _ _, ?_, ?_, ?_⟩
      · show (if d.id ∈ f.names then f.names else f.names ++ [d.id]).Nodup
        rw [if_neg hn, List.nodup_append]
        refine ⟨h.nodup, by simp, ?_⟩
        intro a ha b hb hab
        simp at hb
        exact hn (hb ▸ hab ▸ ha)
      · intro l
        show l ∈ (if d.id ∈ f.names then f.names else f.names ++ [d.id]) ↔
          l ∈ OD.keys (OD.set f.levels d.id d)
        rw [if_neg hn, OD.mem_keys_set, List.mem_append, List.mem_singleton, h.same l, or_comm]
      · intro p hp
        rcases mem_set_value hp with hp | hp
        · rw [hp]; exact hd
        · exact h.good p hp
  | remove l =>
    simp only [levelStep, removeLevel]
    by_cases hh : hasLevel f l = true
    · have hn : l ∈ f.names := by simpa [hasLevel] using hh
      rw [if_pos hh, if_pos ((h.same l).1 hn)]
      refine ⟨_, rfl, OD.WF.erase h.wf _, ?_, ?_, ?_⟩
      · show (if l ∈ f.names then f.names.erase l else f.names).Nodup
        rw [if_pos hn]; exact h.nodup.erase _
      · intro x
        show x ∈ (if l ∈ f.names then f.names.erase l else f.names) ↔
          x ∈ OD.keys (OD.erase f.levels l)
        rw [if_pos hn, OD.keys_erase, List.Nodup.mem_erase_iff h.nodup,
          List.Nodup.mem_erase_iff h.wf, h.same x]
      · intro p hp
        have : p ∈ f.levels := by
          have hp' : p ∈ OD.erase f.levels l := hp
          rw [OD.WF.erase_eq_filter h.wf] at hp'
          exact (List.mem_filter.1 hp').1
        exact h.good p this
    · rw [if_neg hh]
      exact ⟨_, rfl, h.wf, h.nodup, h.same, h.good⟩

theorem levelInv_empty : LevelInv {} := ⟨OD.WF_nil, List.nodup_nil, by simp, by simp⟩

theorem levelHist_inv {ord : List String → List String} (ho : SomeOrder ord) {req : List String}
    {f f' : FC} {ops : List LevelOp} (hh : LevelHist ord req f ops f') (h : LevelInv f)
    (hd : ∀ o ∈ ops, o.Distinct) : LevelInv f' := by
  induction hh with
  | nil f => exact h
  | cons hs _ ih =>
    obtain ⟨f1, e, i⟩ := levelStep_ok ho req h _ (hd _ List.mem_cons_self)
    rw [hs] at e
    cases e
    exact ih i (fun o ho => hd o (by simp [ho]))

/-- C63: after any history of adding and removing levels (and of assignments without repeated names)
`decimation_levels` lists each stored level once and nothing else; a level is reported iff it can be
fetched, and then under its place in the stored levels. -/
theorem C63_sync (ord : List String → List String) (ho : SomeOrder ord) (req : List String)
    (ops : List LevelOp) (hd : ∀ o ∈ ops, o.Distinct) (f : FC)
    (hh : LevelHist ord req {} ops f) :
    f.names.Perm (OD.keys f.levels) ∧
      (∀ l, hasLevel f l = true ↔ ∃ d, getLevel f l = .ok (some d)) ∧
      (∀ l, hasLevel f l = false ↔ getLevel f l = .ok none) ∧
      (∀ l, hasLevel f l = true →
        ∃ i, levelIndex f l = .ok (some i) ∧ (OD.keys f.levels)[i]? = some l) := by
  have i := levelHist_inv ho hh levelInv_empty hd
  have hget : ∀ l, hasLevel f l = true → ∃ d, getLevel f l = .ok (some d) := by
    intro l hl
    have hm := (i.same l).1 (by simpa [hasLevel] using hl)
    obtain ⟨d, hd⟩ := Option.isSome_iff_exists.1 ((OD.get?_isSome_iff _ _).2 hm)
    exact ⟨d, by simp only [getLevel, if_pos hl, hd]⟩
  have hno : ∀ l, hasLevel f l = false → getLevel f l = .ok none := by
    intro l hl; simp [getLevel, hl]
  refine ⟨(List.perm_ext_iff_of_nodup i.nodup i.wf).2 i.same, ?_, ?_, ?_⟩
  · intro l
    refine ⟨hget l, ?_⟩
    rintro ⟨d, hd⟩
    cases hl : hasLevel f l with
    | true => rfl
    | false => rw [hno l hl] at hd; cases hd
  · intro l
    refine ⟨hno l, ?_⟩
    intro hn
    cases hl : hasLevel f l with
    | false => rfl
    | true => obtain ⟨d, hd⟩ := hget l hl; rw [hd] at hn; cases hn
  · intro l hl
    have hm := (i.same l).1 (by simpa [hasLevel] using hl)
    refine ⟨(OD.keys f.levels).idxOf l, ?_, ?_⟩
    · simp only [levelIndex, if_pos hl, if_pos hm]
    · rw [List.getElem?_eq_getElem (List.idxOf_lt_length_of_mem hm), List.getElem_idxOf]

/-- C63: no such history raises. -/
theorem C63_total (ord : List String → List String) (ho : SomeOrder ord) (req : List String)
    (ops : List LevelOp) (hd : ∀ o ∈ ops, o.Distinct) : ∃ f, LevelHist ord req {} ops f := by
  have key : ∀ (ops : List LevelOp) (f : FC), LevelInv f → (∀ o ∈ ops, o.Distinct) →
      ∃ f', LevelHist ord req f ops f' := by
    intro ops
    induction ops with
    | nil => intro f _ _; exact ⟨f, .nil f⟩
    | cons o os ih =>
      intro f h hd
      obtain ⟨f1, e, i⟩ := levelStep_ok ho req h o (hd o (by simp))
      obtain ⟨f2, h2⟩ := ih f1 i (fun x hx => hd x (by simp [hx]))
      exact ⟨f2, .cons e h2⟩
  exact key ops {} levelInv_empty hd

/-- C63: what adding does: the level is stored under its id, the object itself if it is new; the other
levels stay. Removing takes exactly that level away. -/
theorem C63_effect (ord : List String → List String) (ho : SomeOrder ord) (req : List String)
    (ops : List LevelOp) (hd : ∀ o ∈ ops, o.Distinct) (f f' : FC)
    (hh : LevelHist ord req {} ops f) :
    (∀ d, addLevel ord req f d = .ok f' →
      hasLevel f' d.id = true ∧ (∀ l, l ≠ d.id → hasLevel f' l = hasLevel f l ∧
        getLevel f' l = getLevel f l) ∧
      (hasLevel f d.id = false → getLevel f' d.id = .ok (some d))) ∧
    (∀ l, removeLevel f l = .ok f' →
      hasLevel f' l = false ∧ ∀ x, x ≠ l → hasLevel f' x = hasLevel f x ∧
        getLevel f' x = getLevel f x) := by
  have i := levelHist_inv ho hh levelInv_empty hd
  refine ⟨?_, ?_⟩
  · intro d h
    unfold addLevel at h
    by_cases hl : hasLevel f d.id = true
    · rw [if_pos hl] at h
      split at h
      · cases h
      · split at h
        · cases h
        · rename_i new _
          have h := Except.ok.inj h
          subst h
          refine ⟨hl, ?_, ?_⟩
          · intro l hne
            refine ⟨rfl, ?_⟩
            show (if hasLevel f l = true then (match OD.get? (OD.set f.levels d.id new) l with
              | some d => .ok (some d)
              | none => .error .keyError) else .ok none) = getLevel f l
            rw [OD.get?_set_ne _ _ hne]
            rfl
          · intro hf; rw [hl] at hf; cases hf
    · rw [if_neg hl] at h
      have h := Except.ok.inj h
      subst h
      have hn : d.id ∉ f.names := by simpa [hasLevel] using hl
      have hnames : (updateTimes { f with
          levels := OD.set f.levels d.id d
          names := if d.id ∈ f.names then f.names else f.names ++ [d.id] }).names =
          f.names ++ [d.id] := by
        show (if d.id ∈ f.names then f.names else f.names ++ [d.id]) = _
        rw [if_neg hn]
      have hlev : (updateTimes { f with
          levels := OD.set f.levels d.id d
          names := if d.id ∈ f.names then f.names else f.names ++ [d.id] }).levels =
          OD.set f.levels d.id d := rfl
      refine ⟨?_, ?_, ?_⟩
      · simp only [hasLevel, hnames]; simp
      · intro l hne
        have hhas : hasLevel (updateTimes { f with
          levels := OD.set f.levels d.id d
          names := if d.id ∈ f.names then f.names else f.names ++ [d.id] }) l = hasLevel f l := by
          simp only [hasLevel, hnames]; simp [hne]
        refine ⟨hhas, ?_⟩
        simp only [getLevel, hhas, hlev]
        rw [OD.get?_set_ne _ _ hne]
      · intro _
        simp only [getLevel, hasLevel, hnames, hlev, OD.get?_set_self]
        simp
  · intro l h
    unfold removeLevel at h
    by_cases hl : hasLevel f l = true
    · have hn : l ∈ f.names := by simpa [hasLevel] using hl
      rw [if_pos hl, if_pos ((i.same l).1 hn)] at h
      have h := Except.ok.inj h
      subst h
      have hnames : (updateTimes { f with
          levels := OD.erase f.levels l
          names := if l ∈ f.names then f.names.erase l else f.names }).names = f.names.erase l := by
        show (if l ∈ f.names then f.names.erase l else f.names) = _
        rw [if_pos hn]
      have hlev : (updateTimes { f with
          levels := OD.erase f.levels l
          names := if l ∈ f.names then f.names.erase l else f.names }).levels =
          OD.erase f.levels l := rfl
      refine ⟨?_, ?_⟩
      · have : l ∉ f.names.erase l := List.Nodup.not_mem_erase i.nodup
        simp only [hasLevel, hnames]; simp [this]
      · intro x hx
        have hhas : hasLevel (updateTimes { f with
          levels := OD.erase f.levels l
          names := if l ∈ f.names then f.names.erase l else f.names }) x = hasLevel f x := by
          simp only [hasLevel, hnames]; simp [List.mem_erase_of_ne hx]
        refine ⟨hhas, ?_⟩
        simp only [getLevel, hhas, hlev]
        rw [OD.get?_erase i.wf, if_neg (Ne.symm hx)]
    · rw [if_neg hl] at h
      have h := Except.ok.inj h
      subst h
      exact ⟨(by simpa using hl : hasLevel f l = false), fun x _ => ⟨rfl, rfl⟩⟩

/-- C63: after assigning a list with a repeated name and removing it, the name is still reported but
cannot be fetched. -/
theorem addAll_spec (req : List String) (cs : List FcChan) : ∀ (d d' : Dec),
    addAll req cs d = .ok d' →
    (d.start ≠ 0 → d'.start ≠ 0 ∧ d'.start ≤ d.start) ∧ (0 < d.stop → d.stop ≤ d'.stop) ∧
      (∀ c ∈ cs, c.comp ∈ OD.keys d'.channels) ∧
      (∀ k ∈ OD.keys d.channels, k ∈ OD.keys d'.channels) := by
  induction cs with
  | nil =>
    intro d d' h
    simp only [addAll, Except.ok.injEq] at h
    subst h
    exact ⟨fun h => ⟨h, Int.le_refl _⟩, fun _ => Int.le_refl _, by simp, fun _ h => h⟩
  | cons c cs ih =>
    intro d d' h
    simp only [addAll] at h
    cases h1 : addChannel req d c with
    | error e => simp only [h1] at h; cases h
    | ok d1 =>
      simp only [h1] at h
      obtain ⟨i1, i2, i3, i4⟩ := ih d1 d' h
      have hd1 : ∃ chs, d1 = updateTime { d with channels := OD.set d.channels c.comp chs } := by
        unfold addChannel at h1
        split at h1
        · split at h1
          · exact ⟨_, (Except.ok.inj h1).symm⟩
          · cases h1
        · exact ⟨_, (Except.ok.inj h1).symm⟩
      obtain ⟨chs, e⟩ := hd1
      have s1 := newStart_spec d.start
        (((OD.values (OD.set d.channels c.comp chs)).map FcChan.start).filter (· ≠ 0))
      have s2 := newStop_spec d.stop
        (((OD.values (OD.set d.channels c.comp chs)).filter (fun c => c.start ≠ 0)).map FcChan.stop)
      have e1 : d1.start = newStart d.start
        (((OD.values (OD.set d.channels c.comp chs)).map FcChan.start).filter (· ≠ 0)) := by rw [e]; rfl
      have e2 : d1.stop = newStop d.stop
        (((OD.values (OD.set d.channels c.comp chs)).filter (fun c => c.start ≠ 0)).map FcChan.stop) := by
        rw [e]; rfl
      have e3 : ∀ k, k ∈ OD.keys d1.channels ↔ k = c.comp ∨ k ∈ OD.keys d.channels := by
        intro k; rw [e]; exact OD.mem_keys_set _ _ _ _
      rw [← e1] at s1
      rw [← e2] at s2
      refine ⟨?_, ?_, ?_, ?_⟩
      · intro h0
        have hn : d1.start ≠ 0 := by
          rcases s1.2.2.1 with h | h
          · rw [h]; exact h0
          · simpa using (List.mem_filter.1 h).2
        have := s1.2.1 h0
        obtain ⟨a, b⟩ := i1 hn
        exact ⟨a, by omega⟩
      · intro h0
        have := s2.2.1 (by omega)
        have := i2 (by omega)
        omega
      · intro x hx
        rcases List.mem_cons.1 hx with rfl | hx
        · exact i4 _ ((e3 _).2 (.inl rfl))
        · exact i3 x hx
      · intro k hk; exact i4 k ((e3 k).2 (.inr hk))

/-- C63: adding a level under a known id updates the stored level: afterwards its period covers the
period of the added one (if that is set), it has every channel of the added one and keeps its own. -/
theorem C63_known (ord : List String → List String) (ho : SomeOrder ord) (req : List String)
    (f f' : FC) (d : Dec) (hl : hasLevel f d.id = true) (h : addLevel ord req f d = .ok f') :
    ∃ old new, OD.get? f.levels d.id = some old ∧ OD.get? f'.levels d.id = some new ∧
      (d.start ≠ 0 → new.start ≤ d.start) ∧ (0 < d.stop → d.stop ≤ new.stop) ∧
      (∀ p ∈ d.channels, p.2.comp ∈ OD.keys new.channels) ∧
      (∀ k ∈ OD.keys old.channels, k ∈ OD.keys new.channels) := by
  unfold addLevel at h
  rw [if_pos hl] at h
  cases hg : OD.get? f.levels d.id with
  | none => simp only [hg] at h; cases h
  | some old =>
    simp only [hg] at h
    cases hu : update ord req old d with
    | error e => simp only [hu] at h; cases h
    | ok new =>
      simp only [hu, Except.ok.injEq] at h
      subst h
      refine ⟨old, new, rfl, OD.get?_set_self _ _ _, ?_⟩
      unfold update at hu
      obtain ⟨a1, a2, a3, a4⟩ := addAll_spec req _ _ _ hu
      refine ⟨?_, ?_, ?_, ?_⟩
      · intro h0
        have e : (copyAttrs ord old d).start = d.start := by simp [copyAttrs, h0]
        rw [e] at a1
        exact (a1 h0).2
      · intro h0
        have e : (copyAttrs ord old d).stop = d.stop := by
          simp only [copyAttrs]; rw [if_neg (by omega)]
        rw [e] at a2
        exact a2 h0
      · intro p hp
        exact a3 p.2 (by simp only [OD.values, List.mem_map]; exact ⟨p, hp, rfl⟩)
      · intro k hk
        apply a4
        have key : ∀ e : Dec, k ∈ OD.keys e.channels → k ∈ OD.keys (sync ord e).channels :=
          fun e he => (mem_keys_sync ho e k).2 (.inl he)
        simp only [copyAttrs]
        split
        · split
          · exact hk
          · exact key _ hk
        · split
          · exact key _ hk
          · exact key _ (key { old with estimated := d.estimated } hk)

example : ∃ f', addLevel id [] { names := ["1"], levels := [("1", { id := "1", start := 5, stop := 6 })] }
      { id := "1", start := 7, stop := 9 } = .ok f' ∧
    OD.get? f'.levels "1" = some { id := "1", start := 7, stop := 9 } := by
  refine ⟨_, rfl, ?_⟩
  decide +kernel

theorem C63_repeated : ∃ f, LevelHist id [] {} [.setNames ["1", "1"], .remove "1"] f ∧
    hasLevel f "1" = true ∧ getLevel f "1" = .error .keyError :=
  ⟨{ names := ["1"] },
    .cons (f1 := { names := ["1", "1"], levels := [("1", { id := "1" })] })
      (by decide +kernel) (.cons (by decide +kernel) (.nil _)),
    by decide +kernel⟩

/-- The group after two levels were added. -/
def exFC : FC where
  names := ["0", "1"]
  levels := [("0", { decEx with id := "0" }), ("1", { id := "1" })]
  start := 5
  stop := 9

example : LevelHist id [] {} [.add { decEx with id := "0" }, .add { id := "1" }] exFC :=
  .cons rfl (.cons (by decide +kernel) (.nil _))

end Verif.FCs
