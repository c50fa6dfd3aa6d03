import Mathlib.Analysis.SpecialFunctions.Complex.Arg
import Verif.Model.EdiGeometry

/-! # C314 – C319: the geometry of channels in EDI files -/

namespace Verif.EdiGeometry
open Verif.Text

/-! ## Helpers -/

theorem azmOf_eq (c : Ch) : azmOf c = c.tAz.getD 0 := by
  unfold azmOf
  by_cases h : some c.mAz = c.tAz
  · rw [if_neg (not_not.mpr h), ← h]; rfl
  · rw [if_pos h]
    cases c.tAz <;> rfl

theorem checked_coords (m : EMeas) :
    m.checked.x = m.x ∧ m.checked.y = m.y ∧ m.checked.x2 = m.x2 ∧ m.checked.y2 = m.y2 ∧
    m.checked.comp = m.comp ∧ m.checked.acq = m.acq ∧ m.checked.id = m.id := by
  unfold EMeas.checked
  split
  · split <;> exact ⟨rfl, rfl, rfl, rfl, rfl, rfl, rfl⟩
  · exact ⟨rfl, rfl, rfl, rfl, rfl, rfl, rfl⟩

theorem filled_coords (c : Ch) :
    (filled c).nx = c.nx ∧ (filled c).ny = c.ny ∧ (filled c).px = c.px ∧ (filled c).py = c.py ∧
    (filled c).comp = c.comp ∧ (filled c).number = c.number ∧ (filled c).id = c.id :=
  ⟨rfl, rfl, rfl, rfl, rfl, rfl, rfl⟩

theorem toE_inv (w : World) (a : ℝ) (c : Ch) (m : EMeas) (h : toE w a c = .ok m) :
    chtypeOk ['e', 'E'] c.comp = true ∧ ∃ i, idOf w c.id = .ok i ∧
      m = EMeas.checked { comp := c.comp, id := i, x := c.nx, x2 := c.px, y := c.ny, y2 := c.py,
                          azm := a, acq := c.number } := by
  unfold toE at h
  split at h
  · rename_i hp
    cases hi : idOf w c.id with
    | error e => rw [hi] at h; cases h
    | ok i => rw [hi] at h; exact ⟨hp, i, rfl, (Except.ok.inj h).symm⟩
  · cases h

theorem toH_inv (w : World) (a : ℝ) (c : Ch) (m : HMeas) (h : toH w a c = .ok m) :
    chtypeOk ['h', 'H', 'b', 'B'] c.comp = true ∧ ∃ i, idOf w c.id = .ok i ∧
      m = { comp := c.comp, id := i, x := c.lx, y := c.ly, azm := a, dip := c.tilt, acq := c.number } := by
  unfold toH at h
  split at h
  · rename_i hp
    cases hi : idOf w c.id with
    | error e => rw [hi] at h; cases h
    | ok i => rw [hi] at h; exact ⟨hp, i, rfl, (Except.ok.inj h).symm⟩
  · cases h

theorem fromMetadata_e (w : World) (c c' : Ch) (k : Str) (m : EMeas)
    (h : fromMetadata w c = .ok (c', some (k, .e m))) :
    'e' ∈ c.comp ∧ c.kind = .electric ∧ c' = filled c ∧ k = lower c.comp ∧ toE w (azmOf c) (filled c) = .ok m := by
  unfold fromMetadata at h
  split at h
  · rename_i he
    split at h
    · rename_i hk
      cases ht : toE w (azmOf c) (filled c) with
      | error e => rw [ht] at h; cases h
      | ok m' =>
        rw [ht] at h
        injection h with h; injection h with h1 h2; injection h2 with h2; injection h2 with h2 h3
        injection h3 with h3
        exact ⟨he, hk, h1.symm, h2.symm, by rw [h3]⟩
    · cases h
  · split at h
    · split at h
      · cases h
      · cases ht : toH w (azmOf c) c with
        | error e => rw [ht] at h; cases h
        | ok m' => rw [ht] at h; injection h with h; injection h with h1 h2; injection h2 with h2; injection h2 with h2 h3; cases h3
    · injection h with h; injection h with h1 h2; cases h2

theorem fromMetadata_h (w : World) (c c' : Ch) (k : Str) (m : HMeas)
    (h : fromMetadata w c = .ok (c', some (k, .h m))) :
    'e' ∉ c.comp ∧ 'h' ∈ c.comp ∧ c.kind ≠ .electric ∧ c' = c ∧ k = lower c.comp ∧ toH w (azmOf c) c = .ok m := by
  unfold fromMetadata at h
  split at h
  · split at h
    · cases ht : toE w (azmOf c) (filled c) with
      | error e => rw [ht] at h; cases h
      | ok m' => rw [ht] at h; injection h with h; injection h with h1 h2; injection h2 with h2; injection h2 with h2 h3; cases h3
    · cases h
  · rename_i he
    split at h
    · rename_i hh
      split at h
      · cases h
      · rename_i hk
        cases ht : toH w (azmOf c) c with
        | error e => rw [ht] at h; cases h
        | ok m' =>
          rw [ht] at h
          injection h with h; injection h with h1 h2; injection h2 with h2; injection h2 with h2 h3
          injection h3 with h3
          exact ⟨he, hh, hk, h1.symm, h2.symm, by rw [h3]⟩
    · injection h with h; injection h with h1 h2; cases h2

theorem electrodes_none (m : EMeas) : electrodes m.azimuth (fromE m) = fromE m := by
  unfold electrodes
  split
  · rename_i h
    have hx2 : m.x2 = 0 := h.1
    have hy2 : m.y2 = 0 := h.2.1
    have hx : m.x = 0 := h.2.2.1
    have hy : m.y = 0 := h.2.2.2
    have hd : (fromE m).dipole = 0 := by
      show m.dipole = 0
      simp [EMeas.dipole, hx2, hy2, hx, hy]
    have e1 : (fromE m).px = 0 := hx2
    have e2 : (fromE m).py = 0 := hy2
    have f1 : (fromE m).dipole * Real.cos (rad m.azimuth) = (fromE m).px := by rw [hd, zero_mul, e1]
    have f2 : (fromE m).dipole * Real.sin (rad m.azimuth) = (fromE m).py := by rw [hd, zero_mul, e2]
    rw [f1, f2]
  · rfl

theorem readE_eq (m : EMeas) (i : Info) : readE m i = withInfo i (fromE m) := by
  unfold readE; rw [electrodes_none]

theorem rad_deg (a : ℝ) : rad (deg a) = a := by
  unfold rad deg
  have := Real.pi_ne_zero
  field_simp

/-! ## C314: the electrodes -/

/-- The measurement made of an electric channel, read again with any information section, gives the
electrodes, the component and (from zero on) the number of the channel. -/
theorem C314_electrodes (w : World) (c c' : Ch) (k : Str) (m : EMeas) (i : Info)
    (h : fromMetadata w c = .ok (c', some (k, .e m))) :
    k = lower c.comp ∧ (readE m i).comp = c.comp ∧ (readE m i).nx = c.nx ∧ (readE m i).ny = c.ny ∧
    (readE m i).px = c.px ∧ (readE m i).py = c.py ∧
    (0 ≤ c.number → i.number = none → (readE m i).number = c.number) := by
  obtain ⟨-, -, -, hk, ht⟩ := fromMetadata_e w c c' k m h
  obtain ⟨-, j, -, hm⟩ := toE_inv _ _ _ _ ht
  have hc := checked_coords { comp := (filled c).comp, id := j, x := (filled c).nx, x2 := (filled c).px, y := (filled c).ny,
                              y2 := (filled c).py, azm := azmOf c, acq := (filled c).number }
  rw [← hm] at hc
  obtain ⟨hx, hy, hx2, hy2, hcomp, hacq, -⟩ := hc
  rw [readE_eq]
  refine ⟨hk, hcomp, hx, hy, hx2, hy2, fun h0 hi => ?_⟩
  show i.number.getD (channelNumber m.acq) = c.number
  rw [hi, hacq]
  show ((filled c).number.natAbs : ℤ) = c.number
  rw [Int.natCast_natAbs]
  exact abs_of_nonneg h0

/-! ## C315: length and direction -/

/-- The length and azimuth of an electric channel read from a file without information about it are the
distance between its electrodes and the direction from the negative to the positive one, clockwise from
the first axis. -/
theorem C315_polar (w : World) (c c' : Ch) (k : Str) (m : EMeas)
    (h : fromMetadata w c = .ok (c', some (k, .e m))) :
    let r := readE m noInfo
    0 ≤ r.dipole ∧ -180 < r.mAz ∧ r.mAz ≤ 180 ∧ r.tAz = some r.mAz ∧
    r.dipole * Real.cos (rad r.mAz) = c.px - c.nx ∧ r.dipole * Real.sin (rad r.mAz) = c.py - c.ny := by
  intro r
  obtain ⟨-, -, hx, hy, hx2, hy2, -⟩ := C314_electrodes w c c' k m noInfo h
  have hr : r = withInfo noInfo (fromE m) := readE_eq m noInfo
  have ex : m.x = c.nx := by rw [readE_eq] at hx; exact hx
  have ey : m.y = c.ny := by rw [readE_eq] at hy; exact hy
  have ex2 : m.x2 = c.px := by rw [readE_eq] at hx2; exact hx2
  have ey2 : m.y2 = c.py := by rw [readE_eq] at hy2; exact hy2
  have hd : r.dipole = m.dipole := by rw [hr]; rfl
  have ha : r.mAz = deg (Complex.arg ⟨c.px - c.nx, c.py - c.ny⟩) := by
    rw [hr]
    show m.azimuth = _
    unfold EMeas.azimuth atan2
    rw [ex, ey, ex2, ey2]
  have hn : r.dipole = ‖(⟨c.px - c.nx, c.py - c.ny⟩ : ℂ)‖ := by
    rw [hd, Complex.norm_def]
    unfold EMeas.dipole
    congr 1
    rw [Complex.normSq_mk, ex, ey, ex2, ey2]
    ring
  have hpi := Real.pi_pos
  refine ⟨by rw [hn]; exact norm_nonneg _, ?_, ?_, by rw [hr]; rfl, ?_, ?_⟩
  · rw [ha]
    have := Complex.neg_pi_lt_arg (⟨c.px - c.nx, c.py - c.ny⟩ : ℂ)
    unfold deg
    rw [lt_div_iff₀ hpi]
    nlinarith
  · rw [ha]
    have := Complex.arg_le_pi (⟨c.px - c.nx, c.py - c.ny⟩ : ℂ)
    unfold deg
    rw [div_le_iff₀ hpi]
    nlinarith
  · rw [ha, rad_deg, hn]
    exact Complex.norm_mul_cos_arg _
  · rw [ha, rad_deg, hn]
    exact Complex.norm_mul_sin_arg _

/-! ## C316: the attributes of an electric channel -/

/-- The claim: an electric channel read from the file written of it has the azimuths and length it had. -/
def C316_claim : Prop :=
  ∀ (w : World) (c c' : Ch) (k : Str) (m : EMeas), fromMetadata w c = .ok (c', some (k, .e m)) →
    (readE m (infoOf c)).mAz = c.mAz ∧ (readE m (infoOf c)).tAz = c.tAz ∧
    (readE m (infoOf c)).dipole = c.dipole ∧ (readE m (infoOf c)).number = c.number

/-- An electric channel of 100 m to the north, of the given translated azimuth. -/
noncomputable def exE (t : Option ℝ) : Ch :=
  { kind := .electric, comp := "ex".toList, id := none, number := 4, mAz := 5, tAz := t, tilt := 0, dipole := 100,
    nx := -50, ny := 0, px := 50, py := 0, lx := 0, ly := 0 }

theorem exE_ok (w : World) (t : Option ℝ) :
    ∃ m, fromMetadata w (exE t) = .ok (filled (exE t), some ("ex".toList, .e m)) := by
  refine ⟨EMeas.checked { comp := "ex".toList, id := 0, x := -50, x2 := 50, y := 0, y2 := 0, azm := azmOf (exE t), acq := 4 }, ?_⟩
  unfold fromMetadata
  rw [if_pos (show 'e' ∈ (exE t).comp from by show 'e' ∈ "ex".toList; decide), if_pos (show (exE t).kind = .electric from rfl)]
  unfold toE
  rw [if_pos (show chtypeOk ['e', 'E'] (filled (exE t)).comp = true from by show chtypeOk _ "ex".toList = true; decide)]
  rfl

/-- The claim is false: a translated azimuth that was not given is read as the direction of the electrodes. -/
theorem C316_refuted : ¬ C316_claim := by
  intro h
  obtain ⟨m, hm⟩ := exE_ok (fun _ => none) none
  have h2 := (h _ _ _ _ m hm).2.1
  rw [readE_eq] at h2
  cases h2

/-- What is missing is only that: everything else is read as it was, and a translated azimuth not given is
the direction from the negative to the positive electrode. -/
theorem C316_same_partial (w : World) (c c' : Ch) (k : Str) (m : EMeas)
    (h : fromMetadata w c = .ok (c', some (k, .e m))) :
    (readE m (infoOf c)).mAz = c.mAz ∧ (readE m (infoOf c)).dipole = c.dipole ∧
    (readE m (infoOf c)).number = c.number ∧
    (c.tAz ≠ none → (readE m (infoOf c)).tAz = c.tAz) ∧
    (c.tAz = none → (readE m (infoOf c)).tAz = some (Complex.arg ⟨c.px - c.nx, c.py - c.ny⟩ * 180 / Real.pi)) := by
  obtain ⟨-, -, hx, hy, hx2, hy2, -⟩ := C314_electrodes w c c' k m noInfo h
  rw [readE_eq] at hx hy hx2 hy2
  rw [readE_eq]
  refine ⟨rfl, rfl, rfl, fun hn => ?_, fun hn => ?_⟩
  · cases ht : c.tAz with
    | none => exact absurd ht hn
    | some a => simp only [withInfo, infoOf, ht]
  · simp only [withInfo, infoOf, hn, fromE, EMeas.azimuth, atan2, deg]
    have ex : m.x = c.nx := hx
    have ey : m.y = c.ny := hy
    have ex2 : m.x2 = c.px := hx2
    have ey2 : m.y2 = c.py := hy2
    rw [ex, ey, ex2, ey2]

/-! ## C317: magnetic channels -/

/-- The claim: a magnetic channel read from the file written of it has the place, azimuth and tilt it had. -/
def C317_claim : Prop :=
  ∀ (w : World) (c c' : Ch) (k : Str) (m : HMeas), fromMetadata w c = .ok (c', some (k, .h m)) →
    (readH m).lx = c.lx ∧ (readH m).ly = c.ly ∧ (readH m).mAz = c.mAz ∧ (readH m).tilt = c.tilt

/-- A magnetic channel of given azimuths and tilt. -/
noncomputable def exH (a : ℝ) (t : Option ℝ) (d : ℝ) : Ch :=
  { kind := .magnetic, comp := "hy".toList, id := none, number := 2, mAz := a, tAz := t, tilt := d, dipole := 0,
    nx := 0, ny := 0, px := 0, py := 0, lx := 3, ly := -7 }

theorem exH_ok (w : World) (a : ℝ) (t : Option ℝ) (d : ℝ) :
    fromMetadata w (exH a t d) = .ok (exH a t d, some ("hy".toList,
      .h { comp := "hy".toList, id := 0, x := 3, y := -7, azm := azmOf (exH a t d), dip := d, acq := 2 })) := by
  unfold fromMetadata
  rw [if_neg (show ¬ 'e' ∈ (exH a t d).comp from by show ¬ 'e' ∈ "hy".toList; decide),
      if_pos (show 'h' ∈ (exH a t d).comp from by show 'h' ∈ "hy".toList; decide),
      if_neg (show ¬ (exH a t d).kind = .electric from by intro h; cases h)]
  unfold toH
  rw [if_pos (show chtypeOk ['h', 'H', 'b', 'B'] (exH a t d).comp = true from by
    show chtypeOk _ "hy".toList = true; decide)]
  rfl

/-- The claim is false: an azimuth of 90 degrees without a translated one is read as 0. -/
theorem C317_refuted : ¬ C317_claim := by
  intro h
  have h2 := (h _ _ _ _ _ (exH_ok (fun _ => none) 90 none 0)).2.2.1
  rw [show (readH _).mAz = azmOf (exH 90 none 0) from rfl, azmOf_eq] at h2
  have : (0 : ℝ) = 90 := h2
  norm_num at this

/-- Even with the azimuths equal the tilt is lost. -/
theorem C317_tilt_partial : ∃ (w : World) (c : Ch) (k : Str) (m : HMeas),
    fromMetadata w c = .ok (c, some (k, .h m)) ∧ c.tAz = some c.mAz ∧ m.dip = c.tilt ∧ (readH m).tilt ≠ c.tilt := by
  refine ⟨fun _ => none, _, _, _, exH_ok _ 90 (some 90) 5, rfl, rfl, ?_⟩
  show (0 : ℝ) ≠ 5
  norm_num

/-- What is read of a magnetic channel: the place and component; both azimuths are the translated one, or
0 if there is none; the tilt is 0. -/
theorem C317_read_partial (w : World) (c c' : Ch) (k : Str) (m : HMeas)
    (h : fromMetadata w c = .ok (c', some (k, .h m))) :
    k = lower c.comp ∧ (readH m).comp = c.comp ∧ (readH m).lx = c.lx ∧ (readH m).ly = c.ly ∧
    (readH m).number = |c.number| ∧ (readH m).mAz = c.tAz.getD 0 ∧ (readH m).tAz = some (c.tAz.getD 0) ∧
    (readH m).tilt = 0 ∧ m.dip = c.tilt := by
  obtain ⟨-, -, -, -, hk, ht⟩ := fromMetadata_h w c c' k m h
  obtain ⟨-, i, -, hm⟩ := toH_inv _ _ _ _ ht
  subst hm
  refine ⟨hk, rfl, rfl, rfl, ?_, ?_, ?_, rfl, rfl⟩
  · exact Int.natCast_natAbs _
  · exact azmOf_eq c
  · exact congrArg some (azmOf_eq c)

/-! ## C318: the channel given -/

/-- The claim: making a measurement of a channel does not change the channel. -/
def C318_claim : Prop :=
  ∀ (w : World) (c c' : Ch) (o : Option (Str × Meas)), fromMetadata w c = .ok (c', o) → c' = c

/-- The claim is false: a translated azimuth that was not given becomes 0. -/
theorem C318_refuted : ¬ C318_claim := by
  intro h
  obtain ⟨m, hm⟩ := exE_ok (fun _ => none) none
  have := congrArg Ch.tAz (h _ _ _ _ hm)
  cases this

/-- It is the only change: a channel with a translated azimuth, and any channel that is not electric, is
left as it was; of the others nothing but that azimuth changes, to 0. -/
theorem C318_only_partial (w : World) (c c' : Ch) (o : Option (Str × Meas)) (h : fromMetadata w c = .ok (c', o)) :
    (c.tAz ≠ none ∨ c.kind ≠ .electric → c' = c) ∧ (c' = c ∨ c' = { c with tAz := some 0 }) := by
  have key : ∀ c : Ch, c.tAz ≠ none → filled c = c := by
    intro c hc
    cases ht : c.tAz with
    | none => exact absurd ht hc
    | some a =>
      obtain ⟨k, s, i, n, ma, t, ti, d, a1, a2, a3, a4, a5, a6⟩ := c
      have ht : t = some a := ht
      subst ht
      rfl
  have key2 : ∀ c : Ch, filled c = c ∨ filled c = { c with tAz := some 0 } := by
    intro c
    cases ht : c.tAz with
    | none => right; unfold filled; rw [ht]
    | some a => left; exact key c (by rw [ht]; intro h; cases h)
  unfold fromMetadata at h
  split at h
  · split at h
    · rename_i hk
      cases ht : toE w (azmOf c) (filled c) with
      | error e => rw [ht] at h; cases h
      | ok m' =>
        rw [ht] at h
        injection h with h; injection h with h1 h2
        subst h1
        exact ⟨fun hc => hc.elim (key c) (fun hn => absurd hk hn), key2 c⟩
    · cases h
  · split at h
    · split at h
      · cases h
      · cases ht : toH w (azmOf c) c with
        | error e => rw [ht] at h; cases h
        | ok m' => rw [ht] at h; injection h with h; injection h with h1 h2; exact ⟨fun _ => h1.symm, .inl h1.symm⟩
    · injection h with h; injection h with h1 h2; exact ⟨fun _ => h1.symm, .inl h1.symm⟩

/-! ## C319: every channel -/

/-- The claim: a measurement is made of every electric and magnetic channel, and auxiliary channels do no
harm. -/
def C319_claim : Prop :=
  ∀ (w : World) (c : Ch), ∃ c' o, fromMetadata w c = .ok (c', o) ∧ (c.kind ≠ .auxiliary → o ≠ none)

/-- A channel of the given kind and name. -/
noncomputable def exC (k : Kind) (s : Str) (i : Option Str) : Ch :=
  { kind := k, comp := s, id := i, number := 1, mAz := 0, tAz := some 0, tilt := 0, dipole := 0,
    nx := 0, ny := 0, px := 0, py := 0, lx := 0, ly := 0 }

/-- The claim is false: a channel of temperatures raises AttributeError. -/
theorem C319_refuted : ¬ C319_claim := by
  intro h
  obtain ⟨c', o, hc, -⟩ := h (fun _ => none) (exC .auxiliary "temperature".toList none)
  unfold fromMetadata at hc
  rw [if_pos (show 'e' ∈ (exC .auxiliary "temperature".toList none).comp from by
        show 'e' ∈ "temperature".toList; decide),
      if_neg (show ¬ (exC .auxiliary "temperature".toList none).kind = .electric from by intro h; cases h)] at hc
  cases hc

/-- Nor is a measurement made of magnetic channels called bx. -/
theorem C319_b_partial (w : World) (i : Option Str) :
    fromMetadata w (exC .magnetic "bx".toList i) = .ok (exC .magnetic "bx".toList i, none) := by
  unfold fromMetadata
  rw [if_neg (show ¬ 'e' ∈ (exC .magnetic "bx".toList i).comp from by show ¬ 'e' ∈ "bx".toList; decide),
      if_neg (show ¬ 'h' ∈ (exC .magnetic "bx".toList i).comp from by show ¬ 'h' ∈ "bx".toList; decide)]

/-- The text given as identifier of a channel is a number, or there is none. -/
def Numbered (w : World) (c : Ch) : Prop := ∀ s, c.id = some s → w s ≠ none

theorem idOf_ok (w : World) (c : Ch) : (∃ i, idOf w c.id = .ok i) ↔ Numbered w c := by
  unfold Numbered
  cases hc : c.id with
  | none => exact ⟨fun _ s hs => (by cases hs), fun _ => ⟨0, rfl⟩⟩
  | some s =>
    unfold idOf
    cases hw : w s with
    | none =>
      refine ⟨fun h => ?_, fun h => absurd hw (h s rfl)⟩
      obtain ⟨i, hi⟩ := h
      simp only [hw] at hi
      cases hi
    | some v =>
      refine ⟨fun _ t ht => ?_, fun _ => ⟨v, by simp only [hw]⟩⟩
      injection ht with ht
      subst ht
      rw [hw]; intro h; cases h

theorem measured_iff (w : World) (c : Ch) :
    ((∃ c' k m, fromMetadata w c = .ok (c', some (k, m))) ↔
      ('e' ∈ c.comp ∧ c.kind = .electric ∧ chtypeOk ['e', 'E'] c.comp = true ∧ Numbered w c) ∨
      ('e' ∉ c.comp ∧ 'h' ∈ c.comp ∧ c.kind ≠ .electric ∧ chtypeOk ['h', 'H', 'b', 'B'] c.comp = true ∧ Numbered w c)) ∧
    ((∃ c', fromMetadata w c = .ok (c', none)) ↔ 'e' ∉ c.comp ∧ 'h' ∉ c.comp) := by
  refine ⟨⟨?_, ?_⟩, ⟨?_, ?_⟩⟩
  · rintro ⟨c', k, m, h⟩
    cases m with
    | e m =>
      obtain ⟨he, hk, -, -, ht⟩ := fromMetadata_e w c c' k m h
      obtain ⟨hp, i, hi, -⟩ := toE_inv _ _ _ _ ht
      exact .inl ⟨he, hk, hp, (idOf_ok w c).mp ⟨i, hi⟩⟩
    | h m =>
      obtain ⟨he, hh, hk, -, -, ht⟩ := fromMetadata_h w c c' k m h
      obtain ⟨hp, i, hi, -⟩ := toH_inv _ _ _ _ ht
      exact .inr ⟨he, hh, hk, hp, (idOf_ok w c).mp ⟨i, hi⟩⟩
  · rintro (⟨he, hk, hp, hn⟩ | ⟨he, hh, hk, hp, hn⟩)
    · obtain ⟨i, hi⟩ := (idOf_ok w c).mpr hn
      refine ⟨filled c, lower c.comp, .e (EMeas.checked { comp := c.comp, id := i, x := c.nx, x2 := c.px, y := c.ny,
                                                          y2 := c.py, azm := azmOf c, acq := c.number }), ?_⟩
      unfold fromMetadata
      rw [if_pos he, if_pos hk]
      unfold toE
      rw [if_pos (show chtypeOk ['e', 'E'] (filled c).comp = true from hp), show idOf w (filled c).id = .ok i from hi]
      rfl
    · obtain ⟨i, hi⟩ := (idOf_ok w c).mpr hn
      refine ⟨c, lower c.comp, .h { comp := c.comp, id := i, x := c.lx, y := c.ly, azm := azmOf c, dip := c.tilt, acq := c.number }, ?_⟩
      unfold fromMetadata
      rw [if_neg he, if_pos hh, if_neg hk]
      unfold toH
      rw [if_pos hp, hi]
      rfl
  · rintro ⟨c', h⟩
    unfold fromMetadata at h
    split at h
    · split at h
      · cases ht : toE w (azmOf c) (filled c) with
        | error e => rw [ht] at h; cases h
        | ok m' => rw [ht] at h; injection h with h; injection h with h1 h2; cases h2
      · cases h
    · rename_i he
      split at h
      · split at h
        · cases h
        · cases ht : toH w (azmOf c) c with
          | error e => rw [ht] at h; cases h
          | ok m' => rw [ht] at h; injection h with h; injection h with h1 h2; cases h2
      · rename_i hh
        exact ⟨he, hh⟩
  · rintro ⟨he, hh⟩
    exact ⟨c, by unfold fromMetadata; rw [if_neg he, if_neg hh]⟩

/-- Letters, digits and underscores. -/
def Word (x : Char) : Prop := ('a' ≤ x ∧ x ≤ 'z') ∨ ('A' ≤ x ∧ x ≤ 'Z') ∨ ('0' ≤ x ∧ x ≤ '9') ∨ x = '_'

/-- The names of channels in EDI files: one of the letters or RR or rr, and at least one letter, digit or underscore. -/
def Named (first : List Char) (s : Str) : Prop :=
  ∃ p r, s = p ++ r ∧ r ≠ [] ∧ (∀ x ∈ r, Word x) ∧ (p = ['R', 'R'] ∨ p = ['r', 'r'] ∨ ∃ c ∈ first, p = [c])

theorem wordy_iff (s : Str) : wordy s = true ↔ s ≠ [] ∧ ∀ x ∈ s, Word x := by
  unfold wordy
  rw [Bool.and_eq_true, List.all_eq_true]
  constructor
  · rintro ⟨h1, h2⟩
    refine ⟨fun h => (by rw [h] at h1; cases h1), fun x hx => ?_⟩
    have := h2 x hx
    unfold wordChar at this
    simpa only [Bool.or_eq_true, Bool.and_eq_true, decide_eq_true_eq, beq_iff_eq, or_assoc, Word] using this
  · rintro ⟨h1, h2⟩
    refine ⟨by cases s with | nil => exact absurd rfl h1 | cons _ _ => rfl, fun x hx => ?_⟩
    have := h2 x hx
    unfold wordChar
    simpa only [Bool.or_eq_true, Bool.and_eq_true, decide_eq_true_eq, beq_iff_eq, or_assoc, Word] using this

theorem chtypeOk_iff (first : List Char) (s : Str) : chtypeOk first s = true ↔ Named first s := by
  constructor
  · intro h
    unfold chtypeOk at h
    cases s with
    | nil => cases h
    | cons c r =>
      simp only [Bool.or_eq_true, Bool.and_eq_true] at h
      rcases h with ⟨h1, h2⟩ | h
      · exact ⟨[c], r, rfl, ((wordy_iff r).1 h2).1, ((wordy_iff r).1 h2).2, .inr (.inr ⟨c, by simpa using h1, rfl⟩)⟩
      · split at h
        · rename_i r' 
          exact ⟨['R', 'R'], r', rfl, ((wordy_iff r').1 h).1, ((wordy_iff r').1 h).2, .inl rfl⟩
        · rename_i r'
          exact ⟨['r', 'r'], r', rfl, ((wordy_iff r').1 h).1, ((wordy_iff r').1 h).2, .inr (.inl rfl)⟩
        · cases h
  · rintro ⟨p, r, rfl, hr, hw, h⟩
    have hwr := (wordy_iff r).2 ⟨hr, hw⟩
    rcases h with rfl | rfl | ⟨c, hc, rfl⟩
    · simp only [chtypeOk, List.cons_append, List.nil_append, hwr, Bool.or_true]
    · simp only [chtypeOk, List.cons_append, List.nil_append, hwr, Bool.or_true]
    · simp only [chtypeOk, List.cons_append, List.nil_append, hwr, Bool.and_true, Bool.or_eq_true]
      exact .inl (by simpa using hc)

/-- Exactly which channels are accepted: those with an "e" in the name must be electric, named like one and
numbered, those with an "h" (and no "e") must not be electric, be named like a magnetic channel and
numbered; all others are accepted, and no measurement is made of them. -/
theorem C319_iff_partial (w : World) (c : Ch) :
    ((∃ c' k m, fromMetadata w c = .ok (c', some (k, m))) ↔
      ('e' ∈ c.comp ∧ c.kind = .electric ∧ Named ['e', 'E'] c.comp ∧ Numbered w c) ∨
      ('e' ∉ c.comp ∧ 'h' ∈ c.comp ∧ c.kind ≠ .electric ∧ Named ['h', 'H', 'b', 'B'] c.comp ∧ Numbered w c)) ∧
    ((∃ c', fromMetadata w c = .ok (c', none)) ↔ 'e' ∉ c.comp ∧ 'h' ∉ c.comp) := by
  rw [← chtypeOk_iff, ← chtypeOk_iff]
  exact measured_iff w c

/-! ## The hypotheses are met -/

example : ∃ m, fromMetadata (fun _ => none) (exE (some 7)) = .ok (filled (exE (some 7)), some ("ex".toList, .e m)) :=
  exE_ok _ _

example : Numbered (fun _ => none) (exE none) := fun s hs => (by cases hs)

end Verif.EdiGeometry
