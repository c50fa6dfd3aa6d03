import Verif.Props.ZongeText

/-! More on C157, C158, C161 and C165: the table that is written, a new header, the azimuths of a run. -/

namespace Verif.Zonge
open Verif.Text

/-! ## C157: the rows of the table -/

/-- **C157**: every row of the impedance has the frequency, magnitude and phase of an element, the apparent resistivity
`|Z|²/(5 f)`, the relative error of the resistivity and the error times 1000 as that of the phase. -/
theorem C157_rows {o : Obj} {z : Arr ℂ} {e : Arr ℝ} {fs : List ℝ} {rows : List Row} (hz : o.z = some z) (he : o.zerr = some e)
    (hf : o.freq = some fs) (hr : createRows o = .ok rows) :
    ∀ r ∈ rows, isZ r → ∃ k i j, fs[k]? = some r.freq ∧ place (up o.pos) r.comp = some (i, j) ∧
      r.mag = ‖z k i j‖ ∧ r.phase = Complex.arg (z k i j) * 1000 ∧ r.ares = ‖z k i j‖ ^ 2 / (5 * r.freq) ∧
      r.perr = 1000 * e k i j ∧ (z k i j ≠ 0 → r.aerr = 200 * e k i j / ‖z k i j‖) ∧ (z k i j = 0 → r.aerr = 0) := by
  intro r hm hzr
  obtain ⟨idx, h1, ci, hci, k, f, hk, h⟩ := (rows_cases hz hf hr r).1 hm
  have hn : ∀ w : ℂ, Real.sqrt (w.re ^ 2 + w.im ^ 2) = ‖w‖ := by
    intro w
    rw [Complex.norm_def, Complex.normSq_apply]
    congr 1
    ring
  rcases h with ⟨_, rfl⟩ | ⟨hc, t, ht, rfl⟩
  · refine ⟨k, ci.2.1, ci.2.2, hk, ((index_entry h1).1 ci hci).1, ?_, rfl, ?_, ?_, ?_, ?_⟩
    · simp only [zRow, toAmpPhase, hn]
    · simp only [zRow, toAmpPhase, hn]
      rw [show (0.2 : ℝ) = 1 / 5 by norm_num, one_div_mul_one_div]
      ring
    · simp only [zRow, he, Option.map_some, Option.getD_some]
      ring
    · intro hne
      simp only [zRow, toAmpPhase, hn, he, Option.map_some, Option.getD_some]
      rw [if_neg (norm_ne_zero_iff.2 hne)]
      ring
    · intro h0
      simp only [zRow, toAmpPhase, hn, he, Option.map_some, Option.getD_some]
      rw [if_pos (norm_eq_zero.2 h0)]
  · exact absurd hzr hc

example : ∃ rows, createRows (sample .down 1) = .ok rows ∧ ∃ r ∈ rows, isZ r := by
  obtain ⟨rows, h⟩ := createRows_ok (o := sample .down 1) rfl rfl (by decide)
  refine ⟨rows, h, _, (rows_cases (o := sample .down 1) rfl rfl h _).2 ⟨_, rfl, ("zxx".toList, (0, 0)), by decide, 0, _, rfl,
    .inl ⟨by decide, rfl⟩⟩, ?_⟩
  exact (by decide : "zxx".toList.head? = some 'z')

/-! ## C158: the tipper of a transfer function -/

/-- **C158**: what is written from a transfer function has the impedance and the tipper. -/
theorem C158_to_avg {fs : List ℝ} {z t : Arr ℂ} (zerr terr : Option (Arr ℝ)) (hn : fs.Nodup) (hne : fs ≠ []) :
    ∃ rows z' e' t' et', createRows (toAvg (some fs) (some z) zerr (some t) terr) = .ok rows ∧
      fillZ .down rows = .ok (z', e') ∧ fillT .down rows = .ok (some (t', et')) ∧ (∀ f, f ∈ freqs rows ↔ f ∈ fs) ∧
      ∀ k n f, fs[k]? = some f → (freqs rows)[n]? = some f → (∀ i j, z' n i j = z k i j) ∧ ∀ j, t' n 0 j = t k 0 j := by
  obtain ⟨rows, z', e', h1, h2, h3, h4⟩ := C156_arrays (o := toAvg (some fs) (some z) zerr (some t) terr) rfl rfl
    (show ZPos.down ≠ .other by decide) hn
  obtain ⟨rows', t', et', g1, g2, g3⟩ := C158_partial (o := toAvg (some fs) (some z) zerr (some t) terr) rfl rfl rfl
    (show ZPos.down ≠ .other by decide) hn hne
  rw [h1] at g1
  cases g1
  refine ⟨rows, z', e', t', et', h1, h2, g2, h3, fun k n f hk hf => ⟨h4 k n f hk hf, fun j => ?_⟩⟩
  rw [g3 k n f j hk hf]
  exact if_neg (show ¬ ZPos.down = .up by decide)

/-- **C157**: the errors of a transfer function are those in the table. -/
theorem C157_to_avg {fs : List ℝ} {z : Arr ℂ} {e : Arr ℝ} {t : Option (Arr ℂ)} {terr : Option (Arr ℝ)} {rows : List Row}
    (hr : createRows (toAvg (some fs) (some z) (some e) t terr) = .ok rows) :
    ∀ r ∈ rows, isZ r → ∃ k i j, fs[k]? = some r.freq ∧ place false r.comp = some (i, j) ∧
      r.mag = ‖z k i j‖ ∧ r.perr = 1000 * e k i j := by
  intro r hm hz
  obtain ⟨k, i, j, h1, h2, h3, _, _, h4, _⟩ := C157_rows (o := toAvg (some fs) (some z) (some e) t terr) rfl rfl rfl hr r hm hz
  exact ⟨k, i, j, h1, h2, h3, h4⟩

/-! ## C161: a new header -/

/-- **C161**: with a heading the header of a new file cannot be read either: its smoothing, `None`, is not one of the
options. -/
theorem C161_smooth {N : Nums} (G : Good N) (hpr : List ℝ) (station unit : Str) (hs : '=' ∉ station) (hu : '=' ∉ unit)
    {rows : List Row} (hr : rows ≠ []) (hc : ∀ r ∈ rows, nameOk r.comp) :
    ¬ ∃ st, readHeader N (asRead (fileLines N { newHead with hpr := hpr, station := station, unit := unit } rows)) = .ok st := by
  have hcl : clean { newHead with hpr := hpr, station := station, unit := unit } := by
    intro s hsm
    simp only [newHead, List.mem_cons, List.not_mem_nil, or_false] at hsm
    rcases hsm with rfl | rfl | rfl | rfl | rfl | rfl | rfl | rfl | rfl | rfl
    all_goals first
      | exact hs
      | exact hu
      | decide
  intro h
  have := ((C160_partial G hcl hr hc).1.1 h).1
  revert this
  show lower (strip "None".toList) ∉ _
  decide

example : ∃ rows : List Row, rows ≠ [] ∧ ∀ r ∈ rows, nameOk r.comp :=
  ⟨[mk "zxy".toList 1 1 0], by simp, by
    intro r hr
    rw [List.mem_singleton.1 hr]
    exact ⟨by decide, by decide⟩⟩

/-! ## C165: the azimuths of a run -/

/-- **C165**: the azimuths of `ex`, `ey`, `hx`, `hy`: without lines of channels the heading, that of the two `y` turned by 90
degrees; with them the first of `zxy`, the first of `zyx`, the second of `zyx`, the second of `zxy`. -/
theorem C165_run (N : Nums) (a : Avg) (hz : ∃ r ∈ a.rows, r.comp = "zxy".toList) :
    (∀ x, heading a = .ok x → (∀ d, OD.get? a.comps "zxx".toList = some d → OD.get? d "ch.cmp".toList = none) →
      azimuths N a = .ok [x, x + 90, x, x + 90]) ∧
    (∀ d0 t dxy dyx sxy syx (p q : Str × Str) exy eyx hxy hyx,
      OD.get? a.comps "zxx".toList = some d0 → OD.get? d0 "ch.cmp".toList = some (.text t) → ',' ∉ t →
      OD.get? a.comps "zxy".toList = some dxy → OD.get? dxy "ch.azimuth".toList = some (.text sxy) →
      OD.get? a.comps "zyx".toList = some dyx → OD.get? dyx "ch.azimuth".toList = some (.text syx) →
      (splitC ',' sxy).map strip = [p.1, p.2] → (splitC ',' syx).map strip = [q.1, q.2] →
      p.1 ≠ [] → p.2 ≠ [] → q.1 ≠ [] → q.2 ≠ [] →
      N.parse p.1 = some exy → N.parse p.2 = some hyx → N.parse q.1 = some eyx → N.parse q.2 = some hxy →
      azimuths N a = .ok [exy, eyx, hxy, hyx]) := by
  have hmem : "zxy".toList ∈ a.rows.map Row.comp := by
    obtain ⟨r, hr, e⟩ := hz
    exact List.mem_map.2 ⟨r, hr, e⟩
  constructor
  · intro x hx hno
    have h := fun c i turn => (C165_partial N a c i turn).1 x hx hno
    unfold azimuths
    rw [if_pos (.inl hmem), h, h, h, h, add_zero]
    rfl
  · intro d0 t dxy dyx sxy syx p q exy eyx hxy hyx h0 h1 h2 h3 h4 h5 h6 h7 h8 n1 n2 n3 n4 v1 v2 v3 v4
    have l1 : ∀ x ∈ [p.1, p.2], x ≠ [] := by
      intro x hx
      rcases List.mem_cons.1 hx with rfl | hx
      · exact n1
      · rw [List.mem_singleton.1 hx]; exact n2
    have l2 : ∀ x ∈ [q.1, q.2], x ≠ [] := by
      intro x hx
      rcases List.mem_cons.1 hx with rfl | hx
      · exact n3
      · rw [List.mem_singleton.1 hx]; exact n4
    have a1 := (C165_partial N a "zxy".toList 0 0).2.1 d0 dxy t sxy _ exy h0 h1 h2 h3 h4 h7 l1 (by simp) (by simpa using v1)
    have a2 := (C165_partial N a "zyx".toList 0 90).2.1 d0 dyx t syx _ eyx h0 h1 h2 h5 h6 h8 l2 (by simp) (by simpa using v3)
    have a3 := (C165_partial N a "zyx".toList 1 0).2.1 d0 dyx t syx _ hxy h0 h1 h2 h5 h6 h8 l2 (by simp) (by simpa using v4)
    have a4 := (C165_partial N a "zxy".toList 1 90).2.1 d0 dxy t sxy _ hyx h0 h1 h2 h3 h4 h7 l1 (by simp) (by simpa using v2)
    unfold azimuths
    rw [if_pos (.inl hmem), a1, a2, a3, a4]
    rfl

/-- What is read from a file without lines of channels. -/
noncomputable def noChannel : Avg := { oneChannel with comps := [], rows := [mk "zxy".toList 1 1 0] }

example : azimuths whole noChannel = .ok [10, 10 + 90, 10, 10 + 90] :=
  (C165_run whole noChannel ⟨_, List.mem_singleton.2 rfl, rfl⟩).1 10 rfl (by intro d hd; cases hd)

end Verif.Zonge
