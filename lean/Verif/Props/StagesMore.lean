import Verif.Props.Stages
import Mathlib.Analysis.SpecialFunctions.Pow.Real

/-!
C210-C216: sensitivity, names of filters, units, orientation and position of a channel in StationXML.
-/

namespace Verif.Stages
open Verif.Filters

/-! ### C210, C211 -/

/-- Rounding to the nearest whole number, whatever is done halfway. -/
def Nearest (rnd : ℝ → ℤ) : Prop := ∀ y, |(rnd y : ℝ) - y| ≤ 1 / 2

theorem figures_close {rnd : ℝ → ℤ} (hr : Nearest rnd) (figs : ℤ) {x : ℝ} (hx : x ≠ 0) :
    |figures rnd figs x - x| ≤ |x| * 10 ^ (-figs) / 2 := by
  unfold figures roundTo
  set e := ⌊Real.logb 10 |x|⌋ with he
  have hx' : 0 < |x| := abs_pos.2 hx
  have h10 : (0 : ℝ) < 10 ^ (figs - e) := by positivity
  have h1 : |(rnd (x * 10 ^ (figs - e)) : ℝ) / 10 ^ (figs - e) - x| =
      |(rnd (x * 10 ^ (figs - e)) : ℝ) - x * 10 ^ (figs - e)| / 10 ^ (figs - e) := by
    rw [← abs_of_pos h10, ← abs_div, abs_of_pos h10]
    congr 1
    field_simp
  rw [h1]
  have h2 : |(rnd (x * 10 ^ (figs - e)) : ℝ) - x * 10 ^ (figs - e)| / 10 ^ (figs - e) ≤ (1 / 2) / 10 ^ (figs - e) :=
    div_le_div_of_nonneg_right (hr _) h10.le
  refine h2.trans ?_
  have h3 : (10 : ℝ) ^ e ≤ |x| := by
    have : (e : ℝ) ≤ Real.logb 10 |x| := Int.floor_le _
    rw [Real.le_logb_iff_rpow_le (by norm_num) hx', Real.rpow_intCast] at this
    exact this
  have h4 : (1 / 2 : ℝ) / 10 ^ (figs - e) = 10 ^ e * 10 ^ (-figs) / 2 := by
    rw [zpow_sub₀ (by norm_num), zpow_neg]
    field_simp
  rw [h4]
  have : (0 : ℝ) < 10 ^ (-figs) := by positivity
  have := mul_le_mul_of_nonneg_right h3 this.le
  linarith

theorem gainProduct_eq (l : List Full) : gainProduct l = (l.map (fun f => f.filter.gain)).prod := by
  have : ∀ (l : List Full) (a : ℝ), l.foldl (fun acc f => acc * f.filter.gain) a =
      a * (l.map (fun f => f.filter.gain)).prod := by
    intro l
    induction l with
    | nil => intro a; simp
    | cons f t ih => intro a; simp [ih, mul_assoc]
  unfold gainProduct
  rw [this, one_mul]

/-- C210: the sensitivity written for a channel is the amplitude of its response at the normalisation frequency, to one
part in a million. -/
def C210_claim : Prop :=
  ∀ (rnd : ℝ → ℤ) (nf rate : ℝ) (u v : Str) (l : List Full) (r : Response), Nearest rnd →
    toResponse rnd nf rate u v l = .ok r →
    ∀ z ∈ channelResp (l.map (fun f => f.filter)) [nf] true true, |r.value - ‖z‖| ≤ ‖z‖ / 10 ^ 6

theorem toResponse_value {rnd : ℝ → ℤ} {nf rate : ℝ} {u v : Str} {l : List Full} {r : Response}
    (h : toResponse rnd nf rate u v l = .ok r) :
    (l.map (fun f => f.filter.gain)).prod ≠ 0 ∧ r.value = figures rnd 16 (l.map (fun f => f.filter.gain)).prod ∧
      r.frequency = nf ∧ writeFrom nf rate 1 l = .ok r.stages := by
  unfold toResponse totalGain at h
  rw [gainProduct_eq] at h
  split at h
  · cases h
  · next hne =>
    simp only [Except.bind] at h
    split at h
    · cases h
    · split at h
      · cases h
      · split at h
        · cases h
        · next hw =>
          cases h
          exact ⟨hne, rfl, rfl, hw⟩

theorem toResponse_doubler (rnd : ℝ → ℤ) : ∃ r, toResponse rnd 0 1 "Volt".toList "Volt".toList [doubler] = .ok r := by
  obtain ⟨st, -, h1, -⟩ := write_read 0 1 [doubler] 1 (by
    intro f hf
    simp only [List.mem_cons, List.not_mem_nil, or_false] at hf
    subst hf; exact doubler_plain)
  have hv : ∃ w, Units.getUnit (some "Volt".toList) true = .ok w := ⟨_, rfl⟩
  obtain ⟨w, hv⟩ := hv
  have hg : gainProduct [doubler] = 1 := by simp [gainProduct, doubler]
  unfold toResponse totalGain
  rw [hg, if_neg one_ne_zero]
  simp only [Except.bind, hv, h1]
  exact ⟨_, rfl⟩

theorem nearest_round : Nearest round := fun y => by
  rw [abs_sub_comm]
  exact abs_sub_round y

/-- C210 is false: the product of the gains is written, without the normalisation factors of pole zero filters (and what
poles and zeros contribute). -/
theorem C210_refuted : ¬ C210_claim := by
  intro h
  obtain ⟨r, hr⟩ := toResponse_doubler round
  obtain ⟨h1, h2, -, -⟩ := toResponse_value hr
  have h3 := h round 0 1 _ _ _ r nearest_round hr 2 (by
    rw [C50_product]
    simp [respAt, doubler, zpkAt])
  have h4 := figures_close nearest_round 16 h1
  rw [← h2] at h4
  simp [doubler] at h3 h4
  rw [abs_le] at h3 h4
  norm_num at h3 h4
  linarith [h3.1, h4.2]

/-- C210 in part: what is written as sensitivity is the product of the gains to 16 digits, and no response is written
when the product is zero. -/
theorem C210_gains_partial (rnd : ℝ → ℤ) (hr : Nearest rnd) (nf rate : ℝ) (u v : Str) (l : List Full) :
    ((l.map (fun f => f.filter.gain)).prod = 0 → toResponse rnd nf rate u v l = .error .overflowError) ∧
    ∀ r, toResponse rnd nf rate u v l = .ok r →
      |r.value - (l.map (fun f => f.filter.gain)).prod| ≤ |(l.map (fun f => f.filter.gain)).prod| / 10 ^ 16 / 2 ∧
      r.frequency = nf := by
  constructor
  · intro h
    unfold toResponse totalGain
    rw [gainProduct_eq, if_pos h]
    rfl
  · intro r h
    obtain ⟨h1, h2, h3, -⟩ := toResponse_value h
    refine ⟨?_, h3⟩
    rw [h2]
    have := figures_close hr 16 h1
    rw [zpow_neg] at this
    calc _ ≤ _ := this
      _ = _ := by norm_cast

/-- C210 in part: for coefficient filters with positive gains this is the amplitude of the response, at any frequency. -/
theorem C210_coefficients_partial (rnd : ℝ → ℤ) (hr : Nearest rnd) (nf rate x : ℝ) (u v : Str) (l : List Full)
    (hl : ∀ f ∈ l, f.filter.kind = .coefficient ∧ 0 < f.filter.gain) (r : Response)
    (h : toResponse rnd nf rate u v l = .ok r) :
    ∀ z ∈ channelResp (l.map (fun f => f.filter)) [x] true true, |r.value - ‖z‖| ≤ ‖z‖ / 10 ^ 16 / 2 := by
  intro z hz
  rw [C50_product] at hz
  simp only [List.map_cons, List.map_nil, List.mem_cons, List.not_mem_nil, or_false, List.map_map] at hz
  have e : ‖z‖ = (l.map (fun f => f.filter.gain)).prod ∧ 0 < (l.map (fun f => f.filter.gain)).prod := by
    rw [hz]
    clear h hz
    induction l with
    | nil => simp
    | cons f t ih =>
      obtain ⟨i1, i2⟩ := ih (fun g hg => hl g (by simp [hg]))
      obtain ⟨k1, k2⟩ := hl f (by simp)
      constructor
      · rw [List.map_cons, List.prod_cons, List.map_cons, List.prod_cons, norm_mul, i1]
        simp only [Function.comp_apply, respAt, k1]
        rw [Complex.norm_real, Real.norm_of_nonneg k2.le]
      · simpa using mul_pos k2 i2
  have := ((C210_gains_partial rnd hr nf rate u v l).2 r h).1
  rw [e.1]
  rwa [abs_of_pos e.2] at this

/-- C211: `compute_instrument_sensitivity` is the amplitude of the channel response at the normalisation frequency to six
digits, delays and decimation included; one if that is zero. -/
theorem C211_sensitivity (rnd : ℝ → ℤ) (hr : Nearest rnd) (nf : ℝ) (l : List Full) :
    ∀ z ∈ channelResp (l.map (fun f => f.filter)) [nf] true true,
      (z = 0 → sensitivity rnd nf l = 1) ∧ (z ≠ 0 → |sensitivity rnd nf l - ‖z‖| ≤ ‖z‖ / 10 ^ 6 / 2) := by
  intro z hz
  rw [C50_product] at hz
  simp only [List.map_cons, List.map_nil, List.mem_cons, List.not_mem_nil, or_false, List.map_map] at hz
  have hf : ∀ (l : List Full) (a : ℂ), l.foldl (fun acc f => acc * respAt f.filter nf) a =
      a * (l.map ((fun f => respAt f nf) ∘ (fun f => f.filter))).prod := by
    intro l
    induction l with
    | nil => intro a; simp
    | cons f t ih => intro a; simp [ih, mul_assoc]
  have hs : ‖l.foldl (fun acc f => acc * respAt f.filter nf) (1 : ℂ)‖ = ‖z‖ := by rw [hf, one_mul, hz]
  unfold sensitivity
  simp only [hs]
  constructor
  · intro h
    rw [if_pos (by rw [h]; simp)]
  · intro h
    have hn : ‖z‖ ≠ 0 := by simpa using h
    rw [if_neg hn]
    have := figures_close hr 6 hn
    rw [abs_of_nonneg (norm_nonneg z), zpow_neg] at this
    calc _ ≤ _ := this
      _ = _ := by norm_cast

/-! ### C212 -/

/-- C212: every filter of a channel written is a filter of the channel read. -/
def C212_claim : Prop :=
  ∀ (rnd : ℝ → ℤ) (fmt : ℝ → Str) (nf rate : ℝ) (ex : OD Str Full) (l : List Full), (∀ f ∈ l, Plain f) →
    (∀ f ∈ l, Spoken f.filter.name) → (l.map (fun f => f.filter.name)).Nodup →
    ∃ a out, throughXml rnd fmt nf rate ex l = .ok (a, out) ∧ out.length = l.length

theorem foldl_keys (l : List (Str × Full)) : ∀ d : OD Str Full, OD.WF d →
    OD.WF (l.foldl (fun d p => d.set p.1 p.2) d) ∧
    ∀ k, k ∈ (l.foldl (fun d p => d.set p.1 p.2) d).keys ↔ k ∈ d.keys ∨ k ∈ l.map Prod.fst := by
  induction l with
  | nil => intro d h; exact ⟨h, by simp⟩
  | cons p t ih =>
    intro d h
    obtain ⟨h1, h2⟩ := ih (d.set p.1 p.2) (h.set p.1 p.2)
    refine ⟨h1, ?_⟩
    intro k
    rw [List.foldl_cons, h2, OD.mem_keys_set, List.map_cons, List.mem_cons]
    tauto

/-- C212 in part: the channel read has one filter for every different name, where names differ that do so in small
letters, with " per " for a slash and with the sample rate of filters that decimate. -/
theorem C212_names_partial (rnd : ℝ → ℤ) (fmt : ℝ → Str) (nf rate : ℝ) (ex : OD Str Full) (l : List Full)
    (hp : ∀ f ∈ l, Plain f) (hs : ∀ f ∈ l, Spoken f.filter.name) :
    ∃ a out, throughXml rnd fmt nf rate ex l = .ok (a, out) ∧ out.length = a.length ∧
      (a.map (fun p => p.name)).Nodup ∧
      ∀ n, n ∈ a.map (fun p => p.name) ↔ ∃ f ∈ l, n = Applied.norm (nameRead fmt f) := by
  obtain ⟨st, rs, h1, h2, h3, -⟩ := write_read nf rate l 1 hp
  have hk : (rs.map (entryOf fmt)).map Prod.fst = l.map (fun f => Applied.norm (nameRead fmt f)) := by
    clear h2 h1 hs hp
    induction h3 with
    | nil => rfl
    | cons a _ ih =>
      simp only [List.map_cons, ih]
      congr 1
      show keyOf (rated fmt _).filter.name = _
      rw [a.rated_eq]
      rfl
  have hn : ∀ r ∈ rs, Spoken r.filter.name := by
    clear hk h2 h1 hp
    induction h3 with
    | nil => intro r hr; cases hr
    | cons a _ ih =>
      intro r hr
      rcases List.mem_cons.1 hr with rfl | hr
      · rw [a.name]; exact hs _ (by simp)
      · exact ih (fun x hx => hs x (by simp [hx])) r hr
  have hloop := readLoop_named rnd fmt ex st rs h2 (fun r hr e => by
    obtain ⟨c, hc, _⟩ := hn r hr
    rw [e] at hc; cases hc) []
  obtain ⟨hwf, hmem⟩ := foldl_keys (rs.map (entryOf fmt)) [] OD.WF_nil
  set d := (rs.map (entryOf fmt)).foldl (fun d p => OD.set d p.1 p.2) [] with hd
  have hkeys : ∀ k, k ∈ OD.keys d ↔ ∃ f ∈ l, k = Applied.norm (nameRead fmt f) := by
    intro k
    rw [hmem, hk, List.mem_map]
    simp only [OD.keys_nil, List.not_mem_nil, false_or]
    constructor
    · rintro ⟨f, hf, e⟩; exact ⟨f, hf, e.symm⟩
    · rintro ⟨f, hf, e⟩; exact ⟨f, hf, e.symm⟩
  have hap : applied [] d = .ok (d.map afOf) := by
    have := applied_fresh d [] (by
      intro p hp'
      obtain ⟨f, hf, e⟩ := (hkeys p.1).1 (OD.mem_keys_of_mem (v := p.2) hp')
      rw [e]
      exact mkName_norm (hs f hf).nameRead) (by rw [List.map_nil, List.nil_append]; exact hwf)
    simpa using this
  have hnames : (d.map afOf).map (fun p => p.name) = OD.keys d := by
    simp [List.map_map, Function.comp_def, afOf, OD.keys]
  refine ⟨d.map afOf, responseList (d.map afOf) d, ?_, ?_, ?_, ?_⟩
  · unfold throughXml
    rw [h1]
    simp only [Except.bind, hloop, hap]
  · rw [responseList_values hwf]; simp
  · rw [hnames]; exact hwf
  · rw [hnames]; exact hkeys

/-- Two amplifiers, named with a capital and a small letter. -/
noncomputable def twins : List Full :=
  [⟨⟨"A".toList, "Volt".toList, "Volt".toList, 2, .coefficient⟩, none, 0⟩,
   ⟨⟨"a".toList, "Volt".toList, "Volt".toList, 3, .coefficient⟩, none, 0⟩]

/-- C212 is false: of two filters whose names differ in capitals only the second is left. -/
theorem C212_refuted : ¬ C212_claim := by
  intro h
  have hp : ∀ f ∈ twins, Plain f := by
    intro f hf
    simp only [twins, List.mem_cons, List.not_mem_nil, or_false] at hf
    rcases hf with rfl | rfl <;> exact ⟨rfl, volt_stored, volt_stored⟩
  have hs : ∀ f ∈ twins, Spoken f.filter.name := by
    intro f hf
    simp only [twins, List.mem_cons, List.not_mem_nil, or_false] at hf
    rcases hf with rfl | rfl
    · exact ⟨'A', by simp, by decide⟩
    · exact ⟨'a', by simp, by decide⟩
  obtain ⟨a, out, h1, h2⟩ := h (fun _ => 0) (fun _ => []) 0 1 [] twins hp hs (by simp [twins])
  obtain ⟨a', out', g1, g2, g3, g4⟩ := C212_names_partial (fun _ => 0) (fun _ => []) 0 1 [] twins hp hs
  rw [g1] at h1
  cases h1
  have hall : ∀ n ∈ a.map (fun p => p.name), n = "a".toList := by
    intro n hn
    obtain ⟨f, hf, rfl⟩ := (g4 n).1 hn
    simp only [twins, List.mem_cons, List.not_mem_nil, or_false] at hf
    rcases hf with rfl | rfl <;> simp [nameRead] <;> decide
  have : (a.map (fun p => p.name)).length ≤ 1 := by
    rcases hl : a.map (fun p => p.name) with _ | ⟨x, _ | ⟨y, t⟩⟩
    · rw [hl]; exact Nat.zero_le 1
    · rw [hl]; exact Nat.le_refl 1
    · exfalso
      rw [hl] at hall g3
      have hx := hall x (by simp)
      have hy := hall y (by simp)
      rw [hx, hy] at g3
      simp at g3
  rw [g2] at h2
  simp [twins] at h2 this
  omega

/-! ### C213 -/

/-- C213: a filter without a name gets a name that no other filter of the survey has, or that of a filter with the same
response. -/
def C213_claim : Prop :=
  ∀ (ex : OD Str Full) (f : Filter), OD.WF ex → (∀ k g, ex.get? k = some g → g.filter.name = k) →
    ∃ n b, addNumber round ex f = .ok (n, b) ∧
      (n ∉ ex.keys ∨ ∃ g, ex.get? n = some g ∧ ∀ x, respAt g.filter x = respAt f x)

theorem sameAs_hit {rnd : ℝ → ℤ} {f : Filter} {g : Full} {t : List Full} {a : ℤ} (h : typeName g.filter = typeName f)
    (h1 : amplitudeAt1 rnd g.filter = .ok a) (h2 : amplitudeAt1 rnd f = .ok a) :
    sameAs rnd f (g :: t) = .ok (some g.filter.name) := by
  unfold sameAs
  rw [if_pos h, h1, h2]
  simp [Except.bind]

/-- An amplifier that was not named before. -/
noncomputable def third : Full :=
  ⟨⟨"coefficient_00".toList, "Volt".toList, "Volt".toList, 3 / 10, .coefficient⟩, none, 1⟩

/-- Another one, without a name. -/
noncomputable def nameless : Filter := ⟨[], "Volt".toList, "Volt".toList, 2 / 5, .coefficient⟩

theorem third_gain : third.filter.gain = 3 / 10 := rfl
theorem third_kind : third.filter.kind = .coefficient := rfl
theorem nameless_gain : nameless.gain = 2 / 5 := rfl
theorem nameless_kind : nameless.kind = .coefficient := rfl

theorem amplitude_coefficient {f : Filter} (hf : f.kind = .coefficient) (h0 : 0 ≤ f.gain) (h1 : f.gain < 1 / 2) :
    amplitudeAt1 round f = .ok 0 := by
  unfold amplitudeAt1 respAt
  rw [hf]
  simp only
  rw [Complex.norm_real, Real.norm_of_nonneg h0, round_eq_zero_iff.2]
  constructor <;> linarith

theorem addNumber_nameless : addNumber round [(third.filter.name, third)] nameless = .ok (third.filter.name, false) := by
  have h : sameAs round nameless (OD.values [(third.filter.name, third)]) = .ok (some third.filter.name) :=
    sameAs_hit (a := 0) rfl (amplitude_coefficient third_kind (by rw [third_gain]; norm_num) (by rw [third_gain]; norm_num))
      (amplitude_coefficient nameless_kind (by rw [nameless_gain]; norm_num) (by rw [nameless_gain]; norm_num))
  unfold addNumber
  rw [h]
  rfl

/-- C213 is false: only the amplitude at 1 Hz is compared, rounded to a whole number. -/
theorem C213_refuted : ¬ C213_claim := by
  intro h
  have hget : ∀ k g, OD.get? [(third.filter.name, third)] k = some g → third.filter.name = k ∧ g = third := by
    intro k g hg
    rw [OD.get?_cons] at hg
    split at hg
    · next e => exact ⟨e, (Option.some.inj hg).symm⟩
    · cases hg
  obtain ⟨n, b, h1, h2⟩ := h [(third.filter.name, third)] nameless (List.nodup_singleton _)
    (fun k g hg => by obtain ⟨e1, e2⟩ := hget k g hg; rw [e2]; exact e1)
  rw [addNumber_nameless] at h1
  have hn : n = third.filter.name := (congrArg Prod.fst (Except.ok.inj h1)).symm
  rw [hn] at h2
  refine h2.elim (fun h2 => h2 (List.mem_singleton.2 rfl)) ?_
  intro h2
  obtain ⟨g, h2, h3⟩ := h2
  have := h3 0
  rw [(hget _ _ h2).2] at this
  unfold respAt at this
  rw [third_kind, nameless_kind, third_gain, nameless_gain] at this
  have := Complex.ofReal_injective this
  norm_num at this

theorem strLt_trans : ∀ a b c : Str, strLt a b = true → strLt b c = true → strLt a c = true := by
  intro a
  induction a with
  | nil =>
    intro b c h1 h2
    cases c with
    | nil => cases b <;> simp [strLt] at h1 h2
    | cons z c => rfl
  | cons x a ih =>
    intro b c h1 h2
    cases b with
    | nil => simp [strLt] at h1
    | cons y b =>
      cases c with
      | nil => simp [strLt] at h2
      | cons z c =>
        unfold strLt at h1 h2 ⊢
        split at h1
        · split at h2
          · rw [if_pos (by omega)]
          · split at h2
            · cases h2
            · rw [if_pos (by omega)]
        · split at h1
          · cases h1
          · split at h2
            · rw [if_pos (by omega)]
            · split at h2
              · cases h2
              · rw [if_neg (by omega), if_neg (by omega)]
                exact ih _ _ h1 h2

theorem strLt_irrefl : ∀ a : Str, strLt a a = false := by
  intro a
  induction a with
  | nil => rfl
  | cons x a ih => simp [strLt, ih]

theorem strLt_prefix (p a b : Str) : strLt (p ++ a) (p ++ b) = strLt a b := by
  induction p with
  | nil => rfl
  | cons x p ih => simp [strLt, ih]

theorem lastOf_none {l : List Str} (h : lastOf l = none) : l = [] := by
  cases l with
  | nil => rfl
  | cons k t =>
    unfold lastOf at h
    split at h
    · cases h
    · split at h <;> cases h

theorem lastOf_some : ∀ (l : List Str) (m : Str), lastOf l = some m → m ∈ l ∧ ∀ k ∈ l, strLt m k = false := by
  intro l
  induction l with
  | nil => intro m h; cases h
  | cons a t ih =>
    intro m h
    unfold lastOf at h
    split at h
    · next e =>
      cases h
      rw [lastOf_none e]
      exact ⟨by simp, by intro k hk; simp at hk; rw [hk]; exact strLt_irrefl _⟩
    · next m' e =>
      obtain ⟨h1, h2⟩ := ih m' e
      split at h
      · next hlt =>
        cases h
        refine ⟨by simp, ?_⟩
        intro k hk
        rcases List.mem_cons.1 hk with rfl | hk
        · exact strLt_irrefl _
        · cases hc : strLt a k with
          | false => rfl
          | true =>
            have := strLt_trans _ _ _ hlt hc
            rw [h2 k hk] at this
            cases this
      · next hlt =>
        cases h
        refine ⟨by simp [h1], ?_⟩
        intro k hk
        rcases List.mem_cons.1 hk with rfl | hk
        · simpa using hlt
        · exact h2 k hk

/-- The two digits of a number below 100. -/
def twoDigits (i : ℕ) : Str := [Char.ofNat (48 + i / 10), Char.ofNat (48 + i % 10)]

theorem next_number : ∀ i < 99, readInt (twoDigits i) = some (i : ℤ) ∧
    pad2 ((i : ℤ) + 1) = twoDigits (i + 1) ∧ strLt ('_' :: twoDigits i) ('_' :: twoDigits (i + 1)) = true := by
  decide +kernel

theorem hasSub_append (a b : Str) : Text.hasSub a (a ++ b) = true :=
  Text.hasSub_iff.2 (List.prefix_append a b).isInfix

theorem sameAs_none {f : Filter} {rnd : ℝ → ℤ} {l : List Full} (h : ∀ g ∈ l, typeName g.filter = typeName f →
    ∃ a b, amplitudeAt1 rnd g.filter = .ok a ∧ amplitudeAt1 rnd f = .ok b ∧ a ≠ b) : sameAs rnd f l = .ok none := by
  induction l with
  | nil => rfl
  | cons g t ih =>
    unfold sameAs
    split
    · next e =>
      obtain ⟨a, b, h1, h2, h3⟩ := h g (by simp) e
      rw [h1, h2]
      simp only [Except.bind, if_neg h3]
      exact ih (fun x hx => h x (by simp [hx]))
    · exact ih (fun x hx => h x (by simp [hx]))

/-- C213 in part: when the filters of the survey whose names contain the type are numbered with two digits below 99 and
none of the type has the same amplitude at 1 Hz in whole numbers, the filter gets a new name: the type with a number. -/
theorem C213_new_partial (rnd : ℝ → ℤ) (ex : OD Str Full) (f : Filter)
    (hk : ∀ k ∈ ex.keys, typeName f <:+: k → ∃ i < 99, k = typeName f ++ "_".toList ++ twoDigits i)
    (ha : ∀ g ∈ ex.values, typeName g.filter = typeName f →
      (∀ d, f.kind ≠ .delay d) ∧ (∀ c s q r d, f.kind ≠ .fir c s q r d) ∧
      rnd ‖respAt g.filter 1‖ ≠ rnd ‖respAt f 1‖) :
    ∃ i < 100, addNumber rnd ex f = .ok (typeName f ++ "_".toList ++ twoDigits i, true) ∧
      typeName f ++ "_".toList ++ twoDigits i ∉ ex.keys := by
  have hsame : sameAs rnd f ex.values = .ok none := by
    apply sameAs_none
    intro g hg e
    obtain ⟨h1, h2, h3⟩ := ha g hg e
    refine ⟨_, _, ?_, ?_, h3⟩
    · unfold amplitudeAt1
      unfold typeName at e
      split
      · next d hd =>
        rw [hd] at e
        cases hf : f.kind with
        | delay d' => exact absurd hf (h1 d')
        | zpk _ _ _ => rw [hf] at e; simp at e
        | coefficient => rw [hf] at e; simp at e
        | fap _ => rw [hf] at e; simp at e
        | fir _ _ _ _ _ => rw [hf] at e; simp at e
      · next c s q r d hd =>
        rw [hd] at e
        cases hf : f.kind with
        | fir _ _ _ _ _ => exact absurd hf (h2 _ _ _ _ _)
        | zpk _ _ _ => rw [hf] at e; simp at e
        | coefficient => rw [hf] at e; simp at e
        | fap _ => rw [hf] at e; simp at e
        | delay _ => rw [hf] at e; simp at e
      · rfl
    · unfold amplitudeAt1
      split
      · next d hd => exact absurd hd (h1 d)
      · next c s q r d hd => exact absurd hd (h2 _ _ _ _ _)
      · rfl
  unfold addNumber
  rw [hsame]
  simp only [Except.bind]
  unfold newName
  cases hl : lastOf (ex.keys.filter (fun k => Text.hasSub (typeName f) k)) with
  | none =>
    refine ⟨0, by omega, by simp [twoDigits], ?_⟩
    intro hm
    have h0 := lastOf_none hl
    have : typeName f ++ "_".toList ++ twoDigits 0 ∈ ex.keys.filter (fun k => Text.hasSub (typeName f) k) :=
      List.mem_filter.2 ⟨hm, by rw [List.append_assoc]; exact hasSub_append _ _⟩
    rw [h0] at this
    cases this
  | some last =>
    obtain ⟨h1, h2⟩ := lastOf_some _ _ hl
    obtain ⟨h3, h4⟩ := List.mem_filter.1 h1
    obtain ⟨i, hi, rfl⟩ := hk last h3 (Text.hasSub_iff.1 h4)
    obtain ⟨n1, n2, n3⟩ := next_number i hi
    refine ⟨i + 1, by omega, ?_, ?_⟩
    · have hd : (typeName f ++ "_".toList ++ twoDigits i).drop
          ((typeName f ++ "_".toList ++ twoDigits i).length - 2) = twoDigits i := by
        have : (typeName f ++ "_".toList ++ twoDigits i).length - 2 = (typeName f ++ "_".toList).length := by
          simp [twoDigits]
        rw [this, List.drop_left]
      simp only [hd, n1, n2]
      simp
    · intro hm
      have := h2 _ (List.mem_filter.2 ⟨hm, by rw [List.append_assoc]; exact hasSub_append _ _⟩)
      rw [List.append_assoc, List.append_assoc, strLt_prefix] at this
      have e : "_".toList ++ twoDigits i = '_' :: twoDigits i := rfl
      have e' : "_".toList ++ twoDigits (i + 1) = '_' :: twoDigits (i + 1) := rfl
      rw [e, e', n3] at this
      cases this

/-- C213 in part: no name is found for a delay or a FIR filter when the survey has a filter of the type: the amplitudes
cannot be computed. -/
theorem C213_type_error_partial (rnd : ℝ → ℤ) (ex : OD Str Full) (f : Filter)
    (hf : (∃ d, f.kind = .delay d) ∨ ∃ c s q r d, f.kind = .fir c s q r d)
    (hg : ∃ g ∈ ex.values, typeName g.filter = typeName f) : addNumber rnd ex f = .error .typeError := by
  have : ∀ l : List Full, (∃ g ∈ l, typeName g.filter = typeName f) → sameAs rnd f l = .error .typeError := by
    intro l
    induction l with
    | nil => rintro ⟨g, hg, -⟩; cases hg
    | cons g t ih =>
      rintro ⟨g', hg', e⟩
      unfold sameAs
      by_cases h : typeName g.filter = typeName f
      · rw [if_pos h]
        have hb : amplitudeAt1 rnd f = .error .typeError := by
          unfold amplitudeAt1
          rcases hf with ⟨d, hf⟩ | ⟨c, s, q, r, d, hf⟩ <;> rw [hf]
        cases ha : amplitudeAt1 rnd g.filter with
        | error er =>
          unfold amplitudeAt1 at ha
          split at ha <;> cases ha <;> rfl
        | ok a => simp only [Except.bind, hb]
      · rw [if_neg h]
        apply ih
        rcases List.mem_cons.1 hg' with rfl | hg'
        · exact absurd e h
        · exact ⟨g', hg', e⟩
  unfold addNumber
  rw [this _ hg]
  rfl

/-- A survey with two unnamed pole zero filters already numbered. -/
noncomputable def numbered : OD Str Full :=
  [("zpk_00".toList, ⟨⟨"zpk_00".toList, "Volt".toList, "Volt".toList, 10, .zpk [] [] 1⟩, none, 1⟩),
   ("zpk_07".toList, ⟨⟨"zpk_07".toList, "Volt".toList, "Volt".toList, 20, .zpk [] [] 1⟩, none, 2⟩)]

example : ∃ i < 100, addNumber (fun x => ⌊x⌋) numbered ⟨[], "Volt".toList, "Volt".toList, 30, .zpk [] [] 1⟩ =
    .ok ("zpk".toList ++ "_".toList ++ twoDigits i, true) ∧
    "zpk".toList ++ "_".toList ++ twoDigits i ∉ numbered.keys := by
  refine C213_new_partial (fun x => ⌊x⌋) numbered ⟨[], "Volt".toList, "Volt".toList, 30, .zpk [] [] 1⟩ ?_ ?_
  · intro k hk _
    simp only [numbered, OD.keys_cons, OD.keys_nil, List.mem_cons, List.not_mem_nil, or_false] at hk
    rcases hk with rfl | rfl
    · exact ⟨0, by omega, by decide⟩
    · exact ⟨7, by omega, by decide⟩
  · intro g hg _
    refine ⟨(by intro d h; cases h), (by intro c s q r d h; cases h), ?_⟩
    simp only [numbered, OD.values_cons, OD.values_nil, List.mem_cons, List.not_mem_nil, or_false] at hg
    rcases hg with rfl | rfl <;> simp [respAt, zpkAt]

/-! ### C214 -/

/-- C214: the units of a channel survive StationXML. -/
def C214_claim : Prop :=
  ∀ (nf rate : ℝ) (units : Str) (l : List Full), StoredUnit units → l ≠ [] → (∀ f ∈ l, Plain f) →
    ∃ st, writeFrom nf rate 1 l = .ok st ∧ channelUnits [] st = .ok units

theorem fromDf_mono {v : Str} {u : Units.Unit} (h : Units.fromDf v false = .ok u) : Units.fromDf v true = .ok u := by
  unfold Units.fromDf at h ⊢
  split
  · next e => rw [e] at h; exact h
  · next e =>
    rw [e] at h
    simp only at h
    split
    · next e' => rw [e'] at h; exact h
    · next e' => rw [e'] at h; cases h

theorem combineAll_mono : ∀ (ps : List Units.Part) (U u : Units.Unit), Units.combineAll false U ps = .ok u →
    Units.combineAll true U ps = .ok u := by
  intro ps
  induction ps with
  | nil => intro U u h; exact h
  | cons p ps ih =>
    intro U u h
    unfold Units.combineAll at h ⊢
    cases hv : Units.fromDf p.name false with
    | error e => rw [hv] at h; cases h
    | ok V =>
      rw [hv] at h
      rw [fromDf_mono hv]
      exact ih _ _ h

theorem getUnit_mono {s : Str} {u : Units.Unit} (h : Units.getUnit (some s) false = .ok u) :
    Units.getUnit (some s) true = .ok u := by
  unfold Units.getUnit at h ⊢
  simp only at h ⊢
  split
  · next e => rw [if_pos e] at h; exact fromDf_mono h
  · next e =>
    rw [if_neg e] at h
    split
    · next e' => rw [if_pos e'] at h; exact h
    · next e' =>
      rw [if_neg e'] at h
      cases hp : Units.parse s with
      | error er => rw [hp] at h; cases h
      | ok ps =>
        rw [hp] at h
        cases ps with
        | nil => cases h
        | cons p ps =>
          simp only at h ⊢
          cases hU : Units.fromDf p.name false with
          | error er => rw [hU] at h; cases h
          | ok U =>
            rw [hU] at h
            rw [fromDf_mono hU]
            exact combineAll_mono _ _ _ h

theorem table_named : ∀ r ∈ Units.table, r.name ≠ [] := by decide +kernel

theorem StoredUnit.ne_nil {n : Str} (h : StoredUnit n) : n ≠ [] := by
  obtain ⟨⟨s, u, hu, rfl⟩, -, -⟩ := h
  obtain ⟨U, l, hU, -, hn, -⟩ := getUnit_shape hu
  rw [hn]
  intro e
  exact table_named U hU (List.append_eq_nil_iff.1 e).1

/-- The output units of a filter in its stage. -/
def SameOut (f : Full) (s : Stage) : Prop :=
  s.unitsOutName = f.filter.unitsOut ∧ readUnit s.unitsOut = .ok f.filter.unitsOut

theorem write_units (nf rate : ℝ) : ∀ (l : List Full) (n : ℕ), (∀ f ∈ l, Plain f) → ∃ st,
    writeFrom nf rate n l = .ok st ∧ List.Forall₂ SameOut l st := by
  intro l
  induction l with
  | nil => intro n _; exact ⟨[], rfl, .nil⟩
  | cons f t ih =>
    intro n h
    obtain ⟨g, h1, h2, -, -, h5, -, -⟩ := asWritten_plain (h f (by simp))
    obtain ⟨u, v, -, -, -, -, -, h8, -, -, h9⟩ := toStage_plain (nf := nf) (rate := rate) (n := n) h2
    obtain ⟨st, a1, a2⟩ := ih (n + 1) (fun x hx => h x (by simp [hx]))
    refine ⟨_, ?_, .cons (l₂ := st) (b := stageOf nf rate n g u v) ⟨h5, by rw [← h5]; exact h8⟩ a2⟩
    unfold writeFrom
    rw [h1]
    simp only [Except.bind, h9, a1]

theorem forall₂_last {α β : Type} {R : α → β → Prop} {l : List α} {m : List β} (h : List.Forall₂ R l m) :
    ∀ a, l.getLast? = some a → ∃ b, m.getLast? = some b ∧ R a b := by
  induction h with
  | nil => intro a h; cases h
  | @cons a b l m hab hlm ih =>
    intro x hx
    cases hlm with
    | nil => simp at hx; subst hx; exact ⟨b, by simp, hab⟩
    | @cons c d l m hcd hlm =>
      rw [List.getLast?_cons_cons] at hx ⊢
      exact ih x hx

/-- C214 in part: a channel with filters gets the output units of its last filter. -/
theorem C214_last_partial (nf rate : ℝ) (units : Str) (l : List Full) (f : Full) (hl : l.getLast? = some f)
    (hp : ∀ g ∈ l, Plain g) :
    ∃ st, writeFrom nf rate 1 l = .ok st ∧ channelUnits units st = .ok f.filter.unitsOut := by
  obtain ⟨st, h1, h2⟩ := write_units nf rate l 1 hp
  refine ⟨st, h1, ?_⟩
  obtain ⟨s, h3, h4, h5⟩ := forall₂_last h2 f hl
  have hf : StoredUnit f.filter.unitsOut := (hp f (List.mem_of_getLast? hl)).2.2
  have hne := hf.ne_nil
  obtain ⟨u, b1, b2, -⟩ := hf.back
  have hname : Units.getUnit (some s.unitsOutName) true = .ok u := by rw [h4]; exact getUnit_mono b1
  have hsym : ∃ v, Units.getUnit (some s.unitsOut) true = .ok v ∧ v.name = f.filter.unitsOut := by
    unfold readUnit at h5
    split at h5
    · next v hv => exact ⟨v, getUnit_mono hv, Except.ok.inj h5⟩
    · cases h5
  obtain ⟨v, v1, v2⟩ := hsym
  unfold channelUnits
  rw [h3]
  simp only
  have hne' : s.unitsOutName ≠ [] := by rw [h4]; exact hne
  have hbest : ∃ best, (if s.unitsOutName ≠ [] ∧ s.unitsOut ≠ [] then
        (if s.unitsOut.length < s.unitsOutName.length then s.unitsOutName else s.unitsOut)
      else if s.unitsOutName ≠ [] then s.unitsOutName else s.unitsOut) = best ∧ best ≠ [] ∧
      ∃ w, Units.getUnit (some best) true = .ok w ∧ w.name = f.filter.unitsOut := by
    by_cases hs : s.unitsOut = []
    · refine ⟨s.unitsOutName, ?_, hne', u, hname, b2⟩
      rw [if_neg (fun h => h.2 hs), if_pos hne']
    · rw [if_pos ⟨hne', hs⟩]
      by_cases hlt : s.unitsOut.length < s.unitsOutName.length
      · exact ⟨s.unitsOutName, by rw [if_pos hlt], hne', u, hname, b2⟩
      · exact ⟨s.unitsOut, by rw [if_neg hlt], hs, v, v1, v2⟩
  obtain ⟨best, e1, e2, w, e3, e4⟩ := hbest
  rw [e1, if_neg e2, e3]
  simp only [e4]

/-- C214 without filters: the units are not written at all. -/
theorem C214_none_partial (nf rate : ℝ) (units : Str) :
    ∃ st, writeFrom nf rate 1 [] = .ok st ∧ channelUnits units st = .ok units := ⟨[], rfl, rfl⟩

theorem counts_stored : StoredUnit "digital counts".toList :=
  ⟨⟨"counts".toList, _, rfl, by decide +kernel⟩, by decide +kernel, by decide +kernel⟩

/-- C214 is false: the units of the channel are not looked at. -/
theorem C214_refuted : ¬ C214_claim := by
  intro h
  have hp : ∀ f ∈ [doubler], Plain f := by
    intro f hf
    simp only [List.mem_cons, List.not_mem_nil, or_false] at hf
    subst hf; exact doubler_plain
  obtain ⟨st, h1, h2⟩ := h 0 1 "digital counts".toList [doubler] counts_stored (by simp) hp
  obtain ⟨st', g1, g2⟩ := C214_last_partial 0 1 [] [doubler] doubler rfl hp
  rw [g1] at h1
  cases h1
  rw [g2] at h2
  exact absurd (Except.ok.inj h2) (by simp [doubler])

/-! ### C215, C216 -/

/-- C215: azimuth and tilt of a channel survive StationXML. -/
def C215_claim : Prop := ∀ a : ℝ, readAngle (writeAngle a) = a

theorem readAngle_eq (a : ℝ) : readAngle a = a := by
  unfold readAngle
  split
  · next h => exact h.symm
  · rfl

/-- C215 is false: an azimuth of -90 degrees is 270 degrees afterwards. -/
theorem C215_refuted : ¬ C215_claim := by
  intro h
  have := h (-90)
  rw [readAngle_eq] at this
  unfold writeAngle at this
  have hf : ⌊(-90 : ℝ) / 360⌋ = -1 := by
    rw [Int.floor_eq_iff]
    norm_num
  rw [hf] at this
  norm_num at this

/-- C215 in part: the direction is the same, given from 0 to below 360 degrees; angles given so are unchanged. -/
theorem C215_direction_partial (a : ℝ) :
    0 ≤ readAngle (writeAngle a) ∧ readAngle (writeAngle a) < 360 ∧ (∃ n : ℤ, readAngle (writeAngle a) = a + 360 * n) ∧
    (0 ≤ a → a < 360 → readAngle (writeAngle a) = a) := by
  rw [readAngle_eq]
  unfold writeAngle
  have h1 := Int.floor_le (a / 360)
  have h2 := Int.lt_floor_add_one (a / 360)
  refine ⟨by linarith, by linarith, ⟨-⌊a / 360⌋, by push_cast; ring⟩, ?_⟩
  intro ha hb
  have : ⌊a / 360⌋ = 0 := by
    rw [Int.floor_eq_iff]
    constructor
    · simp only [Int.cast_zero]; linarith
    · simp only [Int.cast_zero]; linarith
  rw [this]; simp

/-- Whether a channel is electric. -/
def Place.isElectric : Place → Bool
  | .electric _ _ => true
  | .other _ => false

/-- C216: the positions of a channel survive StationXML. -/
def C216_claim : Prop := ∀ p : Place, readPlace p.isElectric (writePlace p) = p

/-- C216 is false: of an electric dipole only the positive electrode is written. -/
theorem C216_refuted : ¬ C216_claim := by
  intro h
  have := h (.electric ⟨1, 0, 0⟩ ⟨0, 0, 0⟩)
  simp [readPlace, writePlace, Place.isElectric] at this

/-- C216 in part: the position of the positive electrode and of other channels is kept; the negative electrode gets that of
the positive one. -/
theorem C216_position_partial (p : Place) :
    match p, readPlace p.isElectric (writePlace p) with
    | .electric pos _, .electric pos' neg' => pos' = pos ∧ neg' = pos
    | .other l, .other l' => l' = l
    | _, _ => False := by
  cases p <;> simp [readPlace, writePlace, Place.isElectric]

/-! ### a channel -/

/-- An induction coil with one pole and one zero, and a logger of 1000 counts per volt. -/
noncomputable def channel : List Full :=
  [⟨⟨"Coil/HP".toList, "nanoTesla".toList, "Volt".toList, 2, .zpk [0] [-3] 5⟩, none, 0⟩,
   ⟨⟨"logger".toList, "Volt".toList, "digital counts".toList, 1000, .coefficient⟩, none, 0⟩]

theorem nanotesla_stored : StoredUnit "nanoTesla".toList :=
  ⟨⟨"nT".toList, _, rfl, by decide +kernel⟩, by decide +kernel, by decide +kernel⟩

theorem channel_plain : ∀ f ∈ channel, Plain f := by
  intro f hf
  simp only [channel, List.mem_cons, List.not_mem_nil, or_false] at hf
  rcases hf with rfl | rfl
  · exact ⟨rfl, nanotesla_stored, volt_stored⟩
  · exact ⟨rfl, volt_stored, counts_stored⟩

theorem channel_spoken : ∀ f ∈ channel, Spoken f.filter.name := by
  intro f hf
  simp only [channel, List.mem_cons, List.not_mem_nil, or_false] at hf
  rcases hf with rfl | rfl
  · exact ⟨'C', by simp, by decide⟩
  · exact ⟨'l', by simp, by decide⟩

theorem channel_names (fmt : ℝ → Str) : channel.map (fun f => Applied.norm (nameRead fmt f)) =
    ["coil per hp".toList, "logger".toList] := by
  have h1 : Applied.norm "Coil/HP".toList = "coil per hp".toList := by decide +kernel
  have h2 : Applied.norm "logger".toList = "logger".toList := by decide +kernel
  show [Applied.norm "Coil/HP".toList, Applied.norm "logger".toList] = _
  rw [h1, h2]

/-- The filters above meet what C207-C209, C212 and C214 ask for. -/
example (rnd : ℝ → ℤ) (fmt : ℝ → Str) (nf rate : ℝ) : ∃ a out, throughXml rnd fmt nf rate [] channel = .ok (a, out) ∧
    ∀ (xs : List ℝ) (decimation delay : Bool),
      channelResp (out.map (fun f => f.filter)) xs decimation delay =
        channelResp (channel.map (fun f => f.filter)) xs decimation delay :=
  C207_response_partial rnd fmt nf rate [] channel channel_plain channel_spoken
    (by rw [channel_names]; decide) (by
      intro f hf
      simp only [channel, List.mem_cons, List.not_mem_nil, or_false] at hf
      rcases hf with rfl | rfl <;> simp [Faithful])

example (rnd : ℝ → ℤ) (fmt : ℝ → Str) (nf rate : ℝ) : ∃ a out, throughXml rnd fmt nf rate [] channel = .ok (a, out) ∧
    a.map (fun p => (p.name, p.applied)) = [("coil per hp".toList, true), ("logger".toList, true)] := by
  obtain ⟨a, out, h1, h2, -⟩ := C208_kept_partial rnd fmt nf rate [] channel channel_plain channel_spoken
    (by rw [channel_names]; decide)
  refine ⟨a, out, h1, ?_⟩
  rw [h2, show (fun f => (Applied.norm (nameRead fmt f), true)) =
    (fun n => (n, true)) ∘ (fun f : Full => Applied.norm (nameRead fmt f)) from rfl, ← List.map_map, channel_names]
  rfl

example (nf rate : ℝ) : ∃ st, writeFrom nf rate 1 channel = .ok st ∧ channelUnits [] st = .ok "digital counts".toList :=
  C214_last_partial nf rate [] channel _ rfl channel_plain

/-- The sensitivity written for it is its gain of 2000, far from its amplitude at most frequencies. -/
example (rnd : ℝ → ℤ) (hr : Nearest rnd) (nf rate : ℝ) (r : Response)
    (h : toResponse rnd nf rate "nanoTesla".toList "digital counts".toList channel = .ok r) :
    |r.value - 2000| ≤ 2000 / 10 ^ 16 / 2 := by
  have := ((C210_gains_partial rnd hr nf rate _ _ channel).2 r h).1
  have e : (channel.map (fun f => f.filter.gain)).prod = 2000 := by simp [channel]; norm_num
  rw [e] at this
  simpa using this

end Verif.Stages
