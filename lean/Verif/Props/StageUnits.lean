import Verif.Model.Stages
import Verif.Props.Units
import Verif.Lemmas.Words

/-!
The units of filters in StationXML: names written as symbols and read back (for C207-C214).
-/

namespace Verif.Stages
open Verif.Filters

/-! ### units -/

/-- The units of a filter as they are stored: the name found for some string, not containing coulomb (whose symbol is
celsius' as well) and with digital counts only on their own. -/
def StoredUnit (n : Str) : Prop :=
  (∃ s u, Units.getUnit (some s) false = .ok u ∧ u.name = n) ∧ ¬ "Coulomb".toList <:+: n ∧
    (n = "digital counts".toList ∨ ¬ "digital counts".toList <:+: n)

theorem combineAll_symbols (b : Bool) (ps : List Units.Part) : ∀ (U X : Units.Unit),
    Units.combineAll b U ps = .ok X → ∃ l : List (Option Units.Sep × Units.Unit), (∀ p ∈ l, p.2 ∈ Units.table) ∧
      X.name = U.name ++ l.flatMap (fun p => Units.nameSep p.1 ++ p.2.name) ∧
      X.symbol = U.symbol ++ l.flatMap (fun p => Units.symSep p.1 ++ p.2.symbol) := by
  induction ps with
  | nil =>
    intro U X h
    cases h
    exact ⟨[], by simp, by simp, by simp⟩
  | cons p ps ih =>
    intro U X h
    unfold Units.combineAll at h
    cases hv : Units.fromDf p.name b with
    | error e => rw [hv] at h; cases h
    | ok V =>
      rw [hv] at h
      obtain ⟨l, h1, h2, h3⟩ := ih _ _ h
      refine ⟨(p.sep, V) :: l, ?_, ?_, ?_⟩
      · intro q hq
        rcases List.mem_cons.1 hq with rfl | hq
        · exact Units.fromDf_mem hv
        · exact h1 q hq
      · rw [h2]; simp [Units.combine]
      · rw [h3]; simp [Units.combine]

theorem getUnit_shape {s : Str} {b : Bool} {u : Units.Unit} (h : Units.getUnit (some s) b = .ok u) :
    ∃ (U : Units.Unit) (l : List (Option Units.Sep × Units.Unit)), U ∈ Units.table ∧ (∀ p ∈ l, p.2 ∈ Units.table) ∧
      u.name = U.name ++ l.flatMap (fun p => Units.nameSep p.1 ++ p.2.name) ∧
      u.symbol = U.symbol ++ l.flatMap (fun p => Units.symSep p.1 ++ p.2.symbol) := by
  unfold Units.getUnit at h
  simp only at h
  split at h
  · exact ⟨u, [], Units.fromDf_mem h, by simp, by simp, by simp⟩
  · split at h
    · cases h
      exact ⟨Units.unknown, [], by decide +kernel, by simp, by simp, by simp⟩
    · cases hp : Units.parse s with
      | error e => rw [hp] at h; cases h
      | ok ps =>
        rw [hp] at h
        cases ps with
        | nil => cases h
        | cons p ps =>
          simp only at h
          cases hU : Units.fromDf p.name b with
          | error e => rw [hU] at h; cases h
          | ok U =>
            rw [hU] at h
            obtain ⟨l, h1, h2, h3⟩ := combineAll_symbols b ps U u h
            exact ⟨U, l, Units.fromDf_mem hU, h1, h2, h3⟩

theorem symbol_word : ∀ r ∈ Units.table, Units.Word r.symbol := by decide +kernel

theorem symbol_not_counts : ∀ r ∈ Units.table, Units.lower r.symbol ≠ "digital".toList := by decide +kernel

theorem symbol_single : ∀ r ∈ Units.table, r.name ≠ "Coulomb".toList → readUnit r.symbol = .ok r.name := by
  decide +kernel

theorem lowerC_slash : Units.lowerC '/' = '/' := by decide

theorem takeWhile_sep (a : Str) (c : Char) (t : Str) (p : Char → Bool) (ha : ∀ x ∈ a, p x = true) (hc : p c = false) :
    (a ++ c :: t).takeWhile p = a := by
  induction a with
  | nil => simp [hc]
  | cons x a ih =>
    rw [List.cons_append, List.takeWhile_cons_of_pos (ha x (by simp)), ih (fun y hy => ha y (by simp [hy]))]

/-- Which separator stands between two symbols. -/
def symOf : Option Units.Sep → Units.Sep
  | some .slash => .slash
  | some .per => .slash
  | _ => .blank

theorem symSep_eq (s : Option Units.Sep) : Units.symSep s = (symOf s).str := by
  cases s with
  | none => rfl
  | some s => cases s <;> rfl

theorem longSep_symOf (s : Option Units.Sep) : Units.longSep (symOf s) = Units.nameSep s := by
  cases s with
  | none => rfl
  | some s => cases s <;> rfl

/-- The symbol of a unit is read as the unit's name. -/
theorem readUnit_symbol {s : Str} {u : Units.Unit} (h : Units.getUnit (some s) false = .ok u)
    (hC : ¬ "Coulomb".toList <:+: u.name) : readUnit u.symbol = .ok u.name := by
  obtain ⟨U, l, hU, hl, hn, hs⟩ := getUnit_shape h
  have part : ∀ p ∈ l, p.2.name <:+: u.name := by
    intro p hp
    obtain ⟨l1, l2, rfl⟩ := List.append_of_mem hp
    rw [hn]
    exact ⟨U.name ++ l1.flatMap (fun p => Units.nameSep p.1 ++ p.2.name) ++ Units.nameSep p.1,
      l2.flatMap (fun p => Units.nameSep p.1 ++ p.2.name), by simp⟩
  have hUi : U.name <:+: u.name := hn ▸ (List.prefix_append _ _).isInfix
  have hUC : U.name ≠ "Coulomb".toList := fun e => hC (e ▸ hUi)
  have hlC : ∀ p ∈ l, p.2.name ≠ "Coulomb".toList := fun p hp e => hC (e ▸ part p hp)
  cases l with
  | nil =>
    have e1 : u.symbol = U.symbol := by rw [hs]; simp
    have e2 : u.name = U.name := by rw [hn]; simp
    rw [e1, e2]
    exact symbol_single U hU hUC
  | cons p l =>
    have hb : Units.build U.symbol (((p :: l).map (fun p => (symOf p.1, p.2.symbol, p.2))).map (fun p => (p.1, p.2.1))) =
        u.symbol := by
      rw [hs]
      unfold Units.build
      rw [List.flatMap_map, List.flatMap_map]
      simp only [symSep_eq]
    have hw := symbol_word U hU
    have hc : Units.isCounts u.symbol = false := by
      cases hc : Units.isCounts u.symbol with
      | false => rfl
      | true =>
        exfalso
        have e : ∃ c rest, (c = ' ' ∨ c = '/') ∧ u.symbol = U.symbol ++ c :: rest := by
          rw [hs]
          simp only [List.flatMap_cons]
          rcases hp : p.1 with _ | q
          · exact ⟨' ', _, Or.inl rfl, rfl⟩
          · cases q
            · exact ⟨'/', _, Or.inr rfl, rfl⟩
            · exact ⟨'/', _, Or.inr rfl, rfl⟩
            · exact ⟨' ', _, Or.inl rfl, rfl⟩
        obtain ⟨c, rest, hcc, e⟩ := e
        have el : Units.lower u.symbol = Units.lower U.symbol ++ Units.lowerC c :: Units.lower rest := by
          rw [e]; simp [Units.lower]
        have hlc : Units.lowerC c = c := by rcases hcc with rfl | rfl <;> decide
        rw [hlc] at el
        have hnb : ' ' ∉ Units.lower U.symbol := by
          intro hm
          obtain ⟨c, hc1, hc2⟩ := List.mem_map.1 hm
          rw [Units.lowerC_blank hc2] at hc1
          exact hw.no_blank hc1
        have hmem : c ∈ Units.lower u.symbol := by rw [el]; simp
        simp only [Units.isCounts, Bool.or_eq_true, beq_iff_eq] at hc
        rcases hcc with rfl | rfl
        · have htw := takeWhile_sep (Units.lower U.symbol) ' ' (Units.lower rest) (fun c => c ≠ ' ')
            (by intro x hx; simp only [decide_eq_true_eq]; intro e; exact hnb (e ▸ hx)) (by decide)
          rw [← el] at htw
          rcases hc with (hc | hc) | hc
          · rw [hc] at htw
            exact symbol_not_counts U hU (by rw [← htw]; decide +kernel)
          · rw [hc] at hmem
            exact absurd hmem (by decide)
          · rw [hc] at htw
            exact symbol_not_counts U hU (by rw [← htw]; decide +kernel)
        · rcases hc with (hc | hc) | hc <;> rw [hc] at hmem <;> exact absurd hmem (by decide)
    obtain ⟨X, h1, h2, _⟩ := Units.C45_combined false U.symbol U
      ((p :: l).map (fun p => (symOf p.1, p.2.symbol, p.2))) hw
      (by
        intro q hq
        obtain ⟨r, hr, rfl⟩ := List.mem_map.1 hq
        exact symbol_word r.2 (hl r hr))
      (Units.C92_symbol_partial U hU hUC)
      (by
        intro q hq
        obtain ⟨r, hr, rfl⟩ := List.mem_map.1 hq
        exact Units.C92_symbol_partial r.2 (hl r hr) (hlC r hr))
      (by rw [hb]; exact hc)
    rw [hb] at h1
    unfold readUnit
    rw [h1]
    show Except.ok X.name = Except.ok u.name
    rw [h2, hn, List.flatMap_map]
    congr 2
    simp only [longSep_symOf]

/-- Stored units are found, with their own name, and their symbol is read as them. -/
theorem StoredUnit.back {n : Str} (h : StoredUnit n) :
    ∃ u, Units.getUnit (some n) false = .ok u ∧ u.name = n ∧ readUnit u.symbol = .ok n := by
  obtain ⟨⟨s, u, hu, rfl⟩, hC, hd⟩ := h
  obtain ⟨u', h1, h2⟩ := Units.C93_stable_partial s false u hu hd
  refine ⟨u', h1, h2, ?_⟩
  rcases hd with hd | hd
  · rw [hd] at h1 ⊢
    have : Units.getUnit (some "digital counts".toList) false =
        .ok (Units.unitOf "digital counts" "digital counts from data logger" "count" "Digital Counts") := by
      decide +kernel
    rw [this] at h1
    cases h1
    decide +kernel
  · rw [← h2] at hC ⊢
    exact readUnit_symbol h1 hC

theorem hasCounts_table : ∀ r ∈ Units.table, r.name ≠ "digital counts".toList → hasCounts r.symbol = false := by
  decide +kernel

theorem hasCounts_iff {s : Str} : hasCounts s = true ↔ "counts".toList <:+: Units.lower s := Text.hasSub_iff

theorem counts_parts (U : Str) : ∀ l : List (Option Units.Sep × Units.Unit),
    "counts".toList <:+: Units.lower (U ++ l.flatMap (fun p => Units.symSep p.1 ++ p.2.symbol)) →
    "counts".toList <:+: Units.lower U ∨ ∃ p ∈ l, "counts".toList <:+: Units.lower p.2.symbol := by
  intro l
  induction l generalizing U with
  | nil => intro h; left; simpa using h
  | cons p l ih =>
    intro h
    have e : ∃ c, (c = ' ' ∨ c = '/') ∧ Units.symSep p.1 = [c] := by
      rcases p.1 with _ | q
      · exact ⟨' ', Or.inl rfl, rfl⟩
      · cases q
        · exact ⟨'/', Or.inr rfl, rfl⟩
        · exact ⟨'/', Or.inr rfl, rfl⟩
        · exact ⟨' ', Or.inl rfl, rfl⟩
    obtain ⟨c, hc, e⟩ := e
    have hlc : Units.lowerC c = c := by rcases hc with rfl | rfl <;> decide
    have hcc : c ∉ "counts".toList := by rcases hc with rfl | rfl <;> decide
    have : Units.lower (U ++ (p :: l).flatMap (fun p => Units.symSep p.1 ++ p.2.symbol)) =
        Units.lower U ++ c :: Units.lower (p.2.symbol ++ l.flatMap (fun p => Units.symSep p.1 ++ p.2.symbol)) := by
      simp [Units.lower, e, hlc]
    rw [this] at h
    rcases Text.infix_mid _ _ hcc h with h | h
    · exact Or.inl h
    · rcases ih _ h with h | ⟨q, hq, h⟩
      · exact Or.inr ⟨p, by simp, h⟩
      · exact Or.inr ⟨q, by simp [hq], h⟩

/-- The symbol of a stored unit never contains "counts". -/
theorem StoredUnit.noCounts {n : Str} (h : StoredUnit n) {u : Units.Unit} (hu : Units.getUnit (some n) false = .ok u)
    (hn : u.name = n) : hasCounts u.symbol = false := by
  rcases h.2.2 with hd | hd
  · subst hd
    have : Units.getUnit (some "digital counts".toList) false =
        .ok (Units.unitOf "digital counts" "digital counts from data logger" "count" "Digital Counts") := by
      decide +kernel
    rw [this] at hu
    cases hu
    decide +kernel
  · cases hc : hasCounts u.symbol with
    | false => rfl
    | true =>
      exfalso
      obtain ⟨U, l, hU, hl, hn', hs⟩ := getUnit_shape hu
      rw [hasCounts_iff, hs] at hc
      have part : ∀ p ∈ l, p.2.name <:+: n := by
        intro p hp
        obtain ⟨l1, l2, rfl⟩ := List.append_of_mem hp
        rw [← hn, hn']
        exact ⟨U.name ++ l1.flatMap (fun p => Units.nameSep p.1 ++ p.2.name) ++ Units.nameSep p.1,
          l2.flatMap (fun p => Units.nameSep p.1 ++ p.2.name), by simp⟩
      rcases counts_parts _ _ hc with hc | ⟨p, hp, hc⟩
      · rw [← hasCounts_iff, hasCounts_table U hU] at hc
        · cases hc
        · intro e
          apply hd
          rw [← e, ← hn, hn']
          exact (List.prefix_append _ _).isInfix
      · rw [← hasCounts_iff, hasCounts_table p.2 (hl p hp)] at hc
        · cases hc
        · intro e
          exact hd (e ▸ part p hp)

end Verif.Stages
