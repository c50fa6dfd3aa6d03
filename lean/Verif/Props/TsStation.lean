import Verif.Model.TsStation
import Verif.Lemmas.Metadata

/-! # C408-C409: station metadata of a transfer function and of time series -/

namespace Verif.TsStation
open Verif.Metadata

theorem assign_get (d o : Obj) (wf : OD.WF d) (k : String) : OD.get? (assignAll o d) k = (OD.get? d k).or (OD.get? o k) := by
  unfold assignAll
  induction d generalizing o with
  | nil => rfl
  | cons p d ih =>
    have hp : p.1 ∉ OD.keys d := (List.nodup_cons.1 wf).1
    rw [List.foldl_cons, ih _ (List.nodup_cons.1 wf).2, OD.get?_cons]
    by_cases h : p.1 = k
    · subst h
      rw [(OD.get?_eq_none_iff d p.1).2 hp, OD.get?_set_self]
      simp
    · rw [OD.get?_set_ne _ _ (Ne.symm h)]
      simp [h]

theorem filter_get (d : Obj) (q : String → Bool) (k : String) :
    OD.get? (d.filter (fun p => q p.1)) k = if q k = true then OD.get? d k else none := by
  induction d with
  | nil => by_cases h : q k = true <;> simp [h, OD.get?]
  | cons p d ih =>
    rw [List.filter_cons]
    by_cases hq : q p.1 = true
    · rw [if_pos hq, OD.get?_cons, OD.get?_cons, ih]
      by_cases h : p.1 = k
      · rw [← h]
        simp [hq]
      · simp [h]
    · rw [if_neg hq, ih, OD.get?_cons]
      by_cases h : p.1 = k
      · rw [← h]
        simp [hq]
      · simp [h]

/-- A value that says something: not None, "", an empty list, an array with a zero, or the default time. -/
def Says : Val → Prop
  | .arr l => ∀ q ∈ l, q ≠ 0
  | .none => False
  | .list l => l ≠ []
  | .str s => s ≠ "1980-01-01T00:00:00+00:00" ∧ s ≠ "1980" ∧ s ≠ ""
  | _ => True

theorem says_kept (fields : List String) (k : String) (v : Val) (h : Says v) : kept fields k v = true ∧ fillNone k v = v := by
  cases v with
  | none => exact absurd h id
  | arr l =>
    refine ⟨?_, by simp [fillNone]⟩
    simp only [kept, Bool.or_eq_true, List.all_eq_true, decide_eq_true_eq]
    exact .inr h
  | str s =>
    obtain ⟨h1, h2, h3⟩ := h
    refine ⟨?_, by simp [fillNone]⟩
    simp [kept, pyEq, asNum, h1, h2, h3]
  | num q => exact ⟨by simp [kept, pyEq, asNum], by simp [fillNone]⟩
  | bool b => exact ⟨by simp [kept, pyEq, asNum], by simp [fillNone]⟩
  | list l =>
    refine ⟨?_, by simp [fillNone]⟩
    have : l ≠ [] := h
    simp [kept, pyEq, asNum, this]

/-! ### C408: metadata of time series into a transfer function -/

/-- C408: after `from_ts_station_metadata` the station of the transfer function has every value of the station given. -/
def C408_claim : Prop := ∀ (fields : List String) (tf ts : Obj), OD.WF tf → OD.WF ts →
  ∀ k v, OD.get? ts k = some v → OD.get? (fromTs fields tf ts) k = some v

/-- C408 (part): what each field is afterwards. -/
theorem C408_field_partial (fields : List String) (tf ts : Obj) (wf : OD.WF ts) (k : String) :
    OD.get? (fromTs fields tf ts) k =
      match OD.get? ts k with
      | some v => if kept fields k v = true then some (fillNone k v) else OD.get? tf k
      | none => OD.get? tf k := by
  unfold fromTs
  rw [assign_get _ _ (toDict_wf _ _ _ wf), get?_toDict_true _ _ wf]
  cases OD.get? ts k with
  | none => rfl
  | some v =>
    simp only
    by_cases h : kept fields k v = true
    · rw [if_pos h, if_pos h]
      rfl
    · rw [if_neg h, if_neg h]
      rfl

/-- C408 (part): so it is for all values that say something. -/
theorem C408_says_partial (fields : List String) (tf ts : Obj) (wf : OD.WF ts) (k : String) (v : Val) (h : OD.get? ts k = some v) (hv : Says v) :
    OD.get? (fromTs fields tf ts) k = some v := by
  rw [C408_field_partial fields tf ts wf, h]
  obtain ⟨h1, h2⟩ := says_kept fields k v hv
  simp only
  rw [if_pos h1, h2]

/-- C408 (part): a value None or "" that need not be written leaves what was there; so a transfer function cannot be cleared. -/
theorem C408_stays_partial (fields : List String) (tf ts : Obj) (wf : OD.WF ts) (k : String) (v : Val) (h : OD.get? ts k = some v)
    (hv : v = .none ∨ v = .str "" ∨ v = .list []) (hk : k ∉ fields) (hc : k ∉ coordinateFields) (he : k ∉ emptyStringFields) :
    OD.get? (fromTs fields tf ts) k = OD.get? tf k := by
  rw [C408_field_partial fields tf ts wf, h]
  have : kept fields k v = false := by
    rcases hv with rfl | rfl | rfl <;> simp [kept, pyEq, asNum, hk, hc, he]
  simp [this]

/-- C408 (part): fields that the station given does not have, as those of the transfer function, stay. -/
theorem C408_others_partial (fields : List String) (tf ts : Obj) (wf : OD.WF ts) (k : String) (h : OD.get? ts k = none) :
    OD.get? (fromTs fields tf ts) k = OD.get? tf k := by
  rw [C408_field_partial fields tf ts wf, h]

/-- A station of a transfer function, and one of time series without a network. -/
def exTf : Obj := [("fdsn.network", .str "EM"), ("id", .str "mt01"), ("transfer_function.id", .str "mt01")]
def exTs : Obj := [("fdsn.network", .none), ("id", .str "mt02")]

/-- C408 is false: the network of the station before stays. -/
theorem C408_refuted : ¬ C408_claim := by
  intro h
  have := h ["id"] exTf exTs (by decide) (by decide) "fdsn.network" .none rfl
  rw [C408_stays_partial ["id"] exTf exTs (by decide) "fdsn.network" .none rfl (.inl rfl) (by decide) (by decide) (by decide)] at this
  exact absurd this (by decide)

example : OD.get? (fromTs ["id"] exTf exTs) "id" = some (.str "mt02") ∧ OD.get? (fromTs ["id"] exTf exTs) "transfer_function.id" = some (.str "mt01") := by
  decide +kernel

/-! ### C409: metadata of a transfer function for time series -/

/-- `transfer_function` is somewhere in the name. -/
def OfTf (k : String) : Prop := ∃ a b, k.toList = a ++ "transfer_function".toList ++ b

theorem substring_of (a b : List Char) : substring a b = true ↔ ∃ p q, b = p ++ a ++ q := by
  induction b with
  | nil =>
    simp only [substring, List.isEmpty_iff]
    constructor
    · rintro rfl
      exact ⟨[], [], rfl⟩
    · rintro ⟨p, q, h⟩
      have := congrArg List.length h
      simp only [List.length_nil, List.length_append] at this
      exact List.length_eq_zero_iff.1 (by omega)
  | cons c b ih =>
    simp only [substring, Bool.or_eq_true, List.isPrefixOf_iff_prefix, ih]
    constructor
    · rintro (⟨q, h⟩ | ⟨p, q, h⟩)
      · exact ⟨[], q, by simpa using h.symm⟩
      · exact ⟨c :: p, q, by simp [h]⟩
    · rintro ⟨p, q, h⟩
      cases p with
      | nil => exact .inl ⟨q, by simpa using h.symm⟩
      | cons x p =>
        simp only [List.cons_append, List.cons.injEq] at h
        exact .inr ⟨p, q, h.2⟩

theorem toTs_get (fields : List String) (fresh tf : Obj) (wf : OD.WF tf) (k : String) :
    (OfTf k → OD.get? (toTs fields fresh tf) k = OD.get? fresh k) ∧ (¬ OfTf k → OD.get? (toTs fields fresh tf) k =
      match OD.get? tf k with
      | some v => if kept fields k v = true then some (fillNone k v) else OD.get? fresh k
      | none => OD.get? fresh k) := by
  have hw : OD.WF ((toDict fields true tf).filter (fun p => !substring "transfer_function".toList p.1.toList)) :=
    (List.Sublist.map Prod.fst List.filter_sublist).nodup (toDict_wf fields true tf wf)
  unfold toTs
  rw [assign_get _ _ hw, filter_get _ (fun s => !substring "transfer_function".toList s.toList), get?_toDict_true _ _ wf]
  constructor
  · intro h
    rw [if_neg]
    · rfl
    · simp only [(substring_of _ _).2 h, Bool.not_true, Bool.false_eq_true, not_false_eq_true]
  · intro h
    rw [if_pos]
    · cases OD.get? tf k with
      | none => rfl
      | some v =>
        simp only
        by_cases hk : kept fields k v = true
        · rw [if_pos hk, if_pos hk]
          rfl
        · rw [if_neg hk, if_neg hk]
          rfl
    · cases hs : substring "transfer_function".toList k.toList with
      | false => rfl
      | true => exact absurd ((substring_of _ _).1 hs) h

/-- C409: `to_ts_station_metadata` has every value of the station that says something, but those of the transfer function. -/
theorem C409_values (fields : List String) (fresh tf : Obj) (wf : OD.WF tf) (k : String) (v : Val) (h : OD.get? tf k = some v) (hv : Says v)
    (hk : ¬ OfTf k) : OD.get? (toTs fields fresh tf) k = some v := by
  rw [(toTs_get fields fresh tf wf k).2 hk, h]
  obtain ⟨h1, h2⟩ := says_kept fields k v hv
  simp only
  rw [if_pos h1, h2]

/-- C409: no field of the transfer function gets into a station of time series. -/
theorem C409_none (fields : List String) (fresh tf : Obj) (wf : OD.WF tf) (k : String) (hk : OfTf k) :
    OD.get? (toTs fields fresh tf) k = OD.get? fresh k := (toTs_get fields fresh tf wf k).1 hk

theorem assign_wf (d o : Obj) (h : OD.WF o) : OD.WF (assignAll o d) := by
  unfold assignAll
  induction d generalizing o with
  | nil => exact h
  | cons p d ih => exact ih _ (h.set _ _)

/-- C409: to time series and back, into any transfer function: each value that says something is there again. -/
theorem C409_back (fields : List String) (fresh tf other : Obj) (wf : OD.WF tf) (wf' : OD.WF fresh) (k : String) (v : Val)
    (h : OD.get? tf k = some v) (hv : Says v) (hk : ¬ OfTf k) : OD.get? (fromTs fields other (toTs fields fresh tf)) k = some v :=
  C408_says_partial fields other _ (assign_wf _ _ wf') k v (C409_values fields fresh tf wf k v h hv hk) hv

example : OfTf "transfer_function.id" := ⟨[], ".id".toList, by decide⟩
example : ¬ OfTf "id" := by
  rw [OfTf, ← substring_of]
  decide
example : OD.get? (toTs ["id"] [("fdsn.network", .none), ("id", .str "")] exTf) "fdsn.network" = some (.str "EM") ∧
    OD.get? (toTs ["id"] [("fdsn.network", .none), ("id", .str "")] exTf) "transfer_function.id" = none := by decide +kernel

end Verif.TsStation
