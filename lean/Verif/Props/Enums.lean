import Verif.Model.Enums

/-!
Properties C71 and C102: matching of enumeration values.
-/

namespace Verif.Enums

theorem findMember_some {ms : List Str} {v m : Str} (h : findMember ms v = some m) :
    m ∈ ms ∧ lower v = lower m := by
  induction ms with
  | nil => simp [findMember] at h
  | cons a ms ih =>
    simp only [findMember] at h
    split at h
    · rename_i e; cases h; exact ⟨List.mem_cons_self, e⟩
    · obtain ⟨h1, h2⟩ := ih h; exact ⟨List.mem_cons_of_mem _ h1, h2⟩

theorem findMember_none {ms : List Str} {v : Str} :
    findMember ms v = none ↔ ∀ m ∈ ms, lower v ≠ lower m := by
  induction ms with
  | nil => simp [findMember]
  | cons a ms ih =>
    simp only [findMember]
    split
    · rename_i e; simp [e]
    · rename_i e; simp [ih, e]

theorem findMember_congr (ms : List Str) {v w : Str} (h : lower v = lower w) :
    findMember ms v = findMember ms w := by
  induction ms with
  | nil => rfl
  | cons a ms ih => simp only [findMember, h, ih]

theorem validate_str (ms : List Str) (v : Str) :
    validate ms (.str v) = match findMember ms v with
      | some m => .ok m
      | none => .error .valueError := by
  cases h : findMember ms v with
  | none => simp [validate, normalizeCase, h]
  | some m => simp [validate, normalizeCase, h, (findMember_some h).1]

/-- C71: a string is accepted exactly if it equals some member up to case; otherwise it is a
`ValueError`. -/
theorem C71_accepts (ms : List Str) (v : Str) :
    (∃ m, validate ms (.str v) = .ok m) ↔ ∃ m ∈ ms, m.map Char.toLower = v.map Char.toLower := by
  rw [validate_str]
  cases h : findMember ms v with
  | none =>
    rw [findMember_none] at h
    constructor
    · rintro ⟨m, hm⟩; cases hm
    · rintro ⟨m, hm, e⟩; exact absurd e.symm (h m hm)
  | some m =>
    obtain ⟨h1, h2⟩ := findMember_some h
    exact ⟨fun _ => ⟨m, h1, h2.symm⟩, fun _ => ⟨m, rfl⟩⟩

theorem C71_rejects (ms : List Str) (v : Str)
    (h : ∀ m ∈ ms, m.map Char.toLower ≠ v.map Char.toLower) :
    validate ms (.str v) = .error .valueError := by
  have : findMember ms v = none := findMember_none.2 fun m hm e => h m hm e.symm
  rw [validate_str, this]

/-- C71: what is stored is a member of the class and equals the string up to case. -/
theorem C71_returns_member (ms : List Str) (v m : Str) (h : validate ms (.str v) = .ok m) :
    m ∈ ms ∧ m.map Char.toLower = v.map Char.toLower := by
  rw [validate_str] at h
  cases hf : findMember ms v with
  | none => rw [hf] at h; cases h
  | some k =>
    rw [hf] at h; cases h
    obtain ⟨h1, h2⟩ := findMember_some hf
    exact ⟨h1, h2.symm⟩

/-- C71: two strings that differ only in case are stored alike. -/
theorem C71_case_irrelevant (ms : List Str) (v w : Str)
    (h : v.map Char.toLower = w.map Char.toLower) :
    validate ms (.str v) = validate ms (.str w) := by
  rw [validate_str, validate_str, findMember_congr ms h]

/-- C71: storing what is stored changes nothing, whether the member itself or its text is given. -/
theorem C71_idempotent (ms : List Str) (v m : Str) (h : validate ms (.str v) = .ok m) :
    validate ms (.str m) = .ok m ∧ validate ms (.member m) = .ok m := by
  obtain ⟨h1, h2⟩ := C71_returns_member ms v m h
  refine ⟨?_, by simp [validate, normalizeCase, h1]⟩
  rw [C71_case_irrelevant ms m v h2, h]

/-- C71: `None` and objects that are no strings are refused. -/
theorem C71_not_strings (ms : List Str) :
    validate ms .none = .error .valueError ∧ validate ms .other = .error .typeError := ⟨rfl, rfl⟩

/-- C71: whatever is given, what is stored is a member; in particular a member of another class is
refused unless this class has the same value. -/
theorem C71_only_members (ms : List Str) (v : In) (m : Str) (h : validate ms v = .ok m) : m ∈ ms := by
  unfold validate at h
  split at h
  · cases h
  · split at h
    · rename_i hm; cases h; exact hm
    · cases h
  · cases h

example : validate (["RMT", "AMT"].map String.toList) (.member "BBMT".toList) = .error .valueError := by
  decide +kernel

/-- No two members of a class differ in case only. -/
def CaseDistinct (ms : List Str) : Prop :=
  ms.Pairwise fun a b => a.map Char.toLower ≠ b.map Char.toLower

instance (ms : List Str) : Decidable (CaseDistinct ms) := by unfold CaseDistinct; infer_instance

theorem codeMembers_distinct : ∀ ms ∈ codeMembers, CaseDistinct ms := by decide +kernel

theorem caseDistinct_unique {ms : List Str} (hd : CaseDistinct ms) {a b : Str} (ha : a ∈ ms) (hb : b ∈ ms)
    (e : a.map Char.toLower = b.map Char.toLower) : a = b := by
  induction ms with
  | nil => cases ha
  | cons c ms ih =>
    rw [CaseDistinct, List.pairwise_cons] at hd
    rcases List.mem_cons.1 ha with h1 | h1 <;> rcases List.mem_cons.1 hb with h2 | h2
    · rw [h1, h2]
    · exact absurd (h1 ▸ e) (hd.1 b h2)
    · exact absurd (h2 ▸ e.symm) (hd.1 a h1)
    · exact ih hd.2 h1 h2

/-- C71: in every enumeration of the library the stored member is the only one the string matches: a
member spelled in any case gives that very member. -/
theorem C71_that_member (ms : List Str) (hms : ms ∈ codeMembers) (m : Str) (hm : m ∈ ms) (v : Str)
    (hv : v.map Char.toLower = m.map Char.toLower) : validate ms (.str v) = .ok m := by
  obtain ⟨k, hk⟩ := (C71_accepts ms v).2 ⟨m, hm, hv.symm⟩
  obtain ⟨h1, h2⟩ := C71_returns_member ms v k hk
  rw [hk, caseDistinct_unique (codeMembers_distinct ms hms) h1 hm (h2.trans hv)]

example : validate (["RMT", "AMT", "BBMT"].map String.toList) (.str "bbMt".toList) = .ok "BBMT".toList := by
  decide +kernel

example : validate (["RMT", "AMT", "BBMT"].map String.toList) (.str "MT".toList) = .error .valueError := by
  decide +kernel

/-! ### C102: geomagnetic model names -/

theorem toLower_dash (c : Char) : c.toLower = '-' ↔ c = '-' := by
  constructor
  · intro h
    unfold Char.toLower at h
    split at h
    · rename_i hc
      have h1 : (c.val + ('a'.val - 'A'.val)).toNat = 45 := by
        have := congrArg (fun x : Char => x.val.toNat) h
        simpa using this
      have h2 : 65 ≤ c.val.toNat := UInt32.le_iff_toNat_le.1 hc.1
      have h3 : c.val.toNat ≤ 90 := UInt32.le_iff_toNat_le.1 hc.2
      rw [UInt32.toNat_add] at h1
      have h4 : ('a'.val - 'A'.val).toNat = 32 := by decide
      rw [h4] at h1
      omega
    · exact h
  · rintro rfl; decide

theorem beforeDash_lower (v : Str) : beforeDash (lower v) = lower (beforeDash v) := by
  induction v with
  | nil => rfl
  | cons c v ih =>
    simp only [lower, List.map_cons, beforeDash, toLower_dash] at *
    split
    · rfl
    · rw [ih, List.map_cons]

theorem beforeDash_split (v : Str) : ∃ suffix, v = beforeDash v ++ suffix ∧
    (suffix = [] ∨ ∃ t, suffix = '-' :: t) := by
  induction v with
  | nil => exact ⟨[], rfl, .inl rfl⟩
  | cons c v ih =>
    obtain ⟨s, h1, h2⟩ := ih
    simp only [beforeDash]
    split
    · rename_i e; exact ⟨_, rfl, .inr ⟨v, by rw [e]⟩⟩
    · exact ⟨s, by rw [List.cons_append, ← h1], h2⟩

theorem beforeDash_append {name suffix : Str} (hn : '-' ∉ name)
    (hs : suffix = [] ∨ ∃ t, suffix = '-' :: t) : beforeDash (name ++ suffix) = name := by
  induction name with
  | nil => rcases hs with rfl | ⟨t, rfl⟩ <;> simp [beforeDash]
  | cons c n ih =>
    rw [List.mem_cons, not_or] at hn
    simp [beforeDash, Ne.symm hn.1, ih hn.2]

theorem geoModels_no_dash : ∀ m ∈ geoModels, '-' ∉ m.map Char.toLower := by decide +kernel

/-- C102: a geomagnetic model is accepted exactly if it is a known model name in any case, alone or
followed by a dash and any suffix. -/
theorem C102_accepts (v : Str) :
    (∃ r, geoValidate (.str v) = .ok r) ↔
      ∃ m ∈ (["EMAG2", "EMM", "HDGM", "IGRF", "WMM", "unknown"] : List String), ∃ name suffix : Str,
        v = name ++ suffix ∧ name.map Char.toLower = m.toList.map Char.toLower ∧
        (suffix = [] ∨ ∃ t, suffix = '-' :: t) := by
  constructor
  · rintro ⟨r, h⟩
    simp only [geoValidate] at h
    split at h
    · rename_i hm
      rw [beforeDash_lower] at hm
      obtain ⟨m, hm, e⟩ := List.mem_map.1 hm
      obtain ⟨m', hm', rfl⟩ := List.mem_map.1 hm
      obtain ⟨s, h1, h2⟩ := beforeDash_split v
      exact ⟨m', hm', _, s, h1, e.symm, h2⟩
    · cases h
  · rintro ⟨m, hm, name, suffix, rfl, h1, h2⟩
    have hm' : m.toList ∈ geoModels := List.mem_map.2 ⟨m, hm, rfl⟩
    have hn : '-' ∉ name := by
      intro hc
      have := List.mem_map_of_mem (f := Char.toLower) hc
      rw [(toLower_dash '-').2 rfl, h1] at this
      exact geoModels_no_dash _ hm' this
    refine ⟨name ++ suffix, ?_⟩
    · have : beforeDash (lower (name ++ suffix)) ∈ geoModels.map lower := by
        rw [beforeDash_lower, beforeDash_append hn h2]
        exact List.mem_map.2 ⟨m.toList, hm', h1.symm⟩
      simp [geoValidate, this]

/-- C102: an accepted model is stored exactly as given, so that its version survives. -/
theorem C102_kept (v r : Str) (h : geoValidate (.str v) = .ok r) : r = v := by
  simp only [geoValidate] at h
  split at h
  · cases h; rfl
  · cases h

example : geoValidate (.str "igrf-13".toList) = .ok "igrf-13".toList := by decide +kernel
example : geoValidate (.str "igrf13".toList) = .error .valueError := by decide +kernel

end Verif.Enums
