import Mathlib.Data.List.Forall2
import Mathlib.Tactic.SplitIfs
import Verif.Model.License
import Verif.Lemmas.OD
import Verif.Lemmas.Text
import Verif.Lemmas.Sorted

/-!
Properties C124 and C125: the licence of a survey.
-/

namespace Verif.License
open Verif.Text

/-! ### The names are distinct -/

/-- The pairs the enumeration is made of. -/
def pairs : List (Str × Str) := base ++ spdx.map (fun i => (norm i, i))

def ck (c : Char) : Nat := if c = '_' then 0 else if c = '+' then 1 else 2 * c.toLower.toNat

def code (s : Str) : List Nat := s.map ck

def lt : List Nat → List Nat → Bool
  | [], [] => false
  | [], _ :: _ => true
  | _ :: _, [] => false
  | a :: s, b :: t => if a < b then true else if b < a then false else lt s t

theorem lt_irrefl (s : List Nat) : lt s s = false := by
  induction s with
  | nil => rfl
  | cons a s ih => simp [lt, ih]

theorem lt_trans : ∀ {s t u : List Nat}, lt s t = true → lt t u = true → lt s u = true
  | [], [], _, h, _ => by simp [lt] at h
  | [], _ :: _, [], _, h => by simp [lt] at h
  | [], _ :: _, _ :: _, _, _ => rfl
  | _ :: _, [], _, h, _ => by simp [lt] at h
  | _ :: _, _ :: _, [], _, h => by simp [lt] at h
  | a :: s, b :: t, c :: u, h1, h2 => by
    simp only [lt] at h1 h2 ⊢
    by_cases ab : a < b
    · by_cases bc : b < c
      · rw [if_pos (by omega)]
      · by_cases cb : c < b
        · rw [if_neg bc, if_pos cb] at h2; cases h2
        · rw [if_pos (by omega)]
    · by_cases ba : b < a
      · rw [if_neg ab, if_pos ba] at h1; cases h1
      · rw [if_neg ab, if_neg ba] at h1
        by_cases bc : b < c
        · rw [if_pos (by omega)]
        · by_cases cb : c < b
          · rw [if_neg bc, if_pos cb] at h2; cases h2
          · rw [if_neg bc, if_neg cb] at h2
            rw [if_neg (by omega), if_neg (by omega)]
            exact lt_trans h1 h2

def chain : List (List Nat) → Bool
  | a :: b :: l => lt a b && chain (b :: l)
  | _ => true

theorem chain_pairwise : ∀ l : List (List Nat), chain l = true → l.Pairwise (fun a b => lt a b = true)
  | [], _ => .nil
  | [a], _ => by simp
  | a :: b :: l, h => by
    simp only [chain, Bool.and_eq_true] at h
    have ih := chain_pairwise (b :: l) h.2
    refine List.pairwise_cons.2 ⟨?_, ih⟩
    intro c hc
    rcases List.mem_cons.1 hc with rfl | hc
    · exact h.1
    · exact lt_trans h.1 ((List.pairwise_cons.1 ih).1 c hc)

theorem names_chain : chain (pySorted (fun a b => lt a b) ((pairs.map Prod.fst).map code)) = true := by
  decide +kernel

theorem pairs_wf : OD.WF pairs := by
  have h1 := chain_pairwise _ names_chain
  have h2 : (pySorted (fun a b => lt a b) ((pairs.map Prod.fst).map code)).Nodup :=
    h1.imp (fun {a b} h e => by subst e; rw [lt_irrefl] at h; cases h)
  have h3 : ((pairs.map Prod.fst).map code).Nodup := (pySorted_perm _ _).nodup_iff.1 h2
  exact List.Pairwise.of_map code (fun _ _ h e => h (congrArg code e)) h3

theorem members_eq : members = pairs := OD.ofPairs_of_wf pairs_wf

theorem mem_base {p : Str × Str} (h : p ∈ base) : p ∈ pairs := List.mem_append_left _ h

theorem mem_spdx {i : Str} (h : i ∈ spdx) : (norm i, i) ∈ pairs :=
  List.mem_append_right _ (List.mem_map.2 ⟨i, h, rfl⟩)

theorem mem_pairs {p : Str × Str} : p ∈ pairs ↔ p ∈ base ∨ ∃ i ∈ spdx, p = (norm i, i) := by
  unfold pairs
  rw [List.mem_append, List.mem_map]
  constructor
  · rintro (h | ⟨i, hi, rfl⟩)
    · exact .inl h
    · exact .inr ⟨i, hi, rfl⟩
  · rintro (h | ⟨i, hi, rfl⟩)
    · exact .inl h
    · exact .inr ⟨i, hi, rfl⟩

attribute [local irreducible] pairs spdx

/-! ### C125: licences are accepted again -/

/-- Full claim: a licence that was accepted (the stored value) is accepted again, unchanged; and a
survey without licence gets the default. -/
def C125_claim : Prop :=
  (∀ s v, copyright s = .ok v → copyright (some v) = .ok v) ∧ ∃ v, copyright none = .ok v

theorem value_mem {v : Str} (h : v ∈ OD.values members) :
    v ∈ base.map Prod.snd ∨ v ∈ spdx := by
  rw [members_eq] at h
  obtain ⟨p, hp, rfl⟩ := List.mem_map.1 h
  rcases mem_pairs.1 hp with h | ⟨i, hi, rfl⟩
  · exact .inl (List.mem_map.2 ⟨p, h, rfl⟩)
  · exact .inr hi

theorem copyright_ok {s : Option Str} {v : Str} (h : copyright s = .ok v) : v ∈ OD.values members := by
  have key : ∀ w, enumCheck w = .ok v → v ∈ OD.values members := by
    intro w hw
    unfold enumCheck at hw
    split at hw
    · rename_i hm; cases hw; exact hm
    · cases hw
  unfold copyright at h
  split at h
  · exact key _ h
  · split at h
    · exact key _ h
    · split at h
      · exact key _ h
      · cases h

theorem enumCheck_of_mem {k v : Str} (h : (k, v) ∈ pairs) : enumCheck v = .ok v := by
  unfold enumCheck
  rw [if_pos]
  rw [members_eq]
  exact List.mem_map.2 ⟨(k, v), h, rfl⟩

theorem copyright_of_mem {s v : Str} (hs : s ≠ []) (h : (norm s, v) ∈ pairs) :
    copyright (some s) = .ok v := by
  unfold copyright
  simp only [hs, if_false]
  rw [members_eq, OD.get?_of_mem pairs_wf h]
  exact enumCheck_of_mem h

theorem spdx_ne : ∀ i ∈ spdx, i ≠ [] := by decide +kernel

theorem base_again : ∀ p ∈ base, p.2 ≠ "CC BY-NC-SA".toList → p.2 ≠ [] ∧ (norm p.2, p.2) ∈ base := by
  decide +kernel

/-- Every stored licence but one is accepted again, unchanged. -/
theorem C125_again_partial (s : Option Str) (v : Str) (h : copyright s = .ok v)
    (hv : v ≠ "CC BY-NC-SA".toList) : copyright (some v) = .ok v := by
  rcases value_mem (copyright_ok h) with hb | hi
  · obtain ⟨p, hp, rfl⟩ := List.mem_map.1 hb
    obtain ⟨h1, h2⟩ := base_again p hp hv
    exact copyright_of_mem h1 (mem_base h2)
  · exact copyright_of_mem (spdx_ne v hi)
      (mem_spdx hi)

theorem na_sa_pair : ("CC_BY_NA_SA".toList, "CC BY-NC-SA".toList) ∈ pairs :=
  mem_base (by decide +kernel)

theorem nc_sa_none : OD.get? pairs (norm "CC BY-NC-SA".toList) = none := by decide +kernel

theorem nc_sa_refused : copyright (some "CC BY-NC-SA".toList) = .error .nameError := by
  unfold copyright
  simp only
  rw [if_neg (by decide), members_eq, nc_sa_none]

/-- The one exception is stored for the name CC_BY_NA_SA and refused afterwards. -/
theorem C125_na_sa_partial :
    copyright (some "CC_BY_NA_SA".toList) = .ok "CC BY-NC-SA".toList ∧
    copyright (some "CC BY-NC-SA".toList) = .error .nameError := by
  refine ⟨?_, nc_sa_refused⟩
  apply copyright_of_mem (by decide)
  have : norm "CC_BY_NA_SA".toList = "CC_BY_NA_SA".toList := by decide +kernel
  rw [this]
  exact na_sa_pair

/-- The default the validator gives for a missing licence is itself not a licence. -/
theorem C125_default_partial :
    copyright none = .error .valueError ∧ copyright (some []) = .error .valueError := by
  have : enumCheck "CC BY 4.0".toList = .error .valueError := by
    unfold enumCheck
    rw [if_neg]
    rw [members_eq]
    decide +kernel
  exact ⟨this, by unfold copyright; simp only [if_true]; exact this⟩

theorem C125_refuted : ¬ C125_claim := by
  intro h
  have h1 := h.1 _ _ C125_na_sa_partial.1
  rw [nc_sa_refused] at h1
  cases h1

/-- The characters between the words of a licence. -/
def seps : List Char := ['-', ' ', '.', '(', ')', '/', ':', '_']

theorem norm_seps {s t : Str} (h : List.Forall₂ (fun a b => a = b ∨ (a ∈ seps ∧ b ∈ seps)) s t) :
    norm s = norm t := by
  unfold norm
  induction h with
  | nil => rfl
  | cons hab _ ih =>
    rw [List.map_cons, List.map_cons, ih]
    congr 1
    rcases hab with rfl | ⟨ha, hb⟩
    · rfl
    · have key : ∀ c ∈ seps, (if c ∈ ['-', ' ', '.', '(', ')', '/', ':'] then '_' else c) = '_' := by decide
      rw [key _ ha, key _ hb]

/-- Spelling: blanks, dashes, dots, brackets, slashes, colons and underscores are the same. -/
theorem C125_spelling_partial (s t : Str)
    (h : List.Forall₂ (fun a b => a = b ∨ (a ∈ seps ∧ b ∈ seps)) s t) :
    copyright (some s) = copyright (some t) := by
  have hn := norm_seps h
  by_cases hs : s = []
  · subst hs; cases h; rfl
  · have ht : t ≠ [] := by rintro rfl; cases h; exact hs rfl
    unfold copyright
    simp only [hs, ht, if_false, hn]

example : List.Forall₂ (fun a b => a = b ∨ (a ∈ seps ∧ b ∈ seps)) "CC BY-4.0".toList "CC_BY 4_0".toList := by
  simp [seps]

/-- But letters count. -/
theorem C125_case_partial : copyright (some "CC-BY-4.0".toList) = .ok "CC-BY-4.0".toList ∧
    copyright (some "cc-by-4.0".toList) = .error .nameError := by
  refine ⟨copyright_of_mem (by decide) (mem_spdx (by decide +kernel)), ?_⟩
  have : OD.get? pairs (norm "cc-by-4.0".toList) = none := by decide +kernel
  rw [← members_eq] at this
  generalize hq : "cc-by-4.0".toList = q at this ⊢
  have hne : q ≠ [] := by rw [← hq]; decide
  unfold copyright
  simp only [hne, if_false, this]

/-- A text is accepted exactly if it spells the name of a licence. -/
theorem C125_accepts_partial (s : Str) (hs : s ≠ []) :
    (∃ v, copyright (some s) = .ok v) ↔ norm s ∈ base.map Prod.fst ∨ ∃ i ∈ spdx, norm s = norm i := by
  have hk : norm s ∈ OD.keys pairs ↔ norm s ∈ base.map Prod.fst ∨ ∃ i ∈ spdx, norm s = norm i := by
    constructor
    · intro h
      obtain ⟨p, hp, e⟩ := List.mem_map.1 h
      rcases mem_pairs.1 hp with h | ⟨i, hi, rfl⟩
      · exact .inl (List.mem_map.2 ⟨p, h, e⟩)
      · exact .inr ⟨i, hi, e.symm⟩
    · rintro (h | ⟨i, hi, e⟩)
      · obtain ⟨p, hp, e⟩ := List.mem_map.1 h
        exact List.mem_map.2 ⟨p, mem_base hp, e⟩
      · exact List.mem_map.2 ⟨_, mem_spdx hi, e.symm⟩
  rw [← hk]
  constructor
  · rintro ⟨v, hv⟩
    unfold copyright at hv
    simp only [hs, if_false] at hv
    split at hv
    · rename_i w hw
      rw [members_eq] at hw
      exact OD.mem_keys_of_get? hw
    · cases hv
  · intro h
    obtain ⟨v, hv⟩ := Option.isSome_iff_exists.1 ((OD.get?_isSome_iff _ _).2 h)
    exact ⟨v, copyright_of_mem hs (OD.mem_of_get? hv)⟩

example : copyright (some "CC BY 4.0".toList) = .ok "CC-BY-4.0".toList := by
  have e : norm "CC BY 4.0".toList = norm "CC-BY-4.0".toList := by decide +kernel
  apply copyright_of_mem (by decide)
  rw [e]
  exact mem_spdx (by decide +kernel)

/-! ### C124: the licence of a survey in StationXML -/

/-- Full claim: the licence read back is the licence written. -/
def C124_claim : Prop := ∀ s v, surveyLicense s = .ok v → trip v = .ok v

theorem fresh_names : ∀ k ∈ pairs.map Prod.fst, some k ∉ OD.keys release0 := by decide +kernel

theorem release_eq : releaseDict = release0 ++ (pairs.map Prod.fst).map (fun k => (some k, classify k)) := by
  unfold releaseDict
  rw [members_eq]
  have hn : ((pairs.map Prod.fst).map (fun k => ((some k : Option Str), classify k))).map Prod.fst
      = (pairs.map Prod.fst).map some := by rw [List.map_map]; rfl
  have key : ∀ (ks : List Str) (d : OD (Option Str) Str), ks.Nodup → (∀ k ∈ ks, some k ∉ OD.keys d) →
      ks.foldl (fun (d : OD (Option Str) Str) k => OD.set d (some k) (classify k)) d
        = d ++ ks.map (fun k => (some k, classify k)) := by
    intro ks
    induction ks with
    | nil => intro d _ _; simp
    | cons k ks ih =>
      intro d hnd hd
      rw [List.foldl_cons, OD.set_of_not_mem _ (hd k List.mem_cons_self), ih _ (List.nodup_cons.1 hnd).2]
      · simp
      · intro k' hk'
        simp only [OD.keys, List.map_append, List.map_cons, List.map_nil, List.mem_append,
          List.mem_singleton, Option.some.injEq, not_or]
        refine ⟨hd k' (List.mem_cons_of_mem _ hk'), ?_⟩
        rintro rfl
        exact (List.nodup_cons.1 hnd).1 hk'
  exact key _ _ pairs_wf fresh_names

theorem flipped_get (l : OD (Option Str) Str) (st : Str) : ∀ d : OD Str (Option Str),
    OD.get? (l.foldl (fun (d : OD Str (Option Str)) p => OD.set d p.2 p.1) d) st =
      ((l.reverse.find? (fun p => p.2 = st)).map Prod.fst).or (OD.get? d st) := by
  induction l with
  | nil => intro d; simp
  | cons p l ih =>
    intro d
    rw [List.foldl_cons, ih, List.reverse_cons, List.find?_append]
    by_cases e : p.2 = st
    · subst e
      rw [OD.get?_set_self]
      cases l.reverse.find? (fun q => decide (q.2 = p.2)) <;> simp
    · rw [OD.get?_set_ne _ _ (Ne.symm e)]
      cases l.reverse.find? (fun q => decide (q.2 = st)) <;> simp [e]

theorem surveyLicense_some (s : Str) : surveyLicense (some s) = copyright (some s) := rfl

theorem flipped_st (st : Str) : OD.get? flipped st =
    (releaseDict.reverse.find? (fun p => p.2 = st)).map Prod.fst := by
  unfold flipped
  rw [flipped_get]
  exact Option.or_none

attribute [local irreducible] flipped releaseDict members copyright

theorem item_some {κ ν : Type} [DecidableEq κ] {d : OD κ ν} {k : κ} {v : ν} (h : OD.get? d k = some v) :
    item d k = .ok v := by unfold item; rw [h]

theorem item_none {κ ν : Type} [DecidableEq κ] {d : OD κ ν} {k : κ} (h : OD.get? d k = none) :
    item d k = .error .keyError := by unfold item; rw [h]

theorem bind_ok {α β ε : Type} (x : α) (f : α → Except ε β) : (Except.ok x : Except ε α).bind f = f x := rfl

theorem bind_error {α β ε : Type} (e : ε) (f : α → Except ε β) :
    (Except.error e : Except ε α).bind f = .error e := rfl

theorem readStatus_of {st : Str} {k : Option Str} (h : OD.get? flipped st = some k) :
    readStatus st = surveyLicense k := by
  delta readStatus
  rw [item_some h, bind_ok]

theorem writeStatus_of {v st : Str} (h : OD.get? releaseDict (some (norm v)) = some st) :
    writeStatus v = .ok st := item_some h

theorem writeStatus_none {v : Str} (h : OD.get? releaseDict (some (norm v)) = none) :
    writeStatus v = .error .keyError := item_none h

theorem trip_of {v st : Str} (h : writeStatus v = .ok st) : trip v = readStatus st := by
  delta trip
  rw [h, bind_ok]

theorem trip_error {v : Str} {e : PyErr} (h : writeStatus v = .error e) : trip v = .error e := by
  delta trip
  rw [h, bind_error]

attribute [local irreducible] writeStatus readStatus trip

/-- `CC0_1_0` -/
def nameOpen : Str := ['C', 'C', '0', '_', '1', '_', '0']

/-- `CC0-1.0` -/
def licOpen : Str := ['C', 'C', '0', '-', '1', '.', '0']

/-- `CC_BY_ND_4_0` -/
def nameClosed : Str := ['C', 'C', '_', 'B', 'Y', '_', 'N', 'D', '_', '4', '_', '0']

/-- `CC-BY-ND-4.0` -/
def licClosed : Str := ['C', 'C', '-', 'B', 'Y', '-', 'N', 'D', '-', '4', '.', '0']

/-- `ZPL_2_1` -/
def namePartial : Str := ['Z', 'P', 'L', '_', '2', '_', '1']

/-- `ZPL-2.1` -/
def licPartial : Str := ['Z', 'P', 'L', '-', '2', '.', '1']

theorem last_open : (releaseDict.reverse.find? (fun p => p.2 = sOpen)).map Prod.fst =
    some (some nameOpen) := by
  rw [release_eq]; decide +kernel

theorem flipped_open : OD.get? flipped sOpen = some (some nameOpen) := by
  rw [flipped_st, last_open]

theorem spdx_open : licOpen ∈ spdx := by decide +kernel

theorem norm_open : norm nameOpen = norm licOpen := by decide +kernel

theorem ne_open : nameOpen ≠ [] := by decide +kernel

theorem copyright_open : copyright (some nameOpen) = .ok licOpen := by
  have h := mem_spdx spdx_open
  rw [← norm_open] at h
  exact copyright_of_mem ne_open h

theorem read_open : readStatus sOpen = .ok licOpen := by
  rw [readStatus_of flipped_open, surveyLicense_some]
  exact copyright_open

theorem last_closed : (releaseDict.reverse.find? (fun p => p.2 = sClosed)).map Prod.fst =
    some (some nameClosed) := by
  rw [release_eq]; decide +kernel

theorem flipped_closed : OD.get? flipped sClosed = some (some nameClosed) := by
  rw [flipped_st, last_closed]

theorem spdx_closed : licClosed ∈ spdx := by decide +kernel

theorem norm_closed : norm nameClosed = norm licClosed := by decide +kernel

theorem ne_closed : nameClosed ≠ [] := by decide +kernel

theorem copyright_closed : copyright (some nameClosed) = .ok licClosed := by
  have h := mem_spdx spdx_closed
  rw [← norm_closed] at h
  exact copyright_of_mem ne_closed h

theorem read_closed : readStatus sClosed = .ok licClosed := by
  rw [readStatus_of flipped_closed, surveyLicense_some]
  exact copyright_closed

theorem last_partial : (releaseDict.reverse.find? (fun p => p.2 = sPartial)).map Prod.fst =
    some (some namePartial) := by
  rw [release_eq]; decide +kernel

theorem flipped_partial : OD.get? flipped sPartial = some (some namePartial) := by
  rw [flipped_st, last_partial]

theorem spdx_partial : licPartial ∈ spdx := by decide +kernel

theorem norm_partial : norm namePartial = norm licPartial := by decide +kernel

theorem ne_partial : namePartial ≠ [] := by decide +kernel

theorem copyright_partial : copyright (some namePartial) = .ok licPartial := by
  have h := mem_spdx spdx_partial
  rw [← norm_partial] at h
  exact copyright_of_mem ne_partial h

theorem read_partial : readStatus sPartial = .ok licPartial := by
  rw [readStatus_of flipped_partial, surveyLicense_some]
  exact copyright_partial

theorem classify_range (k : Str) : classify k = sOpen ∨ classify k = sClosed ∨
    classify k = sPartial := by
  unfold classify
  repeat' split
  all_goals simp only [true_or, or_true]

/-- The status written for a stored licence. -/
theorem writeStatus_of_mem {v w : Str} (h : (norm v, w) ∈ pairs) :
    writeStatus v = .ok (classify (norm v)) := by
  have hm : (some (norm v), classify (norm v)) ∈ releaseDict := by
    rw [release_eq]
    exact List.mem_append_right _ (List.mem_map.2 ⟨norm v, List.mem_map.2 ⟨_, h, rfl⟩, rfl⟩)
  have hwf : OD.WF releaseDict := by
    unfold OD.WF OD.keys
    rw [release_eq, List.map_append, List.nodup_append]
    refine ⟨by decide +kernel, ?_, ?_⟩
    · have : ((pairs.map Prod.fst).map (fun k => ((some k : Option Str), classify k))).map Prod.fst
          = (pairs.map Prod.fst).map some := by rw [List.map_map]; rfl
      rw [this]
      exact List.Pairwise.map some (fun _ _ h e => h (Option.some.inj e)) pairs_wf
    · intro a ha b hb e
      subst e
      rw [List.map_map] at hb
      obtain ⟨k, hk, rfl⟩ := List.mem_map.1 hb
      exact fresh_names k hk ha
  exact writeStatus_of (OD.get?_of_mem hwf hm)

theorem nc_sa_absent : some (norm "CC BY-NC-SA".toList) ∉
    OD.keys (release0 ++ (pairs.map Prod.fst).map (fun k => ((some k : Option Str), classify k))) := by
  decide +kernel

theorem nc_sa_write : writeStatus "CC BY-NC-SA".toList = .error .keyError := by
  apply writeStatus_none
  rw [release_eq, OD.get?_eq_none_iff]
  exact nc_sa_absent

/-- The licence that stands for a status. -/
def standard (st : Str) : Str :=
  if st = sOpen then licOpen
  else if st = sClosed then licClosed else licPartial

/-- Every licence (but CC BY-NC-SA) comes back as the one licence that stands for its status:
CC0-1.0 for Creative Commons licences without restriction, CC-BY-ND-4.0 for those forbidding
derivatives, ZPL-2.1 for everything else. -/
theorem C124_becomes_partial (s : Option Str) (v : Str) (h : surveyLicense s = .ok v)
    (hv : v ≠ "CC BY-NC-SA".toList) : trip v = .ok (standard (classify (norm v))) := by
  have hc : copyright s = .ok v := by
    cases s with
    | none => cases h
    | some s => exact h
  have hm : ∃ w, (norm v, w) ∈ pairs := by
    rcases value_mem (copyright_ok hc) with hb | hi
    · obtain ⟨p, hp, rfl⟩ := List.mem_map.1 hb
      exact ⟨_, mem_base (base_again p hp hv).2⟩
    · exact ⟨v, mem_spdx hi⟩
  obtain ⟨w, hw⟩ := hm
  rw [trip_of (writeStatus_of_mem hw)]
  rcases classify_range (norm v) with e | e | e <;> rw [e]
  · exact read_open
  · exact read_closed
  · exact read_partial

theorem infix_norm {p v : Str} (h : ∀ c ∈ p, c.isUpper = true) : p <:+: norm v ↔ p <:+: v := by
  have key : ∀ c, c.isUpper = true → ∀ x, (if x ∈ ['-', ' ', '.', '(', ')', '/', ':'] then '_' else x) = c ↔ x = c := by
    intro c hc x
    split
    · rename_i hx
      constructor
      · rintro rfl; exact absurd hc (by decide)
      · rintro rfl
        exfalso
        revert hc
        have : ∀ x ∈ ['-', ' ', '.', '(', ')', '/', ':'], ¬ x.isUpper = true := by decide
        exact this _ hx
    · rfl
  have pre : ∀ (p v : Str), (∀ c ∈ p, c.isUpper = true) → (p <+: norm v ↔ p <+: v) := by
    intro p
    induction p with
    | nil => intro v _; simp
    | cons c p ih =>
      intro v hp
      cases v with
      | nil => simp [norm]
      | cons x v =>
        have e : norm (x :: v) = (if x ∈ ['-', ' ', '.', '(', ')', '/', ':'] then '_' else x) :: norm v := rfl
        rw [e, List.cons_prefix_cons, List.cons_prefix_cons, ih v (fun d hd => hp d (List.mem_cons_of_mem _ hd))]
        have hk := key c (hp c List.mem_cons_self) x
        constructor
        · rintro ⟨h1, h2⟩; exact ⟨(hk.1 h1.symm).symm, h2⟩
        · rintro ⟨h1, h2⟩; exact ⟨(hk.2 h1.symm).symm, h2⟩
  induction v with
  | nil => simp [norm]
  | cons x v ih =>
    have e : norm (x :: v) = (if x ∈ ['-', ' ', '.', '(', ')', '/', ':'] then '_' else x) :: norm v := rfl
    have h1 := pre p (x :: v) h
    rw [e] at h1 ⊢
    rw [List.infix_cons_iff, List.infix_cons_iff, h1]
    exact or_congr Iff.rfl ih

theorem prefix_norm (v : Str) : ['C', 'C'].isPrefixOf (norm v) = true ↔ ['C', 'C'] <+: v := by
  have key : ∀ x, (if x ∈ ['-', ' ', '.', '(', ')', '/', ':'] then '_' else x) = 'C' ↔ x = 'C' := by
    intro x
    split
    · rename_i hx
      constructor
      · intro h; exact absurd h (by decide)
      · rintro rfl; exact absurd hx (by decide)
    · rfl
  rw [List.isPrefixOf_iff_prefix]
  unfold norm
  match v with
  | [] => simp
  | [x] => simp
  | x :: y :: v =>
    simp only [List.map_cons, List.cons_prefix_cons, List.nil_prefix, and_true]
    constructor
    · rintro ⟨h1, h2⟩; exact ⟨((key x).1 h1.symm).symm, ((key y).1 h2.symm).symm⟩
    · rintro ⟨h1, h2⟩; exact ⟨((key x).2 h1.symm).symm, ((key y).2 h2.symm).symm⟩

theorem nc_once : ∀ k ∈ pairs.map Prod.fst, count ['N', 'C'] k ≤ 1 := by decide +kernel

theorem classify_eq {v w : Str} (h : (norm v, w) ∈ pairs) : classify (norm v) =
    if ['C', 'C'] <+: v then
      if ['N', 'D'] <:+: v then sClosed
      else if ['S', 'A'] <:+: v ∨ ['N', 'A'] <:+: v ∨ ['N', 'C'] <:+: v then sPartial
      else sOpen
    else sPartial := by
  have hn : ¬ count ['N', 'C'] (norm v) > 1 := by
    have := nc_once _ (List.mem_map.2 ⟨_, h, rfl⟩)
    simp only at this
    omega
  have h1 : hasSub ['S', 'A'] (norm v) = true ↔ ['S', 'A'] <:+: v := hasSub_iff.trans (infix_norm (by decide))
  have h2 : hasSub ['N', 'A'] (norm v) = true ↔ ['N', 'A'] <:+: v := hasSub_iff.trans (infix_norm (by decide))
  have h3 : hasSub ['N', 'D'] (norm v) = true ↔ ['N', 'D'] <:+: v := hasSub_iff.trans (infix_norm (by decide))
  have h4 : hasSub ['N', 'C'] (norm v) = true ↔ ['N', 'C'] <:+: v := hasSub_iff.trans (infix_norm (by decide))
  unfold classify
  simp only [prefix_norm, Bool.or_eq_true, h1, h2, h3, h4, decide_eq_true_eq, hn, false_or]
  by_cases a : ['C', 'C'] <+: v <;> by_cases b : ['N', 'D'] <:+: v <;> by_cases c : ['S', 'A'] <:+: v <;>
    by_cases d : ['N', 'A'] <:+: v <;> by_cases e : ['N', 'C'] <:+: v <;> simp [a, b, c, d, e]

/-- What becomes of a licence in StationXML: of the Creative Commons family those with "ND" become
CC-BY-ND-4.0, others with "SA", "NA" or "NC" become ZPL-2.1, the rest CC0-1.0; every licence outside the
family becomes ZPL-2.1. -/
theorem C124_family_partial (s : Option Str) (v : Str) (h : surveyLicense s = .ok v)
    (hv : v ≠ "CC BY-NC-SA".toList) : trip v = .ok
      (if ['C', 'C'] <+: v then
        if ['N', 'D'] <:+: v then licClosed
        else if ['S', 'A'] <:+: v ∨ ['N', 'A'] <:+: v ∨ ['N', 'C'] <:+: v then licPartial
        else licOpen
      else licPartial) := by
  have hc : copyright s = .ok v := by
    cases s with
    | none => cases h
    | some s => exact h
  have hm : ∃ w, (norm v, w) ∈ pairs := by
    rcases value_mem (copyright_ok hc) with hb | hi
    · obtain ⟨p, hp, rfl⟩ := List.mem_map.1 hb
      exact ⟨_, mem_base (base_again p hp hv).2⟩
    · exact ⟨v, mem_spdx hi⟩
  obtain ⟨w, hw⟩ := hm
  rw [C124_becomes_partial s v h hv, classify_eq hw]
  have e1 : standard sOpen = licOpen := by decide +kernel
  have e2 : standard sClosed = licClosed := by decide +kernel
  have e3 : standard sPartial = licPartial := by decide +kernel
  split_ifs <;> simp only [e1, e2, e3]

theorem standard_trip (st : Str) (h : st = sOpen ∨ st = sClosed ∨ st = sPartial) :
    classify (norm (standard st)) = st := by
  rcases h with rfl | rfl | rfl <;> decide +kernel

/-- The status is kept, and a second trip changes nothing more. -/
theorem C124_status_partial (s : Option Str) (v w : Str) (h : surveyLicense s = .ok v)
    (ht : trip v = .ok w) : writeStatus w = writeStatus v ∧ trip w = .ok w := by
  by_cases hv : v = "CC BY-NC-SA".toList
  · exfalso
    subst hv
    rw [trip_error nc_sa_write] at ht
    cases ht
  · have hb := C124_becomes_partial s v h hv
    rw [ht] at hb
    simp only [Except.ok.injEq] at hb
    have hw : trip w = .ok w ∧ writeStatus w = .ok (classify (norm v)) := by
      have hmem : ∃ x, (norm w, x) ∈ pairs := by
        rw [hb]
        refine ⟨standard (classify (norm v)), ?_⟩
        rcases classify_range (norm v) with e | e | e <;> rw [e] <;>
          exact mem_spdx (by decide +kernel)
      obtain ⟨x, hx⟩ := hmem
      have h1 := writeStatus_of_mem hx
      have h2 : classify (norm w) = classify (norm v) := by
        rw [hb]; exact standard_trip _ (classify_range _)
      rw [h2] at h1
      refine ⟨?_, h1⟩
      have hr : trip w = trip v := by
        have h3 : writeStatus v = .ok (classify (norm v)) := by
          have hc : copyright s = .ok v := by
            cases s with
            | none => cases h
            | some s => exact h
          have hm : ∃ w, (norm v, w) ∈ pairs := by
            rcases value_mem (copyright_ok hc) with hb | hi
            · obtain ⟨p, hp, rfl⟩ := List.mem_map.1 hb
              exact ⟨_, mem_base (base_again p hp hv).2⟩
            · exact ⟨v, mem_spdx hi⟩
          obtain ⟨y, hy⟩ := hm
          exact writeStatus_of_mem hy
        rw [trip_of h1, trip_of h3]
      rw [hr, ht]
    refine ⟨?_, hw.1⟩
    rw [hw.2]
    have hc : copyright s = .ok v := by
      cases s with
      | none => cases h
      | some s => exact h
    have hm : ∃ w, (norm v, w) ∈ pairs := by
      rcases value_mem (copyright_ok hc) with hb | hi
      · obtain ⟨p, hp, rfl⟩ := List.mem_map.1 hb
        exact ⟨_, mem_base (base_again p hp hv).2⟩
      · exact ⟨v, mem_spdx hi⟩
    obtain ⟨y, hy⟩ := hm
    exact (writeStatus_of_mem hy).symm

/-- Exactly three licences survive. -/
theorem C124_survivors_partial (s : Option Str) (v : Str) (h : surveyLicense s = .ok v) :
    trip v = .ok v ↔ v ∈ [licOpen, licClosed, licPartial] := by
  constructor
  · intro ht
    by_cases hv : v = "CC BY-NC-SA".toList
    · subst hv
      exfalso
      rw [trip_error nc_sa_write] at ht
      cases ht
    · have hb := C124_becomes_partial s v h hv
      rw [ht] at hb
      simp only [Except.ok.injEq] at hb
      rw [hb]
      rcases classify_range (norm v) with e | e | e <;> rw [e] <;> decide +kernel
  · intro hm
    have hne : v ≠ "CC BY-NC-SA".toList := by
      rintro rfl; exact absurd hm (by decide +kernel)
    rw [C124_becomes_partial s v h hne]
    congr 1
    simp only [List.mem_cons, List.not_mem_nil, or_false] at hm
    rcases hm with rfl | rfl | rfl <;> decide +kernel

/-- In particular the default licence of a survey does not. -/
theorem C124_refuted : ¬ C124_claim := by
  intro h
  have hs : surveyLicense (some "CC-BY-4.0".toList) = .ok "CC-BY-4.0".toList :=
    copyright_of_mem (by decide) (mem_spdx (by decide +kernel))
  exact absurd ((C124_survivors_partial _ _ hs).1 (h _ _ hs)) (by decide +kernel)

end Verif.License
