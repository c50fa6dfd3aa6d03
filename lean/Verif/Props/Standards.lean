import Verif.Model.Standards
import Verif.Lemmas.OD
import Verif.Lemmas.Text
import Verif.Lemmas.Sorted

/-! # C396-C400: tables of standards -/

namespace Verif.Standards
open Verif.Text

/-! ### C396: all attributes are in the tables -/

/-- C396: the tables have a line for each attribute. -/
def C396_claim : Prop := ∀ (R L : Type) (shown : List Str → Str) (line : Str → Desc R → L) (first m : Nat) (d : OD Str (Desc R)), 0 < first → 0 < m →
  ∃ ts, (toLatex shown line first m d).2 = .ok ts ∧ ts.flatten.length = d.length

theorem flatten_tables {L : Type} (first m k : Nat) (lines : List L) :
    lines.take first ++ ((List.range k).map (fun ii => (lines.drop (first + m * ii)).take m)).flatten = lines.take (first + m * k) := by
  induction k with
  | zero => simp
  | succ k ih =>
    rw [List.range_succ, List.map_append, List.flatten_append, ← List.append_assoc, ih, Nat.mul_succ, ← Nat.add_assoc,
      List.take_add (l := lines) (i := first + m * k) (j := m)]
    simp only [List.map_cons, List.map_nil, List.flatten_cons, List.flatten_nil, List.append_nil]

theorem room (first m n : Nat) (hm : 0 < m) : n ≤ first + m * (ntables n m - 1) ↔ n % m ≤ first := by
  have hd := Nat.div_add_mod n m
  unfold ntables
  by_cases h : n / m > 0
  · rw [if_pos h, Nat.add_sub_cancel]
    omega
  · have h0 : n / m = 0 := Nat.eq_zero_of_not_pos h
    rw [h0] at hd ⊢
    simp only [Nat.lt_irrefl, if_false, Nat.mul_zero, Nat.zero_sub, Nat.add_zero, gt_iff_lt]
    omega

theorem tables_length {L : Type} (first m : Nat) (lines : List L) (hm : 0 < m) :
    ((tables first m lines).flatten.length = lines.length ↔ lines.length % m ≤ first) ∧
      (lines.length % m ≤ first → (tables first m lines).flatten = lines) := by
  have e : (tables first m lines).flatten = lines.take (first + m * (ntables lines.length m - 1)) := flatten_tables first m _ lines
  rw [e, ← room first m _ hm]
  refine ⟨?_, fun h => List.take_of_length_le h⟩
  rw [List.length_take]
  omega

/-- C396 (part): there is a line for each attribute if and only if what is left of their number divided by the entries of a table has room in
the first table; then the lines are those of all attributes, each once. -/
theorem C396_iff_partial {R L : Type} (shown : List Str → Str) (line : Str → Desc R → L) (first m : Nat) (d : OD Str (Desc R)) (hm : 0 < m) :
    ∃ ts, (toLatex shown line first m d).2 = .ok ts ∧ (ts.flatten.length = d.length ↔ d.length % m ≤ first) ∧
      (d.length % m ≤ first → ts.flatten.Perm (d.map (fun p => line p.1
        { options := p.2.options
          text := if p.2.options = [] then p.2.text else p.2.text ++ ".  Options: ".toList ++ shown p.2.options
          rest := p.2.rest }))) := by
  unfold toLatex
  rw [if_neg (by omega)]
  refine ⟨_, rfl, ?_⟩
  have hp := (pySorted_perm (fun a b : Str × Desc R => nameLe a.1 b.1) (d.map (fun p => (p.1, told shown p.2)))).map (fun p => line p.1 p.2)
  have hl := hp.length_eq
  simp only [List.length_map] at hl
  obtain ⟨h1, h2⟩ := tables_length first m ((pySorted (fun a b : Str × Desc R => nameLe a.1 b.1) (d.map (fun p => (p.1, told shown p.2)))).map (fun p => line p.1 p.2)) hm
  rw [List.length_map, hl] at h1 h2
  refine ⟨h1, fun h => ?_⟩
  rw [h2 h]
  refine hp.trans ?_
  rw [List.map_map]
  refine List.Perm.of_eq (List.map_congr_left fun p _ => ?_)
  obtain ⟨k, o, t, r⟩ := p
  simp only [Function.comp, told]
  by_cases ho : o = []
  · rw [if_pos ho, if_pos ho]
  · rw [if_neg ho, if_neg ho]

/-- C396 (part): so it is if the first table has room for as many as the others, as by default. -/
theorem C396_default_partial {R L : Type} (shown : List Str → Str) (line : Str → Desc R → L) (first m : Nat) (d : OD Str (Desc R)) (hm : 0 < m)
    (h : m ≤ first + 1) : ∃ ts, (toLatex shown line first m d).2 = .ok ts ∧ ts.flatten.length = d.length := by
  obtain ⟨ts, h1, h2, _⟩ := C396_iff_partial shown line first m d hm
  have := Nat.mod_lt d.length hm
  exact ⟨ts, h1, h2.2 (by omega)⟩

/-- Three attributes, one of them with options. -/
def exThree : OD Str (Desc Nat) := [("b".toList, ⟨[], "x".toList, 1⟩), ("a".toList, ⟨["p".toList], "y".toList, 2⟩), ("c".toList, ⟨[], "z".toList, 3⟩)]

/-- C396 is false: with a short first table attributes are missing. -/
theorem C396_refuted : ¬ C396_claim := by
  intro h
  obtain ⟨ts, h1, h2⟩ := h Nat Nat (fun _ => []) (fun _ d => d.rest) 1 7 exThree (by decide) (by decide)
  obtain ⟨ts', h1', h2', _⟩ := C396_iff_partial (fun _ => []) (fun _ d => d.rest) 1 7 exThree (by decide)
  rw [h1] at h1'
  cases h1'
  exact absurd (h2'.1 h2) (by decide)

/-! ### C397: repeated tables -/

/-- C397: making tables leaves the dictionary as it is. -/
def C397_claim : Prop := ∀ (R L : Type) (shown : List Str → Str) (line : Str → Desc R → L) (first m : Nat) (d : OD Str (Desc R)),
  (toLatex shown line first m d).1 = d

/-- The dictionary after `n` calls. -/
def calls {R L : Type} (shown : List Str → Str) (line : Str → Desc R → L) (first m : Nat) (d : OD Str (Desc R)) : Nat → OD Str (Desc R)
  | 0 => d
  | n + 1 => (toLatex shown line first m (calls shown line first m d n)).1

/-- C397 (part): after `n` calls the options are told `n` times in each description that has some. -/
theorem C397_times_partial {R L : Type} (shown : List Str → Str) (line : Str → Desc R → L) (first m : Nat) (d : OD Str (Desc R)) (n : Nat) (hm : 0 < m) :
    calls shown line first m d n = d.map (fun p => (p.1,
      { options := p.2.options
        text := p.2.text ++ (List.replicate n (if p.2.options = [] then [] else ".  Options: ".toList ++ shown p.2.options)).flatten
        rest := p.2.rest })) := by
  induction n with
  | zero =>
    simp only [calls, List.replicate_zero, List.flatten_nil, List.append_nil]
    exact (List.map_id' d).symm
  | succ n ih =>
    rw [calls, ih]
    unfold toLatex
    rw [if_neg (by omega)]
    simp only [List.map_map]
    refine List.map_congr_left fun p _ => ?_
    simp only [Function.comp, told, List.replicate_succ', List.flatten_append]
    by_cases ho : p.2.options = []
    · simp [ho]
    · simp [ho]

/-- C397 (part): a dictionary without options stays. -/
theorem C397_none_partial {R L : Type} (shown : List Str → Str) (line : Str → Desc R → L) (first m : Nat) (d : OD Str (Desc R))
    (h : ∀ p ∈ d, p.2.options = []) : (toLatex shown line first m d).1 = d := by
  unfold toLatex
  split
  · rfl
  · change d.map _ = d
    conv => rhs; rw [← List.map_id' d]
    refine List.map_congr_left fun p hp => ?_
    unfold told
    rw [if_pos (h p hp)]

/-- C397 is false. -/
theorem C397_refuted : ¬ C397_claim := by
  intro h
  have := congrArg (fun d => (OD.get? d "a".toList).map (fun x => x.text.length)) (h Nat Nat (fun _ => []) (fun _ d => d.rest) 7 7 exThree)
  revert this
  decide

/-! ### C398: the array of a summary -/

/-- C398: the array has a row for each attribute, in order, with its name and all values. -/
def C398_claim : Prop := ∀ (version : Str) (d : OD Str Info) (i : Nat) (p : Str × Info), d[i]? = some p →
  ∃ r, (toArray version d)[i + 1]? = some r ∧ r.attr = p.1 ∧ r.required = p.2.required ∧ ∀ c, r.cell c = shownVal (p.2.val c)

/-- C398 (part): there is one row more than attributes. -/
theorem C398_rows_partial (version : Str) (d : OD Str Info) : (toArray version d).length = d.length + 1 := by
  unfold toArray
  rw [List.length_cons, List.length_map]

theorem take_self {α : Type} (l : List α) (n : Nat) : l.take n = l ↔ l.length ≤ n := by
  constructor
  · intro h
    have := congrArg List.length h
    rw [List.length_take] at this
    omega
  · exact List.take_of_length_le

/-- C398 (part): a row has all of its attribute if and only if its texts are short enough. -/
theorem C398_cut_partial (version : Str) (d : OD Str Info) (i : Nat) (p : Str × Info) (h : d[i]? = some p) :
    ∃ r, (toArray version d)[i + 1]? = some r ∧ r.required = p.2.required ∧ (r.attr = p.1 ↔ p.1.length ≤ 72) ∧ r.attr <+: p.1 ∧
      ∀ c, r.cell c <+: shownVal (p.2.val c) ∧ (r.cell c = shownVal (p.2.val c) ↔ (shownVal (p.2.val c)).length ≤
        if c = .description then 300 else if c = .options then 150 else if c = .type then 15 else if c = .units then 32 else 72) := by
  refine ⟨row p, ?_, rfl, take_self _ _, List.take_prefix _ _, fun c => ⟨List.take_prefix _ _, ?_⟩⟩
  · unfold toArray
    rw [List.getElem?_cons_succ, List.getElem?_map, h]
    rfl
  · change (shownVal (p.2.val c)).take c.width = _ ↔ _
    rw [take_self]
    cases c <;> simp [Col.width]

/-- C398 (part): what is shown of a value that is not cut: nothing of none, a text itself, and a list such that its entries are found
between commas. -/
theorem C398_values_partial (p : Str × Info) (c : Col) (h : (shownVal (p.2.val c)).length ≤ c.width) :
    (p.2.val c = .none → (row p).cell c = []) ∧ (∀ s, p.2.val c = .text s → (row p).cell c = s) ∧ (p.2.val c = .list [] → (row p).cell c = []) ∧
      ∀ l : List Str, p.2.val c = .list l → l ≠ [] → (∀ t ∈ l, ',' ∉ t) → splitC ',' ((row p).cell c) = l := by
  have e : (row p).cell c = shownVal (p.2.val c) := (take_self _ _).2 h
  rw [e]
  refine ⟨fun h => by rw [h]; rfl, fun s h => by rw [h]; rfl, fun h => by rw [h]; rfl, fun l hl hn ht => ?_⟩
  rw [hl]
  exact splitC_join hn ht

/-- C398 (part): two attributes have the same name in the array if and only if the first 72 characters are the same. -/
theorem C398_same_partial (p q : Str × Info) : (row p).attr = (row q).attr ↔ ∀ i < 72, p.1[i]? = q.1[i]? := by
  change p.1.take 72 = q.1.take 72 ↔ _
  constructor
  · intro h i hi
    have := congrArg (fun l => l[i]?) h
    simpa [List.getElem?_take, hi] using this
  · intro h
    apply List.ext_getElem?
    intro i
    rw [List.getElem?_take, List.getElem?_take]
    by_cases hi : i < 72
    · rw [if_pos hi, if_pos hi, h i hi]
    · rw [if_neg hi, if_neg hi]

/-- C398 is false: long values are cut. -/
theorem C398_refuted : ¬ C398_claim := by
  intro h
  let p : Str × Info := (['a'], ⟨true, fun _ => .text (List.replicate 16 'x')⟩)
  obtain ⟨r, h1, _, _, h2⟩ := h [] [p] 0 p rfl
  obtain ⟨r', h1', _, _, _, h2'⟩ := C398_cut_partial [] [p] 0 p rfl
  rw [h1] at h1'
  cases h1'
  exact absurd ((h2' .type).2.1 (h2 .type)) (by decide)

example : shownVal (.list ["a".toList, "bc".toList]) = "a,bc".toList ∧ (row ("x".toList, ⟨false, fun _ => .text "0123456789abcdefg".toList⟩)).cell .type = "0123456789abcde".toList := by
  decide

/-! ### C399: classes of a summary -/

/-- C399: the summary has every field of every class that has a valid description. -/
def C399_claim : Prop := ∀ (V : Type) (cs : List (Cls V)) (c : Cls V) (k : Str) (v : V), c ∈ cs → (k, .ok v) ∈ c.fields →
  ∃ w, OD.get? (summarize cs) (full c.name k) = some w

/-- The fields of a class before the first that is not valid. -/
def validFields {V : Type} : List (Str × Except PyErr V) → List (Str × V)
  | [] => []
  | (k, .ok v) :: fs => (k, v) :: validFields fs
  | (_, .error _) :: _ => []

theorem addFields_eq {V : Type} (name : Str) (fs : List (Str × Except PyErr V)) (d : OD Str V) :
    addFields name d fs = ((validFields fs).map (fun p => (full name p.1, p.2))).foldl (fun d p => OD.set d p.1 p.2) d := by
  induction fs generalizing d with
  | nil => rfl
  | cons x fs ih =>
    obtain ⟨k, v⟩ := x
    cases v with
    | ok v => exact ih _
    | error e => rfl

/-- All that is put into a summary, in order. -/
def entries {V : Type} (cs : List (Cls V)) : List (Str × V) := cs.flatMap (fun c => (validFields c.fields).map (fun p => (full c.name p.1, p.2)))

theorem summarize_eq {V : Type} (cs : List (Cls V)) : summarize cs = (entries cs).foldl (fun d p => OD.set d p.1 p.2) [] := by
  have : ∀ d : OD Str V, cs.foldl (fun d c => addFields c.name d c.fields) d = (entries cs).foldl (fun d p => OD.set d p.1 p.2) d := by
    induction cs with
    | nil => exact fun _ => rfl
    | cons c cs ih =>
      intro d
      rw [List.foldl_cons, ih, addFields_eq]
      unfold entries
      rw [List.flatMap_cons, List.foldl_append]
  exact this []

theorem fold_mem {V : Type} (l : List (Str × V)) (d : OD Str V) (x : Str) (v : V)
    (h : OD.get? (l.foldl (fun d p => OD.set d p.1 p.2) d) x = some v) : (x, v) ∈ l ∨ OD.get? d x = some v := by
  induction l generalizing d with
  | nil => exact .inr h
  | cons y l ih =>
    rcases ih _ h with h | h
    · exact .inl (List.mem_cons_of_mem _ h)
    · by_cases e : x = y.1
      · subst e
        rw [OD.get?_set_self] at h
        cases h
        exact .inl List.mem_cons_self
      · rw [OD.get?_set_ne _ _ e] at h
        exact .inr h

theorem fold_some {V : Type} (l : List (Str × V)) (d : OD Str V) (x : Str) (h : (∃ v, (x, v) ∈ l) ∨ OD.get? d x ≠ none) :
    OD.get? (l.foldl (fun d p => OD.set d p.1 p.2) d) x ≠ none := by
  induction l generalizing d with
  | nil => exact h.resolve_left (by simp)
  | cons y l ih =>
    apply ih
    by_cases e : x = y.1
    · subst e
      exact .inr (by rw [OD.get?_set_self]; nofun)
    · rcases h with ⟨v, h⟩ | h
      · rcases List.mem_cons.1 h with h | h
        · rw [← h] at e
          exact absurd rfl e
        · exact .inl ⟨v, h⟩
      · exact .inr (by rw [OD.get?_set_ne _ _ e]; exact h)

/-- C399 (part): whatever the classes, there is an entry of a name if and only if a class has such a field before the first that is not valid. -/
theorem C399_iff_partial {V : Type} (cs : List (Cls V)) (x : Str) :
    OD.get? (summarize cs) x ≠ none ↔ ∃ c ∈ cs, ∃ k v, (k, v) ∈ validFields c.fields ∧ x = c.name ++ '.' :: k := by
  have hm : (∃ v, (x, v) ∈ entries cs) ↔ ∃ c ∈ cs, ∃ k v, (k, v) ∈ validFields c.fields ∧ x = c.name ++ '.' :: k := by
    unfold entries
    constructor
    · rintro ⟨v, h⟩
      obtain ⟨c, hc, h⟩ := List.mem_flatMap.1 h
      obtain ⟨p, hp, e⟩ := List.mem_map.1 h
      cases e
      exact ⟨c, hc, p.1, p.2, hp, rfl⟩
    · rintro ⟨c, hc, k, v, hp, rfl⟩
      exact ⟨v, List.mem_flatMap.2 ⟨c, hc, List.mem_map.2 ⟨(k, v), hp, rfl⟩⟩⟩
  rw [← hm, summarize_eq]
  constructor
  · intro h
    cases e : OD.get? ((entries cs).foldl (fun d p => OD.set d p.1 p.2) []) x with
    | none => exact absurd e h
    | some v => exact ⟨v, (fold_mem _ _ _ _ e).resolve_right nofun⟩
  · exact fun h => fold_some _ _ _ (.inl h)

/-- C399 (part): if classes have different names without points, the description of a field before the first that is not valid is its own. -/
theorem C399_own_partial {V : Type} (cs : List (Cls V)) (c : Cls V) (k : Str) (v : V) (hc : c ∈ cs) (hd : ∀ a ∈ cs, '.' ∉ a.name)
    (hn : ∀ a ∈ cs, ∀ b ∈ cs, a.name = b.name → a = b) (hf : ∀ v', (k, v') ∈ validFields c.fields → v' = v) (h : (k, v) ∈ validFields c.fields) :
    OD.get? (summarize cs) (c.name ++ '.' :: k) = some v := by
  cases e : OD.get? (summarize cs) (c.name ++ '.' :: k) with
  | none => exact absurd e ((C399_iff_partial cs _).2 ⟨c, hc, k, v, h, rfl⟩)
  | some w =>
    rw [summarize_eq] at e
    have hm := (fold_mem _ _ _ _ e).resolve_right nofun
    unfold entries at hm
    obtain ⟨b, hb, hm⟩ := List.mem_flatMap.1 hm
    obtain ⟨p, hp, e2⟩ := List.mem_map.1 hm
    have e3 : b.name ++ '.' :: p.1 = c.name ++ '.' :: k := congrArg Prod.fst e2
    have e4 := congrArg (split1 '.') e3
    rw [split1_append _ (hd b hb), split1_append _ (hd c hc)] at e4
    have e5 : b.name = c.name := congrArg Prod.fst e4
    have e6 : p.1 = k := Option.some.inj (congrArg Prod.snd e4)
    have e7 := hn b hb c hc e5
    subst e7
    have e8 : p.2 = w := congrArg Prod.snd e2
    rw [← e8]
    refine congrArg some (hf p.2 ?_)
    rw [← e6]
    exact hp

theorem validFields_all {V : Type} (fs : List (Str × Except PyErr V)) (h : ∀ p ∈ fs, ∃ v, p.2 = .ok v) (k : Str) (v : V) :
    (k, v) ∈ validFields fs ↔ (k, .ok v) ∈ fs := by
  induction fs with
  | nil => exact ⟨nofun, nofun⟩
  | cons x fs ih =>
    obtain ⟨k', w⟩ := x
    obtain ⟨w', hw⟩ := h _ List.mem_cons_self
    cases hw
    rw [validFields, List.mem_cons, List.mem_cons, ih (fun p hp => h p (List.mem_cons_of_mem _ hp))]
    simp

/-- C399 (part): a class all of whose fields are valid has all of them in the summary, whatever the other classes. -/
theorem C399_valid_partial {V : Type} (cs : List (Cls V)) (c : Cls V) (k : Str) (v : V) (hc : c ∈ cs) (hv : ∀ p ∈ c.fields, ∃ v, p.2 = .ok v)
    (h : (k, .ok v) ∈ c.fields) : OD.get? (summarize cs) (c.name ++ '.' :: k) ≠ none :=
  (C399_iff_partial cs _).2 ⟨c, hc, k, v, (validFields_all _ hv k v).2 h, rfl⟩

/-- A class with a field in the middle that is not valid. -/
def exCls : Cls Nat := ⟨"run".toList, [("a".toList, .ok 1), ("b".toList, .error .typeError), ("c".toList, .ok 3)]⟩

/-- C399 is false: fields after one that is not valid are missing. -/
theorem C399_refuted : ¬ C399_claim := by
  intro h
  obtain ⟨w, hw⟩ := h Nat [exCls] exCls "c".toList 3 List.mem_cons_self (by simp [exCls])
  revert hw
  have : OD.get? (summarize [exCls]) (full exCls.name "c".toList) = none := by decide
  rw [this]
  nofun

/-! ### C400: forms of a summary -/

/-- C400: a file is written if its name is given, and the form asked for is returned. -/
def C400_claim : Prop := ∀ (T : Type) (dtype : T) (form : Form) (csv : Option Str), (standards dtype form csv).1 = csv ∧
  (standards dtype form csv).2 = .ok (if form = .array then .array dtype else .frame)

/-- C400 (part): a file is written if and only if it has a name that is not empty and no array is asked for. -/
theorem C400_file_partial {T : Type} (dtype : T) (form : Form) (csv : Option Str) (f : Str) :
    (standards dtype form csv).1 = some f ↔ csv = some f ∧ f ≠ [] ∧ form ≠ .array := by
  cases form <;> rcases csv with _ | _ | ⟨a, l⟩ <;> simp only [standards] <;> simp
  all_goals
    intro h
    subst h
    simp

/-- C400 (part): an error is raised if and only if neither an array nor a file nor a data frame without a file is asked for. -/
theorem C400_error_partial {T : Type} (dtype : T) (form : Form) (csv : Option Str) :
    (standards dtype form csv).2 = .error .nameError ↔ form ≠ .array ∧ (csv = some [] ∨ form = .other ∧ csv = none) := by
  cases form <;> rcases csv with _ | _ | ⟨a, l⟩ <;> simp [standards]

/-- C400 (part): otherwise the form is right. -/
theorem C400_form_partial {T : Type} (dtype : T) (form : Form) (csv : Option Str) (o : Out T) (h : (standards dtype form csv).2 = .ok o) :
    o = if form = .array then .array dtype else .frame := by
  cases form <;> rcases csv with _ | _ | ⟨a, l⟩ <;> simp [standards] at h ⊢ <;> exact h.symm

/-- C400 is false: with arrays no file is written. -/
theorem C400_refuted : ¬ C400_claim := by
  intro h
  have := (h Nat 0 .array (some "a.csv".toList)).1
  cases this

end Verif.Standards
