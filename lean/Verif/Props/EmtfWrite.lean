import Mathlib.Tactic.Linarith
import Mathlib.Tactic.NormNum
import Mathlib.Tactic.Positivity
import Mathlib.Tactic.FieldSimp
import Mathlib.Tactic.Ring
import Verif.Model.EmtfWrite

/-! # C377-C380: EMTF XML files that are written again and again -/

namespace Verif.EmtfWrite

/-! ### C377: parts of the remote site -/

/-- There is a name. -/
def Named (s : Option String) : Prop := s ≠ none ∧ s ≠ some "" ∧ s ≠ some "None" ∧ s ≠ some "none"

theorem noValue_iff (s : Option String) : noValue s = false ↔ Named s := by
  cases s with
  | none => simp [noValue, Named]
  | some s => simp [noValue, Named, and_assoc]

/-- C377: a file has the remote site if it has a name, and the field notes of the remote site unless they are skipped, whatever was written
before. -/
def C377_claim : Prop := ∀ (l : List Step) (skip : Bool),
  (Part.site ∈ (write skip (run {} l)).2.remote ↔ Named (run {} l).remoteId) ∧
  (Part.notes ∈ (write skip (run {} l)).2.remote ↔ skip = false)

theorem orderFor_sub (skip : Bool) (o : Obj) : (orderFor skip o).Sublist o.order := by
  unfold orderFor
  have h1 : (if skip then o.order.erase .notes else o.order).Sublist o.order := by
    split
    · exact List.erase_sublist
    · exact List.Sublist.refl _
  simp only
  split
  · exact List.erase_sublist.trans h1
  · exact h1

theorem step_order (o : Obj) (x : Step) : (step o x).order.Sublist o.order := by
  cases x with
  | write skip => exact orderFor_sub skip o
  | read f u r => exact List.Sublist.refl _
  | setUrl s => exact List.Sublist.refl _
  | setRemote s => exact List.Sublist.refl _
  | setPeriod s => exact List.Sublist.refl _

theorem run_order (o : Obj) (l : List Step) : (run o l).order.Sublist o.order := by
  induction l generalizing o with
  | nil => exact List.Sublist.refl _
  | cons x l ih => exact (ih (step o x)).trans (step_order o x)

theorem site_orderFor (skip : Bool) (o : Obj) (hn : o.order.Nodup) : Part.site ∈ orderFor skip o ↔ Part.site ∈ o.order ∧ Named o.remoteId := by
  unfold orderFor
  have h1 : ∀ l : List Part, l.Nodup → (Part.site ∈ (if noValue o.remoteId then l.erase .site else l) ↔ Part.site ∈ l ∧ Named o.remoteId) := by
    intro l hl
    by_cases h : noValue o.remoteId = true
    · rw [if_pos h, hl.mem_erase_iff]
      have : ¬ Named o.remoteId := fun c => by rw [(noValue_iff _).2 c] at h; cases h
      simp [this]
    · rw [if_neg h]
      exact ⟨fun x => ⟨x, (noValue_iff _).1 (by simpa using h)⟩, And.left⟩
  simp only
  cases skip with
  | true =>
    simp only [if_true]
    rw [h1 _ (hn.erase _), hn.mem_erase_iff]
    simp
  | false => exact h1 _ hn

theorem notes_orderFor (skip : Bool) (o : Obj) (hn : o.order.Nodup) : Part.notes ∈ orderFor skip o ↔ Part.notes ∈ o.order ∧ skip = false := by
  unfold orderFor
  have h1 : ∀ l : List Part, l.Nodup → (Part.notes ∈ (if noValue o.remoteId then l.erase .site else l) ↔ Part.notes ∈ l) := by
    intro l hl
    split
    · rw [hl.mem_erase_iff]
      simp
    · rfl
  simp only
  cases skip with
  | true =>
    simp only [if_true]
    rw [h1 _ (hn.erase _), hn.mem_erase_iff]
    simp
  | false =>
    simp only
    exact (h1 _ hn).trans (by simp)

theorem run_append (o : Obj) (a b : List Step) : run o (a ++ b) = run (run o a) b := List.foldl_append

theorem run_nodup (l : List Step) : (run {} l).order.Nodup := (run_order {} l).nodup (by decide)

theorem site_run (l : List Step) : Part.site ∈ (run {} l).order ↔ ∀ pre s post, l = pre ++ .write s :: post → Named (run {} pre).remoteId := by
  induction l using List.reverseRecOn with
  | nil => exact ⟨fun _ pre s post h => by simp at h, fun _ => by decide⟩
  | append_singleton l x ih =>
    rw [run_append]
    have split : (∀ pre s post, l ++ [x] = pre ++ .write s :: post → Named (run {} pre).remoteId) ↔
        (∀ pre s post, l = pre ++ .write s :: post → Named (run {} pre).remoteId) ∧ (∀ s, x = .write s → Named (run {} l).remoteId) := by
      constructor
      · intro h
        refine ⟨fun pre s post e => h pre s (post ++ [x]) (by rw [e]; simp), fun s e => h l s [] (by rw [e])⟩
      · rintro ⟨h1, h2⟩ pre s post e
        rcases List.eq_nil_or_concat post with hp | ⟨post', y, hp⟩
        · subst hp
          obtain ⟨e1, e2⟩ := List.append_inj' e (by simp)
          rw [← e1]
          exact h2 s (by simpa using e2)
        · subst hp
          rw [List.concat_eq_append, ← List.cons_append, ← List.append_assoc] at e
          obtain ⟨e1, e2⟩ := List.append_inj' e (by simp)
          exact h1 pre s post' e1
    rw [split, ← ih]
    cases x with
    | write skip =>
      rw [show (run (run {} l) [.write skip]).order = orderFor skip (run {} l) from rfl, site_orderFor _ _ (run_nodup l)]
      simp
    | read f u r => exact ⟨fun h => ⟨h, fun s e => nomatch e⟩, And.left⟩
    | setUrl s => exact ⟨fun h => ⟨h, fun s e => nomatch e⟩, And.left⟩
    | setRemote s => exact ⟨fun h => ⟨h, fun s e => nomatch e⟩, And.left⟩
    | setPeriod s => exact ⟨fun h => ⟨h, fun s e => nomatch e⟩, And.left⟩

theorem notes_run (l : List Step) : Part.notes ∈ (run {} l).order ↔ ∀ s, Step.write s ∈ l → s = false := by
  induction l using List.reverseRecOn with
  | nil => exact ⟨(fun _ s h => nomatch h), (fun _ => by decide)⟩
  | append_singleton l x ih =>
    rw [run_append]
    have split : (∀ s, Step.write s ∈ l ++ [x] → s = false) ↔ (∀ s, Step.write s ∈ l → s = false) ∧ (∀ s, x = .write s → s = false) := by
      constructor
      · exact fun h => ⟨fun s m => h s (by simp [m]), fun s m => h s (by simp [m])⟩
      · rintro ⟨h1, h2⟩ s m
        rcases List.mem_append.1 m with m | m
        · exact h1 s m
        · exact h2 s (List.mem_singleton.1 m).symm
    rw [split, ← ih]
    cases x with
    | write skip =>
      rw [show (run (run {} l) [.write skip]).order = orderFor skip (run {} l) from rfl, notes_orderFor _ _ (run_nodup l)]
      simp
    | read f u r => exact ⟨fun h => ⟨h, fun s e => nomatch e⟩, And.left⟩
    | setUrl s => exact ⟨fun h => ⟨h, fun s e => nomatch e⟩, And.left⟩
    | setRemote s => exact ⟨fun h => ⟨h, fun s e => nomatch e⟩, And.left⟩
    | setPeriod s => exact ⟨fun h => ⟨h, fun s e => nomatch e⟩, And.left⟩

/-- C377 (part): a file has the remote site if and only if it had a name at this and every earlier time of writing, and the field notes of
the remote site if and only if they have never been skipped. Their order is always the same. -/
theorem C377_iff_partial (l : List Step) (skip : Bool) :
    (Part.site ∈ (write skip (run {} l)).2.remote ↔
      Named (run {} l).remoteId ∧ ∀ pre s post, l = pre ++ .write s :: post → Named (run {} pre).remoteId) ∧
    (Part.notes ∈ (write skip (run {} l)).2.remote ↔ skip = false ∧ ∀ s, Step.write s ∈ l → s = false) ∧
    (write skip (run {} l)).2.remote.Sublist [.site, .notes] := by
  have hn := run_nodup l
  refine ⟨?_, ?_, (orderFor_sub skip _).trans (run_order {} l)⟩
  · rw [show (write skip (run {} l)).2.remote = orderFor skip (run {} l) from rfl, site_orderFor _ _ hn, site_run]
    exact And.comm
  · rw [show (write skip (run {} l)).2.remote = orderFor skip (run {} l) from rfl, notes_orderFor _ _ hn, notes_run]
    exact And.comm

/-- C377 (part): so it is for an object that is written for the first time. -/
theorem C377_first_partial (l : List Step) (hl : ∀ s, Step.write s ∉ l) (skip : Bool) :
    (Part.site ∈ (write skip (run {} l)).2.remote ↔ Named (run {} l).remoteId) ∧
    (Part.notes ∈ (write skip (run {} l)).2.remote ↔ skip = false) := by
  obtain ⟨h1, h2, _⟩ := C377_iff_partial l skip
  rw [h1, h2]
  refine ⟨⟨And.left, fun h => ⟨h, fun pre s post e => ?_⟩⟩, ⟨And.left, fun h => ⟨h, fun s m => absurd m (hl s)⟩⟩⟩
  exact absurd (by rw [e]; simp) (hl s)

/-- C377 is false: after a file without field notes there are none in the next one, and a remote site that has its name after the first
file was written is in none. -/
theorem C377_refuted : ¬ C377_claim := by
  intro h
  have := (h [.setRemote (some "mt002"), .write true] false).2
  revert this
  decide

example : (write false (run {} [.write false, .setRemote (some "mt002")])).2.remote = [.notes] := by decide

/-! ### C378: elements -/

/-- C378: which elements a file has depends on the link and on the option alone: all of them, in their order, but for the link if there is
none and the field notes if they are skipped. -/
theorem C378_keys (l : List Step) (skip : Bool) :
    (∀ k, k ∈ (write skip (run {} l)).2.keys ↔
      k ∈ elementKeys ∧ (k = "external_url" → Named (run {} l).url) ∧ (k = "field_notes" → skip = false)) ∧
    (write skip (run {} l)).2.keys.Sublist elementKeys := by
  refine ⟨fun k => ?_, List.filter_sublist⟩
  show k ∈ elementKeys.filter (asked skip (run {} l)) ↔ _
  rw [List.mem_filter]
  refine and_congr_right fun _ => ?_
  unfold asked
  by_cases h1 : k = "external_url"
  · subst h1
    cases h : noValue (run {} l).url with
    | true =>
      have : ¬ Named (run {} l).url := fun c => by rw [(noValue_iff _).2 c] at h; cases h
      simp [this]
    | false =>
      have : Named (run {} l).url := (noValue_iff _).1 h
      simp [this]
  · by_cases h2 : k = "field_notes"
    · subst h2
      cases skip <;> simp
    · simp [h1, h2]

example : (write true (run {} [.setUrl (some "http://x.org/"), .write false])).2.keys.length = 17 ∧
    (write false (run {} [.write true])).2.keys.length = 17 := by decide +kernel

/-! ### C379: the range of periods in a file -/

theorem roundEven_cases (q : ℚ) : (roundEven q = ⌊q⌋ ∧ q - ⌊q⌋ ≤ 1 / 2) ∨ (roundEven q = ⌊q⌋ + 1 ∧ 1 / 2 ≤ q - ⌊q⌋) := by
  unfold roundEven
  split
  · next h => exact .inl ⟨rfl, h.le⟩
  · next h =>
    split
    · next h2 => exact .inr ⟨rfl, h2.le⟩
    · next h2 =>
      split
      · exact .inl ⟨rfl, not_lt.1 h2⟩
      · exact .inr ⟨rfl, not_lt.1 h⟩

theorem roundEven_near (q : ℚ) : |(roundEven q : ℚ) - q| ≤ 1 / 2 := by
  have h1 := Int.floor_le q
  have h2 := Int.lt_floor_add_one q
  rw [abs_le]
  rcases roundEven_cases q with ⟨e, h⟩ | ⟨e, h⟩
  · rw [e]; constructor <;> linarith
  · rw [e]; push_cast; constructor <;> linarith

theorem roundEven_mono {p q : ℚ} (h : p ≤ q) : roundEven p ≤ roundEven q := by
  have hf : ⌊p⌋ ≤ ⌊q⌋ := Int.floor_le_floor h
  have hp : roundEven p ≤ ⌊p⌋ + 1 := by
    rcases roundEven_cases p with ⟨e, _⟩ | ⟨e, _⟩ <;> omega
  have hq : ⌊q⌋ ≤ roundEven q := by
    rcases roundEven_cases q with ⟨e, _⟩ | ⟨e, _⟩ <;> omega
  rcases hf.lt_or_eq with hlt | heq
  · omega
  · unfold roundEven
    rw [← heq]
    have : p - ⌊p⌋ ≤ q - ⌊p⌋ := by linarith
    split
    · split
      · exact le_refl _
      · split
        · omega
        · split <;> omega
    · next h1 =>
      split
      · next h2 =>
        rw [if_neg (by linarith), if_pos (by linarith)]
      · next h2 =>
        split
        · rw [if_neg (by linarith)]
          split
          · omega
          · exact le_refl _
        · next h3 =>
          rw [if_neg (by linarith)]
          split
          · omega
          · exact le_refl _

theorem roundEven_int (n : ℤ) : roundEven (n : ℚ) = n := by
  unfold roundEven
  rw [Int.floor_intCast, if_pos (by simp)]

theorem unit_pos (d : Nat) (x : ℚ) : 0 < unit d x := by
  unfold unit
  exact zpow_pos (by norm_num) _

theorem printed_lo (d : Nat) {x : ℚ} (hx : 0 < x) : (10 : ℚ) ^ Int.log 10 x ≤ printed d x := by
  have hu := unit_pos d x
  have h1 : ((10 ^ d : ℤ) : ℚ) ≤ x / unit d x := by
    rw [le_div_iff₀ hu]
    have := Int.zpow_log_le_self (b := 10) (by norm_num) hx
    unfold unit
    calc (((10 : ℤ) ^ d : ℤ) : ℚ) * (10 : ℚ) ^ (Int.log 10 x - d) = (10 : ℚ) ^ Int.log 10 x := by
          push_cast
          rw [← zpow_natCast, ← zpow_add₀ (by norm_num)]
          congr 1
          omega
      _ ≤ x := by exact_mod_cast this
  have h2 := roundEven_mono h1
  rw [roundEven_int] at h2
  unfold printed
  calc (10 : ℚ) ^ Int.log 10 x = ((10 ^ d : ℤ) : ℚ) * unit d x := by
        unfold unit
        push_cast
        rw [← zpow_natCast, ← zpow_add₀ (by norm_num)]
        congr 1
        omega
    _ ≤ _ := mul_le_mul_of_nonneg_right (by exact_mod_cast h2) hu.le

theorem printed_hi (d : Nat) {x : ℚ} (hx : 0 < x) : printed d x ≤ (10 : ℚ) ^ (Int.log 10 x + 1) := by
  have hu := unit_pos d x
  have h1 : x / unit d x ≤ ((10 ^ (d + 1) : ℤ) : ℚ) := by
    rw [div_le_iff₀ hu]
    have := Int.lt_zpow_succ_log_self (b := 10) (by norm_num) x
    unfold unit
    calc x ≤ (10 : ℚ) ^ (Int.log 10 x + 1) := by exact_mod_cast this.le
      _ = _ := by
          push_cast
          rw [← zpow_natCast, ← zpow_add₀ (by norm_num)]
          congr 1
          push_cast
          omega
  have h2 := roundEven_mono h1
  rw [roundEven_int] at h2
  unfold printed
  calc _ ≤ ((10 ^ (d + 1) : ℤ) : ℚ) * unit d x := mul_le_mul_of_nonneg_right (by exact_mod_cast h2) hu.le
    _ = _ := by
        unfold unit
        push_cast
        rw [← zpow_natCast, ← zpow_add₀ (by norm_num)]
        congr 1
        push_cast
        omega

theorem printed_mono (d : Nat) {x y : ℚ} (hx : 0 < x) (h : x ≤ y) : printed d x ≤ printed d y := by
  have hy := hx.trans_le h
  have hl := Int.log_mono_right (b := 10) hx h
  rcases hl.lt_or_eq with hlt | heq
  · calc printed d x ≤ (10 : ℚ) ^ (Int.log 10 x + 1) := printed_hi d hx
      _ ≤ (10 : ℚ) ^ Int.log 10 y := zpow_le_zpow_right₀ (by norm_num) (by omega)
      _ ≤ _ := printed_lo d hy
  · have hu : unit d x = unit d y := by unfold unit; rw [heq]
    unfold printed
    rw [hu]
    exact mul_le_mul_of_nonneg_right (by exact_mod_cast roundEven_mono (div_le_div_of_nonneg_right h (unit_pos d y).le)) (unit_pos d y).le

theorem printed_near (d : Nat) {x : ℚ} (hx : 0 < x) : |printed d x - x| ≤ x / 10 ^ d / 2 := by
  have hu := unit_pos d x
  have h1 := roundEven_near (x / unit d x)
  have h2 : printed d x - x = (roundEven (x / unit d x) - x / unit d x) * unit d x := by
    unfold printed
    field_simp
  have h3 : unit d x ≤ x / 10 ^ d := by
    rw [le_div_iff₀ (by positivity)]
    have := Int.zpow_log_le_self (b := 10) (by norm_num) hx
    unfold unit
    calc (10 : ℚ) ^ (Int.log 10 x - d) * 10 ^ d = (10 : ℚ) ^ Int.log 10 x := by
          rw [← zpow_natCast, ← zpow_add₀ (by norm_num)]
          congr 1
          omega
      _ ≤ x := by exact_mod_cast this
  rw [h2, abs_mul, abs_of_pos hu]
  calc _ ≤ 1 / 2 * unit d x := mul_le_mul_of_nonneg_right h1 hu.le
    _ ≤ _ := by linarith

theorem foldl_min (p : ℚ) (ps : List ℚ) : (ps.foldl min p ∈ p :: ps) ∧ ∀ q ∈ p :: ps, ps.foldl min p ≤ q := by
  induction ps generalizing p with
  | nil => simp
  | cons r ps ih =>
    obtain ⟨h1, h2⟩ := ih (min p r)
    refine ⟨?_, ?_⟩
    · rw [List.foldl_cons]
      rcases List.mem_cons.1 h1 with h | h
      · rw [h]
        rcases min_choice p r with e | e <;> rw [e] <;> simp
      · simp [h]
    · intro q hq
      rw [List.foldl_cons]
      have hm := h2 (min p r) (by simp)
      rcases List.mem_cons.1 hq with rfl | hq
      · exact hm.trans (min_le_left _ _)
      · rcases List.mem_cons.1 hq with rfl | hq
        · exact hm.trans (min_le_right _ _)
        · exact h2 q (by simp [hq])

theorem foldl_max (p : ℚ) (ps : List ℚ) : (ps.foldl max p ∈ p :: ps) ∧ ∀ q ∈ p :: ps, q ≤ ps.foldl max p := by
  induction ps generalizing p with
  | nil => simp
  | cons r ps ih =>
    obtain ⟨h1, h2⟩ := ih (max p r)
    refine ⟨?_, ?_⟩
    · rw [List.foldl_cons]
      rcases List.mem_cons.1 h1 with h | h
      · rw [h]
        rcases max_choice p r with e | e <;> rw [e] <;> simp
      · simp [h]
    · intro q hq
      rw [List.foldl_cons]
      have hm := h2 (max p r) (by simp)
      rcases List.mem_cons.1 hq with rfl | hq
      · exact (le_max_left _ _).trans hm
      · rcases List.mem_cons.1 hq with rfl | hq
        · exact (le_max_right _ _).trans hm
        · exact h2 q (by simp [hq])

/-- Least and greatest of the periods. -/
def Extent (ps : List ℚ) (r : ℚ × ℚ) : Prop := (r.1 ∈ ps ∧ ∀ q ∈ ps, r.1 ≤ q) ∧ (r.2 ∈ ps ∧ ∀ q ∈ ps, q ≤ r.2)

theorem extent_some {ps : List ℚ} {r : ℚ × ℚ} (h : extent ps = some r) : Extent ps r := by
  cases ps with
  | nil => cases h
  | cons p ps => cases h; exact ⟨foldl_min p ps, foldl_max p ps⟩

/-- C379: the range of periods in a file of a transfer function has all periods of the file. -/
def C379_claim : Prop := ∀ (ps : List ℚ) (rid : Option String) (o : Obj) (skip : Bool), (∀ p ∈ ps, 0 < p) → ofTf ps rid = some o →
  ∀ p ∈ (write skip o).2.period, (write skip o).2.range.1 ≤ p ∧ p ≤ (write skip o).2.range.2

theorem ofTf_some {ps : List ℚ} {rid : Option String} {o : Obj} (h : ofTf ps rid = some o) : o.period = ps ∧ Extent ps o.range := by
  unfold ofTf at h
  obtain ⟨r, hr, rfl⟩ := Option.map_eq_some_iff.1 h
  exact ⟨rfl, extent_some hr⟩

/-- C379 (part): so it is if and only if the least period is not rounded up, and the greatest one not down, from thirteen digits to six. -/
theorem C379_iff_partial (ps : List ℚ) (rid : Option String) (o : Obj) (skip : Bool) (hp : ∀ p ∈ ps, 0 < p) (h : ofTf ps rid = some o) :
    (∀ p ∈ (write skip o).2.period, (write skip o).2.range.1 ≤ p ∧ p ≤ (write skip o).2.range.2) ↔
    ∀ a b, a ∈ ps → b ∈ ps → (∀ q ∈ ps, a ≤ q ∧ q ≤ b) → printed 5 a ≤ printed 12 a ∧ printed 12 b ≤ printed 5 b := by
  obtain ⟨e1, ⟨m1, m2⟩, ⟨n1, n2⟩⟩ := ofTf_some h
  have hw : (write skip o).2.period = ps.map (printed 12) := by unfold write; rw [e1]
  have hr : (write skip o).2.range = (printed 5 o.range.1, printed 5 o.range.2) := rfl
  rw [hw, hr]
  constructor
  · intro hall a b ha hb hab
    have ea : a = o.range.1 := le_antisymm (hab _ m1).1 (m2 a ha)
    have eb : b = o.range.2 := le_antisymm (n2 b hb) (hab _ n1).2
    rw [ea, eb]
    exact ⟨(hall _ (List.mem_map.2 ⟨_, m1, rfl⟩)).1, (hall _ (List.mem_map.2 ⟨_, n1, rfl⟩)).2⟩
  · intro hall p hpm
    obtain ⟨q, hq, rfl⟩ := List.mem_map.1 hpm
    obtain ⟨h1, h2⟩ := hall _ _ m1 n1 (fun x hx => ⟨m2 x hx, n2 x hx⟩)
    exact ⟨h1.trans (printed_mono 12 (hp _ m1) (m2 q hq)), (printed_mono 12 (hp q hq) (n2 q hq)).trans h2⟩

/-- C379 (part): the range is that of the periods to five parts of a million. -/
theorem C379_near_partial (ps : List ℚ) (rid : Option String) (o : Obj) (skip : Bool) (hp : ∀ p ∈ ps, 0 < p) (h : ofTf ps rid = some o) :
    ∀ p ∈ ps, (write skip o).2.range.1 ≤ p * (1 + 5 / 1000000) ∧ p * (1 - 5 / 1000000) ≤ (write skip o).2.range.2 := by
  obtain ⟨e1, ⟨m1, m2⟩, ⟨n1, n2⟩⟩ := ofTf_some h
  intro p hpm
  have ha := abs_le.1 (printed_near 5 (hp _ m1))
  have hb := abs_le.1 (printed_near 5 (hp _ n1))
  have h1 := m2 p hpm
  have h2 := n2 p hpm
  have p1 := hp _ m1
  have p2 := hp _ n1
  show printed 5 o.range.1 ≤ _ ∧ _ ≤ printed 5 o.range.2
  constructor
  · have : o.range.1 * (1 + 5 / 1000000) ≤ p * (1 + 5 / 1000000) := mul_le_mul_of_nonneg_right h1 (by norm_num)
    norm_num at ha ⊢
    norm_num at this
    linarith [ha.2]
  · have : p * (1 - 5 / 1000000) ≤ o.range.2 * (1 - 5 / 1000000) := mul_le_mul_of_nonneg_right h2 (by norm_num)
    norm_num at hb ⊢
    norm_num at this
    linarith [hb.1]

theorem log_one {x : ℚ} (h1 : 1 ≤ x) (h2 : x < 10) : Int.log 10 x = 0 := by
  have a : (10 : ℚ) ^ Int.log 10 x ≤ x := by
    have hx : 0 < x := by linarith
    exact_mod_cast Int.zpow_log_le_self (b := 10) (by norm_num) hx
  have b : x < (10 : ℚ) ^ (Int.log 10 x + 1) := by exact_mod_cast Int.lt_zpow_succ_log_self (b := 10) (by norm_num) x
  have c : Int.log 10 x < 1 := by
    by_contra h
    have : (10 : ℚ) ^ (1 : ℤ) ≤ (10 : ℚ) ^ Int.log 10 x := zpow_le_zpow_right₀ (by norm_num) (not_lt.1 h)
    norm_num at this
    linarith
  have d : 0 ≤ Int.log 10 x := by
    by_contra h
    have : (10 : ℚ) ^ (Int.log 10 x + 1) ≤ (10 : ℚ) ^ (0 : ℤ) := zpow_le_zpow_right₀ (by norm_num) (by omega)
    rw [zpow_zero] at this
    linarith
  omega

/-- C379 is false: 1.2345678 s is before a range that begins with 1.23457 s. -/
theorem C379_refuted : ¬ C379_claim := by
  intro h
  have := (h [12345678 / 10000000] none _ false (by intro p hp; rw [List.mem_singleton.1 hp]; norm_num) rfl (printed 12 (12345678 / 10000000))
    (by simp [write])).1
  have hl : Int.log 10 (12345678 / 10000000 : ℚ) = 0 := log_one (by norm_num) (by norm_num)
  have e5 : printed 5 (12345678 / 10000000) = 123457 / 100000 := by
    unfold printed unit
    rw [hl]
    norm_num [roundEven]
  have e12 : printed 12 (12345678 / 10000000) = 12345678 / 10000000 := by
    unfold printed unit
    rw [hl]
    norm_num [roundEven]
  change printed 5 (12345678 / 10000000) ≤ _ at this
  rw [e5, e12] at this
  norm_num at this

/-! ### C380: the range and the periods -/

/-- C380: the range in a file is that of the periods, rounded. -/
def C380_claim : Prop := ∀ (l : List Step) (skip : Bool) (a b : ℚ), Extent (run {} l).period (a, b) →
  (write skip (run {} l)).2.range = (printed 5 a, printed 5 b)

theorem extent_unique {ps : List ℚ} {r s : ℚ × ℚ} (h : Extent ps r) (k : Extent ps s) : r = s := by
  obtain ⟨⟨a1, a2⟩, ⟨a3, a4⟩⟩ := h
  obtain ⟨⟨b1, b2⟩, ⟨b3, b4⟩⟩ := k
  exact Prod.ext (le_antisymm (a2 _ b1) (b2 _ a1)) (le_antisymm (b4 _ a3) (a4 _ b3))

/-- C380 (part): so it is after a file was read, whatever range it says, as long as no other periods are given. -/
theorem C380_read_partial (l : List Step) (f : File) (url rid : Option (Option String)) (post : List Step)
    (hp : ∀ x ∈ post, ∀ g u r ps, x ≠ .read g u r ∧ x ≠ .setPeriod ps) (skip : Bool) (a b : ℚ) (h : Extent f.period (a, b)) :
    (run {} (l ++ .read f url rid :: post)).period = f.period ∧
    (write skip (run {} (l ++ .read f url rid :: post))).2.range = (printed 5 a, printed 5 b) := by
  have keep : ∀ (post : List Step) (o : Obj), (∀ x ∈ post, ∀ g u r ps, x ≠ .read g u r ∧ x ≠ .setPeriod ps) →
      (run o post).period = o.period ∧ (run o post).range = o.range := by
    intro post
    induction post with
    | nil => exact fun o _ => ⟨rfl, rfl⟩
    | cons x post ih =>
      intro o hx
      obtain ⟨h1, h2⟩ := ih (step o x) (fun y hy => hx y (List.mem_cons_of_mem _ hy))
      have : (step o x).period = o.period ∧ (step o x).range = o.range := by
        cases x with
        | read g u r => exact absurd rfl (hx _ (by simp) g u r []).1
        | setPeriod ps => exact absurd rfl (hx (.setPeriod ps) (by simp) f none none ps).2
        | setUrl s => exact ⟨rfl, rfl⟩
        | setRemote s => exact ⟨rfl, rfl⟩
        | write s => exact ⟨rfl, rfl⟩
      exact ⟨h1.trans this.1, h2.trans this.2⟩
  rw [run_append]
  obtain ⟨h1, h2⟩ := keep post (step (run {} l) (.read f url rid)) hp
  have e : (step (run {} l) (.read f url rid)).range = (a, b) := by
    show (extent f.period).getD _ = _
    cases he : extent f.period with
    | none =>
      cases hf : f.period with
      | nil => rw [hf] at h; exact absurd h.1.1 (by simp)
      | cons p ps => rw [hf] at he; cases he
    | some r => exact extent_unique (extent_some he) h
  refine ⟨h1, ?_⟩
  show (printed 5 (run (step (run {} l) (.read f url rid)) post).range.1, printed 5 (run (step (run {} l) (.read f url rid)) post).range.2) = _
  rw [h2, e]

/-- C380 is false: other periods that are given to an object do not change the range. -/
theorem C380_refuted : ¬ C380_claim := by
  intro h
  have := h [.setPeriod [1]] false 1 1 ⟨⟨by simp [run, step], by simp [run, step]⟩, ⟨by simp [run, step], by simp [run, step]⟩⟩
  have h1 : printed 5 0 = printed 5 1 := congrArg Prod.fst this
  have hl : Int.log 10 (1 : ℚ) = 0 := log_one (by norm_num) (by norm_num)
  have e1 : printed 5 1 = 1 := by
    unfold printed unit
    rw [hl]
    norm_num [roundEven]
  have e0 : printed 5 0 = 0 := by
    unfold printed
    norm_num [roundEven]
  rw [e0, e1] at h1
  norm_num at h1

end Verif.EmtfWrite
