import Verif.Model.EdiStation
import Verif.Lemmas.Text
import Verif.Lemmas.Words
import Verif.Lemmas.OD

/-! Properties C217-C224: a survey and a station converted to an EDI object and back. -/

namespace Verif.EdiStation
open Verif.Text Verif.EdiInfo

/-! ## What can be converted -/

/-- The texts that stand for no value. -/
def Nothing (v : IV) : Prop :=
  v = .null ∨ ∃ s ∈ ["", "null", "None", "NONE", "NULL", "Null", "none", "1980-01-01T00:00:00", "1980-01-01T00:00:00+00:00"],
    v = .text s.toList

theorem isNull_iff (v : IV) : isNull v = true ↔ Nothing v := by
  cases v with
  | null => simp [isNull, Nothing]
  | list l => simp [isNull, Nothing]
  | text s => simp [isNull, Nothing, nullTexts]

/-- A name that is in no word of the reader. -/
def Quiet (k : Str) : Prop :=
  (∀ m ∈ ["provenance", "transfer_function", "processing.", "mtft", "emtf", "mtedit"], ¬ m.toList <:+: lower k) ∧
  (∀ m ∈ ["run.", "data_logger", "station."], ¬ m.toList <+: lower k) ∧
  (∀ m ∈ ["processedby", "processed_by", "runlist", "run_list", "sitename", "signconvention"], lower k ≠ m.toList)

instance (k : Str) : Decidable (Quiet k) := inferInstanceAs (Decidable (_ ∧ _ ∧ _))

/-- A name of the transfer function: in lower case, without the words that are treated in another way. -/
def PlainName (k : Str) : Prop :=
  lower k = k ∧ ∀ m ∈ ["provenance", "transfer_function.", "processing_parameters", "remote_references", "runs_processed"],
    ¬ m.toList <:+: k

instance (k : Str) : Decidable (PlainName k) := inferInstanceAs (Decidable (_ ∧ _))

/-- A processing parameter `name=value`. -/
def PlainParam (s : Str) : Prop :=
  ∃ p v, s = p ++ '=' :: v ∧ '=' ∉ p ∧ '.' ∉ p ∧ lower p = p ∧ ¬ "provenance".toList <:+: p ∧ ¬ Nothing (.text v)

/-- The attributes with a value. -/
def valued (a : Attrs) : Attrs := a.filter fun p => !isNull p.2

/-- The attributes under a name. -/
def under (pre : Str) (a : Attrs) : Attrs := a.map fun p => (pre ++ '.' :: p.1, p.2)

/-- Corners and times of a survey. -/
def derived (k : Str) : Bool :=
  hasSub "northwest".toList k || hasSub "southeast".toList k || hasSub "time_period".toList k

/-- The attributes of channels that are not written. -/
def unwritten : List String :=
  ["filter.name", "filter.applied", "time_period.start", "time_period.end", "sample_rate", "data_quality.rating.value",
    "data_quality.flag", "location.elevation", "location.latitude", "location.longitude", "location.x", "location.y",
    "location.z"] ++
  ["positive.", "negative."].flatMap fun e =>
    ["latitude", "longitude", "elevation", "x", "x2", "y", "y2", "z", "z2"].map fun k => e ++ k

theorem skipped_iff (k : Str) : (skipped.map String.toList).contains k = decide (k ∈ unwritten.map String.toList) := by
  rw [Bool.eq_iff_iff, List.contains_iff_mem, decide_eq_true_iff]
  have h1 : ∀ x ∈ skipped.map String.toList, x ∈ unwritten.map String.toList := by decide +kernel
  have h2 : ∀ x ∈ unwritten.map String.toList, x ∈ skipped.map String.toList := by decide +kernel
  exact ⟨h1 k, h2 k⟩

/-- A parameter in the information section. -/
def paramItem (s : Str) : Str × IV :=
  ("transfer_function.processing_parameters.".toList ++ s.takeWhile (· ≠ '='), .text ((s.dropWhile (· ≠ '=')).drop 1))

/-- The items of a run. -/
def runItems (r : Run) : List (Str × IV) :=
  under r.id (valued r.attrs) ++
  r.channels.flatMap fun c => under (r.id ++ '.' :: c.component)
    (valued (c.attrs.filter fun p => decide (p.1 ∉ unwritten.map String.toList)))

/-- What is written of a station. -/
def stationItems (st : Station) : List (Str × IV) :=
  under "transfer_function".toList (valued st.tf.attrs) ++
  (st.tf.params.map paramItem ++
  ([("transfer_function.remote_references".toList, .list st.tf.remotes),
    ("transfer_function.runs_processed".toList, .list st.tf.runs)] ++
  (valued (st.attrs.filter fun p => "provenance.".toList.isPrefixOf p.1) ++
  st.runs.flatMap runItems)))

/-- All that is written to the information section. -/
def written (s : Attrs) (st : Station) : List (Str × IV) :=
  under "survey".toList (valued (s.filter fun p => !derived p.1)) ++ stationItems st

/-- A survey and a station whose names are distinct and not those of other things. -/
structure Plain (s : Attrs) (st : Station) : Prop where
  distinct : ((written s st).map Prod.fst).Nodup
  params : ∀ x ∈ st.tf.params, PlainParam x
  tf : ∀ p ∈ st.tf.attrs, PlainName p.1
  prov : ∀ p ∈ st.attrs, "provenance.".toList <+: p.1 → lower p.1 = p.1
  survey : ∀ p ∈ s, Quiet ("survey.".toList ++ p.1) ∧ lower p.1 = p.1 ∧ ¬ "survey.".toList <:+: p.1
  runs : ∀ r ∈ st.runs, ∀ p ∈ runItems r, Quiet p.1 ∧ ¬ "survey.".toList <+: lower p.1

/-! ## Writing -/

theorem writeAttrs_eq (pre : Str) (d : Info) (l : Attrs) :
    writeAttrs pre d l = (under pre (valued l)).foldl (fun d p => d.set p.1 p.2) d := by
  unfold writeAttrs under valued dot
  rw [List.foldl_map]

theorem writeChannel_eq (run : Str) (d : Info) (c : Channel) :
    writeChannel run d c = (under (run ++ '.' :: c.component)
      (valued (c.attrs.filter fun p => decide (p.1 ∉ unwritten.map String.toList)))).foldl (fun d p => d.set p.1 p.2) d := by
  unfold writeChannel
  rw [writeAttrs_eq]
  have : (c.attrs.filter fun p => !(skipped.map String.toList).contains p.1) =
      c.attrs.filter fun p => decide (p.1 ∉ unwritten.map String.toList) := by
    apply List.filter_congr
    intro p _
    rw [skipped_iff, decide_not]
  rw [this]
  rfl

theorem foldl_flatMap {α β γ : Type} (f : γ → β → γ) (g : α → List β) (l : List α) (d : γ) :
    l.foldl (fun d a => (g a).foldl f d) d = (l.flatMap g).foldl f d := by
  induction l generalizing d with
  | nil => rfl
  | cons a l ih => rw [List.foldl_cons, ih, List.flatMap_cons, List.foldl_append]

theorem writeRun_eq (d : Info) (r : Run) : writeRun d r = (runItems r).foldl (fun d p => d.set p.1 p.2) d := by
  unfold writeRun runItems
  rw [List.foldl_append, ← foldl_flatMap, ← writeAttrs_eq]
  congr 1
  funext d c
  exact writeChannel_eq r.id d c

theorem paramItem_eq (p v : Str) (h : '=' ∉ p) :
    paramItem (p ++ '=' :: v) = ("transfer_function.processing_parameters.".toList ++ p, .text v) := by
  have h1 : ∀ a ∈ p, decide (a ≠ '=') = true := by
    intro a ha; simp only [decide_eq_true_iff]; rintro rfl; exact h ha
  unfold paramItem
  rw [List.takeWhile_append_of_pos h1, List.dropWhile_append_of_pos h1]
  simp

theorem writeParams_eq (l : List Str) (h : ∀ x ∈ l, '=' ∈ x) (d : Info) :
    writeParams d l = .ok ((l.map paramItem).foldl (fun d p => d.set p.1 p.2) d) := by
  induction l generalizing d with
  | nil => rfl
  | cons x l ih =>
    obtain ⟨p, v, e, hp⟩ : ∃ p v, x = p ++ '=' :: v ∧ '=' ∉ p := by
      have := h x List.mem_cons_self
      clear ih h
      induction x with
      | nil => cases this
      | cons c x ih =>
        by_cases hc : c = '='
        · exact ⟨[], x, by rw [hc]; rfl, by simp⟩
        · rcases List.mem_cons.1 this with h1 | h1
          · exact absurd h1.symm hc
          · obtain ⟨p, v, e, hp⟩ := ih h1
            refine ⟨c :: p, v, by rw [e]; rfl, ?_⟩
            simp only [List.mem_cons, not_or]
            exact ⟨fun e => hc e.symm, hp⟩
    subst e
    rw [writeParams, split1_append v hp]
    simp only []
    rw [ih (fun x hx => h x (List.mem_cons_of_mem _ hx)), List.map_cons, List.foldl_cons, paramItem_eq p v hp]

theorem writeTransfer_attrs (a : Attrs) (rest : List (Str × IV)) (h : ∀ p ∈ a, p.1 ≠ "processing_parameters".toList)
    (d : Info) : writeTransfer d (a ++ rest) =
      writeTransfer ((under "transfer_function".toList (valued a)).foldl (fun d p => d.set p.1 p.2) d) rest := by
  induction a generalizing d with
  | nil => rfl
  | cons p a ih =>
    obtain ⟨k, v⟩ := p
    have ih := fun d => ih (fun p hp => h p (List.mem_cons_of_mem _ hp)) d
    have hk : k ≠ "processing_parameters".toList := h (k, v) List.mem_cons_self
    rw [List.cons_append, writeTransfer.eq_def]
    simp only []
    cases hn : isNull v with
    | true =>
      rw [if_pos rfl, ih]
      simp [valued, hn]
    | false =>
      rw [if_neg (by simp), if_neg hk, ih]
      simp [valued, hn, under]

theorem writeStation_eq (h : Attrs) (d : Info) (st : Station)
    (h1 : ∀ x ∈ st.tf.params, '=' ∈ x) (h2 : ∀ p ∈ st.tf.attrs, p.1 ≠ "processing_parameters".toList) :
    writeStation h d st = .ok (writeHeader h st, (stationItems st).foldl (fun d p => OD.set d p.1 p.2) d) := by
  unfold writeStation Transfer.items stationItems
  rw [writeTransfer_attrs _ _ h2, writeTransfer.eq_def]
  simp only [isNull, Bool.false_eq_true, if_false, if_true]
  rw [writeParams_eq _ h1, Except.bind, writeTransfer.eq_def]
  simp only [isNull, Bool.false_eq_true, if_false]
  rw [if_neg (by decide), writeTransfer.eq_def]
  simp only [isNull, Bool.false_eq_true, if_false]
  rw [if_neg (by decide), writeTransfer.eq_def]
  simp only [Except.bind]
  have hp : under "provenance".toList (valued (provenance st.attrs)) =
      valued (st.attrs.filter fun p => "provenance.".toList.isPrefixOf p.1) := by
    unfold under valued provenance
    rw [List.filter_map, List.map_map]
    conv_rhs => rw [← List.map_id (List.filter _ (List.filter _ st.attrs))]
    apply List.map_congr_left
    intro p hp
    have hp := (List.mem_filter.1 (List.mem_filter.1 hp).1).2
    obtain ⟨t, e⟩ := List.isPrefixOf_iff_prefix.1 hp
    obtain ⟨k, v⟩ := p
    simp only at e
    subst e
    rfl
  rw [writeAttrs_eq, hp]
  have hr : (fun d r => writeRun d r) = fun d r => (runItems r).foldl (fun d p => OD.set d p.1 p.2) d := by
    funext d r; exact writeRun_eq d r
  rw [show writeRun = fun d r => writeRun d r from rfl, hr, foldl_flatMap]
  simp only [List.foldl_append, List.foldl_cons, List.foldl_nil]
  rfl

theorem writeSurvey_eq (h s : Attrs) : (writeSurvey h [] s).2 =
    (under "survey".toList (valued (s.filter fun p => !derived p.1))).foldl (fun d p => OD.set d p.1 p.2) [] := by
  unfold writeSurvey
  simp only []
  rw [writeAttrs_eq]
  rfl

/-- The information section is what is said to be written. -/
theorem written_eq (h : Attrs) {s : Attrs} {st : Station} (hp : Plain s st) :
    writeStation (writeSurvey h [] s).1 (writeSurvey h [] s).2 st =
      .ok (writeHeader (writeSurvey h [] s).1 st, written s st) := by
  rw [writeStation_eq, writeSurvey_eq, ← List.foldl_append]
  · congr 2
    exact OD.ofPairs_of_wf (l := written s st) hp.distinct
  · intro x hx
    obtain ⟨p, v, e, _⟩ := hp.params x hx
    rw [e]; simp
  · intro p hpm e
    exact (hp.tf p hpm).2 "processing_parameters" (by simp) (by rw [e]; exact List.infix_refl _)

/-! ## Reading -/

theorem hasSub_false {a b : Str} (h : ¬ a <:+: b) : hasSub a b = false := by
  cases e : hasSub a b with
  | true => exact absurd (hasSub_iff.1 e) h
  | false => rfl

theorem hasSub_true {a b : Str} (h : a <:+: b) : hasSub a b = true := hasSub_iff.2 h

theorem prefix_false {a b : Str} (h : ¬ a <+: b) : a.isPrefixOf b = false := by
  cases e : a.isPrefixOf b with
  | true => exact absurd (List.isPrefixOf_iff_prefix.1 e) h
  | false => rfl

theorem readItems_append (rep : List Str → Str) (a b : Info) (st : Station) :
    readItems rep st (a ++ b) = (readItems rep st a).bind fun st => readItems rep st b := by
  induction a generalizing st with
  | nil => rfl
  | cons p a ih =>
    obtain ⟨k, v⟩ := p
    rw [List.cons_append, readItems, readItems]
    cases readItem rep st k v with
    | error e => rfl
    | ok st' => exact ih st'

theorem readItem_null (rep : List Str → Str) (st : Station) (k : Str) {v : IV} (h : isNull v = true) :
    readItem rep st k v = .ok st := by
  unfold readItem
  rw [if_pos h]

theorem readItem_quiet (rep : List Str → Str) (st : Station) {k : Str} (v : IV) (h : Quiet k) :
    readItem rep st k v = .ok st := by
  obtain ⟨h1, h2, h3⟩ := h
  have a1 := hasSub_false (h1 "provenance" (by simp))
  have a2 := hasSub_false (h1 "transfer_function" (by simp))
  have a3 := hasSub_false (h1 "processing." (by simp))
  have a4 := hasSub_false (h1 "mtft" (by simp))
  have a5 := hasSub_false (h1 "emtf" (by simp))
  have a6 := hasSub_false (h1 "mtedit" (by simp))
  have b1 := prefix_false (h2 "run." (by simp))
  have b2 := prefix_false (h2 "data_logger" (by simp))
  have b3 := prefix_false (h2 "station." (by simp))
  have c1 := h3 "processedby" (by simp)
  have c2 := h3 "processed_by" (by simp)
  have c3 := h3 "runlist" (by simp)
  have c4 := h3 "run_list" (by simp)
  have c5 := h3 "sitename" (by simp)
  have c6 := h3 "signconvention" (by simp)
  cases hn : isNull v with
  | true => exact readItem_null rep st k hn
  | false =>
    rw [readItem, hn, if_neg (by simp), readKey, a1, a2, if_neg (by simp), if_neg (by simp)]
    unfold readField
    rw [b1, b2, b3, a3, if_neg (by simp), if_neg (by simp), if_neg (by simp), if_neg (by simp)]
    unfold readOther
    rw [if_neg (by rintro (h | h) <;> contradiction), if_neg (by rintro (h | h) <;> contradiction), if_neg c5, if_neg c6,
      a4, a5, a6, if_neg (by simp)]

theorem readItems_quiet (rep : List Str → Str) (st : Station) {d : Info} (h : ∀ p ∈ d, Quiet p.1) :
    readItems rep st d = .ok st := by
  induction d with
  | nil => rfl
  | cons p d ih =>
    rw [readItems, readItem_quiet rep st p.2 (h p List.mem_cons_self)]
    exact ih fun p hp => h p (List.mem_cons_of_mem _ hp)

theorem lower_tf : lower "transfer_function.".toList = "transfer_function.".toList := by decide +kernel

theorem lower_survey : lower "survey.".toList = "survey.".toList := by decide +kernel

theorem lower_params : lower "processing_parameters".toList = "processing_parameters".toList := by decide +kernel

theorem not_prov_tf : ¬ "provenance".toList <:+: "transfer_function".toList := by decide +kernel

theorem not_prov_params : ¬ "provenance".toList <:+: "processing_parameters".toList := by decide +kernel

/-- A name under the transfer function goes to the reader of the transfer function. -/
theorem readItem_tf (rep : List Str → Str) (st : Station) {k : Str} {v : IV} (hv : isNull v = false)
    (h1 : lower k = k) (h2 : ¬ "provenance".toList <:+: k) (h3 : ¬ "transfer_function.".toList <:+: k) :
    readItem rep st ("transfer_function.".toList ++ k) v =
      (readTransfer rep st.tf k v).bind fun t => .ok { st with tf := t } := by
  have e1 : lower ("transfer_function.".toList ++ k) = "transfer_function.".toList ++ k := by
    rw [lower_append, h1, lower_tf]
  have e2 : "transfer_function.".toList ++ k = "transfer_function".toList ++ '.' :: k := rfl
  have a1 : hasSub "provenance".toList ("transfer_function.".toList ++ k) = false := by
    apply hasSub_false
    rw [e2]
    intro h
    rcases infix_mid _ _ (by decide +kernel) h with h | h
    · exact not_prov_tf h
    · exact h2 h
  have a2 : hasSub "transfer_function".toList ("transfer_function.".toList ++ k) = true :=
    hasSub_true ⟨[], '.' :: k, rfl⟩
  have a3 : second "transfer_function.".toList ("transfer_function.".toList ++ k) = .ok k := by
    rw [second, splitSub_start k (by decide +kernel), splitSub_none h3]
    rfl
  rw [readItem, hv, if_neg (by simp), e1, readKey, a1, a2, if_neg (by simp), if_pos rfl, a3]
  rfl

theorem readItem_attr (rep : List Str → Str) (st : Station) {k : Str} {v : IV} (hv : isNull v = false) (h : PlainName k) :
    readItem rep st ("transfer_function.".toList ++ k) v = .ok { st with tf := { st.tf with attrs := st.tf.attrs.set k v } } := by
  obtain ⟨h1, h2⟩ := h
  rw [readItem_tf rep st hv h1 (h2 _ (by simp)) (h2 _ (by simp))]
  unfold readTransfer
  rw [hasSub_false (h2 "processing_parameters" (by simp)), hasSub_false (h2 "remote_references" (by simp)),
    hasSub_false (h2 "runs_processed" (by simp))]
  rfl

theorem readItems_attrs (rep : List Str → Str) (a : Attrs) (h : ∀ p ∈ a, PlainName p.1) (st : Station) :
    readItems rep st (under "transfer_function".toList (valued a)) =
      .ok { st with tf := { st.tf with attrs := (valued a).foldl (fun d p => OD.set d p.1 p.2) st.tf.attrs } } := by
  induction a generalizing st with
  | nil => rfl
  | cons p a ih =>
    have ih := ih fun p hp => h p (List.mem_cons_of_mem _ hp)
    cases hn : isNull p.2 with
    | true => simpa [valued, hn] using ih st
    | false =>
      have : under "transfer_function".toList (valued (p :: a)) =
          ("transfer_function.".toList ++ p.1, p.2) :: under "transfer_function".toList (valued a) := by
        simp [valued, hn, under]
      rw [this, readItems, readItem_attr rep st hn (h p List.mem_cons_self), Except.bind, ih]
      simp [valued, hn]

theorem readItem_param (rep : List Str → Str) (st : Station) {x : Str} (h : PlainParam x) :
    readItem rep st (paramItem x).1 (paramItem x).2 = .ok { st with tf := { st.tf with params := st.tf.params ++ [x] } } := by
  obtain ⟨p, v, e, h1, h2, h3, h4, h5⟩ := h
  have hn : isNull (.text v) = false := by
    cases hn : isNull (.text v) with
    | true => exact absurd ((isNull_iff _).1 hn) h5
    | false => rfl
  subst e
  rw [paramItem_eq p v h1]
  have e1 : "transfer_function.processing_parameters.".toList ++ p =
      "transfer_function.".toList ++ ("processing_parameters".toList ++ '.' :: p) := rfl
  simp only []
  rw [e1, readItem_tf rep st hn]
  · unfold readTransfer
    rw [hasSub_true (List.prefix_append _ _).isInfix, if_pos rfl, splitC_append _ (by decide +kernel), splitC_none h2]
    rfl
  · rw [lower_append, lower_cons, h3, lower_params]
    rfl
  · intro h
    rcases infix_mid _ _ (by decide +kernel) h with h | h
    · exact not_prov_params h
    · exact h4 h
  · rintro ⟨a, b, e⟩
    -- the only dot is the one before the name
    have e2 : a ++ "transfer_function".toList ++ ('.' :: b) = "processing_parameters".toList ++ '.' :: p := by
      rw [← e]; simp
    have e3 := congrArg (split1 '.') e2
    rw [split1_append p (by decide +kernel)] at e3
    have hb : '.' ∉ a ++ "transfer_function".toList := by
      intro hm
      have hc := congrArg (List.count '.') e2
      have hp : List.count '.' p = 0 := List.count_eq_zero.2 h2
      have ha : 0 < List.count '.' (a ++ "transfer_function".toList) := List.count_pos_iff.2 hm
      rw [List.count_append, List.count_append, List.count_cons_self, List.count_append, List.count_cons_self, hp] at hc
      rw [List.count_append] at ha
      have hz : List.count '.' "processing_parameters".toList = 0 := by decide +kernel
      omega
    rw [split1_append b hb] at e3
    have e4 := congrArg (fun q => q.1.reverse.take 17) e3
    simp only [List.reverse_append] at e4
    rw [List.take_append_of_le_length (by decide +kernel)] at e4
    revert e4
    decide +kernel

theorem readItems_params (rep : List Str → Str) (l : List Str) (h : ∀ x ∈ l, PlainParam x) (st : Station) :
    readItems rep st (l.map paramItem) = .ok { st with tf := { st.tf with params := st.tf.params ++ l } } := by
  induction l generalizing st with
  | nil => simp [readItems]
  | cons x l ih =>
    rw [List.map_cons, readItems, readItem_param rep st (h x List.mem_cons_self), Except.bind,
      ih fun x hx => h x (List.mem_cons_of_mem _ hx)]
    simp

theorem readItem_remotes (rep : List Str → Str) (st : Station) (l : List Str) :
    readItem rep st "transfer_function.remote_references".toList (.list l) =
      .ok { st with tf := { st.tf with remotes := st.tf.remotes ++ l } } := by
  rw [show "transfer_function.remote_references".toList = "transfer_function.".toList ++ "remote_references".toList from rfl,
    readItem_tf rep st rfl (by decide +kernel) (by decide +kernel) (by decide +kernel)]
  unfold readTransfer
  rw [if_neg (by decide +kernel), if_pos (by decide +kernel), if_neg (by decide +kernel)]
  rfl

theorem readItem_processed (rep : List Str → Str) (st : Station) (l : List Str) :
    readItem rep st "transfer_function.runs_processed".toList (.list l) = .ok st := by
  rw [show "transfer_function.runs_processed".toList = "transfer_function.".toList ++ "runs_processed".toList from rfl,
    readItem_tf rep st rfl (by decide +kernel) (by decide +kernel) (by decide +kernel)]
  unfold readTransfer
  rw [if_neg (by decide +kernel), if_neg (by decide +kernel), if_pos (by decide +kernel)]
  rfl

theorem readItem_prov (rep : List Str → Str) (st : Station) {k : Str} {v : IV} (hv : isNull v = false)
    (h1 : lower k = k) (h2 : "provenance.".toList <+: k) :
    readItem rep st k v = .ok { st with attrs := st.attrs.set k v } := by
  obtain ⟨t, rfl⟩ := h2
  have e : "provenance.".toList ++ t = "provenance".toList ++ '.' :: t := rfl
  rw [readItem, hv, if_neg (by simp), h1, readKey,
    if_pos (hasSub_true (a := "provenance".toList) (b := "provenance.".toList ++ t) ⟨[], '.' :: t, rfl⟩), update, e, splitC_append t (by decide +kernel)]
  cases h : splitC '.' t with
  | nil => exact absurd h (splitC_ne_nil _ _)
  | cons x l =>
    simp only []
    rw [if_pos (by decide +kernel)]

theorem readItems_prov (rep : List Str → Str) (a : Attrs)
    (h : ∀ p ∈ a, lower p.1 = p.1 ∧ "provenance.".toList <+: p.1) (st : Station) :
    readItems rep st (valued a) = .ok { st with attrs := (valued a).foldl (fun d p => OD.set d p.1 p.2) st.attrs } := by
  induction a generalizing st with
  | nil => rfl
  | cons p a ih =>
    have ih := ih fun p hp => h p (List.mem_cons_of_mem _ hp)
    cases hn : isNull p.2 with
    | true => simpa [valued, hn] using ih st
    | false =>
      have : valued (p :: a) = (p.1, p.2) :: valued a := by simp [valued, hn]
      obtain ⟨h1, h2⟩ := h p List.mem_cons_self
      rw [this, readItems, readItem_prov rep st hn h1 h2, Except.bind, ih]
      simp

/-- The attributes of provenance with a value. -/
def provItems (st : Station) : Attrs := valued (st.attrs.filter fun p => "provenance.".toList.isPrefixOf p.1)

/-- What is read from the information that was written. -/
theorem readItems_written (rep : List Str → Str) {s : Attrs} {st : Station} (hp : Plain s st) (s0 : Station) :
    readItems rep s0 (written s st) = .ok
      { s0 with
        attrs := (provItems st).foldl (fun d p => OD.set d p.1 p.2) s0.attrs
        tf := { s0.tf with
          attrs := (valued st.tf.attrs).foldl (fun d p => OD.set d p.1 p.2) s0.tf.attrs
          params := s0.tf.params ++ st.tf.params
          remotes := s0.tf.remotes ++ st.tf.remotes } } := by
  unfold written stationItems
  rw [readItems_append, readItems_quiet, Except.bind, readItems_append, readItems_attrs rep _ hp.tf, Except.bind,
    readItems_append, readItems_params rep _ hp.params, Except.bind, readItems_append]
  · simp only [readItems, readItem_remotes, readItem_processed, Except.bind]
    rw [readItems_append, readItems_prov, Except.bind, readItems_quiet]
    · rfl
    · intro p hpm
      obtain ⟨r, hr, hpm⟩ := List.mem_flatMap.1 hpm
      exact (hp.runs r hr p hpm).1
    · intro p hpm
      obtain ⟨h1, h2⟩ := List.mem_filter.1 hpm
      have h2 := List.isPrefixOf_iff_prefix.1 h2
      exact ⟨hp.prov p h1 h2, h2⟩
  · intro p hpm
    unfold under at hpm
    obtain ⟨q, hq, rfl⟩ := List.mem_map.1 hpm
    exact (hp.survey q (List.mem_of_mem_filter (List.mem_of_mem_filter hq))).1

/-! ## The survey -/

theorem readSurveyItems_other {d : Info} (h : ∀ p ∈ d, ¬ "survey.".toList <+: lower p.1) (s : Attrs) :
    readSurveyItems s d = .ok s := by
  induction d generalizing s with
  | nil => rfl
  | cons p d ih =>
    rw [readSurveyItems, if_neg]
    · exact ih (fun p hp => h p (List.mem_cons_of_mem _ hp)) s
    · rw [prefix_false (h p List.mem_cons_self)]; simp

theorem readSurveyItems_append (a b : Info) (s : Attrs) :
    readSurveyItems s (a ++ b) = (readSurveyItems s a).bind fun s => readSurveyItems s b := by
  induction a generalizing s with
  | nil => rfl
  | cons p a ih =>
    obtain ⟨k, v⟩ := p
    rw [List.cons_append, readSurveyItems, readSurveyItems]
    split
    · split
      · rfl
      · exact ih _
    · exact ih _

theorem readSurveyItems_under (a : Attrs) (h : ∀ p ∈ a, lower p.1 = p.1 ∧ ¬ "survey.".toList <:+: p.1) (s : Attrs) :
    readSurveyItems s (under "survey".toList a) = .ok (a.foldl (fun d p => OD.set d p.1 p.2) s) := by
  induction a generalizing s with
  | nil => rfl
  | cons p a ih =>
    obtain ⟨h1, h2⟩ := h p List.mem_cons_self
    have e : under "survey".toList (p :: a) = ("survey.".toList ++ p.1, p.2) :: under "survey".toList a := rfl
    have e1 : lower ("survey.".toList ++ p.1) = "survey.".toList ++ p.1 := by
      rw [lower_append, h1, lower_survey]
    rw [e, readSurveyItems, e1, if_pos (isPrefixOf_append _ _), splitSub_start _ (by decide +kernel), splitSub_none h2]
    exact ih (fun p hp => h p (List.mem_cons_of_mem _ hp)) _

theorem written_tail_other {s : Attrs} {st : Station} (hp : Plain s st) :
    ∀ p ∈ stationItems st, ¬ "survey.".toList <+: lower p.1 := by
  have key : ∀ (a b : Str), 6 ≤ a.length → (lower a).take 6 ≠ "survey".toList → ¬ "survey.".toList <+: lower (a ++ b) := by
    rintro a b hl ha ⟨t, e⟩
    apply ha
    have hl2 : 6 ≤ (lower a).length := by unfold lower; rw [List.length_map]; exact hl
    have := congrArg (List.take 6) e
    rw [lower_append, List.take_append_of_le_length (l₁ := lower a) hl2] at this
    rw [← this, List.take_append_of_le_length (by decide +kernel)]
    rfl
  intro p hpm
  unfold stationItems at hpm
  rcases List.mem_append.1 hpm with h | h
  · unfold under at h
    obtain ⟨q, _, rfl⟩ := List.mem_map.1 h
    exact key "transfer_function".toList _ (by decide +kernel) (by decide +kernel)
  rcases List.mem_append.1 h with h | h
  · obtain ⟨q, _, rfl⟩ := List.mem_map.1 h
    exact key "transfer_function.processing_parameters.".toList _ (by decide +kernel) (by decide +kernel)
  rcases List.mem_append.1 h with h | h
  · rcases List.mem_cons.1 h with rfl | h
    · exact key "transfer_function.remote_references".toList [] (by decide +kernel) (by decide +kernel)
    · rw [List.mem_singleton] at h
      subst h
      exact key "transfer_function.runs_processed".toList [] (by decide +kernel) (by decide +kernel)
  rcases List.mem_append.1 h with h | h
  · obtain ⟨t, e⟩ := List.isPrefixOf_iff_prefix.1 (List.mem_filter.1 (List.mem_of_mem_filter h)).2
    rw [← e]
    exact key "provenance.".toList _ (by decide +kernel) (by decide +kernel)
  · obtain ⟨r, hr, h⟩ := List.mem_flatMap.1 h
    exact (hp.runs r hr p h).2

/-- What the survey is before the information is read. -/
def surveyHeader (h : Attrs) : Attrs :=
  let s : Attrs := if attr h "project" = .null then setSome [] "project" (attr h "prospect")
    else [("project".toList, attr h "project")]
  let s := s.set "id".toList (if attr h "survey" = .null then .text ['0'] else attr h "survey")
  let s := setSome s "acquired_by.author" (attr h "acqby")
  let s := setSome s "geographic_name" (attr h "loc")
  s.set "country".toList (attr h "country")

theorem readSurvey_written {s : Attrs} {st : Station} (hp : Plain s st) (h : Attrs) :
    readSurvey h (written s st) =
      .ok ((valued (s.filter fun p => !derived p.1)).foldl (fun d p => OD.set d p.1 p.2) (surveyHeader h)) := by
  unfold readSurvey written
  simp only []
  rw [readSurveyItems_append, readSurveyItems_under, Except.bind, readSurveyItems_other (written_tail_other hp)]
  · rfl
  · intro p hpm
    exact (hp.survey p (List.mem_of_mem_filter (List.mem_of_mem_filter hpm))).2

/-- The header that is written. -/
def header (h s : Attrs) (st : Station) : Attrs := writeHeader (writeSurvey h [] s).1 st

/-- All of the conversion. -/
theorem convert_eq (rep : List Str → Str) (h : Attrs) {s : Attrs} {st : Station} (hp : Plain s st) :
    convert rep h s st = .ok
      ((valued (s.filter fun p => !derived p.1)).foldl (fun d p => OD.set d p.1 p.2) (surveyHeader (header h s st)),
        { attrs := (provItems st).foldl (fun d p => OD.set d p.1 p.2) (fromHeader (header h s st)).attrs
          tf :=
            { attrs := setSome ((valued st.tf.attrs).foldl (fun d p => OD.set d p.1 p.2) (fromHeader (header h s st)).tf.attrs)
                "processed_date" (attr (header h s st) "filedate")
              runs := (fromHeader (header h s st)).tf.runs
              params := st.tf.params
              remotes := st.tf.remotes }
          runs := (fromHeader (header h s st)).runs }) := by
  unfold convert
  rw [written_eq h hp, Except.bind]
  simp only []
  rw [readSurvey_written hp, Except.bind, readStation, readItems_written rep hp]
  rfl

end Verif.EdiStation
