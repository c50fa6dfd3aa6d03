import Verif.Props.EdiStation

/-! Properties C217-C225: a survey and a station converted to an EDI object and back. -/

namespace Verif.EdiStation
open Verif.Text Verif.EdiInfo

/-! ## Dictionaries -/

theorem get_foldl (l d : Attrs) (h : OD.WF l) (k : Str) :
    OD.get? (l.foldl (fun d p => OD.set d p.1 p.2) d) k = (OD.get? l k).or (OD.get? d k) := by
  induction l generalizing d with
  | nil => simp [OD.get?]
  | cons p l ih =>
    have hp : p.1 ∉ OD.keys l ∧ OD.WF l := by
      simpa [OD.WF, OD.keys] using h
    rw [List.foldl_cons, ih _ hp.2, OD.get?_set, OD.get?_cons]
    by_cases hk : k = p.1
    · subst hk
      rw [(OD.get?_eq_none_iff l p.1).2 hp.1]
      simp
    · have hk' : ¬ p.1 = k := fun e => hk e.symm
      simp [hk']

theorem attr_set (d : Attrs) (k k' : String) (v : IV) :
    attr (d.set k'.toList v) k = if k = k' then v else attr d k := by
  unfold attr
  rw [OD.get?_set]
  by_cases h : k = k'
  · simp [h]
  · have : ¬ k'.toList = k.toList := fun e => h (String.toList_inj.1 e).symm
    simp [h, this]

theorem attr_cons (d : Attrs) (k k' : String) (v : IV) :
    attr ((k'.toList, v) :: d) k = if k = k' then v else attr d k := by
  unfold attr
  rw [OD.get?_cons]
  by_cases h : k = k'
  · simp [h]
  · have : ¬ k'.toList = k.toList := fun e => h (String.toList_inj.1 e).symm
    simp [h, this]

theorem attr_nil (k : String) : attr [] k = .null := rfl

theorem attr_setSome (d : Attrs) (k k' : String) (v : IV) :
    attr (setSome d k' v) k = if k = k' ∧ v ≠ .null then v else attr d k := by
  unfold setSome
  by_cases h : v = .null
  · simp [h]
  · simp only [h, if_false, not_false_eq_true, and_true, ne_eq]
    exact attr_set d k k' v

theorem nodup_under {pre : Str} {a : Attrs} (h : ((under pre a).map Prod.fst).Nodup) : OD.WF a := by
  unfold under at h
  rw [List.map_map] at h
  unfold OD.WF OD.keys
  unfold List.Nodup at h ⊢
  rw [List.pairwise_map] at h ⊢
  exact h.imp fun hab e => hab (by simp only [Function.comp_apply]; rw [e])

theorem Plain.wf {s : Attrs} {st : Station} (h : Plain s st) :
    OD.WF (valued (s.filter fun p => !derived p.1)) ∧ OD.WF (valued st.tf.attrs) ∧ OD.WF (provItems st) := by
  have hd := h.distinct
  unfold written stationItems at hd
  rw [List.map_append, List.nodup_append, List.map_append, List.nodup_append, List.map_append, List.nodup_append,
    List.map_append, List.nodup_append, List.map_append, List.nodup_append] at hd
  exact ⟨nodup_under hd.1, nodup_under hd.2.1.1, hd.2.1.2.1.2.1.2.1.1⟩

/-! ## A station -/

/-- The survey of the examples. -/
def survey0 : Attrs := [("id".toList, .text "conus".toList), ("acquired_by.author".toList, .null),
  ("project".toList, .text "usarray".toList), ("time_period.start_date".toList, .text "2020-01-01".toList)]

/-- Its channels. -/
def ex0 : Channel := ⟨"ex".toList, [("units".toList, .text "mV".toList), ("positive.x".toList, .text "1".toList),
  ("comments".toList, .null)]⟩

def hx0 : Channel := ⟨"hx".toList, [("sensor.id".toList, .text "2311".toList), ("units".toList, .text "nT".toList)]⟩

/-- The station of the examples. -/
def station0 : Station :=
  { attrs := [("id".toList, .text "mt01".toList), ("geographic_name".toList, .text "Whitehorse".toList),
      ("location.latitude".toList, .text "60.5".toList), ("orientation.reference_frame".toList, .text "geographic".toList),
      ("acquired_by.author".toList, .text "me".toList), ("provenance.submitter.author".toList, .text "you".toList),
      ("provenance.creation_time".toList, .text "2021-01-01".toList), ("provenance.log".toList, .text "checked".toList),
      ("provenance.comments".toList, .null)]
    tf := ⟨[("id".toList, .text "mt01".toList), ("processed_by.author".toList, .text "me".toList),
      ("units".toList, .text "mV/km/nT".toList), ("coordinate_system".toList, .null)],
      ["mt01b".toList], ["mt02".toList, "mt03".toList], ["window=128".toList, "method=a=b".toList]⟩
    runs := [⟨"mt01b".toList, [("sample_rate".toList, .text "16".toList), ("data_logger.id".toList, .text "77".toList)],
      [ex0, hx0]⟩] }

theorem params_of {l : List Str} (h : ∀ x ∈ l, ∃ p v, x = p ++ '=' :: v ∧ '=' ∉ p ∧ '.' ∉ p ∧ lower p = p ∧
    ¬ "provenance".toList <:+: p ∧ isNull (.text v) = false) : ∀ x ∈ l, PlainParam x := by
  intro x hx
  obtain ⟨p, v, h1, h2, h3, h4, h5, h6⟩ := h x hx
  exact ⟨p, v, h1, h2, h3, h4, h5, fun hn => by rw [(isNull_iff _).2 hn] at h6; cases h6⟩

/-- It meets the hypotheses of the theorems. -/
theorem plain0 : Plain survey0 station0 where
  distinct := by decide +kernel
  params := by
    apply params_of
    intro x hx
    rcases List.mem_cons.1 hx with rfl | hx
    · exact ⟨"window".toList, "128".toList, by decide +kernel⟩
    · rw [List.mem_singleton] at hx
      subst hx
      exact ⟨"method".toList, "a=b".toList, by decide +kernel⟩
  tf := by decide +kernel
  prov := by decide +kernel
  survey := by decide +kernel
  runs := by decide +kernel

/-- What the conversion gives. -/
def result (rep : List Str → Str) (h s : Attrs) (st : Station) : Attrs × Station :=
  match convert rep h s st with
  | .ok r => r
  | .error _ => ([], ⟨[], ⟨[], [], [], []⟩, []⟩)

/-- The conversion succeeds. -/
def succeeds (rep : List Str → Str) (h s : Attrs) (st : Station) : Bool :=
  match convert rep h s st with
  | .ok _ => true
  | .error _ => false

theorem result_eq {rep : List Str → Str} {h s : Attrs} {st : Station} (e : succeeds rep h s st = true) :
    convert rep h s st = .ok (result rep h s st) := by
  unfold succeeds at e
  unfold result
  cases hc : convert rep h s st with
  | ok r => rfl
  | error e' => rw [hc] at e; cases e

theorem not_nothing {v : IV} (h : isNull v = false) : ¬ Nothing v := fun hn => by
  rw [(isNull_iff v).2 hn] at h; cases h

theorem header_attr (h s : Attrs) (st : Station) {p : String × String} (hp : p ∈ headerPairs) :
    attr (header h s st) p.1 = attr st.attrs p.2 := by
  simp only [headerPairs, List.mem_cons, List.not_mem_nil, or_false] at hp
  unfold header writeHeader
  simp only [headerPairs, List.foldl]
  rcases hp with rfl | rfl | rfl | rfl | rfl | rfl | rfl | rfl | rfl | rfl | rfl | rfl <;> split <;>
    simp only [attr_set, String.reduceEq, if_false, if_true]

theorem header_loc (h s : Attrs) (st : Station) : attr (header h s st) "loc" =
    if attr st.attrs "geographic_name" = .null then attr s "geographic_name" else attr st.attrs "geographic_name" := by
  unfold header writeHeader
  simp only [headerPairs, List.foldl]
  split
  · simp only [writeSurvey, attr_set, String.reduceEq, if_false, if_true]
  · simp only [attr_set, if_true]

theorem header_dataid (h s : Attrs) (st : Station) : attr (header h s st) "dataid" = attr st.attrs "id" :=
  header_attr h s st (p := ("dataid", "id")) (by simp [headerPairs])

/-! ## C217 — the attributes of the transfer function -/

/-- The attributes of the transfer function that have a value are the same. -/
def C217_claim : Prop := ∀ (rep : List Str → Str) (h s : Attrs) (st : Station) (r : Attrs × Station),
  convert rep h s st = .ok r → OD.WF st.tf.attrs →
  ∀ k v, OD.get? st.tf.attrs k = some v → ¬ Nothing v → OD.get? r.2.tf.attrs k = some v

/-- A station with the date of processing. -/
def dated : Station := ⟨[("provenance.creation_time".toList, .text "2021-01-01".toList)],
  ⟨[("processed_date".toList, .text "2020-05-05".toList)], [], [], []⟩, []⟩

/-- The date of processing becomes the one the metadata were made at. -/
theorem C217_refuted : ¬ C217_claim := by
  intro h
  have h1 := h (fun _ => []) [] [] dated _ (result_eq (by decide +kernel)) (by decide +kernel) "processed_date".toList
    (.text "2020-05-05".toList) (by decide +kernel) (not_nothing (by decide +kernel))
  revert h1
  decide +kernel

/-- All others are the same, none is added but the name of the station; the date of processing is the one the metadata
were made at, if there is one. -/
theorem C217_attributes_partial (rep : List Str → Str) (h : Attrs) {s : Attrs} {st : Station} (hp : Plain s st) :
    ∃ r, convert rep h s st = .ok r ∧
      (∀ k v, (k, v) ∈ st.tf.attrs → ¬ Nothing v → k ≠ "processed_date".toList → OD.get? r.2.tf.attrs k = some v) ∧
      (∀ k v, OD.get? r.2.tf.attrs k = some v → k ≠ "id".toList → k ≠ "processed_date".toList →
        (k, v) ∈ st.tf.attrs ∧ ¬ Nothing v) ∧
      (attr st.attrs "provenance.creation_time" ≠ .null →
        attr r.2.tf.attrs "processed_date" = attr st.attrs "provenance.creation_time") := by
  refine ⟨_, convert_eq rep h hp, ?_, ?_, ?_⟩
  · intro k v hm hv hk
    have hm2 : (k, v) ∈ valued st.tf.attrs := by
      refine List.mem_filter.2 ⟨hm, ?_⟩
      cases hn : isNull v with
      | true => exact absurd ((isNull_iff _).1 hn) hv
      | false => rfl
    have e := OD.get?_of_mem hp.wf.2.1 hm2
    unfold setSome
    simp only []
    split
    · rw [get_foldl _ _ hp.wf.2.1, e]; rfl
    · rw [OD.get?_set_ne _ _ hk, get_foldl _ _ hp.wf.2.1, e]; rfl
  · intro k v hg hk1 hk2
    have hg2 : OD.get? ((valued st.tf.attrs).foldl (fun d p => OD.set d p.1 p.2) (fromHeader (header h s st)).tf.attrs) k =
        some v := by
      revert hg
      unfold setSome
      simp only []
      split
      · exact id
      · rw [OD.get?_set_ne _ _ hk2]; exact id
    rw [get_foldl _ _ hp.wf.2.1] at hg2
    have hz : OD.get? (fromHeader (header h s st)).tf.attrs k = none := by
      rw [OD.get?_eq_none_iff]
      unfold fromHeader OD.keys
      simp only [List.map_cons, List.map_nil, List.mem_cons, List.not_mem_nil, or_false, not_or]
      exact ⟨hk2, hk1⟩
    rw [hz] at hg2
    have := OD.mem_of_get? (show OD.get? (valued st.tf.attrs) k = some v by simpa using hg2)
    obtain ⟨h1, h2⟩ := List.mem_filter.1 this
    refine ⟨h1, fun hn => ?_⟩
    rw [(isNull_iff _).2 hn] at h2
    cases h2
  · intro hc
    have e : attr (header h s st) "filedate" = attr st.attrs "provenance.creation_time" :=
      header_attr h s st (p := ("filedate", "provenance.creation_time")) (by simp [headerPairs])
    simp only []
    rw [attr_setSome, e, if_pos ⟨rfl, hc⟩]

example : ∃ r, convert (fun _ => []) [] survey0 station0 = .ok r ∧
    OD.get? r.2.tf.attrs "units".toList = some (.text "mV/km/nT".toList) ∧
    attr r.2.tf.attrs "processed_date" = .text "2021-01-01".toList := by
  obtain ⟨r, h1, h2, _, h3⟩ := C217_attributes_partial (fun _ => []) [] plain0
  exact ⟨r, h1, h2 _ _ (by decide +kernel) (not_nothing (by decide +kernel)) (by decide +kernel), h3 (by decide +kernel)⟩

/-! ## C218 — processing parameters and remote references -/

/-- They are the same. -/
def C218_claim : Prop := ∀ (rep : List Str → Str) (h s : Attrs) (st : Station) (r : Attrs × Station),
  convert rep h s st = .ok r → r.2.tf.params = st.tf.params ∧ r.2.tf.remotes = st.tf.remotes

/-- A station with one parameter. -/
def withParam (p : String) : Station := ⟨[], ⟨[], [], [], [p.toList]⟩, []⟩

/-- The names of parameters are in lower case after it, and only what follows the last dot. -/
theorem C218_refuted : ¬ C218_claim := by
  intro h
  have h1 := h (fun _ => []) [] [] (withParam "aurora.Window=128") _ (result_eq (by decide +kernel))
  revert h1
  decide +kernel

theorem C218_parameters_partial (rep : List Str → Str) (h : Attrs) {s : Attrs} {st : Station} (hp : Plain s st) :
    ∃ r, convert rep h s st = .ok r ∧ r.2.tf.params = st.tf.params ∧ r.2.tf.remotes = st.tf.remotes :=
  ⟨_, convert_eq rep h hp, rfl, rfl⟩

example : ∃ r, convert (fun _ => []) [] survey0 station0 = .ok r ∧
    r.2.tf.params = ["window=128".toList, "method=a=b".toList] ∧ r.2.tf.remotes = ["mt02".toList, "mt03".toList] :=
  C218_parameters_partial (fun _ => []) [] plain0

/-! ## C219 — runs -/

/-- The runs, and those that were processed, are the same. -/
def C219_claim : Prop := ∀ (rep : List Str → Str) (h s : Attrs) (st : Station) (r : Attrs × Station),
  convert rep h s st = .ok r → Plain s st → r.2.runs.map Run.id = st.runs.map Run.id ∧ r.2.tf.runs = st.tf.runs

/-- There is one run always, its name is the one of the station followed by `a`. -/
theorem C219_runs_partial (rep : List Str → Str) (h : Attrs) {s : Attrs} {st : Station} (hp : Plain s st) {n : Str}
    (hn : attr st.attrs "id" = .text n) (hs : '/' ∉ n) :
    ∃ r, convert rep h s st = .ok r ∧ r.2.runs = [⟨n ++ ['a'], [], []⟩] ∧ r.2.tf.runs = [n ++ ['a']] := by
  refine ⟨_, convert_eq rep h hp, ?_⟩
  have : stationName (header h s st) = n := by
    unfold stationName
    rw [header_dataid, hn]
    exact replaceC_none hs
  unfold fromHeader
  simp only [this]
  exact ⟨trivial, trivial⟩

theorem C219_refuted : ¬ C219_claim := by
  intro h
  obtain ⟨r, h1, h2, h3⟩ := C219_runs_partial (fun _ => []) [] plain0 (n := "mt01".toList) (by decide +kernel) (by decide +kernel)
  have h4 := (h _ _ _ _ r h1 plain0).2
  rw [h3] at h4
  revert h4
  decide +kernel

/-! ## C220 — identification and position -/

/-- Name, place, times and authors. -/
def placed : List String :=
  ["id", "location.latitude", "location.longitude", "location.elevation", "location.datum", "location.declination.value",
    "orientation.reference_frame", "acquired_by.author", "time_period.start", "time_period.end",
    "provenance.submitter.author", "provenance.creation_time", "geographic_name"]

/-- They are the same. -/
def C220_claim : Prop := ∀ (rep : List Str → Str) (h s : Attrs) (st : Station) (r : Attrs × Station),
  convert rep h s st = .ok r → OD.WF st.attrs → ∀ k ∈ placed, attr r.2.attrs k = attr st.attrs k

/-- A station with a name only. -/
def named (n : String) : Station := ⟨[("id".toList, .text n.toList)], ⟨[], [], [], []⟩, []⟩

/-- A slash in the name becomes an underscore; and a station without a geographic name gets the one of the survey. -/
theorem C220_refuted : ¬ C220_claim := by
  intro h
  have h1 := h (fun _ => []) [] [] (named "a/b") _ (result_eq (by decide +kernel)) (by decide +kernel) "id" (by decide +kernel)
  revert h1
  decide +kernel

theorem prov_attr {st : Station} (wf : OD.WF st.attrs) {d : Attrs} (k : String) (hw : OD.WF (provItems st))
    (hd : attr d k = attr st.attrs k) :
    attr ((provItems st).foldl (fun d p => OD.set d p.1 p.2) d) k = attr st.attrs k := by
  unfold attr at hd ⊢
  rw [get_foldl _ _ hw]
  cases hg : OD.get? (provItems st) k.toList with
  | none => simpa using hd
  | some v =>
    have := OD.mem_of_get? hg
    have := (List.mem_filter.1 (List.mem_filter.1 this).1).1
    rw [OD.get?_of_mem wf this]
    rfl

theorem C220_place_partial (rep : List Str → Str) (h : Attrs) {s : Attrs} {st : Station} (hp : Plain s st)
    (wf : OD.WF st.attrs) {n f : Str} (hn : attr st.attrs "id" = .text n) (hs : '/' ∉ n)
    (hf : attr st.attrs "orientation.reference_frame" = .text f) (hf2 : f ≠ [] ∧ ∀ c ∈ f, ws c = false) :
    ∃ r, convert rep h s st = .ok r ∧
      (∀ k ∈ placed, k ≠ "geographic_name" → attr r.2.attrs k = attr st.attrs k) ∧
      attr r.2.attrs "geographic_name" =
        (if attr st.attrs "geographic_name" = .null then attr s "geographic_name" else attr st.attrs "geographic_name") := by
  refine ⟨_, convert_eq rep h hp, ?_, ?_⟩
  · intro k hk hk2
    simp only []
    apply prov_attr wf _ hp.wf.2.2
    have hname : stationName (header h s st) = n := by
      unfold stationName
      rw [header_dataid, hn]
      exact replaceC_none hs
    have hfw : firstWord (.text f) = .text f := by
      show IV.text ((words f).headD []) = _
      rw [words_token hf2.2 hf2.1]
      rfl
    have a1 := header_attr h s st (p := ("acqby", "acquired_by.author")) (by simp [headerPairs])
    have a2 := header_attr h s st (p := ("acqdate", "time_period.start")) (by simp [headerPairs])
    have a3 := header_attr h s st (p := ("coordinate_system", "orientation.reference_frame")) (by simp [headerPairs])
    have a4 := header_attr h s st (p := ("declination", "location.declination.value")) (by simp [headerPairs])
    have a5 := header_attr h s st (p := ("elevation", "location.elevation")) (by simp [headerPairs])
    have a6 := header_attr h s st (p := ("fileby", "provenance.submitter.author")) (by simp [headerPairs])
    have a7 := header_attr h s st (p := ("filedate", "provenance.creation_time")) (by simp [headerPairs])
    have a8 := header_attr h s st (p := ("latitude", "location.latitude")) (by simp [headerPairs])
    have a9 := header_attr h s st (p := ("longitude", "location.longitude")) (by simp [headerPairs])
    have b1 := header_attr h s st (p := ("datum", "location.datum")) (by simp [headerPairs])
    have b2 := header_attr h s st (p := ("enddate", "time_period.end")) (by simp [headerPairs])
    simp only at a1 a2 a3 a4 a5 a6 a7 a8 a9 b1 b2
    unfold fromHeader
    simp only [hname]
    simp only [placed, List.mem_cons, List.not_mem_nil, or_false] at hk
    rcases hk with rfl | rfl | rfl | rfl | rfl | rfl | rfl | rfl | rfl | rfl | rfl | rfl | rfl
    all_goals first
      | exact absurd rfl hk2
      | (simp only [attr_set, attr_cons, attr_nil, attr_setSome, a1, a2, a3, a4, a5, a6, a7, a8, a9, b1, b2, hn, hf, hfw,
          String.reduceEq, if_false, false_and, if_true, true_and]
         try (split
              · rfl
              · rename_i hx; simpa using (Classical.not_not.1 hx).symm))
  · have hl := header_loc h s st
    have hno : OD.get? (provItems st) "geographic_name".toList = none := by
      rw [OD.get?_eq_none_iff]
      intro hm
      obtain ⟨p, hpm, e⟩ := List.mem_map.1 hm
      have := List.isPrefixOf_iff_prefix.1 (List.mem_filter.1 (List.mem_filter.1 hpm).1).2
      rw [e] at this
      revert this
      decide +kernel
    have : ∀ d, attr ((provItems st).foldl (fun d p => OD.set d p.1 p.2) d) "geographic_name" = attr d "geographic_name" := by
      intro d
      unfold attr
      rw [get_foldl _ _ hp.wf.2.2, hno]
      rfl
    simp only [this]
    unfold fromHeader
    simp only [attr_set, attr_cons, attr_nil, attr_setSome, String.reduceEq, if_false, false_and, true_and]
    rw [← hl]
    split
    · rfl
    · rename_i hx; simpa using (Classical.not_not.1 hx).symm

example : ∃ r, convert (fun _ => []) [] survey0 station0 = .ok r ∧
    (∀ k ∈ placed, k ≠ "geographic_name" → attr r.2.attrs k = attr station0.attrs k) ∧
    attr r.2.attrs "geographic_name" = .text "Whitehorse".toList :=
  C220_place_partial (fun _ => []) [] plain0 (by decide +kernel) (n := "mt01".toList) (f := "geographic".toList)
    (by decide +kernel) (by decide +kernel) (by decide +kernel) (by decide +kernel)

/-! ## C221 — provenance -/

/-- The provenance is the same. -/
def C221_claim : Prop := ∀ (rep : List Str → Str) (h s : Attrs) (st : Station) (r : Attrs × Station),
  convert rep h s st = .ok r → OD.WF st.attrs → Plain s st →
  ∀ k : String, "provenance.".toList <+: k.toList → attr r.2.attrs k = attr st.attrs k

/-- Where the name of the software is not known it becomes the name of the one who submitted the data. -/
theorem C221_refuted : ¬ C221_claim := by
  intro h
  have h1 := h (fun _ => []) [] survey0 station0 _ (result_eq (by decide +kernel)) (by decide +kernel) plain0
    "provenance.software.name" (by decide +kernel)
  revert h1
  decide +kernel

/-- All that has a value is the same. -/
theorem C221_provenance_partial (rep : List Str → Str) (h : Attrs) {s : Attrs} {st : Station} (hp : Plain s st) :
    ∃ r, convert rep h s st = .ok r ∧ ∀ k v, (k, v) ∈ st.attrs → "provenance.".toList <+: k → ¬ Nothing v →
      OD.get? r.2.attrs k = some v := by
  refine ⟨_, convert_eq rep h hp, ?_⟩
  intro k v hm hk hv
  have hm2 : (k, v) ∈ provItems st := by
    refine List.mem_filter.2 ⟨List.mem_filter.2 ⟨hm, List.isPrefixOf_iff_prefix.2 hk⟩, ?_⟩
    cases hn : isNull v with
    | true => exact absurd ((isNull_iff _).1 hn) hv
    | false => rfl
  simp only []
  rw [get_foldl _ _ hp.wf.2.2, OD.get?_of_mem hp.wf.2.2 hm2]
  rfl

example : ∃ r, convert (fun _ => []) [] survey0 station0 = .ok r ∧
    OD.get? r.2.attrs "provenance.log".toList = some (.text "checked".toList) := by
  obtain ⟨r, h1, h2⟩ := C221_provenance_partial (fun _ => []) [] plain0
  exact ⟨r, h1, h2 _ _ (by decide +kernel) (by decide +kernel) (not_nothing (by decide +kernel))⟩

/-! ## C222 — every station can be converted -/

/-- A survey and a station can be written to an EDI object and be read from it. -/
def C222_claim : Prop := ∀ (rep : List Str → Str) (h s : Attrs) (st : Station), ∃ r, convert rep h s st = .ok r

/-- A station whose run has comments on its provenance. -/
def withRun : Station := ⟨[("id".toList, .text "mt01".toList)], ⟨[], [], [], []⟩,
  [⟨"mt01a".toList, [("provenance.comments".toList, .text "good".toList)], []⟩]⟩

/-- The provenance of a run is written as `mt01a.provenance…`, the reader takes it for one of the station, which has no
attribute `mt01a`. -/
theorem C222_refuted : ¬ C222_claim := by
  intro h
  obtain ⟨r, hr⟩ := h (fun _ => []) [] [] withRun
  have : succeeds (fun _ => []) [] [] withRun = false := by decide +kernel
  unfold succeeds at this
  rw [hr] at this
  cases this

/-- A parameter without a value cannot be written. -/
theorem C222_parameter (rep : List Str → Str) (h s : Attrs) (st : Station)
    (hn : ∀ p ∈ st.tf.attrs, p.1 ≠ "processing_parameters".toList) {x : Str} (hx : x ∈ st.tf.params) (he : '=' ∉ x) :
    convert rep h s st = .error .valueError := by
  have key : ∀ (l : List Str) (d : Info), x ∈ l → writeParams d l = .error .valueError := by
    intro l
    induction l with
    | nil => intro d hm; cases hm
    | cons y l ih =>
      intro d hm
      by_cases hy : '=' ∈ y
      · have hm : x ∈ l := by
          rcases List.mem_cons.1 hm with rfl | hm
          · exact absurd hy he
          · exact hm
        unfold writeParams
        split
        · exact ih _ hm
        · rfl
      · unfold writeParams
        rw [split1_none hy]
  unfold convert writeStation Transfer.items
  rw [writeTransfer_attrs _ _ hn, writeTransfer.eq_def]
  simp only [isNull, Bool.false_eq_true, if_false, if_true]
  rw [key _ _ hx]
  rfl

example : convert (fun _ => []) [] [] (withParam "robust") = .error .valueError :=
  C222_parameter _ _ _ _ (by decide +kernel) (x := "robust".toList) (by decide +kernel) (by decide +kernel)

/-- With names that are not those of other things it succeeds. -/
theorem C222_succeeds_partial (rep : List Str → Str) (h : Attrs) {s : Attrs} {st : Station} (hp : Plain s st) :
    ∃ r, convert rep h s st = .ok r := ⟨_, convert_eq rep h hp⟩

/-! ## C223 — electric channels -/

/-- The information section after writing. -/
def info (h s : Attrs) (st : Station) : Info :=
  match writeStation (writeSurvey h [] s).1 (writeSurvey h [] s).2 st with
  | .ok (_, d) => d
  | .error _ => []

theorem info_eq (h : Attrs) {s : Attrs} {st : Station} (hp : Plain s st) : info h s st = written s st := by
  unfold info
  rw [written_eq h hp]

/-- A value set by some step and changed by none. -/
theorem fold_touch (f : Attrs → Str × IV → Attrs) (k : Str) (v : IV) (l : List (Str × IV)) (a : Attrs)
    (h : ∀ p ∈ l, (∀ a, OD.get? (f a p) k = OD.get? a k) ∨ ∀ a, OD.get? (f a p) k = some v)
    (h2 : ∃ p ∈ l, ∀ a, OD.get? (f a p) k = some v) : OD.get? (l.foldl f a) k = some v := by
  have keep : ∀ (l : List (Str × IV)) (a : Attrs),
      (∀ p ∈ l, (∀ a, OD.get? (f a p) k = OD.get? a k) ∨ ∀ a, OD.get? (f a p) k = some v) →
      OD.get? a k = some v → OD.get? (l.foldl f a) k = some v := by
    intro l
    induction l with
    | nil => exact fun a _ h => h
    | cons p l ih =>
      intro a hl ha
      rw [List.foldl_cons]
      apply ih _ (fun p hp => hl p (List.mem_cons_of_mem _ hp))
      rcases hl p List.mem_cons_self with h | h
      · rw [h]; exact ha
      · exact h a
  induction l generalizing a with
  | nil => obtain ⟨p, hp, _⟩ := h2; cases hp
  | cons p l ih =>
    obtain ⟨q, hq, hs⟩ := h2
    rw [List.foldl_cons]
    rcases List.mem_cons.1 hq with rfl | hq
    · exact keep l _ (fun p hp => h p (List.mem_cons_of_mem _ hp)) (hs a)
    · exact ih _ (fun p hp => h p (List.mem_cons_of_mem _ hp)) ⟨q, hq, hs⟩

/-- The first dot is the one of the name. -/
theorem splitOnce_dots {a w b : Str} {m : Char} (ha : m ∉ a) :
    splitOnce (m :: w) (a ++ (m :: w) ++ b) = (a, some b) := by
  have hf : find (m :: w) (a ++ (m :: w) ++ b) = some a.length := by
    induction a with
    | nil =>
      rw [List.nil_append, List.cons_append, find, if_pos]
      · rfl
      · exact isPrefixOf_append (m :: w) b
    | cons x a ih =>
      rw [List.cons_append, List.cons_append, find, if_neg, ih (fun hm => ha (List.mem_cons_of_mem _ hm))]
      · rfl
      · intro hp
        have := List.cons_prefix_cons.1 (List.isPrefixOf_iff_prefix.1 hp)
        exact ha (by rw [this.1]; exact List.mem_cons_self)
  unfold splitOnce
  rw [hf]
  simp

/-- What is after the first separator. -/
theorem splitOnce_some {w s b : Str} (h : (splitOnce w s).2 = some b) : ∃ a, s = a ++ w ++ b := by
  unfold splitOnce at h
  cases hf : find w s with
  | none => rw [hf] at h; cases h
  | some i =>
    rw [hf] at h
    simp only [Option.some.injEq] at h
    obtain ⟨t, e⟩ := find_le hf
    refine ⟨s.take i, ?_⟩
    rw [List.append_assoc]
    conv_lhs => rw [← List.take_append_drop i s]
    rw [← e]
    congr 1
    rw [← h, ← List.drop_drop, ← e, List.drop_left]

/-- The attributes of an electric channel that are written are read. -/
def C223_claim : Prop := ∀ (h s : Attrs) (st : Station), Plain s st → ∀ r ∈ st.runs, ∀ c ∈ r.channels,
  st.runs.length = 1 → (∀ c' ∈ r.channels, c'.component = c.component → c' = c) → OD.WF c.attrs →
  ∀ k v, (k, v) ∈ c.attrs → ¬ Nothing v → k ∉ unwritten.map String.toList →
  OD.get? (readElectric c.component (info h s st)) k = some v

/-- A station with one channel. -/
def oneChannel (c : Channel) : Station :=
  ⟨[("id".toList, .text "mt01".toList)], ⟨[], [], [], []⟩, [⟨"mt01a".toList, [], [c]⟩]⟩

/-- A channel with the type of an electrode. -/
def typed : Channel := ⟨"ex".toList, [("positive.type".toList, .text "Pb-PbCl".toList), ("type".toList, .text "electric".toList)]⟩

theorem plain_typed : Plain [] (oneChannel typed) where
  distinct := by decide +kernel
  params := by intro x hx; cases hx
  tf := by decide +kernel
  prov := by decide +kernel
  survey := by decide +kernel
  runs := by decide +kernel

/-- The type of the electrodes becomes the one of the channel. -/
theorem C223_refuted : ¬ C223_claim := by
  intro h
  have h1 := h [] [] (oneChannel typed) plain_typed _ List.mem_cons_self typed List.mem_cons_self rfl (by decide +kernel)
    (by decide +kernel) "positive.type".toList (.text "Pb-PbCl".toList) (by decide +kernel) (not_nothing (by decide +kernel))
    (by decide +kernel)
  revert h1
  decide +kernel

theorem mem_runItems {r : Run} {c : Channel} (hc : c ∈ r.channels) {k : Str} {v : IV} (hm : (k, v) ∈ c.attrs)
    (hv : ¬ Nothing v) (hk : k ∉ unwritten.map String.toList) :
    (r.id ++ '.' :: (c.component ++ '.' :: k), v) ∈ runItems r := by
  refine List.mem_append_right _ (List.mem_flatMap.2 ⟨c, hc, List.mem_map.2 ⟨(k, v), ?_, ?_⟩⟩)
  · refine List.mem_filter.2 ⟨List.mem_filter.2 ⟨hm, by simpa using hk⟩, ?_⟩
    cases hn : isNull v with
    | true => exact absurd ((isNull_iff _).1 hn) hv
    | false => rfl
  · simp

theorem mem_written {s : Attrs} {st : Station} {r : Run} (hr : r ∈ st.runs) {p : Str × IV} (hp : p ∈ runItems r) :
    p ∈ written s st := by
  refine List.mem_append_right _ (List.mem_append_right _ (List.mem_append_right _ (List.mem_append_right _
    (List.mem_append_right _ (List.mem_flatMap.2 ⟨r, hr, hp⟩)))))

/-- Those in whose name is no `.type` are read, if no other name ends as theirs. -/
theorem C223_electric_partial (h : Attrs) {s : Attrs} {st : Station} (hp : Plain s st) {r : Run} (hr : r ∈ st.runs)
    {c : Channel} (hc : c ∈ r.channels) {k : Str} {v : IV} (hm : (k, v) ∈ c.attrs) (hv : ¬ Nothing v)
    (hk : k ∉ unwritten.map String.toList) (hd : '.' ∉ r.id)
    (ht : ¬ ".type".toList <:+: r.id ++ '.' :: (c.component ++ '.' :: k))
    (ho : ∀ p ∈ written s st, ∀ pre, p.1 = pre ++ '.' :: (c.component ++ '.' :: k) → pre = r.id) :
    OD.get? (readElectric c.component (info h s st)) k = some v := by
  rw [info_eq h hp]
  have hmem := mem_written (s := s) hr (mem_runItems hc hm hv hk)
  unfold readElectric
  apply fold_touch
  · intro p hpm
    unfold readElectricItem
    split
    · exact Or.inl fun _ => rfl
    · split
      · exact Or.inl fun _ => rfl
      · rename_i k' e
        by_cases hkk : k' = k
        · subst hkk
          obtain ⟨pre, e2⟩ := splitOnce_some e
          have e2 : p.1 = pre ++ '.' :: (c.component ++ '.' :: k') := by rw [e2]; simp [dot]
          have e3 := ho p hpm pre e2
          subst e3
          have e4 := OD.get?_of_mem hp.distinct (show (p.1, p.2) ∈ written s st from hpm)
          have e5 := OD.get?_of_mem hp.distinct hmem
          rw [e2, e5] at e4
          injection e4 with e4
          right
          intro a
          rw [OD.get?_set]
          simp [e4]
        · left
          intro a
          exact OD.get?_set_ne _ _ (fun e => hkk e.symm)
  · refine ⟨_, hmem, fun a => ?_⟩
    unfold readElectricItem
    rw [if_neg (by rw [hasSub_false ht]; simp)]
    have : splitOnce (dot [] (c.component ++ ['.'])) (r.id ++ '.' :: (c.component ++ '.' :: k)) = (r.id, some k) := by
      have := splitOnce_dots (a := r.id) (w := c.component ++ ['.']) (b := k) hd
      simpa [dot] using this
    rw [this]
    simp only []
    rw [OD.get?_set]
    simp

example : OD.get? (readElectric "ex".toList (info [] survey0 station0)) "units".toList = some (.text "mV".toList) :=
  C223_electric_partial [] plain0 List.mem_cons_self (c := ex0) List.mem_cons_self (k := "units".toList)
    (by decide +kernel) (not_nothing (by decide +kernel)) (by decide +kernel) (by decide +kernel) (by decide +kernel) (by
      intro p hp pre e
      have : ∀ q ∈ written survey0 station0, ".ex.units".toList <:+ q.1 → q.1 = "mt01b.ex.units".toList := by decide +kernel
      have e2 := this p hp ⟨pre, e.symm⟩
      rw [e2] at e
      exact (List.append_cancel_right (as := "mt01b".toList) (bs := ".ex.units".toList) (cs := pre) e).symm)

/-! ## C224 — magnetic channels -/

/-- The attributes of a magnetic channel that are written are read. -/
def C224_claim : Prop := ∀ (h s : Attrs) (st : Station), Plain s st → ∀ r ∈ st.runs, ∀ c ∈ r.channels,
  st.runs.length = 1 → (∀ c' ∈ r.channels, c'.component = c.component → c' = c) → OD.WF c.attrs →
  ∀ k v, (k, v) ∈ c.attrs → ¬ Nothing v → k ∉ unwritten.map String.toList →
  OD.get? (readMagnetic c.component (info h s st)) k = some v

/-- Units are not read, nor any other attribute that is not of the sensor. -/
theorem C224_refuted : ¬ C224_claim := by
  intro h
  have h1 := h [] survey0 station0 plain0 _ List.mem_cons_self hx0 (by decide +kernel) rfl (by decide +kernel)
    (by decide +kernel) "units".toList (.text "nT".toList) (by decide +kernel) (not_nothing (by decide +kernel))
    (by decide +kernel)
  revert h1
  decide +kernel

/-- The attributes of the sensor are read. -/
def C224_sensor_claim : Prop := ∀ (h s : Attrs) (st : Station), Plain s st → ∀ r ∈ st.runs, ∀ c ∈ r.channels,
  st.runs.length = 1 → (∀ c' ∈ r.channels, c'.component = c.component → c' = c) → OD.WF c.attrs →
  ∀ k v, (k, v) ∈ c.attrs → ¬ Nothing v → "sensor.".toList <+: k →
  OD.get? (readMagnetic c.component (info h s st)) k = some v

/-- A station with a remote reference. -/
def withRemote : Station :=
  ⟨[("id".toList, .text "mt01".toList)], ⟨[], [], [], []⟩, [⟨"mt01a".toList, [],
    [⟨"hx".toList, [("sensor.id".toList, .text "2311".toList)]⟩,
      ⟨"rrhx".toList, [("sensor.id".toList, .text "2994".toList)]⟩]⟩]⟩

theorem plain_remote : Plain [] withRemote where
  distinct := by decide +kernel
  params := by intro x hx; cases hx
  tf := by decide +kernel
  prov := by decide +kernel
  survey := by decide +kernel
  runs := by decide +kernel

/-- The sensor of the remote reference is taken for the one of the station: `hx.` is part of `rrhx.`. -/
theorem C224_sensor_refuted : ¬ C224_sensor_claim := by
  intro h
  have h1 := h [] [] withRemote plain_remote _ List.mem_cons_self ⟨"hx".toList, [("sensor.id".toList, .text "2311".toList)]⟩
    (by decide +kernel) rfl (by decide +kernel) (by decide +kernel) "sensor.id".toList (.text "2311".toList)
    (by decide +kernel) (not_nothing (by decide +kernel)) (by decide +kernel)
  revert h1
  decide +kernel

/-- The type of the sensor becomes the one of the channel. -/
theorem C224_type : ∃ st c, Plain [] st ∧ (∃ r ∈ st.runs, c ∈ r.channels) ∧
    OD.get? c.attrs "sensor.type".toList = some (.text "fluxgate".toList) ∧
    OD.get? (readMagnetic c.component (info [] [] st)) "sensor.type".toList = some (.text "magnetic".toList) := by
  refine ⟨oneChannel ⟨"hy".toList, [("sensor.type".toList, .text "fluxgate".toList), ("type".toList, .text "magnetic".toList)]⟩,
    ⟨"hy".toList, [("sensor.type".toList, .text "fluxgate".toList), ("type".toList, .text "magnetic".toList)]⟩, ?_,
    ⟨_, List.mem_cons_self, List.mem_cons_self⟩, by decide +kernel, by decide +kernel⟩
  exact {
    distinct := by decide +kernel
    params := by intro x hx; cases hx
    tf := by decide +kernel
    prov := by decide +kernel
    survey := by decide +kernel
    runs := by decide +kernel }

/-- A name before the separator that does not end as the separator starts. -/
theorem splitSub_dots {w a : Str} {m : Char} (b : Str) (ha : m ∉ a) (hw : m ∉ w) (hs : ¬ w <:+ a) :
    splitSub (w ++ [m]) (a ++ m :: b) =
      (a ++ m :: (splitSub (w ++ [m]) b).headD []) :: (splitSub (w ++ [m]) b).tail := by
  unfold splitSub
  induction a with
  | nil =>
    rw [List.nil_append, splitSubAux, if_neg]
    · rfl
    · intro hp
      have hp := List.isPrefixOf_iff_prefix.1 hp
      cases w with
      | nil => exact hs (List.suffix_refl _)
      | cons y w =>
        rw [List.cons_append, List.cons_prefix_cons] at hp
        exact hw (by rw [← hp.1]; exact List.mem_cons_self)
  | cons x a ih =>
    have ha' : m ∉ a := fun hm => ha (List.mem_cons_of_mem _ hm)
    have hs' : ¬ w <:+ a := fun h => hs (h.trans (List.suffix_cons x a))
    rw [List.cons_append, splitSubAux, if_neg, ih ha' hs']
    · rfl
    · intro hp
      obtain ⟨t, e⟩ := List.isPrefixOf_iff_prefix.1 hp
      -- the separator ends at the first `m`
      have e1 : w ++ m :: t = (x :: a) ++ m :: b := by rw [← List.cons_append] at e; rw [← e]; simp
      have e2 := congrArg (split1 m) e1
      rw [split1_append t hw, split1_append b ha] at e2
      have : w = x :: a := congrArg Prod.fst e2
      exact hs (by rw [this]; exact List.suffix_refl _)

/-- Those of the sensor but the type are read, if the names in which the component is found are those of the channel. -/
theorem C224_magnetic_partial (h : Attrs) {s : Attrs} {st : Station} (hp : Plain s st) {r : Run} (hr : r ∈ st.runs)
    {c : Channel} (hc : c ∈ r.channels) {k : Str} {v : IV} (hm : (k, v) ∈ c.attrs) (hv : ¬ Nothing v)
    (hk : "sensor.".toList <+: k) (hu : k ∉ unwritten.map String.toList) (hkt : k ≠ "sensor.type".toList)
    (hks : strip k = k) (hcd : '.' ∉ c.component) (hki : ¬ c.component ++ ['.'] <:+: k)
    (hd : '.' ∉ r.id) (hs : ¬ c.component <:+ r.id)
    (ho : ∀ p ∈ written s st, c.component ++ ['.'] <:+: p.1 → ∃ k', p.1 = r.id ++ '.' :: (c.component ++ '.' :: k') ∧
      ¬ c.component ++ ['.'] <:+: k' ∧ strip k' = k' ∧ k' ≠ "manufacturer".toList) :
    OD.get? (readMagnetic c.component (info h s st)) k = some v := by
  rw [info_eq h hp]
  have hmem := mem_written (s := s) hr (mem_runItems hc hm hv hu)
  have split : ∀ k', ¬ c.component ++ ['.'] <:+: k' →
      (splitSub (c.component ++ ['.']) (r.id ++ '.' :: (c.component ++ '.' :: k')))[1]? = some k' := by
    intro k' hk'
    rw [splitSub_dots _ hd hcd hs,
      show c.component ++ '.' :: k' = (c.component ++ ['.']) ++ k' by simp, splitSub_start _ (by simp), splitSub_none hk']
    rfl
  have hman : k ≠ "manufacturer".toList := by
    rintro rfl
    revert hk
    decide +kernel
  have hty : k ≠ "type".toList := by
    rintro rfl
    revert hk
    decide +kernel
  unfold readMagnetic
  apply fold_touch
  · intro p hpm
    by_cases hin : c.component ++ ['.'] <:+: p.1
    · obtain ⟨k', e, h1, h2, h3⟩ := ho p hpm hin
      have step : ∀ a, readMagneticItem c.component a p = if k' = "type".toList then a.set "sensor.type".toList p.2
          else if "sensor.".toList.isPrefixOf k' then a.set k' p.2 else a := by
        intro a
        unfold readMagneticItem
        rw [e, split k' h1]
        simp only [h2]
        rw [if_neg h3]
      by_cases ht : k' = "type".toList
      · left
        intro a
        rw [step, if_pos ht]
        exact OD.get?_set_ne _ _ hkt
      · by_cases hse : "sensor.".toList.isPrefixOf k' = true
        · by_cases hkk : k' = k
          · subst hkk
            have e4 := OD.get?_of_mem hp.distinct (show (p.1, p.2) ∈ written s st from hpm)
            rw [e, OD.get?_of_mem hp.distinct hmem] at e4
            injection e4 with e4
            right
            intro a
            rw [step, if_neg ht, if_pos hse, OD.get?_set]
            simp [e4]
          · left
            intro a
            rw [step, if_neg ht, if_pos hse]
            exact OD.get?_set_ne _ _ (fun e => hkk e.symm)
        · left
          intro a
          rw [step, if_neg ht, if_neg hse]
    · left
      intro a
      unfold readMagneticItem
      rw [splitSub_none hin]
      rfl
  · refine ⟨_, hmem, fun a => ?_⟩
    unfold readMagneticItem
    rw [split k hki]
    simp only [hks]
    rw [if_neg hman, if_neg hty, if_pos (List.isPrefixOf_iff_prefix.2 hk), OD.get?_set]
    simp

example : OD.get? (readMagnetic "hx".toList (info [] survey0 station0)) "sensor.id".toList = some (.text "2311".toList) :=
  C224_magnetic_partial [] plain0 List.mem_cons_self (c := hx0) (by decide +kernel) (k := "sensor.id".toList)
    (by decide +kernel) (not_nothing (by decide +kernel)) (by decide +kernel) (by decide +kernel) (by decide +kernel)
    (by decide +kernel) (by decide +kernel) (by decide +kernel) (by decide +kernel) (by decide +kernel) (by
      have : ∀ q ∈ written survey0 station0, "hx.".toList <:+: q.1 →
          q.1 = "mt01b".toList ++ '.' :: ("hx".toList ++ '.' :: "sensor.id".toList) ∨
          q.1 = "mt01b".toList ++ '.' :: ("hx".toList ++ '.' :: "units".toList) := by decide +kernel
      intro p hp hi
      rcases this p hp hi with e | e
      · exact ⟨_, e, by decide +kernel, by decide +kernel, by decide +kernel⟩
      · exact ⟨_, e, by decide +kernel, by decide +kernel, by decide +kernel⟩)

/-! ## C225 — the survey -/

/-- The attributes of the survey, those that are derived from its stations aside, are the same. -/
def C225_claim : Prop := ∀ (rep : List Str → Str) (h s : Attrs) (st : Station) (r : Attrs × Station),
  convert rep h s st = .ok r → OD.WF s → Plain s st →
  ∀ k : String, derived k.toList = false → attr r.1 k = attr s k

/-- A survey without an author gets the one of the station. -/
theorem C225_refuted : ¬ C225_claim := by
  intro h
  have h1 := h (fun _ => []) [] survey0 station0 _ (result_eq (by decide +kernel)) (by decide +kernel) plain0
    "acquired_by.author" (by decide +kernel)
  revert h1
  decide +kernel

theorem header_project (h s : Attrs) (st : Station) :
    attr (header h s st) "project" = attr s "project" ∧ attr (header h s st) "survey" = attr s "id" ∧
      attr (header h s st) "country" = attr s "country" ∧ attr (header h s st) "prospect" = attr h "prospect" := by
  unfold header writeHeader
  simp only [headerPairs, List.foldl]
  refine ⟨?_, ?_, ?_, ?_⟩ <;> split <;> simp only [writeSurvey, attr_set, String.reduceEq, if_false, if_true]

/-- Those that have a value are the same; a survey without one gets the author and the geographic name of the station,
and the name `0`. -/
theorem C225_survey_partial (rep : List Str → Str) (h : Attrs) {s : Attrs} {st : Station} (hp : Plain s st) :
    ∃ r, convert rep h s st = .ok r ∧
      (∀ k v, (k, v) ∈ s → ¬ Nothing v →
        (∀ m ∈ ["northwest", "southeast", "time_period"], ¬ m.toList <:+: k) → OD.get? r.1 k = some v) ∧
      (OD.get? s "acquired_by.author".toList = none → attr r.1 "acquired_by.author" = attr st.attrs "acquired_by.author") ∧
      (OD.get? s "geographic_name".toList = none → attr r.1 "geographic_name" = attr st.attrs "geographic_name") ∧
      (OD.get? s "id".toList = none → attr r.1 "id" = .text "0".toList) ∧
      (OD.get? s "country".toList = none → attr r.1 "country" = .null) ∧
      (OD.get? s "project".toList = none → attr r.1 "project" = attr h "prospect") := by
  have none_of : ∀ k : String, OD.get? s k.toList = none →
      ∀ d, attr ((valued (s.filter fun p => !derived p.1)).foldl (fun d p => OD.set d p.1 p.2) d) k = attr d k := by
    intro k hk d
    have : OD.get? (valued (s.filter fun p => !derived p.1)) k.toList = none := by
      rw [OD.get?_eq_none_iff] at hk ⊢
      intro hm
      obtain ⟨p, hpm, e⟩ := List.mem_map.1 hm
      exact hk (List.mem_map.2 ⟨p, List.mem_of_mem_filter (List.mem_of_mem_filter hpm), e⟩)
    unfold attr
    rw [get_foldl _ _ hp.wf.1, this]
    rfl
  obtain ⟨e1, e2, e3, e4⟩ := header_project h s st
  have e5 := header_loc h s st
  have e6 := header_attr h s st (p := ("acqby", "acquired_by.author")) (by simp [headerPairs])
  simp only at e6
  refine ⟨_, convert_eq rep h hp, ?_, ?_, ?_, ?_, ?_, ?_⟩
  · intro k v hm hv hk
    have hm2 : (k, v) ∈ valued (s.filter fun p => !derived p.1) := by
      refine List.mem_filter.2 ⟨List.mem_filter.2 ⟨hm, ?_⟩, ?_⟩
      · unfold derived
        simp only []
        rw [hasSub_false (hk "northwest" (by simp)), hasSub_false (hk "southeast" (by simp)),
          hasSub_false (hk "time_period" (by simp))]
        rfl
      · cases hn : isNull v with
        | true => exact absurd ((isNull_iff _).1 hn) hv
        | false => rfl
    simp only []
    rw [get_foldl _ _ hp.wf.1, OD.get?_of_mem hp.wf.1 hm2]
    rfl
  · intro hk
    simp only []
    rw [none_of _ hk]
    unfold surveyHeader
    simp only [attr_set, attr_setSome, String.reduceEq, if_false, false_and, true_and, e6]
    split
    · rfl
    · rename_i hx
      rw [Classical.not_not.1 hx]
      split
      · simp only [attr_setSome, attr_nil, String.reduceEq, if_false, false_and]
      · simp only [attr_cons, attr_nil, String.reduceEq, if_false]
  · intro hk
    have hk2 : attr s "geographic_name" = .null := by unfold attr; rw [hk]; rfl
    simp only []
    rw [none_of _ hk]
    unfold surveyHeader
    simp only [attr_set, attr_setSome, String.reduceEq, if_false, false_and, true_and, e5, hk2]
    have : (if attr st.attrs "geographic_name" = .null then IV.null else attr st.attrs "geographic_name") =
        attr st.attrs "geographic_name" := by
      split
      · rename_i hx; exact hx.symm
      · rfl
    rw [this]
    split
    · rfl
    · rename_i hx
      rw [Classical.not_not.1 hx]
      split
      · simp only [attr_setSome, attr_nil, String.reduceEq, if_false, false_and]
      · simp only [attr_cons, attr_nil, String.reduceEq, if_false]
  · intro hk
    have hk2 : attr s "id" = .null := by unfold attr; rw [hk]; rfl
    simp only []
    rw [none_of _ hk]
    unfold surveyHeader
    simp only [attr_set, attr_setSome, String.reduceEq, if_false, false_and, if_true, e2, hk2]
    rfl
  · intro hk
    have hk2 : attr s "country" = .null := by unfold attr; rw [hk]; rfl
    simp only []
    rw [none_of _ hk]
    unfold surveyHeader
    simp only [attr_set, if_true, e3, hk2]
  · intro hk
    have hk2 : attr s "project" = .null := by unfold attr; rw [hk]; rfl
    simp only []
    rw [none_of _ hk]
    unfold surveyHeader
    simp only [attr_set, attr_setSome, attr_nil, String.reduceEq, if_false, false_and, if_true, true_and, e1, e4, hk2]
    split
    · rfl
    · rename_i hx
      rw [Classical.not_not.1 hx]

example : ∃ r, convert (fun _ => []) [] survey0 station0 = .ok r ∧
    OD.get? r.1 "project".toList = some (.text "usarray".toList) ∧
    attr r.1 "geographic_name" = .text "Whitehorse".toList := by
  obtain ⟨r, h1, h2, _, h3, _⟩ := C225_survey_partial (fun _ => []) [] plain0
  exact ⟨r, h1, h2 _ _ (by decide +kernel) (not_nothing (by decide +kernel)) (by decide +kernel), h3 (by decide +kernel)⟩

end Verif.EdiStation
