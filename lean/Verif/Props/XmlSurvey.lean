import Verif.Model.XmlSurvey
import Verif.Lemmas.Text
import Verif.Lemmas.Words
import Mathlib.Logic.Function.Iterate
import Verif.Props.XmlText

/-! # C285 – C288: surveys in StationXML -/

namespace Verif.XmlSurvey
open Verif.Text Verif.XmlText

/-! ## DOIs -/

/-- A text without blanks and without `DOI:`. -/
def Solid (u : Str) : Prop := (∀ c ∈ u, ws c = false) ∧ ¬ "DOI:".toList <:+: u

theorem doiOrg_eq : doiOrg = ['h', 't', 't', 'p', 's', ':', '/', '/', 'd', 'o', 'i', '.', 'o', 'r', 'g', '/'] := by decide +kernel

theorem tag_eq : "DOI:".toList = ['D', 'O', 'I', ':'] := by decide +kernel

theorem tag_ws : ∀ c ∈ "DOI:".toList, ws c = false := by decide +kernel

theorem strip_solid {u : Str} (h : ∀ c ∈ u, ws c = false) : strip u = u :=
  strip_of_ends (fun c hc => h c (List.mem_of_head? hc)) (fun c hc => h c (List.mem_of_getLast? hc))

theorem identifier_back {u : Str} (h : Solid u) : readIdentifiers ["DOI:".toList ++ u] = doiOrg ++ u := by
  have hs : strip ("DOI:".toList ++ u) = "DOI:".toList ++ u :=
    strip_solid (fun c hc => (List.mem_append.1 hc).elim (tag_ws c) (h.1 c))
  have hne : "DOI:".toList ≠ [] := by rw [tag_eq]; exact List.cons_ne_nil _ _
  unfold readIdentifiers replaceSub
  rw [List.map_singleton, hs, splitSub_start u hne, splitSub_none h.2]
  rfl

theorem prefix_head {a b u : Str} {x y : Char} (h : x ≠ y) : ¬ (x :: a).isPrefixOf (y :: b ++ u) = true := by
  intro h1
  rw [List.cons_append, List.isPrefixOf] at h1
  simp [h] at h1

theorem complete_http (u : Str) : completeDoi (doiOrg ++ u) = doiOrg ++ u := by
  unfold completeDoi
  have h1 : "10.".toList = '1' :: ['0', '.'] := by decide +kernel
  have h2 : "doi:".toList = 'd' :: ['o', 'i', ':'] := by decide +kernel
  rw [h1, h2, if_neg (by rw [doiOrg_eq]; exact prefix_head (by decide)), if_neg (by rw [doiOrg_eq]; exact prefix_head (by decide))]

/-- pydantic keeps the address as it is. -/
def Keeps (W : World) (u : Str) : Prop := W.url (doiOrg ++ u) = .ok (doiOrg ++ u)

theorem doi_back (W : World) {u : Str} (h : Solid u) (hk : Keeps W u) :
    validateDoi W (readIdentifiers ["DOI:".toList ++ u]) = .ok (some (doiOrg ++ u)) := by
  rw [identifier_back h]
  unfold validateDoi
  rw [if_neg (by rw [doiOrg_eq]; exact List.cons_ne_nil _ _), complete_http, hk]
  simp only [Except.bind, checkDoi]
  rw [if_pos (List.isPrefixOf_iff_prefix.2 ⟨u, rfl⟩)]

/-! ## Comments -/

/-- The key of a comment is found again, and is not that of a DOI. -/
def Key (key : Str) : Prop :=
  hasSub "doi".toList (commentKey (some ("mt.survey.".toList ++ key))) = false ∧
  hasSub "mt.survey".toList (commentKey (some ("mt.survey.".toList ++ key))) = true ∧
    surveyKey (commentKey (some ("mt.survey.".toList ++ key))) = .ok key

theorem key1 : Key "acquired_by.author".toList := ⟨by decide +kernel, by decide +kernel, by rfl⟩
theorem key2 : Key "acquired_by.comments.value".toList := ⟨by decide +kernel, by decide +kernel, by rfl⟩
theorem key4 : Key "country".toList := ⟨by decide +kernel, by decide +kernel, by rfl⟩
theorem key5 : Key "geographic_name".toList := ⟨by decide +kernel, by decide +kernel, by rfl⟩
theorem key6 : Key "id".toList := ⟨by decide +kernel, by decide +kernel, by rfl⟩
theorem key7 : Key "project".toList := ⟨by decide +kernel, by decide +kernel, by rfl⟩

theorem readOne_text (W : World) (s : Survey) {key v : Str} (hk : Key key) (hv : ':' ∉ v) :
    readOne W s ⟨v, some ("mt.survey.".toList ++ key)⟩ = setField W s key (.text v) := by
  unfold readOne readComment
  rw [if_neg hv]
  simp only [Except.bind]
  rw [hk.1, hk.2.1, hk.2.2]
  simp

theorem read_text (W : World) (s : Survey) {key v : Str} (hk : Key key) (hv : ':' ∉ v) (rest : List XComment) :
    readComments W s (textComment key v ++ rest)
      = (if v = [] then .ok s else setField W s key (.text v)).bind fun s => readComments W s rest := by
  unfold textComment readComments
  by_cases h : v = []
  · rw [if_pos h, if_pos h]; rfl
  · rw [if_neg h, if_neg h, List.singleton_append, List.foldlM_cons, readOne_text W s hk hv]; rfl

section fields
variable (W : World) (s : Survey) (v : Str)

theorem set1 : setField W s "acquired_by.author".toList (.text v) = .ok { s with acqAuthor := some v } := by
  unfold setField; rw [if_pos rfl]; rfl
theorem set2 : setField W s "acquired_by.comments.value".toList (.text v) = .ok { s with acqComments := some v } := by
  unfold setField; rw [if_neg (by decide), if_pos rfl]; rfl
theorem set4 : setField W s "country".toList (.text v) = .ok { s with country := some ((splitC ',' v).map strip) } := by
  unfold setField; rw [if_neg (by decide), if_neg (by decide), if_neg (by decide), if_pos rfl]; rfl
theorem set5 : setField W s "geographic_name".toList (.text v) = .ok { s with geographic := v } := by
  unfold setField; rw [if_neg (by decide), if_neg (by decide), if_neg (by decide), if_neg (by decide), if_pos rfl]; rfl
theorem set6 : setField W s "id".toList (.text v) = .ok { s with id := v } := by
  unfold setField
  rw [if_neg (by decide), if_neg (by decide), if_neg (by decide), if_neg (by decide), if_neg (by decide), if_pos rfl]; rfl
theorem set7 : setField W s "project".toList (.text v) = .ok { s with project := v } := by
  unfold setField
  rw [if_neg (by decide), if_neg (by decide), if_neg (by decide), if_neg (by decide), if_neg (by decide), if_neg (by decide), if_pos rfl]; rfl
end fields

/-- A name of a country: trimmed, without comma and colon. -/
def CountryName (c : Str) : Prop := Trim c ∧ ',' ∉ c ∧ ':' ∉ c

/-- Texts in the comments without a colon; countries are names. -/
structure Plain (s : Survey) : Prop where
  id : ':' ∉ s.id
  acqAuthor : ':' ∉ s.acqAuthor.getD []
  acqComments : ':' ∉ s.acqComments.getD []
  geographic : ':' ∉ s.geographic
  project : ':' ∉ s.project
  country : ∀ c ∈ s.country.getD [], CountryName c

theorem countries_back {l : List Str} (hne : l ≠ []) (h : ∀ i ∈ l, CountryName i) :
    join [',', ' '] l ≠ [] ∧ ':' ∉ join [',', ' '] l ∧ (splitC ',' (join [',', ' '] l)).map strip = l := by
  cases l with
  | nil => exact absurd rfl hne
  | cons p l =>
    have hp := h p List.mem_cons_self
    have hl : ∀ i ∈ l, CountryName i := fun i hi => h i (List.mem_cons_of_mem _ hi)
    refine ⟨?_, join_notMem (by decide) (fun i hi => (h i hi).2.2), ?_⟩
    · cases l with
      | nil => simpa [join] using hp.1.1
      | cons q l => simp [join]
    rw [splitC_join_pad (by decide) hp.2.1 (fun q hq => (hl q hq).2.1), List.map_cons, hp.1.2, List.map_map]
    congr 1
    conv => rhs; rw [← List.map_id l]
    apply List.map_congr_left
    intro q hq
    show strip (' ' :: q) = q
    rw [strip_cons_ws _ ws_space, (hl q hq).1.2]

/-- What the comments give. -/
def fromComments (s : Survey) : Survey :=
  { blank with
    id := s.id
    network := s.network
    acqAuthor := some (s.acqAuthor.getD [])
    acqComments := if s.acqComments.getD [] = [] then none else some (s.acqComments.getD [])
    country := if s.country.getD [] = [] then none else s.country
    geographic := s.geographic
    project := s.project }

def made (n : Option Str) (aa ac : Option Str) (c : Option (List Str)) (g i p : Str) : Survey :=
  { blank with id := i, network := n, acqAuthor := aa, acqComments := ac, country := c, geographic := g, project := p }

section made
variable (q : Prop) [Decidable q] (n aa ac : Option Str) (c : Option (List Str)) (g i p : Str)
theorem made1 (x : Option Str) : (if q then made n aa ac c g i p else { made n aa ac c g i p with acqAuthor := x })
    = made n (if q then aa else x) ac c g i p := by split <;> rfl
theorem made2 (x : Option Str) : (if q then made n aa ac c g i p else { made n aa ac c g i p with acqComments := x })
    = made n aa (if q then ac else x) c g i p := by split <;> rfl
theorem made4 (x : Option (List Str)) : (if q then made n aa ac c g i p else { made n aa ac c g i p with country := x })
    = made n aa ac (if q then c else x) g i p := by split <;> rfl
theorem made5 (x : Str) : (if q then made n aa ac c g i p else { made n aa ac c g i p with geographic := x })
    = made n aa ac c (if q then g else x) i p := by split <;> rfl
theorem made6 (x : Str) : (if q then made n aa ac c g i p else { made n aa ac c g i p with id := x })
    = made n aa ac c g (if q then i else x) p := by split <;> rfl
theorem made7 (x : Str) : (if q then made n aa ac c g i p else { made n aa ac c g i p with project := x })
    = made n aa ac c g i (if q then p else x) := by split <;> rfl
end made

theorem ite_ok {α : Type} {p : Prop} [Decidable p] (a b : α) : (if p then Except.ok a else Except.ok b : Except PyErr α) = .ok (if p then a else b) := by
  split <;> rfl

theorem ite_nil (v : Str) : (if v = [] then [] else v) = v := by
  split
  · rename_i h; rw [h]
  · rfl

theorem comments_read (W : World) (s : Survey) (hp : Plain s) (hj : s.journal.getD [] = []) :
    readComments W { blank with id := s.id, network := s.network } (surveyComments s) = .ok (fromComments s) := by
  have hc : ':' ∉ join [',', ' '] (s.country.getD []) := join_notMem (by decide) (fun i hi => (hp.country i hi).2.2)
  have hcc : (if join [',', ' '] (s.country.getD []) = [] then none
      else some ((splitC ',' (join [',', ' '] (s.country.getD []))).map strip)) = if s.country.getD [] = [] then none else s.country := by
    by_cases h : s.country.getD [] = []
    · rw [h]; rfl
    · obtain ⟨h1, _, h3⟩ := countries_back h hp.country
      rw [if_neg h1, if_neg h, h3]
      cases hs : s.country with
      | none => rw [hs] at h; exact absurd rfl h
      | some l => rfl
  unfold surveyComments
  simp only [List.append_assoc]
  have h0 : ({ blank with id := s.id, network := s.network } : Survey) = made s.network (some []) none none [] s.id [] := rfl
  rw [h0, read_text W _ key1 hp.acqAuthor, set1, ite_ok, made1]
  simp only [Except.bind]
  rw [read_text W _ key2 hp.acqComments, set2, ite_ok, made2]
  simp only [Except.bind]
  rw [hj, show textComment "citation_journal.doi".toList [] = [] from rfl, List.nil_append]
  rw [read_text W _ key4 hc, set4, ite_ok, made4]
  simp only [Except.bind]
  rw [read_text W _ key5 hp.geographic, set5, ite_ok, made5]
  simp only [Except.bind]
  rw [read_text W _ key6 hp.id, set6, ite_ok, made6]
  simp only [Except.bind]
  have h7 := fun z => read_text W z key7 hp.project []
  simp only [List.append_nil] at h7
  rw [h7, set7, ite_ok, made7, hcc]
  have e1 : (if s.acqAuthor.getD [] = [] then some [] else some (s.acqAuthor.getD [])) = some (s.acqAuthor.getD []) := by
    split
    · rename_i h; rw [h]
    · rfl
  have e3 : (if s.id = [] then s.id else s.id) = s.id := by split <;> rfl
  have e2 := ite_nil s.geographic
  have e4 := ite_nil s.project
  rw [e1, e2, e3, e4]
  rfl

/-! ## The leader of the project -/

theorem lead_none (z s : Survey) (h : s.leadOrg.getD [] = []) : readLead z (writeLead s) = .ok z := by
  unfold writeLead
  rw [if_pos h]
  rfl

theorem lead_org (z s : Survey) (h : s.leadOrg.getD [] ≠ []) (ha : s.leadAuthor.getD [] = []) :
    readLead z (writeLead s) = .ok { z with leadOrg := some (s.leadOrg.getD []) } := by
  unfold writeLead
  rw [if_neg h, if_pos ha]
  rfl

theorem lead_all (z s : Survey) (h : s.leadOrg.getD [] ≠ []) (ha : s.leadAuthor.getD [] ≠ []) {e : Str} (he : s.leadEmail = some e) :
    readLead z (writeLead s)
      = .ok { z with leadOrg := some (s.leadOrg.getD []), leadAuthor := some (s.leadAuthor.getD []), leadEmail := some e } := by
  unfold writeLead
  rw [if_neg h, if_neg ha, he]
  rfl

theorem lead_fails (z s : Survey) (h : s.leadOrg.getD [] ≠ []) (ha : s.leadAuthor.getD [] ≠ []) (he : s.leadEmail = none) :
    readLead z (writeLead s) = .error .typeError := by
  unfold writeLead
  rw [if_neg h, if_neg ha, he]
  rfl

/-! ## Whole surveys -/

theorem fill_id {z : Survey} (h : z.id ≠ []) : fillId z = .ok z := by
  unfold fillId
  rw [if_neg h]

/-- The other conditions under which a survey can be read: its licence, and what pydantic makes of the address of the DOI. -/
structure Readable (W : World) (s : Survey) (l : Str) : Prop where
  licence : ∃ st, W.status s.license = .ok st ∧ W.license st = .ok l
  solid : Solid (s.doi.getD "None".toList)
  keeps : Keeps W (s.doi.getD "None".toList)

/-- What is read before the leader and the name. -/
def before (s : Survey) (l : Str) : Survey :=
  { fromComments s with
    summary := s.summary
    doi := some (doiOrg ++ s.doi.getD "None".toList)
    license := l
    start := s.start
    stop := s.stop }

theorem trip_lead (W : World) (s : Survey) (l code : Str) (hp : Plain s) (hj : s.journal.getD [] = []) (hr : Readable W s l) :
    trip W s code = (readLead (before s l) (writeLead s)).bind fun z => fillId { z with name := s.id } := by
  obtain ⟨st, h1, h2⟩ := hr.licence
  unfold trip write
  rw [h1]
  show read W _ = _
  unfold read
  simp only
  rw [comments_read W s hp hj]
  simp only [Except.bind]
  rw [show writeIdentifier s.doi = "DOI:".toList ++ s.doi.getD "None".toList from rfl, doi_back W hr.solid hr.keeps]
  simp only [h2]
  rfl

/-- The address of a DOI, as `validate_doi` lets it through, has a colon. -/
def IsDoi (u : Str) : Prop := doiOrg <+: u ∨ dxDoiOrg <+: u

theorem IsDoi.colon {u : Str} (h : IsDoi u) : ':' ∈ u := by
  rcases h with ⟨t, h⟩ | ⟨t, h⟩
  · rw [← h, doiOrg_eq]; simp
  · rw [← h]
    have : ':' ∈ dxDoiOrg := by decide +kernel
    exact List.mem_append_left _ this

theorem readComments_fails (W : World) (c : XComment) (hc : ∀ s : Survey, ∃ x, readOne W s c = .error x)
    (cs : List XComment) (h : c ∈ cs) (s : Survey) : ∃ x, readComments W s cs = .error x := by
  unfold readComments
  induction cs generalizing s with
  | nil => exact absurd h (by simp)
  | cons d cs ih =>
    rw [List.foldlM_cons]
    rcases List.mem_cons.1 h with e1 | h
    · obtain ⟨x, hx⟩ := hc s
      rw [← e1, hx]; exact ⟨x, rfl⟩
    · cases hd : readOne W s d with
      | error x => exact ⟨x, rfl⟩
      | ok s1 => exact ih h s1

theorem doi_key : hasSub "doi".toList (commentKey (some ("mt.survey.".toList ++ "citation_journal.doi".toList))) = true := by decide +kernel

theorem journal_fails (W : World) (s : Survey) (code u : Str) (hj : s.journal = some u) (hu : ':' ∈ u) : ∃ x, trip W s code = .error x := by
  have hne : u ≠ [] := by intro e; rw [e] at hu; exact absurd hu (by simp)
  obtain ⟨x, hx⟩ := readComments_fails W ⟨u, some ("mt.survey.".toList ++ "citation_journal.doi".toList)⟩ (fun z => by
    unfold readOne readComment
    rw [if_pos hu]
    cases parse 21 u [] with
    | error x => exact ⟨x, rfl⟩
    | ok d =>
      simp only [Except.bind]
      rw [doi_key]
      exact ⟨_, rfl⟩) (surveyComments s) (by
      have : (⟨u, some ("mt.survey.".toList ++ "citation_journal.doi".toList)⟩ : XComment)
          ∈ textComment "citation_journal.doi".toList (s.journal.getD []) := by
        rw [hj]
        unfold textComment
        rw [if_neg (by exact hne)]
        exact List.mem_singleton.2 rfl
      unfold surveyComments
      simp only [List.mem_append, this, or_true, true_or]) { blank with id := s.id, network := s.network }
  unfold trip write
  cases W.status s.license with
  | error y => exact ⟨y, rfl⟩
  | ok st =>
    refine ⟨x, ?_⟩
    show read W _ = _
    unfold read
    simp only
    rw [hx]
    rfl

/-! ## Examples -/

/-- Addresses and licences as they are. -/
def W0 : World := ⟨fun t => .ok t, fun t => .ok t, fun t => .ok t⟩

/-- A survey. -/
def s0 : Survey where
  id := "S1".toList
  name := "Long name".toList
  network := some "ZU".toList
  comments := some "good".toList
  summary := "sum".toList
  geographic := "north".toList
  project := "P".toList
  country := some ["USA".toList, "New Land".toList]
  start := 3
  stop := 9
  doi := some "https://doi.org/10.1/x".toList
  journal := none
  license := "CC0".toList
  leadAuthor := some "L".toList
  leadOrg := some "O".toList
  leadEmail := some "l@o".toList
  acqAuthor := some "A".toList
  acqComments := none

instance (c : Str) : Decidable (Trim c) := by unfold Trim; exact inferInstance
instance (c : Str) : Decidable (CountryName c) := by unfold CountryName; exact inferInstance

theorem s0_plain : Plain s0 := by constructor <;> decide +kernel

theorem s0_readable : Readable W0 s0 "CC0".toList where
  licence := ⟨_, rfl, rfl⟩
  solid := ⟨by decide +kernel, by rw [← hasSub_iff]; decide +kernel⟩
  keeps := rfl

/-! ## C285 -/

/-- C285: a survey read from the StationXML that it was written to is the same survey. -/
def C285_claim : Prop := ∀ (W : World) (s : Survey), Plain s → s.journal = none → Readable W s s.license → trip W s = .ok s

/-- What comes back of a survey that can be read. -/
theorem C285_read_partial (W : World) (s t : Survey) (l code : Str) (hp : Plain s) (hj : s.journal = none) (hr : Readable W s l)
    (hi : s.id ≠ []) (h : trip W s code = .ok t) :
    (t.id, t.name, t.network, t.summary, t.geographic, t.project) = (s.id, s.id, s.network, s.summary, s.geographic, s.project) ∧
      (t.start, t.stop, t.license) = (s.start, s.stop, l) ∧ t.comments = none ∧ t.journal = none ∧
      t.country.getD [] = s.country.getD [] ∧ t.acqAuthor = some (s.acqAuthor.getD []) ∧ t.acqComments.getD [] = s.acqComments.getD [] ∧
      (s.leadOrg.getD [] = [] → t.leadOrg = none ∧ t.leadAuthor = some [] ∧ t.leadEmail = none) ∧
      (s.leadOrg.getD [] ≠ [] → t.leadOrg = s.leadOrg ∧ t.leadAuthor = some (s.leadAuthor.getD []) ∧
        (s.leadAuthor.getD [] = [] → t.leadEmail = none) ∧ (s.leadAuthor.getD [] ≠ [] → t.leadEmail = s.leadEmail ∧ s.leadEmail ≠ none)) := by
  have hj' : s.journal.getD [] = [] := by rw [hj]; rfl
  rw [trip_lead W s l code hp hj' hr] at h
  have org : s.leadOrg.getD [] ≠ [] → some (s.leadOrg.getD []) = s.leadOrg := by
    intro h
    cases hs : s.leadOrg with
    | none => rw [hs] at h; exact absurd rfl h
    | some x => rfl
  have cty : (if s.country.getD [] = [] then none else s.country).getD [] = s.country.getD [] := by
    split
    · rename_i h; rw [h]; rfl
    · rfl
  have cmt : (if s.acqComments.getD [] = [] then none else some (s.acqComments.getD [])).getD [] = s.acqComments.getD [] := by
    split
    · rename_i h; rw [h]; rfl
    · rfl
  have fill : ∀ z : Survey, z.id = s.id → (fillId z) = .ok z := by
    intro z hz
    unfold fillId
    rw [if_neg (by rw [hz]; exact hi)]
  by_cases ho : s.leadOrg.getD [] = []
  · rw [lead_none _ _ ho] at h
    simp only [Except.bind] at h
    rw [fill _ (by rfl)] at h
    injection h with h
    subst h
    exact ⟨rfl, rfl, rfl, rfl, cty, rfl, cmt, fun _ => ⟨rfl, rfl, rfl⟩, fun h => absurd ho h⟩
  · by_cases ha : s.leadAuthor.getD [] = []
    · rw [lead_org _ _ ho ha] at h
      simp only [Except.bind] at h
      rw [fill _ (by rfl)] at h
      injection h with h
      subst h
      exact ⟨rfl, rfl, rfl, rfl, cty, rfl, cmt, fun h => absurd h ho,
        fun _ => ⟨org ho, by rw [ha]; rfl, fun _ => rfl, fun h => absurd ha h⟩⟩
    · cases he : s.leadEmail with
      | none =>
        rw [lead_fails _ _ ho ha he] at h
        simp [Except.bind] at h
      | some e =>
        rw [lead_all _ _ ho ha he] at h
        simp only [Except.bind] at h
        rw [fill _ (by rfl)] at h
        injection h with h
        subst h
        exact ⟨rfl, rfl, rfl, rfl, cty, rfl, cmt, fun h => absurd h ho,
          fun _ => ⟨org ho, rfl, fun h => absurd h ha, fun _ => ⟨rfl, fun h => (by cases h)⟩⟩⟩

theorem C285_refuted : ¬ C285_claim := by
  intro h
  have h1 := h W0 s0 s0_plain rfl s0_readable
  have h2 := (C285_read_partial W0 s0 s0 _ _ s0_plain rfl s0_readable (by decide) h1).2.2.1
  exact absurd h2 (by decide)

/-! ## C286 -/

/-- C286: the DOI of the dataset of a survey survives StationXML. -/
def C286_claim : Prop :=
  ∀ (W : World) (s t : Survey), Plain s → s.journal = none → Readable W s s.license → trip W s = .ok t → t.doi = s.doi

/-- What comes back: the address in front of the DOI once more, and of a survey without a DOI that of `None`. -/
theorem C286_doi_partial (W : World) (s t : Survey) (l code : Str) (hp : Plain s) (hj : s.journal = none) (hr : Readable W s l)
    (h : trip W s code = .ok t) :
    (∀ u, s.doi = some u → t.doi = some ("https://doi.org/".toList ++ u)) ∧ (s.doi = none → t.doi = some "https://doi.org/None".toList) ∧
      t.doi ≠ s.doi := by
  have hd : t.doi = some (doiOrg ++ s.doi.getD "None".toList) := by
    have hj' : s.journal.getD [] = [] := by rw [hj]; rfl
    rw [trip_lead W s l code hp hj' hr] at h
    have fill : ∀ z z' : Survey, fillId z = .ok z' → z'.doi = z.doi := by
      intro z z' hz
      unfold fillId at hz
      split at hz
      · cases hn : z.network with
        | none => rw [hn] at hz; cases hz
        | some n => rw [hn] at hz; injection hz with hz; rw [← hz]
      · injection hz with hz; rw [hz]
    by_cases ho : s.leadOrg.getD [] = []
    · rw [lead_none _ _ ho] at h
      exact fill _ _ h
    · by_cases ha : s.leadAuthor.getD [] = []
      · rw [lead_org _ _ ho ha] at h
        exact fill _ _ h
      · cases he : s.leadEmail with
        | none => rw [lead_fails _ _ ho ha he] at h; cases h
        | some e =>
          rw [lead_all _ _ ho ha he] at h
          exact fill _ _ h
  refine ⟨fun u hu => by rw [hd, hu]; rfl, fun hn => by rw [hd, hn]; decide +kernel, ?_⟩
  rw [hd]
  cases hs : s.doi with
  | none => exact fun h => (by cases h)
  | some u =>
    intro h
    injection h with h
    have := congrArg List.length h
    rw [doiOrg_eq] at this
    simp at this
    omega

theorem s0_reads : ∃ t, trip W0 s0 = .ok t := by
  rw [trip_lead W0 s0 _ _ s0_plain rfl s0_readable, lead_all _ _ (by decide) (by decide) rfl]
  exact ⟨_, fill_id (by exact (by decide : s0.id ≠ []))⟩

theorem C286_refuted : ¬ C286_claim := by
  intro h
  obtain ⟨t, ht⟩ := s0_reads
  exact (C286_doi_partial W0 s0 t _ _ s0_plain rfl s0_readable ht).2.2 (h W0 s0 t s0_plain rfl s0_readable ht)

/-- The identifier of a DOI that is written and read. -/
def again (u : Str) : Str := readIdentifiers [writeIdentifier (some u)]

theorem solid_doi {u : Str} (h : Solid u) : Solid (doiOrg ++ u) := by
  refine ⟨fun c hc => ?_, fun hi => ?_⟩
  · rcases List.mem_append.1 hc with h1 | h1
    · have : ∀ c ∈ doiOrg, ws c = false := by decide +kernel
      exact this c h1
    · exact h.1 c h1
  · have hD : ∀ a : Str, 'D' ∉ a → ¬ "DOI:".toList <:+: a ++ u := by
      intro a
      induction a with
      | nil => exact fun _ => h.2
      | cons x a ih =>
        intro hx hi
        rw [List.cons_append, List.infix_cons_iff] at hi
        rcases hi with hp | hi
        · rw [tag_eq, List.cons_prefix_cons] at hp
          exact hx (hp.1 ▸ List.mem_cons_self)
        · exact ih (fun hm => hx (List.mem_cons_of_mem _ hm)) hi
    exact hD doiOrg (by rw [doiOrg_eq]; decide) hi

/-- Every time the DOI is written and read it gets the address once more. -/
theorem C286_grows_partial {u : Str} (h : Solid u) (n : Nat) :
    again^[n] u = (List.replicate n "https://doi.org/".toList).flatten ++ u := by
  induction n generalizing u with
  | zero => rfl
  | succ n ih =>
    have h1 : again u = doiOrg ++ u := identifier_back h
    rw [Function.iterate_succ_apply, h1, ih (solid_doi h), List.replicate_succ', List.flatten_append, List.append_assoc]
    rfl

example : Solid "https://doi.org/10.1/x".toList := s0_readable.solid

/-! ## C287 -/

/-- C287: a survey that was written to StationXML can be read. -/
def C287_claim : Prop :=
  ∀ (W : World) (s : Survey), Plain s → (∀ u, s.journal = some u → IsDoi u) → s.id ≠ [] → Readable W s s.license → ∃ t, trip W s = .ok t

/-- Exactly if it has no DOI of a journal, and a leader with an organization has an e-mail address. -/
theorem C287_iff_partial (W : World) (s : Survey) (l code : Str) (hp : Plain s) (hj : ∀ u, s.journal = some u → IsDoi u) (hi : s.id ≠ [])
    (hr : Readable W s l) :
    (∃ t, trip W s code = .ok t) ↔
      s.journal = none ∧ (s.leadOrg.getD [] ≠ [] → s.leadAuthor.getD [] ≠ [] → s.leadEmail ≠ none) := by
  cases hs : s.journal with
  | some u =>
    obtain ⟨x, hx⟩ := journal_fails W s code u hs (hj u hs).colon
    rw [hx]
    constructor
    · rintro ⟨t, h⟩; cases h
    · rintro ⟨h, _⟩; cases h
  | none =>
    have hj' : s.journal.getD [] = [] := by rw [hs]; rfl
    have fill : ∀ z : Survey, z.id = s.id → (fillId z) = .ok z := by
      intro z hz
      unfold fillId
      rw [if_neg (by rw [hz]; exact hi)]
    rw [trip_lead W s l code hp hj' hr]
    by_cases ho : s.leadOrg.getD [] = []
    · rw [lead_none _ _ ho]
      exact ⟨fun _ => ⟨rfl, fun h => absurd ho h⟩, fun _ => ⟨_, fill _ rfl⟩⟩
    · by_cases ha : s.leadAuthor.getD [] = []
      · rw [lead_org _ _ ho ha]
        exact ⟨fun _ => ⟨rfl, fun _ h => absurd ha h⟩, fun _ => ⟨_, fill _ rfl⟩⟩
      · cases he : s.leadEmail with
        | none =>
          rw [lead_fails _ _ ho ha he]
          constructor
          · rintro ⟨t, h⟩; cases h
          · rintro ⟨_, h⟩; exact absurd rfl (h ho ha)
        | some e =>
          rw [lead_all _ _ ho ha he]
          exact ⟨fun _ => ⟨rfl, fun _ _ h => (by cases h)⟩, fun _ => ⟨_, fill _ rfl⟩⟩

theorem C287_refuted : ¬ C287_claim := by
  intro h
  have hp : Plain { s0 with journal := some doiOrg } := ⟨s0_plain.id, s0_plain.acqAuthor, s0_plain.acqComments, s0_plain.geographic,
    s0_plain.project, s0_plain.country⟩
  have hj : ∀ u, ({ s0 with journal := some doiOrg } : Survey).journal = some u → IsDoi u := by
    intro u hu
    injection hu with hu
    exact Or.inl ⟨[], by rw [List.append_nil, hu]⟩
  have hr : Readable W0 { s0 with journal := some doiOrg } "CC0".toList := ⟨s0_readable.licence, s0_readable.solid, s0_readable.keeps⟩
  have := (C287_iff_partial W0 _ _ _ hp hj (by decide) hr).1 (h W0 _ hp hj (by decide) hr)
  exact absurd this.1 (by exact fun h => (by cases h))

/-! ## C288 -/

/-- C288: the network that a survey without a code is written to has the code that is given. -/
def C288_claim : Prop :=
  ∀ (W : World) (s : Survey) (code : Str) (n : Network), s.network = none → write W s code = .ok n → n.code = some code

theorem C288_refuted : ¬ C288_claim := by
  intro h
  have := h W0 { s0 with network := none } "ZU".toList _ rfl rfl
  exact absurd this (by exact fun h => (by cases h))

/-- The code is that of the survey, also if it has none; what is given has no effect. -/
theorem C288_own_partial (W : World) (s : Survey) (code code' : Str) :
    write W s code = write W s code' ∧ ∀ n, write W s code = .ok n → n.code = s.network := by
  refine ⟨rfl, fun n h => ?_⟩
  unfold write at h
  cases hs : W.status s.license with
  | error x => rw [hs] at h; cases h
  | ok st => rw [hs] at h; injection h with h; rw [← h]

end Verif.XmlSurvey
