import Verif.Props.EmtfSite
import Verif.Model.EmtfRest

/-! # Lists of estimates and data types, copyright and citation: what is written can be read, and what is read (C359-C365) -/

namespace Verif.EmtfRest
open Verif.Text Verif.EmtfData Verif.EmtfFile Verif.EmtfSite

/-- Links are read as they are shown. -/
structure Fair (L : Links) (q : Bool) : Prop where
  again : ∀ s u, L.url s = some u → L.url u = some u
  chars : ∀ s u, L.url s = some u → ∀ c ∈ u, ws c = false
  named : ∀ s u, L.url s = some u → u ∉ nullWords
  escaped : ∀ s u, L.url s = some u → L.url (garbled q u) = some (garbled q u)

/-! ## C359, C360: DOIs -/

theorem doiOf_ne (L : Links) {s : Str} (h : s ≠ []) : doiOf L (some s) =
    match L.url (doiText s) with
    | none => .error .valueError
    | some u => if isDoi u then .ok (some u) else .error .valueError := by
  cases s with
  | nil => exact absurd rfl h
  | cons c cs => rfl

/-- A DOI can be given alone, after `doi:` or as a link: it is the same. -/
def C359_claim : Prop := ∀ (L : Links) (s : Str), "10.".toList <+: s →
  doiOf L (some ("doi:".toList ++ s)) = doiOf L (some s) ∧ doiOf L (some ("https://doi.org/".toList ++ s)) = doiOf L (some s)

theorem splitSubAux_none (sub : Str) (hs : sub ≠ []) (s : Str) (h : hasSub sub s = false) : splitSubAux sub 0 s = [s] := by
  induction s with
  | nil => rfl
  | cons x s ih =>
    unfold hasSub at h
    rw [find] at h
    by_cases hp : sub.isPrefixOf (x :: s) = true
    · rw [if_pos hp] at h; cases h
    · rw [if_neg hp] at h
      have : hasSub sub s = false := by
        unfold hasSub
        cases hf : find sub s with
        | none => rfl
        | some n => rw [hf] at h; cases h
      rw [splitSubAux, if_neg hp, ih this]
      rfl

theorem replace_doi (s : Str) (h : hasSub "doi:".toList s = false) : replaceSub "doi:".toList [] ("doi:".toList ++ s) = s := by
  have h1 : splitSub "doi:".toList ("doi:".toList ++ s) = [] :: [s] := by
    have : splitSub "doi:".toList ("doi:".toList ++ s) = [] :: splitSubAux "doi:".toList 0 s := by
      show splitSubAux "doi:".toList 0 ('d' :: 'o' :: 'i' :: ':' :: s) = _
      rw [splitSubAux, if_pos (by simp)]
      rfl
    rw [this, splitSubAux_none _ (by decide) _ h]
  unfold replaceSub
  rw [h1]
  simp [join]

/-- C359: if `doi:` is nowhere in the DOI itself, and the link is the same in any case. -/
theorem C359_forms_partial (L : Links) {s : Str} (h : "10.".toList <+: s) :
    doiOf L (some ("https://doi.org/".toList ++ s)) = doiOf L (some s) ∧
    (hasSub "doi:".toList s = false → doiOf L (some ("doi:".toList ++ s)) = doiOf L (some s)) := by
  obtain ⟨t, rfl⟩ := h
  have e : doiText ("10.".toList ++ t) = "https://doi.org/".toList ++ ("10.".toList ++ t) := by
    unfold doiText; rw [if_pos (by simp)]
  have hn : "10.".toList ++ t ≠ [] := by simp
  refine ⟨?_, fun hd => ?_⟩
  · have e2 : doiText ("https://doi.org/".toList ++ ("10.".toList ++ t)) = "https://doi.org/".toList ++ ("10.".toList ++ t) := by
      unfold doiText; rw [if_neg (by simp), if_neg (by simp)]
    rw [doiOf_ne L hn, doiOf_ne L (by simp), e, e2]
  · have e2 : doiText ("doi:".toList ++ ("10.".toList ++ t)) = "https://doi.org/".toList ++ ("10.".toList ++ t) := by
      unfold doiText; rw [if_neg (by simp), if_pos (by simp), replace_doi _ hd]
    rw [doiOf_ne L hn, doiOf_ne L (by simp), e, e2]

/-- Links as they are given. -/
def exL : Links := ⟨fun s => if "http".toList.isPrefixOf s && s.all (fun c => !ws c) then some s else none, fun s => some s⟩

example : doiOf exL (some "10.1/x".toList) = .ok (some "https://doi.org/10.1/x".toList) := by decide +kernel
example : doiOf exL (some "doi:10.1/x".toList) = .ok (some "https://doi.org/10.1/x".toList) := by decide +kernel

/-- C359 is false: the `doi:` in a DOI is lost if another is before it. -/
theorem C359_refuted : ¬ C359_claim := by
  intro h
  have h1 := (h exL "10.1/doi:x".toList (by decide +kernel)).1
  exact absurd h1 (by decide +kernel)

/-- C360: what is accepted is a link to doi.org, and is accepted again as it is; `None` and the empty text are no DOI; everything else raises
`ValueError`. -/
theorem C360_stable (L : Links) (hL : ∀ s u, L.url s = some u → L.url u = some u) {v : Option Str} {u : Str} (h : doiOf L v = .ok (some u)) :
    ("https://doi.org/".toList <+: u ∨ "https://dx.doi.org/".toList <+: u) ∧ doiOf L (some u) = .ok (some u) := by
  unfold doiOf at h
  split at h
  · cases h
  · cases h
  · rename_i c cs
    cases hu : L.url (doiText (c :: cs)) with
    | none => rw [hu] at h; cases h
    | some w =>
      rw [hu] at h
      simp only at h
      by_cases hw : isDoi w = true
      · rw [if_pos hw] at h
        cases h
        have hw2 := hw
        unfold isDoi at hw2
        rw [Bool.or_eq_true, List.isPrefixOf_iff_prefix, List.isPrefixOf_iff_prefix] at hw2
        refine ⟨hw2, ?_⟩
        have e : doiText u = u ∧ u ≠ [] := by
          rcases hw2 with ⟨t, rfl⟩ | ⟨t, rfl⟩
          · refine ⟨?_, by simp⟩
            unfold doiText; rw [if_neg (by simp), if_neg (by simp)]
          · refine ⟨?_, by simp⟩
            unfold doiText; rw [if_neg (by simp), if_neg (by simp)]
        rw [doiOf_ne L e.2, e.1, hL _ _ hu]
        simp only [hw, if_true]
      · rw [if_neg hw] at h; cases h

/-- C360: when nothing is accepted. -/
theorem C360_refused (L : Links) (v : Option Str) : (doiOf L v = .ok none ↔ v = none ∨ v = some []) ∧
    ((∃ u, doiOf L v = .ok u) ∨ doiOf L v = .error .valueError) := by
  rcases v with _ | _ | ⟨c, cs⟩
  · exact ⟨by simp [doiOf], .inl ⟨_, rfl⟩⟩
  · exact ⟨by simp [doiOf], .inl ⟨_, rfl⟩⟩
  · rw [doiOf_ne L (by simp)]
    cases L.url (doiText (c :: cs)) with
    | none => exact ⟨by simp, .inr rfl⟩
    | some u =>
      by_cases hu : isDoi u = true
      · exact ⟨by simp [hu], .inl ⟨some u, by simp [hu]⟩⟩
      · exact ⟨by simp [hu], .inr (by simp [hu])⟩

/-- C360: a text that begins neither with `10.` nor with `doi:` is taken as it is: it is accepted if and only if it is read as a link to
doi.org. -/
theorem C360_plain (L : Links) (s : Str) (hs : s ≠ []) (h1 : ¬ "10.".toList <+: s) (h2 : ¬ "doi:".toList <+: s) (u : Str) :
    doiOf L (some s) = .ok (some u) ↔ L.url s = some u ∧ ("https://doi.org/".toList <+: u ∨ "https://dx.doi.org/".toList <+: u) := by
  have e : doiText s = s := by
    unfold doiText
    rw [if_neg (fun h => h1 (List.isPrefixOf_iff_prefix.1 h)), if_neg (fun h => h2 (List.isPrefixOf_iff_prefix.1 h))]
  rw [doiOf_ne L hs, e]
  have hd : ∀ w, isDoi w = true ↔ "https://doi.org/".toList <+: w ∨ "https://dx.doi.org/".toList <+: w := by
    intro w
    unfold isDoi
    rw [Bool.or_eq_true, List.isPrefixOf_iff_prefix, List.isPrefixOf_iff_prefix]
  rw [← hd]
  cases L.url s with
  | none => simp
  | some w =>
    by_cases hw : isDoi w = true
    · simp only [hw, if_true]
      constructor
      · intro h; cases h; exact ⟨rfl, hw⟩
      · rintro ⟨h, _⟩; cases h; rfl
    · simp only [hw]
      constructor
      · intro h; cases h
      · rintro ⟨h, h'⟩; cases h; exact absurd h' hw

example : doiOf exL (some "https://dx.doi.org/10.1/x".toList) = .ok (some "https://dx.doi.org/10.1/x".toList) ∧
    doiOf exL (some "http://doi.org/10.1/x".toList) = .error .valueError := by decide +kernel

/-! ## C361: estimates -/

/-- An estimate as it can be made: with a type, an intention and a link. -/
structure Estimate.Ok (L : Links) (e : Estimate) : Prop where
  type : e.type ∈ types
  intention : e.intention ∈ intentions
  url : L.url e.url = some e.url

/-- The estimate in a file. -/
def seenEstimate (q : Bool) (e : Estimate) : Estimate :=
  { e with name := seenAttr (upper e.name), description := seen q e.description, url := garbled q e.url, tag := seen q e.tag }

/-- The keys of an estimate. -/
def estimateL (q : Bool) (e : Estimate) : List (Str × Option J) :=
  [("description".toList, some (leafJ q (some e.description))), ("external_url".toList, some (leafJ q (some e.url))),
    ("intention".toList, some (leafJ q (some e.intention))), ("tag".toList, some (leafJ q (some e.tag))),
    ("name".toList, some (.str (seenAttr (upper e.name)))), ("type".toList, some (.str (seenAttr e.type)))]

theorem leaf_piece (q : Bool) (n : Nat) (k : Str) (s : Str) (t kk : Str) (ht : tagOf k = t) (hk : Names.validateName t = .ok kk) :
    Piece q n [.mk k [] (some s) []] [t] [kk] (opt kk (some (leafJ q (some s)))) :=
  Piece.one hk (ht ▸ tagged_st _ _ _ _ _ _) (Val.leaf _ _ _ _)

theorem estimate_val (q : Bool) (n : Nat) (e : Estimate) : Val q n (estimateEl e) (.dict (dictOf (estimateL q e))) := by
  have p1 := leaf_piece q (n + 1) "Description".toList e.description "Description".toList "description".toList (by decide) (by decide)
  have p2 := leaf_piece q (n + 1) "ExternalUrl".toList e.url "ExternalUrl".toList "external_url".toList (by decide) (by decide)
  have p3 := leaf_piece q (n + 1) "Intention".toList e.intention "Intention".toList "intention".toList (by decide) (by decide)
  have p4 := leaf_piece q (n + 1) "tag".toList e.tag "Tag".toList "tag".toList (by decide) (by decide)
  have hv := Val.parent (n := n) "Estimate".toList (attrs := [("name".toList, upper e.name), ("type".toList, e.type)])
    (((p1.append p2).append p3).append p4)
    (Or.inl (by simp)) (by simp only [List.map_cons, List.map_nil]; decide +kernel) (by simp only [List.map_cons, List.map_nil]; decide +kernel)
    (by decide +kernel) (by simp only [List.map_cons, List.map_nil]; decide +kernel)
  exact hv

theorem types_seen {t : Str} (h : t ∈ types) : seenAttr t = t := by
  revert t
  decide +kernel

theorem intention_leaf (q : Bool) {t : Str} (h : t ∈ intentions) : leafJ q (some t) = .str t := by
  have h1 : t ∉ nullWords ∧ (∀ c ∈ t, c ≠ '&' ∧ c ≠ '<' ∧ c ≠ '>' ∧ c ≠ '"') ∧ strip t = t := by
    revert t; decide +kernel
  simp only [leafJ, seenText, if_neg h1.1, garbled_plain q h1.2.1, h1.2.2]

theorem strip_noWs {s : Str} (h : ∀ c ∈ s, ws c = false) : strip s = s :=
  strip_of_ends (fun c hc => h c (List.mem_of_mem_head? hc)) (fun c hc => h c (List.mem_of_getLast? hc))

theorem garbled_noWs (q : Bool) {s : Str} (h : ∀ c ∈ s, ws c = false) : ∀ c ∈ garbled q s, ws c = false := by
  intro c hc
  unfold garbled at hc
  obtain ⟨x, hx, hc⟩ := List.mem_flatMap.1 hc
  have hk : ∀ l ∈ ["andamp;".toList, "andlt;".toList, "andgt;".toList, "andquot;".toList, ['"']], ∀ c ∈ l, ws c = false := by decide +kernel
  split at hc
  · exact hk _ (by simp) c hc
  · split at hc
    · exact hk _ (by simp) c hc
    · split at hc
      · exact hk _ (by simp) c hc
      · split at hc
        · split at hc
          · exact hk _ (by simp) c hc
          · exact hk _ (by simp) c hc
        · rw [List.mem_singleton.1 hc]; exact h x hx

theorem url_leaf {L : Links} {q : Bool} (G : Fair L q) {u : Str} (h : L.url u = some u) : leafJ q (some u) = .str (garbled q u) := by
  simp only [leafJ, seenText, if_neg (G.named _ _ h), strip_noWs (garbled_noWs q (G.chars _ _ h))]

theorem read_estimate {L : Links} {q : Bool} (G : Fair L q) {e : Estimate} (he : e.Ok L) :
    readEstimate L (.dict (dictOf (estimateL q e))) = .ok (seenEstimate q e) := by
  have hn : ((estimateL q e).map Prod.fst).Nodup :=
    (by decide +kernel : ["description".toList, "external_url".toList, "intention".toList, "tag".toList, "name".toList, "type".toList].Nodup)
  have f1 : field (dictOf (estimateL q e)) "name" [] plainText = .ok (seenAttr (upper e.name)) := by
    rw [field_dictOf hn]; rfl
  have f2 : field (dictOf (estimateL q e)) "type" [] (oneOf types) = .ok e.type := by
    rw [field_dictOf hn]
    show oneOf types (.str (seenAttr e.type)) = _
    rw [types_seen he.type]
    simp only [oneOf, List.contains_iff_mem.2 he.type, if_true]
  have f3 : field (dictOf (estimateL q e)) "description" [] plainText = .ok (seen q e.description) := by
    rw [field_dictOf hn]; exact plainText_leaf _ _
  have f4 : field (dictOf (estimateL q e)) "external_url" [] (urlOf L) = .ok (garbled q e.url) := by
    rw [field_dictOf hn]
    show urlOf L (leafJ q (some e.url)) = _
    rw [url_leaf G he.url]
    simp only [urlOf, G.escaped _ _ he.url]
  have f5 : field (dictOf (estimateL q e)) "intention" [] (oneOf intentions) = .ok e.intention := by
    rw [field_dictOf hn]
    show oneOf intentions (leafJ q (some e.intention)) = _
    rw [intention_leaf q he.intention]
    simp only [oneOf, List.contains_iff_mem.2 he.intention, if_true]
  have f6 : field (dictOf (estimateL q e)) "tag" [] plainText = .ok (seen q e.tag) := by
    rw [field_dictOf hn]; exact plainText_leaf _ _
  simp only [readEstimate, f1, f2, f3, f4, f5, f6, Except.bind]
  rfl

/-- The value of an element that has nothing in it. -/
theorem empty_val (q : Bool) (n : Nat) (tag : Str) : Val q n (.mk tag [] none []) .null := Val.leaf q n tag none

theorem manyOf_group {ws : List J} {v : J} (h : groupOf ws = some v) (hd : ∀ w ∈ ws, ∃ d, w = .dict d) : manyOf v = ws := by
  match ws with
  | [] => cases h
  | [w] =>
    obtain ⟨d, rfl⟩ := hd w (by simp)
    cases h
    rfl
  | a :: b :: r =>
    cases h
    show (a :: b :: r).map fix = a :: b :: r
    have : ∀ l : List J, (∀ w ∈ l, ∃ d, w = J.dict d) → l.map fix = l := by
      intro l hl
      induction l with
      | nil => rfl
      | cons x xs ih =>
        obtain ⟨d, rfl⟩ := hl x (by simp)
        rw [List.map_cons, ih (fun w hw => hl w (by simp [hw]))]
        rfl
    exact this _ hd

theorem mapM_ok {α β γ : Type} (f : γ → Except PyErr β) (w : α → γ) (g : α → β) (l : List α) (h : ∀ x ∈ l, f (w x) = .ok (g x)) :
    (l.map w).mapM f = .ok (l.map g) := by
  induction l with
  | nil => rfl
  | cons x xs ih =>
    rw [List.map_cons, List.mapM_cons, h x (by simp), ih (fun y hy => h y (by simp [hy]))]
    rfl

theorem get?_self (k : Str) (v : J) : OD.get? [(k, v)] k = some v := by rw [OD.get?_cons, if_pos rfl]

/-- The dictionary of a list of elements of one name. -/
theorem list_val {α : Type} (q : Bool) (n : Nat) (tag t k : Str) (el : α → El) (d : α → List (Str × J)) (hk : Names.validateName t = .ok k)
    (ht : ∀ x, tagged (st q (n + 1) (el x)) t) (hv : ∀ x, Val q (n + 1) (el x) (.dict (d x))) (hi : t ≠ "item".toList) {l : List α} (hl : l ≠ []) :
    ∃ v, Val q n (.mk tag [] none (l.map el)) (.dict [(k, v)]) ∧ manyOf v = l.map fun x => J.dict (d x) := by
  have hp : Piece q (n + 1) (l.map el) [t] [k] (opt k (groupOf (l.map fun x => J.dict (d x)))) := by
    refine Piece.many hk ?_
    induction l with
    | nil => exact .nil
    | cons x xs ih =>
      refine .cons ⟨ht x, hv x⟩ ?_
      by_cases hx : xs = []
      · subst hx; exact .nil
      · exact ih hx
  cases hg : groupOf (l.map fun x => J.dict (d x)) with
  | none =>
    cases l with
    | nil => exact absurd rfl hl
    | cons x xs => cases hg
  | some v =>
    refine ⟨v, ?_, manyOf_group hg ?_⟩
    · have h := Val.parent (n := n) tag (attrs := []) hp (Or.inl (by simpa using hl)) (by simp) (by simp) (by simpa using Ne.symm hi) (by simp)
      rw [hg] at h
      exact h
    · intro w hw
      obtain ⟨x, _, rfl⟩ := List.mem_map.1 hw
      exact ⟨_, rfl⟩

/-- The list of estimates in a file that has been written can be read, and is what was written. -/
def C361_claim : Prop := ∀ (L : Links) (q : Bool), Fair L q → ∀ l : List Estimate, (∀ e ∈ l, e.Ok L) → ∃ m, readEstimates L [writeEstimates q l] = .ok m

/-- C361: a list with an estimate is read as it was written (up to the texts that no file keeps); one without raises `TypeError`. -/
theorem C361_read_partial {L : Links} {q : Bool} (G : Fair L q) {l : List Estimate} (hl : ∀ e ∈ l, e.Ok L) :
    readEstimates L [writeEstimates q l] = if l = [] then .error .typeError else .ok (some (l.map (seenEstimate q))) := by
  by_cases h0 : l = []
  · subst h0
    have hv : rootValue [st q 1 (.mk "StatisticalEstimates".toList [] none [])] = .ok (some .null) :=
      rootValue_one (t := "StatisticalEstimates".toList) (k := "statistical_estimates".toList) (tagged_st _ _ _ _ _ _) (by decide +kernel)
        (empty_val q 1 _)
    have e : writeEstimates q [] = st q 1 (.mk "StatisticalEstimates".toList [] none []) := rfl
    unfold readEstimates
    rw [e, hv]
    rfl
  · obtain ⟨v, h1, h2⟩ := list_val q 1 "StatisticalEstimates".toList "Estimate".toList "estimate".toList estimateEl
      (fun e => dictOf (estimateL q e)) (by decide) (fun x => tagged_st _ _ _ _ _ _) (fun x => estimate_val q 2 x) (by decide) h0
    have hv : rootValue [st q 1 (.mk "StatisticalEstimates".toList [] none (l.map estimateEl))] = .ok (some (.dict [("estimate".toList, v)])) :=
      rootValue_one (t := "StatisticalEstimates".toList) (k := "statistical_estimates".toList) (tagged_st _ _ _ _ _ _) (by decide +kernel) h1
    have e : writeEstimates q l = st q 1 (.mk "StatisticalEstimates".toList [] none (l.map estimateEl)) := rfl
    unfold readEstimates
    rw [e, hv, if_neg h0]
    have hm := mapM_ok (readEstimate L) (fun x => J.dict (dictOf (estimateL q x))) (seenEstimate q) l (fun x hx => read_estimate G (hl x hx))
    simp only [Except.bind, get?_self, h2, hm]
    rfl

/-- The estimates of data are as they can be made, if their links are links. -/
theorem estimateOf_ok {L : Links} (h : ∀ s, "http://".toList <+: s → L.url s = some s) (e : Est) : (estimateOf e).Ok L := by
  cases e <;> exact ⟨by decide +kernel, by decide +kernel, h _ (by decide +kernel)⟩

/-- C361: the list that is written for data can be read if and only if the data have a variance, an inverse signal power or a residual covariance
that is not zero. -/
theorem C361_data_partial {F : Type} {L : Links} {q : Bool} (G : Fair L q) (h : ∀ s, "http://".toList <+: s → L.url s = some s) (N : Nums F)
    (d : Data F) : (∃ m, readEstimates L [writeEstimates q ((estimates N d).map estimateOf)] = .ok m) ↔ estimates N d ≠ [] := by
  have hr := C361_read_partial (q := q) G (l := (estimates N d).map estimateOf) (by
    intro e he
    obtain ⟨x, _, rfl⟩ := List.mem_map.1 he
    exact estimateOf_ok h x)
  rw [hr]
  by_cases h0 : estimates N d = []
  · simp [h0]
  · simp [h0]

/-- C361: a file without the element can be read. -/
theorem C361_absent_partial (L : Links) : readEstimates L [] = .ok none := rfl

theorem garbled_append (q : Bool) (a b : Str) : garbled q (a ++ b) = garbled q a ++ garbled q b := by
  unfold garbled; rw [List.flatMap_append]

theorem exL_url {s u : Str} : exL.url s = some u ↔ s = u ∧ "http".toList <+: u ∧ ∀ c ∈ u, ws c = false := by
  unfold exL
  simp only [Option.ite_none_right_eq_some, Bool.and_eq_true, List.isPrefixOf_iff_prefix, List.all_eq_true, Bool.not_eq_true',
    Option.some.injEq]
  constructor
  · rintro ⟨⟨h1, h2⟩, rfl⟩; exact ⟨rfl, h1, h2⟩
  · rintro ⟨rfl, h1, h2⟩; exact ⟨⟨h1, h2⟩, rfl⟩

theorem exL_fair (q : Bool) : Fair exL q where
  again := fun s u h => by
    obtain ⟨rfl, h1, h2⟩ := exL_url.1 h
    exact h
  chars := fun s u h => (exL_url.1 h).2.2
  named := fun s u h hn => by
    have hp := (exL_url.1 h).2.1
    have : ∀ w ∈ nullWords, ¬ "http".toList <+: w := by decide +kernel
    exact this _ hn hp
  escaped := fun s u h => by
    obtain ⟨rfl, ⟨t, rfl⟩, h2⟩ := exL_url.1 h
    refine exL_url.2 ⟨rfl, ?_, garbled_noWs q h2⟩
    rw [garbled_append]
    cases q <;> exact ⟨_, rfl⟩

/-- C361 is false: of data without errors, no estimate is written. -/
theorem C361_refuted : ¬ C361_claim := by
  intro h
  obtain ⟨m, hm⟩ := h exL false (exL_fair _) [] (by simp)
  rw [C361_read_partial (exL_fair _) (by simp)] at hm
  cases hm

example : readEstimates exL [writeEstimates true [estimateOf .variance]] = .ok (some [estimateOf .variance]) := by
  rw [C361_read_partial (exL_fair _) (by intro e he; rw [List.mem_singleton.1 he]; exact ⟨by decide +kernel, by decide +kernel, by decide +kernel⟩)]
  decide +kernel

/-! ## C362: data types -/

/-- A data type as it can be made. -/
structure DType.Ok (L : Links) (t : DType) : Prop where
  type : t.type ∈ types
  output : t.output ∈ ["E".toList, "H".toList]
  input : t.input ∈ ["E".toList, "H".toList]
  intention : t.intention ∈ intentions
  url : L.url t.url = some t.url

/-- The units after writing and reading: of a symbol. -/
def unitsAgain (L : Links) (t : DType) : Except PyErr Str := (symbol L t.units).bind fun u => unitOf L (.str (seenAttr u))

/-- The data type in a file, with units `u`. -/
def seenDType (q : Bool) (t : DType) (u : Str) : DType :=
  { t with name := seenAttr t.name, units := u, description := seen q t.description, url := garbled q t.url, tag := seen q t.tag }

/-- The keys of a data type. -/
def dtypeL (q : Bool) (t : DType) (u : Str) : List (Str × Option J) :=
  [("description".toList, some (leafJ q (some t.description))), ("external_url".toList, some (leafJ q (some t.url))),
    ("intention".toList, some (leafJ q (some t.intention))), ("tag".toList, some (leafJ q (some t.tag))),
    ("name".toList, some (.str (seenAttr t.name))), ("type".toList, some (.str (seenAttr t.type))),
    ("output".toList, some (.str (seenAttr t.output))), ("input".toList, some (.str (seenAttr t.input))),
    ("units".toList, some (.str (seenAttr u)))]

/-- The element of a data type with the symbol `u`. -/
def dtypeBody (t : DType) (u : Str) : El :=
  .mk "DataType".toList [("name".toList, t.name), ("type".toList, t.type), ("output".toList, t.output), ("input".toList, t.input),
      ("units".toList, u)] none
    (textEl "description" (some t.description) ++ textEl "external_url" (some t.url) ++ textEl "intention" (some t.intention) ++
      textEl "tag" (some t.tag))

theorem dtype_val (q : Bool) (n : Nat) (t : DType) (u : Str) : Val q n (dtypeBody t u) (.dict (dictOf (dtypeL q t u))) := by
  have p1 := text_piece q (n + 1) "description" (some t.description) "Description".toList "description".toList (by decide) (by decide)
  have p2 := text_piece q (n + 1) "external_url" (some t.url) "ExternalUrl".toList "external_url".toList (by decide) (by decide)
  have p3 := text_piece q (n + 1) "intention" (some t.intention) "Intention".toList "intention".toList (by decide) (by decide)
  have p4 := text_piece q (n + 1) "tag" (some t.tag) "Tag".toList "tag".toList (by decide) (by decide)
  have hv := Val.parent (n := n) "DataType".toList (attrs := [("name".toList, t.name), ("type".toList, t.type), ("output".toList, t.output),
      ("input".toList, t.input), ("units".toList, u)])
    (((p1.append p2).append p3).append p4)
    (Or.inl (by simp [textEl])) (by simp only [List.map_cons, List.map_nil]; decide +kernel)
    (by simp only [List.map_cons, List.map_nil]; decide +kernel) (by decide +kernel) (by simp only [List.map_cons, List.map_nil]; decide +kernel)
  exact hv

theorem side_seen {t : Str} (h : t ∈ ["E".toList, "H".toList]) : seenAttr t = t := by
  revert t; decide +kernel

theorem read_dtype {L : Links} {q : Bool} (G : Fair L q) {t : DType} (ht : t.Ok L) {u : Str} (hu : symbol L t.units = .ok u) :
    readType L (.dict (dictOf (dtypeL q t u))) = (unitsAgain L t).map (seenDType q t) := by
  have hn : ((dtypeL q t u).map Prod.fst).Nodup :=
    (by decide +kernel : ["description".toList, "external_url".toList, "intention".toList, "tag".toList, "name".toList, "type".toList,
      "output".toList, "input".toList, "units".toList].Nodup)
  have f1 : field (dictOf (dtypeL q t u)) "name" [] plainText = .ok (seenAttr t.name) := by
    rw [field_dictOf hn]; rfl
  have f2 : field (dictOf (dtypeL q t u)) "type" "real".toList (oneOf types) = .ok t.type := by
    rw [field_dictOf hn]
    show oneOf types (.str (seenAttr t.type)) = _
    rw [types_seen ht.type]
    simp only [oneOf, List.contains_iff_mem.2 ht.type, if_true]
  have f3 : field (dictOf (dtypeL q t u)) "description" [] plainText = .ok (seen q t.description) := by
    rw [field_dictOf hn]; exact plainText_leaf _ _
  have f4 : field (dictOf (dtypeL q t u)) "external_url" [] (urlOf L) = .ok (garbled q t.url) := by
    rw [field_dictOf hn]
    show urlOf L (leafJ q (some t.url)) = _
    rw [url_leaf G ht.url]
    simp only [urlOf, G.escaped _ _ ht.url]
  have f5 : field (dictOf (dtypeL q t u)) "intention" [] (oneOf intentions) = .ok t.intention := by
    rw [field_dictOf hn]
    show oneOf intentions (leafJ q (some t.intention)) = _
    rw [intention_leaf q ht.intention]
    simp only [oneOf, List.contains_iff_mem.2 ht.intention, if_true]
  have f6 : field (dictOf (dtypeL q t u)) "tag" [] plainText = .ok (seen q t.tag) := by
    rw [field_dictOf hn]; exact plainText_leaf _ _
  have f7 : field (dictOf (dtypeL q t u)) "output" [] (oneOf ["E".toList, "H".toList]) = .ok t.output := by
    rw [field_dictOf hn]
    show oneOf ["E".toList, "H".toList] (.str (seenAttr t.output)) = _
    rw [side_seen ht.output]
    simp only [oneOf, List.contains_iff_mem.2 ht.output, if_true]
  have f8 : field (dictOf (dtypeL q t u)) "input" [] (oneOf ["E".toList, "H".toList]) = .ok t.input := by
    rw [field_dictOf hn]
    show oneOf ["E".toList, "H".toList] (.str (seenAttr t.input)) = _
    rw [side_seen ht.input]
    simp only [oneOf, List.contains_iff_mem.2 ht.input, if_true]
  have f9 : field (dictOf (dtypeL q t u)) "units" "milliVolt per kilometer per nanoTesla".toList (unitOf L) = unitOf L (.str (seenAttr u)) := by
    rw [field_dictOf hn]; rfl
  simp only [readType, f1, f2, f3, f4, f5, f6, f7, f8, f9, Except.bind, unitsAgain, hu]
  cases unitOf L (.str (seenAttr u)) <;> rfl

theorem unitOf_str (L : Links) (s : Str) : (∃ u, unitOf L (.str s) = .ok u) ∨ unitOf L (.str s) = .error .keyError := by
  cases s with
  | nil => exact .inl ⟨_, rfl⟩
  | cons c cs =>
    simp only [unitOf]
    cases L.unit (c :: cs) with
    | none => exact .inr rfl
    | some u => exact .inl ⟨_, rfl⟩

theorem unitsAgain_cases (L : Links) (t : DType) : (∃ u, unitsAgain L t = .ok u) ∨ unitsAgain L t = .error .keyError := by
  have h : (∃ u, symbol L t.units = .ok u) ∨ symbol L t.units = .error .keyError := by
    cases t.units with
    | nil => exact .inl ⟨_, rfl⟩
    | cons c cs =>
      simp only [symbol]
      cases L.unit (c :: cs) with
      | none => exact .inr rfl
      | some u => exact .inl ⟨_, rfl⟩
  unfold unitsAgain
  rcases h with ⟨u, hu⟩ | hu
  · rw [hu]; exact unitOf_str _ _
  · rw [hu]; exact .inr rfl

/-- The list of data types in a file that has been written can be read. -/
def C362_claim : Prop := ∀ (L : Links) (q : Bool), Fair L q → ∀ l : List DType, (∀ t ∈ l, t.Ok L) → ∀ e, writeTypes L q l = .ok e →
  ∃ m, readTypes L [e] = .ok m

theorem types_written {L : Links} {q : Bool} {l : List DType} {e : El} (h : writeTypes L q l = .ok e) :
    ∃ us : List (DType × Str), us.map Prod.fst = l ∧ (∀ p ∈ us, symbol L p.1.units = .ok p.2) ∧
      e = st q 1 (.mk "DataTypes".toList [] none (us.map fun p => dtypeBody p.1 p.2)) := by
  unfold writeTypes at h
  have key : ∀ (l : List DType) (es : List El), l.mapM (dtypeEl L) = .ok es → ∃ us : List (DType × Str), us.map Prod.fst = l ∧
      (∀ p ∈ us, symbol L p.1.units = .ok p.2) ∧ es = us.map fun p => dtypeBody p.1 p.2 := by
    intro l
    induction l with
    | nil => intro es h; cases h; exact ⟨[], rfl, by simp, rfl⟩
    | cons t ts ih =>
      intro es h
      rw [List.mapM_cons] at h
      cases hu : symbol L t.units with
      | error x => unfold dtypeEl at h; rw [hu] at h; cases h
      | ok u =>
        have e1 : dtypeEl L t = .ok (dtypeBody t u) := by unfold dtypeEl; rw [hu]; rfl
        rw [e1] at h
        cases hr : ts.mapM (dtypeEl L) with
        | error x => rw [hr] at h; cases h
        | ok es' =>
          rw [hr] at h
          obtain ⟨us, h1, h2, h3⟩ := ih es' hr
          refine ⟨(t, u) :: us, by rw [List.map_cons, h1], ?_, ?_⟩
          · intro p hp
            rcases List.mem_cons.1 hp with rfl | hp
            · exact hu
            · exact h2 p hp
          · have := Except.ok.inj h
            rw [← this, List.map_cons, h3]
  cases hm : l.mapM (dtypeEl L) with
  | error x => rw [hm] at h; cases h
  | ok es =>
    rw [hm] at h
    obtain ⟨us, h1, h2, h3⟩ := key l es hm
    refine ⟨us, h1, h2, ?_⟩
    have := Except.ok.inj h
    rw [← this, h3]
    rfl

/-- C362: a list with a data type is read as it was written, its units as symbols; if the symbol of one is not known, the list is not read; a list
without data types raises `TypeError`. -/
theorem C362_read_partial {L : Links} {q : Bool} (G : Fair L q) {l : List DType} (hl : ∀ t ∈ l, t.Ok L) {e : El} (he : writeTypes L q l = .ok e) :
    readTypes L [e] = if l = [] then .error .typeError else
      match l.mapM fun t => (unitsAgain L t).map (seenDType q t) with
      | .ok m => .ok (some m)
      | .error _ => .ok none := by
  obtain ⟨us, h1, h2, rfl⟩ := types_written he
  by_cases h0 : us = []
  · subst h0
    cases h1
    have hv : rootValue [st q 1 (.mk "DataTypes".toList [] none [])] = .ok (some .null) :=
      rootValue_one (t := "DataTypes".toList) (k := "data_types".toList) (tagged_st _ _ _ _ _ _) (by decide +kernel) (empty_val q 1 _)
    unfold readTypes
    rw [List.map_nil, hv]
    rfl
  · have hl0 : l ≠ [] := by rw [← h1]; simpa using h0
    obtain ⟨v, v1, v2⟩ := list_val q 1 "DataTypes".toList "DataType".toList "data_type".toList (fun p : DType × Str => dtypeBody p.1 p.2)
      (fun p => dictOf (dtypeL q p.1 p.2)) (by decide) (fun x => tagged_st _ _ _ _ _ _) (fun x => dtype_val q 2 x.1 x.2) (by decide) h0
    have hv : rootValue [st q 1 (.mk "DataTypes".toList [] none (us.map fun p => dtypeBody p.1 p.2))] =
        .ok (some (.dict [("data_type".toList, v)])) :=
      rootValue_one (t := "DataTypes".toList) (k := "data_types".toList) (tagged_st _ _ _ _ _ _) (by decide +kernel) v1
    unfold readTypes
    rw [hv, if_neg hl0]
    simp only [Except.bind, get?_self, v2]
    have hm : (us.map fun p => J.dict (dictOf (dtypeL q p.1 p.2))).mapM (readType L) =
        l.mapM fun t => (unitsAgain L t).map (seenDType q t) := by
      subst h1
      clear h0 hl0 v1 v2 hv he v
      induction us with
      | nil => rfl
      | cons p ps ih =>
        rw [List.map_cons, List.map_cons, List.mapM_cons, List.mapM_cons, read_dtype G (hl p.1 (by simp)) (h2 p (by simp)),
          ih (fun p hp => h2 p (by simp [hp])) (fun t ht => hl t (by rw [List.map_cons]; exact List.mem_cons_of_mem _ ht))]
    rw [hm]
    have hk : ∀ x, (l.mapM fun t => (unitsAgain L t).map (seenDType q t)) = .error x → x = .keyError := by
      clear hl he h1 hm hl0
      intro x
      induction l with
      | nil => intro h; cases h
      | cons t ts ih =>
        intro h
        rw [List.mapM_cons] at h
        rcases unitsAgain_cases L t with ⟨u, hu⟩ | hu
        · rw [hu] at h
          cases hr : (ts.mapM fun t => (unitsAgain L t).map (seenDType q t)) with
          | error y =>
            rw [hr] at h
            cases h
            exact ih hr
          | ok m => rw [hr] at h; cases h
        · rw [hu] at h
          cases h
          rfl
    cases hr : (l.mapM fun t => (unitsAgain L t).map (seenDType q t)) with
    | ok m => rfl
    | error x => rw [hk x hr]

/-- The data types of data are as they can be made, if their links are links. -/
theorem dtypeOf_ok {L : Links} (h : ∀ s, "http://".toList <+: s → L.url s = some s) (u : Str) (t : DataType) : (dtypeOf u t).Ok L := by
  cases t with
  | impedance =>
    exact ⟨(by decide +kernel : "complex".toList ∈ types), (by decide +kernel : "E".toList ∈ ["E".toList, "H".toList]),
      (by decide +kernel : "H".toList ∈ ["E".toList, "H".toList]), (by decide +kernel : "primary data type".toList ∈ intentions),
      h _ (by decide +kernel : "http://".toList <+: "http://www.iris.edu/dms/products/emtf/impedance.html".toList)⟩
  | tipper =>
    exact ⟨(by decide +kernel : "complex".toList ∈ types), (by decide +kernel : "H".toList ∈ ["E".toList, "H".toList]),
      (by decide +kernel : "H".toList ∈ ["E".toList, "H".toList]), (by decide +kernel : "primary data type".toList ∈ intentions),
      h _ (by decide +kernel : "http://".toList <+: "http://www.iris.edu/dms/products/emtf/tipper.html".toList)⟩

/-- C362: the list that is written for data can be read if and only if the impedance or the tipper is not zero. -/
theorem C362_data_partial {F : Type} {L : Links} {q : Bool} (G : Fair L q) (h : ∀ s, "http://".toList <+: s → L.url s = some s) (N : Nums F)
    (d : Data F) (u : Str) {e : El} (he : writeTypes L q ((dataTypes N d).map (dtypeOf u)) = .ok e) :
    (∃ m, readTypes L [e] = .ok m) ↔ dataTypes N d ≠ [] := by
  rw [C362_read_partial G (by
    intro t ht
    obtain ⟨x, _, rfl⟩ := List.mem_map.1 ht
    exact dtypeOf_ok h u x) he]
  by_cases h0 : dataTypes N d = []
  · simp [h0]
  · simp only [List.map_eq_nil_iff, h0, if_false, ne_eq, not_false_eq_true, iff_true]
    cases ((dataTypes N d).map (dtypeOf u)).mapM fun t => (unitsAgain L t).map (seenDType q t) with
    | ok m => exact ⟨_, rfl⟩
    | error x => exact ⟨_, rfl⟩

/-- C362 is false: of data that are zero, no type is written. -/
theorem C362_refuted : ¬ C362_claim := by
  intro h
  obtain ⟨m, hm⟩ := h exL false (exL_fair _) [] (by simp) _ rfl
  rw [C362_read_partial (l := []) (exL_fair _) (by simp) rfl] at hm
  cases hm

example : ∃ e, writeTypes exL true [dtypeOf "mV/km/nT".toList .impedance, dtypeOf [] .tipper] = .ok e ∧
    readTypes exL [e] = .ok (some [dtypeOf "mV/km/nT".toList .impedance, { dtypeOf [] .tipper with units := "unknown".toList }]) := by
  refine ⟨_, rfl, ?_⟩
  rw [C362_read_partial (l := [dtypeOf "mV/km/nT".toList .impedance, dtypeOf [] .tipper]) (exL_fair _) (by
    intro t ht
    simp only [List.mem_cons, List.not_mem_nil, or_false] at ht
    rcases ht with rfl | rfl <;> exact ⟨by decide +kernel, by decide +kernel, by decide +kernel, by decide +kernel, by decide +kernel⟩) rfl]
  decide +kernel

/-! ## C363, C364, C365: copyright and citation -/

/-- What an attribute is after reading what was written for it; without a value nothing is written. -/
def over (q : Bool) (v old : Option Str) : Option Str :=
  match v with
  | none => old
  | some s => seenText q (some s)

/-- A DOI after reading. -/
def overDoi (q : Bool) (v old : Option Str) : Option Str :=
  match v with
  | none => old
  | some u => some (garbled q u)

/-- The citation after reading. -/
def seenCite (q : Bool) (o c : Cite) : Cite :=
  { o with
    title := over q c.title o.title
    authors := over q c.authors o.authors
    year := c.year <|> o.year
    surveyDoi := overDoi q c.surveyDoi o.surveyDoi }

/-- The copyright after reading into `o`. -/
def seenRights (q : Bool) (o r : Rights) : Rights :=
  ⟨seenCite q o.cite r.cite, over q r.publications o.publications, over q r.acknowledgement o.acknowledgement, r.status,
    seen q r.conditions, over q r.info o.info⟩

/-- A copyright as it can be made. -/
structure Rights.Ok (L : Links) (r : Rights) : Prop where
  status : r.status ∈ statuses
  year : ∀ y, r.cite.year = some y → yearOk y = true
  doi : ∀ u, r.cite.surveyDoi = some u → L.url u = some u ∧ isDoi u = true

/-- There is nothing of the citation that would be written. -/
def Cite.bare (c : Cite) : Prop := c.title = none ∧ c.authors = none ∧ c.year = none ∧ c.surveyDoi = none

instance (c : Cite) : Decidable c.bare := by unfold Cite.bare; infer_instance

theorem year_plain {y : Str} (h : yearOk y = true) : Plain y := by
  have hd : ∀ c : Char, c.isDigit = true ∨ c = '-' → ws c = false ∧ c ≠ '&' ∧ c ≠ '<' ∧ c ≠ '>' ∧ c ≠ '"' := by
    intro c hc
    rcases hc with hc | rfl
    · have h1 : 48 ≤ c.toNat ∧ c.toNat ≤ 57 := by
        unfold Char.isDigit at hc
        simp only [Bool.and_eq_true, decide_eq_true_eq] at hc
        exact ⟨UInt32.le_iff_toNat_le.1 hc.1, UInt32.le_iff_toNat_le.1 hc.2⟩
      have key : ∀ n, 48 ≤ n → n ≤ 57 → ws (Char.ofNat n) = false ∧ Char.ofNat n ≠ '&' ∧ Char.ofNat n ≠ '<' ∧ Char.ofNat n ≠ '>' ∧ Char.ofNat n ≠ '"' := by
        intro n a b
        have : n ∈ [48, 49, 50, 51, 52, 53, 54, 55, 56, 57] := by simp; omega
        revert this
        clear a b
        revert n
        decide +kernel
      have := key c.toNat h1.1 h1.2
      rwa [Char.ofNat_toNat] at this
    · decide
  have hchars : ∀ c ∈ y, c.isDigit = true ∨ c = '-' := by
    unfold yearOk at h
    simp only [Bool.or_eq_true, Bool.and_eq_true, List.all_eq_true, beq_iff_eq] at h
    rcases h with ⟨_, h⟩ | ⟨⟨⟨h9, h1⟩, h2⟩, h3⟩
    · exact fun c hc => .inl (h c hc)
    · intro c hc
      have e : y = y.take 4 ++ '-' :: y.drop 5 := by
        have hlt : 4 < y.length := by omega
        have e4 : y[4] = '-' := by
          rw [List.getElem?_eq_getElem hlt] at h2
          exact Option.some.inj h2
        calc y = y.take 4 ++ y.drop 4 := (List.take_append_drop 4 y).symm
          _ = y.take 4 ++ '-' :: y.drop 5 := by rw [List.drop_eq_getElem_cons hlt, e4]
      rw [e] at hc
      rcases List.mem_append.1 hc with hc | hc
      · exact .inl (h1 c hc)
      · rcases List.mem_cons.1 hc with rfl | hc
        · exact .inr rfl
        · exact .inl (h3 c hc)
  have hnull : ∀ w ∈ nullWords, yearOk w = false := by decide +kernel
  refine ⟨?_, ?_, fun c hc => hd c (hchars c hc)⟩
  · rintro rfl; cases h
  · intro hn
    rw [hnull y hn] at h
    cases h

/-- The keys of a citation. -/
def citeL (q : Bool) (c : Cite) : List (Str × Option J) :=
  [("title".toList, c.title.map fun s => leafJ q (some s)), ("authors".toList, c.authors.map fun s => leafJ q (some s)),
    ("year".toList, c.year.map fun s => leafJ q (some s)), ("survey_d_o_i".toList, c.surveyDoi.map fun s => leafJ q (some s))]

theorem cite_val (q : Bool) (n : Nat) (c : Cite) :
    Val q n (citeEl c) (if c.bare then .null else .dict (dictOf (citeL q c))) := by
  by_cases h : c.bare
  · rw [if_pos h]
    obtain ⟨h1, h2, h3, h4⟩ := h
    have e : citeEl c = .mk "Citation".toList [] none [] := by
      unfold citeEl
      rw [h1, h2, h3, h4]
      rfl
    rw [e]
    exact empty_val q n _
  · rw [if_neg h]
    have p1 := text_piece q (n + 1) "title" c.title "Title".toList "title".toList (by decide) (by decide)
    have p2 := text_piece q (n + 1) "authors" c.authors "Authors".toList "authors".toList (by decide) (by decide)
    have p3 := text_piece q (n + 1) "year" c.year "Year".toList "year".toList (by decide) (by decide)
    have p4 := text_piece q (n + 1) "survey_d_o_i" c.surveyDoi "SurveyDOI".toList "survey_d_o_i".toList (by decide) (by decide)
    have hv := Val.parent (n := n) "Citation".toList (attrs := []) (((p1.append p2).append p3).append p4)
      (Or.inl (by
        intro h0
        apply h
        simp only [List.append_eq_nil_iff] at h0
        obtain ⟨⟨⟨a1, a2⟩, a3⟩, a4⟩ := h0
        have hh : ∀ (k : String) (v : Option Str), textEl k v = [] → v = none := by
          intro k v hv
          cases v with
          | none => rfl
          | some s => cases hv
        exact ⟨hh _ _ a1, hh _ _ a2, hh _ _ a3, hh _ _ a4⟩)) (by decide +kernel) (by decide +kernel) (by decide +kernel) (by simp)
    have e : attrJ [] = [] := rfl
    rw [e, List.append_nil] at hv
    have hl : ∀ a b c d : List (Str × J), a ++ b ++ c ++ d = a ++ (b ++ (c ++ (d ++ []))) := by simp
    rw [hl] at hv
    exact hv

/-- The keys of a copyright. -/
def rightsL (q : Bool) (r : Rights) : List (Str × Option J) :=
  [("citation".toList, some (if r.cite.bare then .null else .dict (dictOf (citeL q r.cite)))),
    ("selected_publications".toList, r.publications.map fun s => leafJ q (some s)),
    ("acknowledgement".toList, r.acknowledgement.map fun s => leafJ q (some s)),
    ("release_status".toList, some (leafJ q (some (title false r.status)))),
    ("conditions_of_use".toList, some (leafJ q (some r.conditions))), ("additional_info".toList, r.info.map fun s => leafJ q (some s))]

theorem rights_val (q : Bool) (n : Nat) (r : Rights) : Val q n (rightsEl r) (.dict (dictOf (rightsL q r))) := by
  have p1 : Piece q (n + 1) [citeEl r.cite] ["Citation".toList] ["citation".toList]
      (opt "citation".toList (some (if r.cite.bare then .null else .dict (dictOf (citeL q r.cite))))) :=
    Piece.one (by decide) (tagged_st _ _ _ _ _ _) (cite_val _ _ _)
  have p2 := text_piece q (n + 1) "selected_publications" r.publications "SelectedPublications".toList "selected_publications".toList
    (by decide +kernel) (by decide +kernel)
  have p3 := text_piece q (n + 1) "acknowledgement" r.acknowledgement "Acknowledgement".toList "acknowledgement".toList
    (by decide +kernel) (by decide +kernel)
  have p4 := text_piece q (n + 1) "release_status" (some (title false r.status)) "ReleaseStatus".toList "release_status".toList
    (by decide +kernel) (by decide +kernel)
  have p5 := text_piece q (n + 1) "conditions_of_use" (some r.conditions) "ConditionsOfUse".toList "conditions_of_use".toList
    (by decide +kernel) (by decide +kernel)
  have p6 := text_piece q (n + 1) "additional_info" r.info "AdditionalInfo".toList "additional_info".toList (by decide +kernel) (by decide +kernel)
  have hv := Val.parent (n := n) "Copyright".toList (attrs := []) (((((p1.append p2).append p3).append p4).append p5).append p6)
    (Or.inl (by simp)) (by decide +kernel) (by decide +kernel) (by decide +kernel) (by simp)
  have e : attrJ [] = [] := rfl
  rw [e, List.append_nil] at hv
  have hl : ∀ a b c d e f : List (Str × J), a ++ b ++ c ++ d ++ e ++ f = a ++ (b ++ (c ++ (d ++ (e ++ (f ++ []))))) := by simp
  rw [hl] at hv
  exact hv

theorem optText_over (q : Bool) {d : List (Str × Option J)} (hn : (d.map Prod.fst).Nodup) (k : String) (v old : Option Str)
    (h : (OD.get? d k.toList).bind id = v.map fun s => leafJ q (some s)) : field (dictOf d) k old optText = .ok (over q v old) := by
  rw [field_dictOf hn, h]
  cases v with
  | none => rfl
  | some s =>
    simp only [Option.map_some, leafJ, over]
    cases seenText q (some s) <;> rfl

theorem isDoi_garbled (q : Bool) {u : Str} (h : isDoi u = true) : isDoi (garbled q u) = true := by
  unfold isDoi at h ⊢
  simp only [Bool.or_eq_true, List.isPrefixOf_iff_prefix] at h ⊢
  have e : ∀ p : Str, (∀ c ∈ p, c ≠ '&' ∧ c ≠ '<' ∧ c ≠ '>' ∧ c ≠ '"') → p <+: u → p <+: garbled q u := by
    rintro p hp ⟨t, rfl⟩
    rw [garbled_append, garbled_plain q hp]
    exact ⟨_, rfl⟩
  rcases h with h | h
  · exact .inl (e _ (by decide +kernel) h)
  · exact .inr (e _ (by decide +kernel) h)

theorem isDoi_text {u : Str} (h : isDoi u = true) : doiText u = u ∧ u ≠ [] := by
  unfold isDoi at h
  rw [Bool.or_eq_true, List.isPrefixOf_iff_prefix, List.isPrefixOf_iff_prefix] at h
  rcases h with ⟨t, rfl⟩ | ⟨t, rfl⟩
  · refine ⟨?_, by simp⟩
    unfold doiText; rw [if_neg (by simp), if_neg (by simp)]
  · refine ⟨?_, by simp⟩
    unfold doiText; rw [if_neg (by simp), if_neg (by simp)]

theorem read_cite {L : Links} {q : Bool} (G : Fair L q) (o : Cite) {r : Rights} (hr : r.Ok L) :
    readCite L o (.dict (dictOf (citeL q r.cite))) = .ok (seenCite q o r.cite) := by
  have hn : ((citeL q r.cite).map Prod.fst).Nodup :=
    (by decide +kernel : ["title".toList, "authors".toList, "year".toList, "survey_d_o_i".toList].Nodup)
  have f1 := optText_over q hn "title" r.cite.title o.title rfl
  have f2 := optText_over q hn "authors" r.cite.authors o.authors rfl
  have f3 : field (dictOf (citeL q r.cite)) "year" o.year yearOf = .ok (r.cite.year <|> o.year) := by
    have e : (OD.get? (citeL q r.cite) "year".toList).bind id = r.cite.year.map fun s => leafJ q (some s) := rfl
    rw [field_dictOf hn, e]
    cases h : r.cite.year with
    | none => rfl
    | some y =>
      have hy := hr.year y h
      simp only [Option.map_some, leafJ_plain q (year_plain hy), yearOf, hy, if_true]
      rfl
  have f4 : field (dictOf (citeL q r.cite)) "survey_d_o_i" o.surveyDoi (doiField L) = .ok (overDoi q r.cite.surveyDoi o.surveyDoi) := by
    have e : (OD.get? (citeL q r.cite) "survey_d_o_i".toList).bind id = r.cite.surveyDoi.map fun s => leafJ q (some s) := rfl
    rw [field_dictOf hn, e]
    cases h : r.cite.surveyDoi with
    | none => rfl
    | some u =>
      obtain ⟨h1, h2⟩ := hr.doi u h
      have hg := isDoi_garbled q h2
      obtain ⟨t1, t2⟩ := isDoi_text hg
      simp only [Option.map_some, url_leaf G h1, doiField]
      rw [doiOf_ne L t2, t1, G.escaped _ _ h1]
      simp only [hg, if_true]
      rfl
  have f5 : field (dictOf (citeL q r.cite)) "doi" o.doi (doiField L) = .ok o.doi := by
    rw [field_dictOf hn]; rfl
  have f6 : field (dictOf (citeL q r.cite)) "journal" o.journal optText = .ok o.journal := by
    rw [field_dictOf hn]; rfl
  have f7 : field (dictOf (citeL q r.cite)) "volume" o.volume optText = .ok o.volume := by
    rw [field_dictOf hn]; rfl
  have f8 : field (dictOf (citeL q r.cite)) "pages" o.pages optText = .ok o.pages := by
    rw [field_dictOf hn]; rfl
  simp only [readCite, f1, f2, f3, f4, f5, f6, f7, f8, Except.bind]
  rfl

theorem status_read (q : Bool) {t : Str} (h : t ∈ statuses) : statusOf (leafJ q (some (title false t))) = .ok t := by
  revert t
  cases q <;> decide +kernel

/-- A file that has been written can be read, as far as the copyright goes. -/
def C363_claim : Prop := ∀ (L : Links) (q : Bool), Fair L q → ∀ o r : Rights, r.Ok L → ∃ m, readRights L o [writeRights q r] = .ok m

/-- C363, C364: exactly what is read: `ValueError` if there is nothing of the citation; otherwise the texts as no file keeps them better, over what was
there before; not the journal, the volume, the pages and the other DOI. -/
theorem C364_read_partial {L : Links} {q : Bool} (G : Fair L q) (o : Rights) {r : Rights} (hr : r.Ok L) :
    readRights L o [writeRights q r] = if r.cite.bare then .error .valueError else .ok (seenRights q o r) := by
  have hv : rootValue [st q 1 (rightsEl r)] = .ok (some (.dict (dictOf (rightsL q r)))) :=
    rootValue_one (t := "Copyright".toList) (k := "copyright".toList) (tagged_st _ _ _ _ _ _) (by decide) (rights_val q 1 r)
  have e : writeRights q r = st q 1 (rightsEl r) := rfl
  have hn : ((rightsL q r).map Prod.fst).Nodup :=
    (by decide +kernel : ["citation".toList, "selected_publications".toList, "acknowledgement".toList, "release_status".toList,
      "conditions_of_use".toList, "additional_info".toList].Nodup)
  unfold readRights
  rw [e, hv]
  by_cases hb : r.cite.bare
  · have f1 : field (dictOf (rightsL q r)) "citation" o.cite (readCite L o.cite) = .error .valueError := by
      have e : (OD.get? (rightsL q r) "citation".toList).bind id = some .null := by
        unfold rightsL; rw [if_pos hb]; rfl
      rw [field_dictOf hn, e]
      rfl
    simp only [Except.bind, f1, if_pos hb]
  · have f1 : field (dictOf (rightsL q r)) "citation" o.cite (readCite L o.cite) = .ok (seenCite q o.cite r.cite) := by
      have e : (OD.get? (rightsL q r) "citation".toList).bind id = some (.dict (dictOf (citeL q r.cite))) := by
        unfold rightsL; rw [if_neg hb]; rfl
      rw [field_dictOf hn, e]
      exact read_cite G _ hr
    have f2 := optText_over q hn "selected_publications" r.publications o.publications rfl
    have f3 := optText_over q hn "acknowledgement" r.acknowledgement o.acknowledgement rfl
    have f4 : field (dictOf (rightsL q r)) "release_status" o.status statusOf = .ok r.status := by
      rw [field_dictOf hn]; exact status_read q hr.status
    have f5 : field (dictOf (rightsL q r)) "conditions_of_use" o.conditions plainText = .ok (seen q r.conditions) := by
      rw [field_dictOf hn]; exact plainText_leaf _ _
    have f6 := optText_over q hn "additional_info" r.info o.info rfl
    simp only [Except.bind, f1, f2, f3, f4, f5, f6, if_neg hb]
    rfl

/-- C363: if and only if the citation has a title, authors, a year or a survey DOI. -/
theorem C363_iff_partial {L : Links} {q : Bool} (G : Fair L q) (o : Rights) {r : Rights} (hr : r.Ok L) :
    (∃ m, readRights L o [writeRights q r] = .ok m) ↔
      r.cite.title ≠ none ∨ r.cite.authors ≠ none ∨ r.cite.year ≠ none ∨ r.cite.surveyDoi ≠ none := by
  rw [C364_read_partial G o hr]
  by_cases hb : r.cite.bare
  · rw [if_pos hb]
    obtain ⟨h1, h2, h3, h4⟩ := hb
    simp [h1, h2, h3, h4]
  · rw [if_neg hb]
    refine ⟨fun _ => ?_, fun _ => ⟨_, rfl⟩⟩
    by_cases h1 : r.cite.title = none
    · by_cases h2 : r.cite.authors = none
      · by_cases h3 : r.cite.year = none
        · exact .inr (.inr (.inr fun h4 => hb ⟨h1, h2, h3, h4⟩))
        · exact .inr (.inr (.inl h3))
      · exact .inr (.inl h2)
    · exact .inl h1

/-- C363: of a file with the citation of a survey, if and only if that has a DOI, authors, a title or a year. -/
theorem C363_survey_partial {L : Links} {q : Bool} (G : Fair L q) (o : Rights) {r : Rights} {s : Cite}
    (hr : Rights.Ok L { r with cite := ofSurvey r.cite s }) :
    (∃ m, readRights L o [writeRights q { r with cite := ofSurvey r.cite s }] = .ok m) ↔
      s.doi ≠ none ∨ s.authors ≠ none ∨ s.title ≠ none ∨ s.year ≠ none := by
  rw [C363_iff_partial G o hr]
  show s.title ≠ none ∨ s.authors ≠ none ∨ s.year ≠ none ∨ s.doi ≠ none ↔ _
  constructor
  · rintro (h | h | h | h)
    · exact .inr (.inr (.inl h))
    · exact .inr (.inl h)
    · exact .inr (.inr (.inr h))
    · exact .inl h
  · rintro (h | h | h | h)
    · exact .inr (.inr (.inr h))
    · exact .inr (.inl h)
    · exact .inl h
    · exact .inr (.inr (.inl h))

/-- copyright.py L18-L101: a new object (with short conditions). -/
def exRights : Rights := ⟨{}, none, none, "Unrestricted Release".toList, "Cite data upon usage.".toList, none⟩

theorem exRights_ok (c : Cite) (h1 : c.year = none) (h2 : c.surveyDoi = none) : Rights.Ok exL { exRights with cite := c } :=
  ⟨(by decide +kernel : exRights.status ∈ statuses), fun y h => (by rw [h1] at h; cases h), fun u h => (by rw [h2] at h; cases h)⟩

/-- C363 is false: there is no citation. -/
theorem C363_refuted : ¬ C363_claim := by
  intro h
  have hk : exRights.Ok exL := exRights_ok {} rfl rfl
  obtain ⟨m, hm⟩ := h exL true (exL_fair _) exRights exRights hk
  rw [C364_read_partial (exL_fair _) _ hk, if_pos (by decide)] at hm
  cases hm

/-- The citation is read as it was written, if its texts are plain. -/
def C364_claim : Prop := ∀ (L : Links) (q : Bool), Fair L q → ∀ o r m : Rights, r.Ok L → readRights L o [writeRights q r] = .ok m → m.cite = r.cite

/-- C364: plain texts, and a DOI without `&`, are read as they were written. -/
theorem C364_plain_partial {L : Links} {q : Bool} (G : Fair L q) (o : Rights) {r m : Rights} (hr : r.Ok L)
    (h : readRights L o [writeRights q r] = .ok m) :
    (∀ t, r.cite.title = some t → Plain t → m.cite.title = some t) ∧ (∀ t, r.cite.authors = some t → Plain t → m.cite.authors = some t) ∧
    (∀ y, r.cite.year = some y → m.cite.year = some y) ∧ (∀ u, r.cite.surveyDoi = some u → Plain u → m.cite.surveyDoi = some u) ∧
    (∀ t, r.publications = some t → Plain t → m.publications = some t) ∧ (∀ t, r.acknowledgement = some t → Plain t → m.acknowledgement = some t) ∧
    (∀ t, r.info = some t → Plain t → m.info = some t) ∧ m.status = r.status ∧
    m.cite.doi = o.cite.doi ∧ m.cite.journal = o.cite.journal ∧ m.cite.volume = o.cite.volume ∧ m.cite.pages = o.cite.pages := by
  rw [C364_read_partial G o hr] at h
  by_cases hb : r.cite.bare
  · rw [if_pos hb] at h; cases h
  · rw [if_neg hb] at h
    have h := Except.ok.inj h
    subst h
    have ho : ∀ (v old : Option Str) t, v = some t → Plain t → over q v old = some t := by
      rintro v old t rfl hp
      exact (plain_seen q hp).1
    refine ⟨fun t h1 h2 => ho _ _ t h1 h2, fun t h1 h2 => ho _ _ t h1 h2, fun y hy => ?_, fun u hu hp => ?_,
      fun t h1 h2 => ho _ _ t h1 h2, fun t h1 h2 => ho _ _ t h1 h2, fun t h1 h2 => ho _ _ t h1 h2, rfl, rfl, rfl, rfl, rfl⟩
    · show (r.cite.year <|> o.cite.year) = some y
      rw [hy]; rfl
    · show overDoi q r.cite.surveyDoi o.cite.surveyDoi = some u
      rw [hu]
      simp only [overDoi, (plain_seen q hp).2.1]

/-- C364 is false: the journal is not written. -/
theorem C364_refuted : ¬ C364_claim := by
  intro h
  have h1 := h exL true (exL_fair _) exRights { exRights with cite := { title := some "A".toList, journal := some "B".toList } } _
    (exRights_ok _ rfl rfl) (C364_read_partial (exL_fair _) _ (exRights_ok _ rfl rfl))
  exact absurd h1 (by decide +kernel)

/-- A copyright whose DOI has an `&`. -/
def exCited : Rights :=
  { exRights with
    cite := { title := some "A < B".toList, year := some "2020-2021".toList, surveyDoi := some "https://doi.org/10.1/a&b".toList } }

theorem exCited_ok : exCited.Ok exL :=
  ⟨by decide +kernel, fun y h => (by cases h; decide +kernel), fun u h => (by cases h; decide +kernel)⟩

example : ∃ m, readRights exL exRights [writeRights true exCited] = .ok m ∧
    m.cite = { title := some "A andlt; B".toList, year := some "2020-2021".toList, surveyDoi := some "https://doi.org/10.1/aandamp;b".toList } := by
  rw [C364_read_partial (exL_fair _) _ exCited_ok, if_neg (by decide)]
  exact ⟨_, rfl, by decide +kernel⟩

/-- What is read of a file does not depend on the file that the object has read before. -/
def C365_claim : Prop := ∀ (L : Links) (q : Bool), Fair L q → ∀ o p r : Rights, r.Ok L →
  readRights L o [writeRights q r] = readRights L p [writeRights q r]

/-- C365: it does not if the copyright that is written has all of the texts, except for the journal, the volume, the pages and the other DOI. -/
theorem C365_full_partial {L : Links} {q : Bool} (G : Fair L q) (o p : Rights) {r : Rights} (hr : r.Ok L)
    (h1 : r.cite.title ≠ none) (h2 : r.cite.authors ≠ none) (h3 : r.cite.year ≠ none) (h4 : r.cite.surveyDoi ≠ none) (h5 : r.publications ≠ none)
    (h6 : r.acknowledgement ≠ none) (h7 : r.info ≠ none)
    (h8 : (o.cite.doi, o.cite.journal, o.cite.volume, o.cite.pages) = (p.cite.doi, p.cite.journal, p.cite.volume, p.cite.pages)) :
    readRights L o [writeRights q r] = readRights L p [writeRights q r] := by
  rw [C364_read_partial G o hr, C364_read_partial G p hr]
  have ho : ∀ (v : Option Str) (a b : Option Str), v ≠ none → over q v a = over q v b := by
    intro v a b hv
    cases v with
    | none => exact absurd rfl hv
    | some s => rfl
  have hd : ∀ (v : Option Str) (a b : Option Str), v ≠ none → overDoi q v a = overDoi q v b := by
    intro v a b hv
    cases v with
    | none => exact absurd rfl hv
    | some s => rfl
  have hy : (r.cite.year <|> o.cite.year) = (r.cite.year <|> p.cite.year) := by
    cases h : r.cite.year with
    | none => exact absurd h h3
    | some y => rfl
  simp only [Prod.mk.injEq] at h8
  obtain ⟨a, b, c, d⟩ := h8
  unfold seenRights seenCite
  rw [ho _ o.cite.title p.cite.title h1, ho _ o.cite.authors p.cite.authors h2, hd _ o.cite.surveyDoi p.cite.surveyDoi h4,
    ho _ o.publications p.publications h5, ho _ o.acknowledgement p.acknowledgement h6, ho _ o.info p.info h7, hy, a, b, c, d]

/-- C365: the title, and likewise every other text, of the earlier file stays if the later has none. -/
theorem C365_kept_partial {L : Links} {q : Bool} (G : Fair L q) (o : Rights) {r m : Rights} (hr : r.Ok L)
    (h : readRights L o [writeRights q r] = .ok m) :
    (r.cite.title = none → m.cite.title = o.cite.title) ∧ (r.cite.authors = none → m.cite.authors = o.cite.authors) ∧
    (r.cite.year = none → m.cite.year = o.cite.year) ∧ (r.cite.surveyDoi = none → m.cite.surveyDoi = o.cite.surveyDoi) ∧
    (r.publications = none → m.publications = o.publications) ∧ (r.acknowledgement = none → m.acknowledgement = o.acknowledgement) ∧
    (r.info = none → m.info = o.info) := by
  rw [C364_read_partial G o hr] at h
  by_cases hb : r.cite.bare
  · rw [if_pos hb] at h; cases h
  · rw [if_neg hb] at h
    have h := Except.ok.inj h
    subst h
    have ho : ∀ v old : Option Str, v = none → over q v old = old := by rintro v old rfl; rfl
    refine ⟨fun h => ho _ _ h, fun h => ho _ _ h, fun h => ?_, fun h => ?_, fun h => ho _ _ h, fun h => ho _ _ h, fun h => ho _ _ h⟩
    · show (r.cite.year <|> o.cite.year) = _
      rw [h]; rfl
    · show overDoi q r.cite.surveyDoi o.cite.surveyDoi = _
      rw [h]; rfl

/-- C365 is false: the authors of the file read before. -/
theorem C365_refuted : ¬ C365_claim := by
  intro h
  have h1 := h exL true (exL_fair _) { exRights with cite := { authors := some "A".toList } } exRights
    { exRights with cite := { title := some "B".toList } } (exRights_ok _ rfl rfl)
  rw [C364_read_partial (exL_fair _) _ (exRights_ok _ rfl rfl), C364_read_partial (exL_fair _) _ (exRights_ok _ rfl rfl)] at h1
  exact absurd h1 (by decide +kernel)

end Verif.EmtfRest
