import Verif.Model.EmtfSite
import Verif.Props.EmtfFile

/-! # C270-C274: the site in EMTF XML files -/

namespace Verif.EmtfSite
open Verif.Text Verif.EmtfData Verif.EmtfFile

variable {F T : Type}

/-! ## Specification -/

/-- What remains of a text that is an attribute of the site: nothing if it is a word for nothing. -/
def seen (q : Bool) (s : Str) : Str := (seenText q (some s)).getD []

/-- A text that has both brackets, without the brackets at its ends. -/
def unbracket (t : Str) : Str :=
  if '[' ∈ t ∧ ']' ∈ t then (((t.dropWhile (· ∈ ['[', ']'])).reverse).dropWhile (· ∈ ['[', ']'])).reverse else t

/-- The names in a text: between commas, if there is none between blanks. -/
def pieces (t : Str) : List Str :=
  if ',' ∈ t then splitC ',' t else if ' ' ∈ t then splitC ' ' t else if t = [] then [] else [t]

/-- What remains of a list of runs. -/
def seenRuns (q : Bool) (l : Option (List Str)) : List Str :=
  match seenText q (some (join [' '] (l.getD []))) with
  | none => []
  | some t => pieces (unbracket t)

/-- What remains of a place: rounded, the epoch up to a dot; no offsets, and the default model of the declination. -/
def seenPlace (r3 r6 : F → F) (zero : F) (p : Place F) : Place F :=
  { datum := p.datum, lat := r6 p.lat, lon := r6 p.lon, elev := r3 p.elev, x := zero, y := zero, z := zero,
    declination := r3 p.declination, epoch := some (seenAttr ((p.epoch.getD "1995".toList).takeWhile (· ≠ '.'))),
    model := "IGRF".toList }

/-- What remains of a site. -/
def seenSite (W : Outside F T) (r3 r6 : F → F) (s : Site F T) : Site F T :=
  { project := seen W.quotes s.project, survey := seen W.quotes s.survey, year := s.year, country := seen W.quotes s.country,
    id := seen W.quotes s.id, name := seen W.quotes s.name, location := seenPlace r3 r6 W.zero s.location,
    angle := if s.layout = .orthogonal then r3 s.angle else W.zero, layout := s.layout, acquired := seen W.quotes s.acquired,
    start := s.start, stop := if W.earlier s.stop s.start = true then s.start else s.stop,
    runs := some (seenRuns W.quotes s.runs),
    notes := ⟨s.notes.rating, s.notes.goodFrom, s.notes.goodTo, some (seenAttr (s.notes.author.getD [])), seenComment W.quotes s.notes.value⟩,
    warnings := ⟨s.warnings.flag, some (seenAttr (s.warnings.author.getD [])), seenComment W.quotes s.warnings.value⟩,
    author := none, value := none }

/-- What is there after reading a site into one that holds the site `o` already: what the file does not have stays, and so
does the layout if the file has an orthogonal one. -/
def seenOver (W : Outside F T) (r3 r6 : F → F) (o s : Site F T) : Site F T :=
  { seenSite W r3 r6 s with
    year := s.year <|> o.year
    angle := if s.layout = .orthogonal then r3 s.angle else o.angle
    layout := if s.layout = .orthogonal then o.layout else s.layout
    runs := if s.runs.getD [] = [] then some (o.runs.getD []) else some (seenRuns W.quotes s.runs)
    notes := ⟨s.notes.rating <|> o.notes.rating, s.notes.goodFrom <|> o.notes.goodFrom, s.notes.goodTo <|> o.notes.goodTo,
      some (seenAttr (s.notes.author.getD [])), seenComment W.quotes s.notes.value⟩
    warnings := ⟨s.warnings.flag <|> o.warnings.flag, some (seenAttr (s.warnings.author.getD [])),
      seenComment W.quotes s.warnings.value <|> o.warnings.value⟩
    author := o.author
    value := o.value }

/-- Numbers, times, years and names of reference systems are read as they were printed, places rounded. -/
structure Fair (W : Outside F T) (r3 r6 : F → F) : Prop where
  good : Good W.toWorld r3
  fixed6 : ∀ x, Plain (W.fixed6 x) ∧ W.position (W.fixed6 x) = some (r6 x)
  lat : ∀ x, W.latOk x = true → W.latOk (r6 x) = true
  lon : ∀ x, W.lonOk x = true → W.lonOk (r6 x) = true
  crs : ∀ u d, W.crs u = some d → seenAttr d = d ∧ W.crs d = some d
  int : ∀ n, Plain (W.shownInt n) ∧ W.parseInt (W.shownInt n) = some n
  year : ∀ y, 1900 ≤ y → y ≤ 2200 → '-' ∉ W.shownInt y ∧ W.year (W.shownInt y) = some y

/-- A site as its class admits it (site.py L27, L84; common/location.py L64-L67, L130-L140), with a year of a time stamp. -/
structure Site.Ok (W : Outside F T) (s : Site F T) : Prop where
  project : ∀ c ∈ s.project, projectChar c = true
  id : ∀ c ∈ s.id, alnum c = true
  lat : W.latOk s.location.lat = true
  lon : W.lonOk s.location.lon = true
  datum : ∃ u, W.crs u = some s.location.datum
  year : ∀ y, s.year = some y → 1900 ≤ y ∧ y ≤ 2200

/-! ## Elements and their values -/

theorem split1_takeWhile (c : Char) (s : Str) : (split1 c s).1 = s.takeWhile (· ≠ c) := by
  induction s with
  | nil => rfl
  | cons x xs ih =>
    rw [split1, List.takeWhile_cons]
    by_cases h : x = c
    · simp [h]
    · simp [h, ih]

/-- What is read of a text of an attribute that is never `None`. -/
theorem plainText_leaf (q : Bool) (s : Str) : plainText (leafJ q (some s)) = .ok (seen q s) := by
  unfold leafJ seen
  cases seenText q (some s) <;> rfl

theorem leafJ_plain (q : Bool) {s : Str} (h : Plain s) : leafJ q (some s) = .str s := by
  unfold leafJ; rw [(plain_seen q h).1]

theorem text_piece (q : Bool) (n : Nat) (k : String) (v : Option Str) (t kk : Str) (ht : tagOf (capwords k.toList) = t)
    (hk : Names.validateName t = .ok kk) :
    Piece q n (textEl k v) [t] [kk] (opt kk (v.map fun s => leafJ q (some s))) := by
  cases v with
  | none => exact Piece.nil _ _ _ _
  | some s =>
    refine Piece.one hk (ht ▸ tagged_st _ _ _ _ _ _) ?_
    have := Val.leaf q n (capwords k.toList) (if nullValues.contains s then none else some s)
    rw [leafJ_null] at this
    exact this

theorem field_dictOf {α : Type} {l : List (Str × Option J)} (h : (l.map Prod.fst).Nodup) (k : String) (old : α) (f : J → Except PyErr α) :
    field (dictOf l) k old f = match (OD.get? l k.toList).bind id with
      | none => .ok old
      | some v => f v := by
  unfold field
  rw [get?_dictOf h]
  rfl

/-! ### Places -/

/-- The keys of a declination. -/
def declD (W : Outside F T) (p : Place F) : List (Str × J) :=
  [("epoch".toList, .str (seenAttr ((p.epoch.getD "1995".toList).takeWhile (· ≠ '.')))), ("value".toList, .str (W.fixed p.declination))]

/-- The keys of a place. -/
def placeL (W : Outside F T) (p : Place F) : List (Str × Option J) :=
  [("latitude".toList, some (.str (W.fixed6 p.lat))), ("longitude".toList, some (.str (W.fixed6 p.lon))),
    ("elevation".toList, some (.str (W.fixed p.elev))), ("declination".toList, some (.dict (declD W p))),
    ("datum".toList, some (.str (seenAttr p.datum)))]

theorem place_val {W : Outside F T} {r3 r6 : F → F} (G : Fair W r3 r6) (n : Nat) (p : Place F) :
    Val W.quotes n (placeEl W p) (.dict (dictOf (placeL W p))) := by
  have p1 : Piece W.quotes (n + 1) [.mk "Latitude".toList [] (some (W.fixed6 p.lat)) []] ["Latitude".toList] ["latitude".toList]
      (opt "latitude".toList (some (.str (W.fixed6 p.lat)))) :=
    Piece.one (by decide) (tagged_st _ _ _ _ _ _) (leafJ_plain W.quotes (G.fixed6 p.lat).1 ▸ Val.leaf _ _ _ _)
  have p2 : Piece W.quotes (n + 1) [.mk "Longitude".toList [] (some (W.fixed6 p.lon)) []] ["Longitude".toList] ["longitude".toList]
      (opt "longitude".toList (some (.str (W.fixed6 p.lon)))) :=
    Piece.one (by decide) (tagged_st _ _ _ _ _ _) (leafJ_plain W.quotes (G.fixed6 p.lon).1 ▸ Val.leaf _ _ _ _)
  have p3 : Piece W.quotes (n + 1) [.mk "Elevation".toList [("units".toList, "meters".toList)] (some (W.fixed p.elev)) []]
      ["Elevation".toList] ["elevation".toList] (opt "elevation".toList (some (.str (W.fixed p.elev)))) :=
    Piece.one (by decide) (tagged_st _ _ _ _ _ _) (Val.units _ _ _ _ (G.good.fixed p.elev).1)
  have hd : Val W.quotes (n + 1) (.mk "Declination".toList [("epoch".toList, (split1 '.' (p.epoch.getD "1995".toList)).1)]
      (some (W.fixed p.declination)) []) (.dict (declD W p)) := by
    have := Val.attrs (q := W.quotes) (n := n + 1) "Declination".toList
      (attrs := [("epoch".toList, (split1 '.' (p.epoch.getD "1995".toList)).1)]) (W.fixed p.declination) (by simp) rfl
      (by simp only [List.map_cons, List.map_nil]; decide) (by simp only [List.map_cons, List.map_nil]; decide)
    have e : textJ W.quotes (W.fixed p.declination) = some (.str (W.fixed p.declination)) := by
      unfold textJ
      rw [(plain_seen W.quotes (G.good.fixed p.declination).1).1]
      have hne := (G.good.fixed p.declination).1.1
      cases h : W.fixed p.declination with
      | nil => exact absurd h hne
      | cons c cs => rfl
    rw [e, split1_takeWhile] at this
    rw [split1_takeWhile]
    exact this
  have p4 : Piece W.quotes (n + 1) [.mk "Declination".toList [("epoch".toList, (split1 '.' (p.epoch.getD "1995".toList)).1)]
      (some (W.fixed p.declination)) []] ["Declination".toList] ["declination".toList]
      (opt "declination".toList (some (.dict (declD W p)))) :=
    Piece.one (by decide) (tagged_st _ _ _ _ _ _) hd
  exact Val.parent (n := n) "Location".toList (attrs := [("datum".toList, p.datum)]) (((p1.append p2).append p3).append p4)
    (Or.inr (by simp)) (by simp only [List.map_cons, List.map_nil]; decide) (by simp only [List.map_cons, List.map_nil]; decide) (by decide)
    (by simp only [List.map_cons, List.map_nil]; decide)

theorem numberOf_str {W : Outside F T} {s : Str} {x : F} (h : W.parse s = some x) : numberOf W (.str s) = .ok x := by
  simp only [numberOf, parsed, h]

theorem read_place {W : Outside F T} {r3 r6 : F → F} (G : Fair W r3 r6) (p : Place F) (hlat : W.latOk p.lat = true)
    (hlon : W.lonOk p.lon = true) (hd : ∃ u, W.crs u = some p.datum) :
    readPlace W (.dict (dictOf (placeL W p))) = .ok (seenPlace r3 r6 W.zero p) := by
  have hn : ((placeL W p).map Prod.fst).Nodup :=
    (by decide : ["latitude".toList, "longitude".toList, "elevation".toList, "declination".toList, "datum".toList].Nodup)
  obtain ⟨u, hu⟩ := hd
  have f1 : field (dictOf (placeL W p)) "datum" wgs (parsed W.crs) = .ok p.datum := by
    rw [field_dictOf hn]
    show parsed W.crs (.str (seenAttr p.datum)) = _
    simp only [parsed, (G.crs u _ hu).1, (G.crs u _ hu).2]
  have f2 : field (dictOf (placeL W p)) "latitude" W.zero (positionOf W W.latOk) = .ok (r6 p.lat) := by
    rw [field_dictOf hn]
    show positionOf W W.latOk (.str (W.fixed6 p.lat)) = _
    simp only [positionOf, (G.fixed6 p.lat).2, G.lat _ hlat, if_true]
  have f3 : field (dictOf (placeL W p)) "longitude" W.zero (positionOf W W.lonOk) = .ok (r6 p.lon) := by
    rw [field_dictOf hn]
    show positionOf W W.lonOk (.str (W.fixed6 p.lon)) = _
    simp only [positionOf, (G.fixed6 p.lon).2, G.lon _ hlon, if_true]
  have f4 : field (dictOf (placeL W p)) "elevation" W.zero (numberOf W) = .ok (r3 p.elev) := by
    rw [field_dictOf hn]
    exact numberOf_str (G.good.fixed _).2
  have f5 : field (dictOf (placeL W p)) "x" W.zero (numberOf W) = .ok W.zero := by rw [field_dictOf hn]; rfl
  have f6 : field (dictOf (placeL W p)) "y" W.zero (numberOf W) = .ok W.zero := by rw [field_dictOf hn]; rfl
  have f7 : field (dictOf (placeL W p)) "z" W.zero (numberOf W) = .ok W.zero := by rw [field_dictOf hn]; rfl
  have f8 : field (dictOf (placeL W p)) "declination" (W.zero, none, "IGRF".toList) (readDeclination W) =
      .ok (r3 p.declination, some (seenAttr ((p.epoch.getD "1995".toList).takeWhile (· ≠ '.'))), "IGRF".toList) := by
    rw [field_dictOf hn]
    show readDeclination W (.dict (declD W p)) = _
    have g1 : field (declD W p) "value" W.zero (numberOf W) = .ok (r3 p.declination) := numberOf_str (G.good.fixed _).2
    have g2 : field (declD W p) "epoch" none optText =
      .ok (some (seenAttr ((p.epoch.getD "1995".toList).takeWhile (· ≠ '.')))) := rfl
    have g3 : field (declD W p) "model" "IGRF".toList plainText = .ok "IGRF".toList := rfl
    simp only [readDeclination, g1, g2, g3, Except.bind]
  simp only [readPlace, f1, f2, f3, f4, f5, f6, f7, f8, Except.bind]
  rfl

/-! ### Orientation -/

/-- The value of the orientation. -/
def orientJ (W : Outside F T) (a : F) (l : Layout) : J :=
  match l with
  | .orthogonal => .dict [("angle_to_geographic_north".toList, .str (W.fixed a)), ("value".toList, .str "orthogonal".toList)]
  | l => .str l.text

theorem orient_val {W : Outside F T} {r3 r6 : F → F} (G : Fair W r3 r6) (n : Nat) (a : F) (l : Layout) :
    Val W.quotes n (orientationEl W a l) (orientJ W a l) := by
  have hp : ∀ l : Layout, Plain l.text := by
    intro l
    unfold EmtfFile.Plain
    cases l <;> decide
  cases l with
  | orthogonal =>
    have := Val.attrs (q := W.quotes) (n := n) "Orientation".toList (attrs := [("angle_to_geographic_north".toList, W.fixed a)])
      Layout.orthogonal.text (by simp) rfl (by simp only [List.map_cons, List.map_nil]; decide +kernel)
      (by simp only [List.map_cons, List.map_nil]; decide +kernel)
    have e : textJ W.quotes Layout.orthogonal.text = some (.str "orthogonal".toList) := by
      unfold textJ
      rw [(plain_seen W.quotes (hp .orthogonal)).1]
      rfl
    have e2 : attrJ [("angle_to_geographic_north".toList, W.fixed a)] = [("angle_to_geographic_north".toList, .str (W.fixed a))] := by
      have : seenAttr (W.fixed a) = W.fixed a := plain_attr (G.good.fixed a).1
      have h : attrJ [("angle_to_geographic_north".toList, W.fixed a)] =
        [("angle_to_geographic_north".toList, .str (seenAttr (W.fixed a)))] := rfl
      rw [h, this]
    rw [e, e2] at this
    exact this
  | station =>
    have := Val.leaf W.quotes n "Orientation".toList (some Layout.station.text)
    rw [leafJ_plain W.quotes (hp .station)] at this
    exact this
  | siteLayout =>
    have := Val.leaf W.quotes n "Orientation".toList (some Layout.siteLayout.text)
    rw [leafJ_plain W.quotes (hp .siteLayout)] at this
    exact this

theorem read_orient {W : Outside F T} {r3 r6 : F → F} (G : Fair W r3 r6) (old : F × Layout) (a : F) (l : Layout) :
    readOrientation W old (orientJ W a l) = .ok (if l = .orthogonal then r3 a else old.1, if l = .orthogonal then old.2 else l) := by
  cases l with
  | orthogonal =>
    have g1 : ∀ d, field (("angle_to_geographic_north".toList, J.str (W.fixed a)) :: d) "angle_to_geographic_north" old.1 (numberOf W) = .ok (r3 a) :=
      fun d => numberOf_str (G.good.fixed _).2
    have g2 : field [("angle_to_geographic_north".toList, J.str (W.fixed a)), ("value".toList, .str "orthogonal".toList)] "layout" old.2 layoutOf =
      .ok old.2 := rfl
    simp only [orientJ, readOrientation, g1, g2, Except.bind, if_true]
  | station => rfl
  | siteLayout => rfl

/-! ### Data quality -/

theorem value_piece {α : Type} (q : Bool) (n : Nat) (k : String) (shown : α → Str) (hp : ∀ x, Plain (shown x)) (v : Option α) (t kk : Str)
    (ht : tagOf (capwords k.toList) = t) (hk : Names.validateName t = .ok kk) :
    Piece q n (valueEl k shown v) [t] [kk] (opt kk (v.map fun x => .str (shown x))) := by
  have := text_piece q n k (v.map shown) t kk ht hk
  have e : (v.map shown).map (fun s => leafJ q (some s)) = v.map fun x => J.str (shown x) := by
    cases v with
    | none => rfl
    | some x => simp only [Option.map_some, leafJ_plain q (hp x)]
  rw [e] at this
  exact this

theorem comment_into (q : Bool) (old : Option Str × Option Str) (author value : Option Str) :
    commentInto old (.dict (commentD q author value)) =
      .ok (some (seenAttr (author.getD [])), seenComment q value <|> old.2) := by
  have f1 : field (commentD q author value) "author" old.1 optText = .ok (some (seenAttr (author.getD []))) := rfl
  have f2 : field (commentD q author value) "value" old.2 optText = .ok (seenComment q value <|> old.2) := by
    have : OD.get? (commentD q author value) "value".toList = textJ q (value.getD []) := by
      unfold commentD
      rw [OD.get?_append, get?_opt, if_pos rfl]
      rfl
    unfold field
    rw [this]
    cases value with
    | none => rfl
    | some s =>
      unfold textJ seenComment
      simp only [Option.getD_some]
      rcases seenText q (some s) with _ | _ | ⟨c, cs⟩ <;> rfl
  unfold commentInto
  simp only [f1, f2, Except.bind]

/-- The keys of the notes. -/
def qualityL (W : Outside F T) (q : Quality F) : List (Str × Option J) :=
  [("rating".toList, q.rating.map fun n => .str (W.shownInt n)), ("good_from_period".toList, q.goodFrom.map fun x => .str (W.shown x)),
    ("good_to_period".toList, q.goodTo.map fun x => .str (W.shown x)), ("comments".toList, some (.dict (commentD W.quotes q.author q.value)))]

theorem quality_val {W : Outside F T} {r3 r6 : F → F} (G : Fair W r3 r6) (n : Nat) (q : Quality F) :
    Val W.quotes n (qualityEl W q) (.dict (dictOf (qualityL W q))) := by
  have p1 := value_piece W.quotes (n + 1) "rating" W.shownInt (fun x => (G.int x).1) q.rating "Rating".toList "rating".toList (by decide) (by decide)
  have p2 := value_piece W.quotes (n + 1) "good_from_period" W.shown (fun x => (G.good.shown x).1) q.goodFrom "GoodFromPeriod".toList
    "good_from_period".toList (by decide +kernel) (by decide +kernel)
  have p3 := value_piece W.quotes (n + 1) "good_to_period" W.shown (fun x => (G.good.shown x).1) q.goodTo "GoodToPeriod".toList
    "good_to_period".toList (by decide +kernel) (by decide +kernel)
  have p4 : Piece W.quotes (n + 1) [commentEl q.author q.value] ["Comments".toList] ["comments".toList]
      (opt "comments".toList (some (.dict (commentD W.quotes q.author q.value)))) :=
    Piece.one (by decide) (tagged_st _ _ _ _ _ _) (comment_val _ _ _ _)
  have hv := Val.parent (n := n) "DataQualityNotes".toList (attrs := []) (((p1.append p2).append p3).append p4)
    (Or.inl (by simp)) (by decide +kernel) (by decide +kernel) (by decide +kernel) (by simp)
  have e : attrJ [] = [] := rfl
  rw [e, List.append_nil] at hv
  have hl : ∀ a b c d : List (Str × J), a ++ b ++ c ++ d = a ++ (b ++ (c ++ (d ++ []))) := by simp
  rw [hl] at hv
  exact hv

theorem read_quality {W : Outside F T} {r3 r6 : F → F} (G : Fair W r3 r6) (old : Quality F) (q : Quality F) :
    readQuality W old (.dict (dictOf (qualityL W q))) =
      .ok ⟨q.rating <|> old.rating, q.goodFrom <|> old.goodFrom, q.goodTo <|> old.goodTo, some (seenAttr (q.author.getD [])), seenComment W.quotes q.value⟩ := by
  have hn : ((qualityL W q).map Prod.fst).Nodup :=
    (by decide +kernel : ["rating".toList, "good_from_period".toList, "good_to_period".toList, "comments".toList].Nodup)
  have f1 : field (dictOf (qualityL W q)) "comments" (none, some []) (commentInto (none, none)) =
      .ok (some (seenAttr (q.author.getD [])), seenComment W.quotes q.value) := by
    rw [field_dictOf hn]
    show commentInto (none, none) (.dict (commentD W.quotes q.author q.value)) = _
    rw [comment_into]
    cases seenComment W.quotes q.value <;> rfl
  have f2 : field (dictOf (qualityL W q)) "rating" old.rating (optParsed W.parseInt) = .ok (q.rating <|> old.rating) := by
    rw [field_dictOf hn]
    cases h : q.rating with
    | none =>
      have : (OD.get? (qualityL W q) "rating".toList).bind id = none := by unfold qualityL; rw [h]; rfl
      rw [this]
      rfl
    | some x =>
      have : (OD.get? (qualityL W q) "rating".toList).bind id = some (.str (W.shownInt x)) := by unfold qualityL; rw [h]; rfl
      rw [this]
      simp only [optParsed, (G.int x).2]
      rfl
  have f3 : field (dictOf (qualityL W q)) "good_from_period" old.goodFrom (optNum W.toWorld) = .ok (q.goodFrom <|> old.goodFrom) := by
    rw [field_dictOf hn]
    cases h : q.goodFrom with
    | none =>
      have : (OD.get? (qualityL W q) "good_from_period".toList).bind id = none := by unfold qualityL; rw [h]; rfl
      rw [this]
      rfl
    | some x =>
      have : (OD.get? (qualityL W q) "good_from_period".toList).bind id = some (.str (W.shown x)) := by unfold qualityL; rw [h]; rfl
      rw [this]
      simp only [optNum, (G.good.shown x).2]
      rfl
  have f4 : field (dictOf (qualityL W q)) "good_to_period" old.goodTo (optNum W.toWorld) = .ok (q.goodTo <|> old.goodTo) := by
    rw [field_dictOf hn]
    cases h : q.goodTo with
    | none =>
      have : (OD.get? (qualityL W q) "good_to_period".toList).bind id = none := by unfold qualityL; rw [h]; rfl
      rw [this]
      rfl
    | some x =>
      have : (OD.get? (qualityL W q) "good_to_period".toList).bind id = some (.str (W.shown x)) := by unfold qualityL; rw [h]; rfl
      rw [this]
      simp only [optNum, (G.good.shown x).2]
      rfl
  simp only [readQuality, f1, f2, f3, f4, Except.bind]

/-- The keys of the warnings. -/
def warningsL (W : Outside F T) (q : Warnings) : List (Str × Option J) :=
  [("flag".toList, q.flag.map fun n => .str (W.shownInt n)), ("comments".toList, some (.dict (commentD W.quotes q.author q.value)))]

theorem warnings_val {W : Outside F T} {r3 r6 : F → F} (G : Fair W r3 r6) (n : Nat) (q : Warnings) :
    Val W.quotes n (warningsEl W q) (.dict (dictOf (warningsL W q))) := by
  have p1 := value_piece W.quotes (n + 1) "flag" W.shownInt (fun x => (G.int x).1) q.flag "Flag".toList "flag".toList (by decide) (by decide)
  have p4 : Piece W.quotes (n + 1) [commentEl q.author q.value] ["Comments".toList] ["comments".toList]
      (opt "comments".toList (some (.dict (commentD W.quotes q.author q.value)))) :=
    Piece.one (by decide) (tagged_st _ _ _ _ _ _) (comment_val _ _ _ _)
  have hv := Val.parent (n := n) "DataQualityWarnings".toList (attrs := []) (p1.append p4)
    (Or.inl (by simp)) (by decide +kernel) (by decide +kernel) (by decide +kernel) (by simp)
  have e : attrJ [] = [] := rfl
  rw [e, List.append_nil] at hv
  have hl : ∀ a b : List (Str × J), a ++ b = a ++ (b ++ []) := by simp
  rw [hl] at hv
  exact hv

theorem read_warnings {W : Outside F T} {r3 r6 : F → F} (G : Fair W r3 r6) (old : Warnings) (q : Warnings) :
    readWarnings W old (.dict (dictOf (warningsL W q))) =
      .ok ⟨q.flag <|> old.flag, some (seenAttr (q.author.getD [])), seenComment W.quotes q.value <|> old.value⟩ := by
  have hn : ((warningsL W q).map Prod.fst).Nodup := (by decide +kernel : ["flag".toList, "comments".toList].Nodup)
  have f2 : field (dictOf (warningsL W q)) "flag" old.flag (optParsed W.parseInt) = .ok (q.flag <|> old.flag) := by
    rw [field_dictOf hn]
    cases h : q.flag with
    | none =>
      have : (OD.get? (warningsL W q) "flag".toList).bind id = none := by unfold warningsL; rw [h]; rfl
      rw [this]
      rfl
    | some x =>
      have : (OD.get? (warningsL W q) "flag".toList).bind id = some (.str (W.shownInt x)) := by unfold warningsL; rw [h]; rfl
      rw [this]
      simp only [optParsed, (G.int x).2]
      rfl
  have f1 : field (dictOf (warningsL W q)) "comments" (old.author, old.value) (warningsComment (old.author, old.value)) =
      .ok (some (seenAttr (q.author.getD [])), seenComment W.quotes q.value <|> old.value) := by
    rw [field_dictOf hn]
    exact comment_into _ _ _ _
  simp only [readWarnings, f1, f2, Except.bind]

/-! ### Runs -/

theorem runs_read (q : Bool) (l : Option (List Str)) :
    (runsOf (leafJ q (some (join [' '] (l.getD []))))).map (fun r => r.getD []) = .ok (seenRuns q l) := by
  unfold leafJ seenRuns
  cases seenText q (some (join [' '] (l.getD []))) with
  | none => rfl
  | some t =>
    simp only [runsOf, Except.map]
    have e : (if (t.contains '[' && t.contains ']') = true then stripBrackets t else t) = unbracket t := by
      have h1 : (t.contains '[' && t.contains ']') = true ↔ '[' ∈ t ∧ ']' ∈ t := by simp
      unfold unbracket
      by_cases h : '[' ∈ t ∧ ']' ∈ t
      · rw [if_pos h, if_pos (h1.2 h)]
        unfold stripBrackets
        have e : (fun c : Char => c == '[' || c == ']') = fun c => decide (c ∈ ['[', ']']) := by
          funext c
          rw [Bool.eq_iff_iff]
          simp
        rw [e]
      · rw [if_neg h, if_neg fun x => h (h1.1 x)]
    rw [e]
    generalize unbracket t = u
    simp only [Option.getD_some, Except.ok.injEq]
    unfold runsOfText pieces
    simp only [List.contains_iff_mem, List.isEmpty_iff]

/-- The value of the list of runs, if it is written. -/
def runsJ (q : Bool) (l : Option (List Str)) : Option J :=
  match l.getD [] with
  | [] => none
  | x :: xs => some (leafJ q (some (join [' '] (x :: xs))))

theorem runs_piece (q : Bool) (n : Nat) (l : Option (List Str)) :
    Piece q n (listEl "run_list" l) ["RunList".toList] ["run_list".toList] (opt "run_list".toList (runsJ q l)) := by
  rcases l with _ | _ | ⟨x, xs⟩
  · exact Piece.nil _ _ _ _
  · exact Piece.nil _ _ _ _
  · exact text_piece q n "run_list" (some (join [' '] (x :: xs))) _ _ (by decide +kernel) (by decide +kernel)

theorem runsJ_read (q : Bool) (old l : Option (List Str)) :
    (match runsJ q l with
      | none => Except.ok old
      | some v => runsOf v).map (fun r => Option.getD r []) = .ok (if l.getD [] = [] then old.getD [] else seenRuns q l) := by
  rcases l with _ | _ | ⟨x, xs⟩
  · rfl
  · rfl
  · exact runs_read q (some (x :: xs))

/-! ## The site -/

/-- The keys of a site. -/
def siteL (W : Outside F T) [DecidableEq T] (s : Site F T) : List (Str × Option J) :=
  [("project".toList, some (leafJ W.quotes (some s.project))), ("survey".toList, some (leafJ W.quotes (some s.survey))),
    ("year_collected".toList, s.year.map fun n => .str (W.shownInt n)), ("country".toList, some (leafJ W.quotes (some s.country))),
    ("id".toList, some (leafJ W.quotes (some s.id))), ("name".toList, some (leafJ W.quotes (some s.name))),
    ("location".toList, some (.dict (dictOf (placeL W s.location)))), ("orientation".toList, some (orientJ W s.angle s.layout)),
    ("acquired_by".toList, some (leafJ W.quotes (some s.acquired))),
    ("start".toList, some (leafJ W.quotes (if s.start = W.noTime then none else some (W.shownTime s.start)))),
    ("end".toList, some (leafJ W.quotes (if endOf W s = W.noTime then none else some (W.shownTime (endOf W s))))),
    ("run_list".toList, runsJ W.quotes s.runs), ("data_quality_notes".toList, some (.dict (dictOf (qualityL W s.notes)))),
    ("data_quality_warnings".toList, some (.dict (dictOf (warningsL W s.warnings))))]

/-- The names of the keys, in their order. -/
def siteKeys : List Str :=
  ["project".toList, "survey".toList, "year_collected".toList, "country".toList, "id".toList, "name".toList, "location".toList,
    "orientation".toList, "acquired_by".toList, "start".toList, "end".toList, "run_list".toList, "data_quality_notes".toList,
    "data_quality_warnings".toList]

theorem siteKeys_nodup : siteKeys.Nodup := by decide +kernel

theorem siteL_keys (W : Outside F T) [DecidableEq T] (s : Site F T) : (siteL W s).map Prod.fst = siteKeys := rfl

theorem site_val {W : Outside F T} [DecidableEq T] {r3 r6 : F → F} (G : Fair W r3 r6) (n : Nat) (s : Site F T) :
    Val W.quotes n (siteEl W s) (.dict (dictOf (siteL W s))) := by
  have p1 := text_piece W.quotes (n + 1) "project" (some s.project) "Project".toList "project".toList (by decide) (by decide)
  have p2 := text_piece W.quotes (n + 1) "survey" (some s.survey) "Survey".toList "survey".toList (by decide) (by decide)
  have p3 := value_piece W.quotes (n + 1) "year_collected" W.shownInt (fun x => (G.int x).1) s.year "YearCollected".toList
    "year_collected".toList (by decide +kernel) (by decide +kernel)
  have p4 := text_piece W.quotes (n + 1) "country" (some s.country) "Country".toList "country".toList (by decide) (by decide)
  have p5 := text_piece W.quotes (n + 1) "id" (some s.id) "Id".toList "id".toList (by decide) (by decide)
  have p6 := text_piece W.quotes (n + 1) "name" (some s.name) "Name".toList "name".toList (by decide) (by decide)
  have p7 : Piece W.quotes (n + 1) [placeEl W s.location] ["Location".toList] ["location".toList]
      (opt "location".toList (some (.dict (dictOf (placeL W s.location))))) :=
    Piece.one (by decide) (tagged_st _ _ _ _ _ _) (place_val G _ _)
  have p8 : Piece W.quotes (n + 1) [orientationEl W s.angle s.layout] ["Orientation".toList] ["orientation".toList]
      (opt "orientation".toList (some (orientJ W s.angle s.layout))) := by
    refine Piece.one (by decide) ?_ (orient_val G _ _ _)
    cases s.layout <;> exact tagged_st _ _ _ _ _ _
  have p9 := text_piece W.quotes (n + 1) "acquired_by" (some s.acquired) "AcquiredBy".toList "acquired_by".toList (by decide) (by decide)
  have p10 : Piece W.quotes (n + 1) [timeEl W.toWorld "start" s.start] ["Start".toList] ["start".toList]
      (opt "start".toList (some (leafJ W.quotes (if s.start = W.noTime then none else some (W.shownTime s.start))))) :=
    Piece.one (by decide) (tagged_st _ _ _ _ _ _) (Val.leaf _ _ _ _)
  have p11 : Piece W.quotes (n + 1) [timeEl W.toWorld "end" (endOf W s)] ["End".toList] ["end".toList]
      (opt "end".toList (some (leafJ W.quotes (if endOf W s = W.noTime then none else some (W.shownTime (endOf W s)))))) :=
    Piece.one (by decide) (tagged_st _ _ _ _ _ _) (Val.leaf _ _ _ _)
  have p12 := runs_piece W.quotes (n + 1) s.runs
  have p13 : Piece W.quotes (n + 1) [qualityEl W s.notes] ["DataQualityNotes".toList] ["data_quality_notes".toList]
      (opt "data_quality_notes".toList (some (.dict (dictOf (qualityL W s.notes))))) :=
    Piece.one (by decide +kernel) (tagged_st _ _ _ _ _ _) (quality_val G _ _)
  have p14 : Piece W.quotes (n + 1) [warningsEl W s.warnings] ["DataQualityWarnings".toList] ["data_quality_warnings".toList]
      (opt "data_quality_warnings".toList (some (.dict (dictOf (warningsL W s.warnings))))) :=
    Piece.one (by decide +kernel) (tagged_st _ _ _ _ _ _) (warnings_val G _ _)
  have hv := Val.parent (n := n) "Site".toList (attrs := [])
    (((((((((((((p1.append p2).append p3).append p4).append p5).append p6).append p7).append p8).append p9).append p10).append p11).append
      p12).append p13).append p14)
    (Or.inl (by simp)) (by decide +kernel) (by decide +kernel) (by decide +kernel) (by simp)
  have e : attrJ [] = [] := rfl
  rw [e, List.append_nil] at hv
  have hl : ∀ a b c d e f g h i j k l m o : List (Str × J), a ++ b ++ c ++ d ++ e ++ f ++ g ++ h ++ i ++ j ++ k ++ l ++ m ++ o =
      a ++ (b ++ (c ++ (d ++ (e ++ (f ++ (g ++ (h ++ (i ++ (j ++ (k ++ (l ++ (m ++ (o ++ []))))))))))))) := by simp
  rw [hl] at hv
  exact hv

theorem seen_chars {q : Bool} {s : Str} {p : Char → Bool} (hp : ∀ c, p c = true → c ≠ '&' ∧ c ≠ '<' ∧ c ≠ '>' ∧ c ≠ '"')
    (h : ∀ c ∈ s, p c = true) : (seen q s).all p = true := by
  rw [List.all_eq_true]
  unfold seen seenText
  by_cases hs : s ∈ nullWords
  · simp only [if_pos hs]; intro c hc; cases hc
  · simp only [if_neg hs, Option.getD_some]
    rw [garbled_plain q fun c hc => hp c (h c hc)]
    intro c hc
    exact h c (mem_of_mem_strip hc)

theorem alnum_special (c : Char) (h : alnum c = true) : c ≠ '&' ∧ c ≠ '<' ∧ c ≠ '>' ∧ c ≠ '"' := by
  refine ⟨?_, ?_, ?_, ?_⟩ <;> rintro rfl <;> exact absurd h (by decide)

theorem project_special (c : Char) (h : projectChar c = true) : c ≠ '&' ∧ c ≠ '<' ∧ c ≠ '>' ∧ c ≠ '"' := by
  refine ⟨?_, ?_, ?_, ?_⟩ <;> rintro rfl <;> exact absurd h (by decide)

theorem read_site {W : Outside F T} [DecidableEq T] {r3 r6 : F → F} (G : Fair W r3 r6) (o s : Site F T) (hs : s.Ok W) :
    (readDict W o (.dict (dictOf (siteL W s)))).map (fun s => { s with runs := some (s.runs.getD []) }) = .ok (seenOver W r3 r6 o s) := by
  have hn : ((siteL W s).map Prod.fst).Nodup := siteL_keys W s ▸ siteKeys_nodup
  have hk : allKnown W (dictOf (siteL W s)) = true := by
    unfold allKnown
    rw [List.all_eq_true]
    intro p hp
    unfold dictOf at hp
    obtain ⟨x, hx, hp⟩ := List.mem_flatMap.1 hp
    have e : p.1 = x.1 := by
      cases h : x.2 with
      | none => rw [h] at hp; cases hp
      | some v => rw [h] at hp; rw [List.mem_singleton.1 hp]
    have hm : x.1 ∈ siteKeys := siteL_keys W s ▸ List.mem_map_of_mem hx
    have hsub : ∀ k ∈ siteKeys, k ∈ names := by decide +kernel
    rw [e, Bool.or_eq_true, List.contains_iff_mem]
    exact Or.inl (hsub _ hm)
  have f1 : field (dictOf (siteL W s)) "project" o.project (patterned projectChar) = .ok (seen W.quotes s.project) := by
    rw [field_dictOf hn]
    show patterned projectChar (leafJ W.quotes (some s.project)) = _
    unfold patterned
    rw [plainText_leaf]
    simp only [Except.bind, seen_chars project_special hs.project, if_true]
  have f2 : field (dictOf (siteL W s)) "survey" o.survey plainText = .ok (seen W.quotes s.survey) := by
    rw [field_dictOf hn]; exact plainText_leaf _ _
  have f3 : field (dictOf (siteL W s)) "year_collected" o.year (yearOf W) = .ok (s.year <|> o.year) := by
    rw [field_dictOf hn]
    cases h : s.year with
    | none =>
      have : (OD.get? (siteL W s) "year_collected".toList).bind id = none := by unfold siteL; rw [h]; rfl
      rw [this]
      rfl
    | some y =>
      have : (OD.get? (siteL W s) "year_collected".toList).bind id = some (.str (W.shownInt y)) := by unfold siteL; rw [h]; rfl
      rw [this]
      obtain ⟨y1, y2⟩ := hs.year y h
      obtain ⟨g1, g2⟩ := G.year y y1 y2
      simp only [yearOf, List.count_eq_zero.2 g1]
      simp [g2]
  have f4 : field (dictOf (siteL W s)) "country" o.country plainText = .ok (seen W.quotes s.country) := by
    rw [field_dictOf hn]; exact plainText_leaf _ _
  have f5 : field (dictOf (siteL W s)) "id" o.id (patterned alnum) = .ok (seen W.quotes s.id) := by
    rw [field_dictOf hn]
    show patterned alnum (leafJ W.quotes (some s.id)) = _
    unfold patterned
    rw [plainText_leaf]
    simp only [Except.bind, seen_chars alnum_special hs.id, if_true]
  have f6 : field (dictOf (siteL W s)) "name" o.name plainText = .ok (seen W.quotes s.name) := by
    rw [field_dictOf hn]; exact plainText_leaf _ _
  have f7 : field (dictOf (siteL W s)) "location" o.location (readPlace W) =
      .ok (seenPlace r3 r6 W.zero s.location) := by
    rw [field_dictOf hn]; exact read_place G _ hs.lat hs.lon hs.datum
  have f8 : field (dictOf (siteL W s)) "orientation" (o.angle, o.layout) (readOrientation W (o.angle, o.layout)) =
      .ok (if s.layout = .orthogonal then r3 s.angle else o.angle, if s.layout = .orthogonal then o.layout else s.layout) := by
    rw [field_dictOf hn]; exact read_orient G _ _ _
  have f9 : field (dictOf (siteL W s)) "acquired_by" o.acquired plainText = .ok (seen W.quotes s.acquired) := by
    rw [field_dictOf hn]; exact plainText_leaf _ _
  have f10 : field (dictOf (siteL W s)) "start" o.start (timeOf W.toWorld) = .ok s.start := by
    rw [field_dictOf hn]; exact time_read G.good _
  have f11 : field (dictOf (siteL W s)) "end" o.stop (timeOf W.toWorld) = .ok (endOf W s) := by
    rw [field_dictOf hn]; exact time_read G.good _
  have f12 : (field (dictOf (siteL W s)) "run_list" o.runs runsOf).map (fun r => r.getD []) =
      .ok (if s.runs.getD [] = [] then o.runs.getD [] else seenRuns W.quotes s.runs) := by
    rw [field_dictOf hn]
    exact runsJ_read _ _ _
  have f13 : field (dictOf (siteL W s)) "data_quality_notes" o.notes (readQuality W o.notes) =
      .ok ⟨s.notes.rating <|> o.notes.rating, s.notes.goodFrom <|> o.notes.goodFrom, s.notes.goodTo <|> o.notes.goodTo,
        some (seenAttr (s.notes.author.getD [])), seenComment W.quotes s.notes.value⟩ := by
    rw [field_dictOf hn]; exact read_quality G _ _
  have f14 : field (dictOf (siteL W s)) "data_quality_warnings" o.warnings (readWarnings W o.warnings) =
      .ok ⟨s.warnings.flag <|> o.warnings.flag, some (seenAttr (s.warnings.author.getD [])),
        seenComment W.quotes s.warnings.value <|> o.warnings.value⟩ := by
    rw [field_dictOf hn]; exact read_warnings G _ _
  have f15 : field (dictOf (siteL W s)) "comments" (o.author, o.value) (commentInto (o.author, o.value)) = .ok (o.author, o.value) := by
    rw [field_dictOf hn]; rfl
  cases hr : field (dictOf (siteL W s)) "run_list" o.runs runsOf with
  | error e => rw [hr] at f12; cases f12
  | ok r =>
    rw [hr] at f12
    simp only [Except.map, Except.ok.injEq] at f12
    simp only [readDict, hk, if_true, readFields, f1, f2, f3, f4, f5, f6, f7, f8, f9, f10, f11, hr, f13, f14, f15, Except.bind, Except.map, f12]
    unfold seenOver
    by_cases h0 : s.runs.getD [] = []
    · simp only [if_pos h0]; rfl
    · simp only [if_neg h0]; rfl

theorem read_over {W : Outside F T} [DecidableEq T] {r3 r6 : F → F} (G : Fair W r3 r6) (o s : Site F T) (hs : s.Ok W) :
    readInto W o [writeSite W s] = .ok (seenOver W r3 r6 o s) := by
  have hv : rootValue [st W.quotes 1 (siteEl W s)] = .ok (some (.dict (dictOf (siteL W s)))) :=
    rootValue_one (t := "Site".toList) (k := "site".toList) (tagged_st _ _ _ _ _ _) (by decide) (site_val G 1 s)
  have e : writeSite W s = st W.quotes 1 (siteEl W s) := rfl
  unfold readInto
  rw [e, hv]
  exact read_site G o s hs

/-! ## C270: the site of a file -/

/-- A site is read as it was written, up to rounding, comments without author and the texts that no file keeps (C243). -/
def C270_claim : Prop := ∀ (F T : Type) (_ : DecidableEq T) (W : Outside F T) (r3 r6 : F → F), Fair W r3 r6 → ∀ s : Site F T, s.Ok W →
  ∃ m, readSite W [writeSite W s] = .ok m ∧ m.location.x = s.location.x ∧ m.location.model = s.location.model ∧ m.angle = r3 s.angle ∧
    m.stop = s.stop ∧ m.value = seenComment W.quotes s.value

/-- C270: exactly what remains of a site: texts and numbers as they are escaped and rounded; not the offsets, the geomagnetic model and the
comments, not the angle of a layout that is not orthogonal, and an end before the start is the start. -/
theorem C270_site_partial {W : Outside F T} [DecidableEq T] {r3 r6 : F → F} (G : Fair W r3 r6) {s : Site F T} (hs : s.Ok W) :
    readSite W [writeSite W s] = .ok (seenSite W r3 r6 s) := by
  have h := read_over G (newSite W) s hs
  unfold readSite
  rw [h]
  unfold seenOver newSite
  have e1 : (if s.runs.getD [] = [] then some ((some ([] : List Str)).getD []) else some (seenRuns W.quotes s.runs)) =
      some (seenRuns W.quotes s.runs) := by
    rcases hr : s.runs with _ | _ | ⟨x, xs⟩ <;> rfl
  have e2 : (if s.layout = .orthogonal then Layout.orthogonal else s.layout) = s.layout := by
    by_cases hl : s.layout = .orthogonal
    · rw [if_pos hl, hl]
    · rw [if_neg hl]
  have e3 : ∀ {α : Type} (a : Option α), (a <|> none) = a := fun a => by cases a <;> rfl
  simp only [e3, e1, e2]
  rfl

/-! ### A concrete case -/

/-- Natural numbers, whose printing is that of `exW`; years and positions too. -/
def exO : Outside Nat Nat where
  toWorld := exW
  fixed6 := showNat
  position := parseDigits
  latOk x := x ≤ 90
  lonOk x := x ≤ 180
  crs s := if s = "WGS 84".toList ∨ s = "4326".toList then some "WGS 84".toList else none
  shownInt n := match n with
    | .ofNat n => showNat n
    | .negSucc n => '-' :: showNat (n + 1)
  parseInt s := match s with
    | '-' :: s => match parseDigits s with
      | some (n + 1) => some (.negSucc n)
      | _ => none
    | s => (parseDigits s).map .ofNat
  year s := (parseDigits s).map .ofNat
  earlier a b := a < b
  zero := 0
  other s := s = "copy".toList

theorem showNat_head (n : Nat) (s : Str) : showNat n ≠ '-' :: s := by
  intro h
  have : '-'.isDigit = true := digit_of_mem_showNat (n := n) (by rw [h]; simp)
  exact absurd this (by decide)

theorem neg_plain (n : Nat) : EmtfFile.Plain ('-' :: showNat n) := by
  have hp := showNat_plain n
  refine ⟨by simp, ?_, ?_⟩
  · intro h
    have : ∀ w ∈ nullWords, w.head? ≠ some '-' := by decide
    exact this _ h rfl
  · intro c hc
    rcases List.mem_cons.1 hc with rfl | hc
    · decide
    · exact hp.2.2 c hc

theorem exO_fair : Fair exO id id where
  good := exW_good
  fixed6 x := ⟨showNat_plain x, parseDigits_showNat x⟩
  lat _ h := h
  lon _ h := h
  crs u d h := by
    unfold exO at h
    simp only at h
    by_cases hu : u = "WGS 84".toList ∨ u = "4326".toList
    · rw [if_pos hu] at h
      cases h
      exact ⟨by decide, by decide⟩
    · rw [if_neg hu] at h; cases h
  int n := by
    cases n with
    | ofNat n =>
      refine ⟨showNat_plain n, ?_⟩
      show (match showNat n with
        | '-' :: s => match parseDigits s with
          | some (n + 1) => some (Int.negSucc n)
          | _ => none
        | s => (parseDigits s).map .ofNat) = _
      have hd := parseDigits_showNat n
      split
      · rename_i s hs; exact absurd hs (showNat_head n s)
      · rw [hd]; rfl
    | negSucc n =>
      refine ⟨neg_plain (n + 1), ?_⟩
      show (match parseDigits (showNat (n + 1)) with
          | some (n + 1) => some (Int.negSucc n)
          | _ => none) = _
      rw [parseDigits_showNat]
  year y h1 h2 := by
    cases y with
    | ofNat n =>
      refine ⟨?_, ?_⟩
      · intro h
        have : '-'.isDigit = true := digit_of_mem_showNat (n := n) h
        exact absurd this (by decide)
      · show (parseDigits (showNat n)).map Int.ofNat = _
        rw [parseDigits_showNat]; rfl
    | negSucc n => omega

/-- A site of a layout that is not orthogonal. -/
def exSite : Site Nat Nat where
  project := "Geo-1".toList
  survey := "A & B".toList
  year := some 2020
  country := "USA".toList
  id := "MT1".toList
  name := "none".toList
  location := ⟨"WGS 84".toList, 40, 120, 7, 3, 0, 0, 11, some "2019.5".toList, "WMM".toList⟩
  angle := 13
  layout := .siteLayout
  acquired := "Kim".toList
  start := 9
  stop := 5
  runs := some ["MT1a".toList, "MT1b".toList]
  notes := ⟨some 4, none, some 100, none, some " good ".toList⟩
  warnings := ⟨some 0, some "Kim".toList, none⟩
  author := none
  value := some "by the road".toList

theorem exSite_ok : exSite.Ok exO :=
  ⟨by decide, by decide, by decide, by decide, ⟨"4326".toList, by decide⟩, by intro y h; cases h; decide⟩

theorem exSite_read : readSite exO [writeSite exO exSite] = .ok
    { project := "Geo-1".toList, survey := "A andamp; B".toList, year := some 2020, country := "USA".toList, id := "MT1".toList, name := [],
      location := ⟨"WGS 84".toList, 40, 120, 7, 0, 0, 0, 11, some "2019".toList, "IGRF".toList⟩, angle := 0, layout := .siteLayout,
      acquired := "Kim".toList, start := 9, stop := 9, runs := some ["MT1a".toList, "MT1b".toList],
      notes := ⟨some 4, none, some 100, some [], some "good".toList⟩, warnings := ⟨some 0, some "Kim".toList, none⟩,
      author := none, value := none } := by
  rw [C270_site_partial exO_fair exSite_ok]
  decide +kernel

/-- C270 is false: the offsets, the geomagnetic model, the angle, the end and the comments of a site are not all in the file. -/
theorem C270_refuted : ¬ C270_claim := by
  intro h
  obtain ⟨m, h1, h2, _⟩ := h Nat Nat inferInstance exO id id exO_fair exSite exSite_ok
  rw [exSite_read] at h1
  cases h1
  exact absurd h2 (by decide)

/-! ## C271: lists of runs -/

/-- Names of runs without special characters are read as they were written. -/
def C271_claim : Prop := ∀ (F T : Type) (_ : DecidableEq T) (W : Outside F T) (r3 r6 : F → F), Fair W r3 r6 → ∀ s : Site F T, s.Ok W →
  ∀ l, s.runs = some l → (∀ r ∈ l, r ≠ [] ∧ r ∉ nullWords ∧ strip r = r ∧ ∀ c ∈ r, c ∉ ['&', '<', '>', '"']) →
    ∃ m, readSite W [writeSite W s] = .ok m ∧ m.runs = some l

/-- A name of a run without blanks, commas, brackets and special characters. -/
def RunName (r : Str) : Prop := r ≠ [] ∧ ∀ c ∈ r, ws c = false ∧ c ∉ ['&', '<', '>', '"', ',', '[']

theorem mem_join {c : Char} {l : List Str} (h : c ∈ join [' '] l) : c = ' ' ∨ ∃ r ∈ l, c ∈ r := by
  induction l with
  | nil => cases h
  | cons x xs ih =>
    cases xs with
    | nil => exact Or.inr ⟨x, by simp, h⟩
    | cons y ys =>
      rw [join] at h
      simp only [List.append_assoc, List.mem_append, List.mem_singleton] at h
      rcases h with h | h | h
      · exact Or.inr ⟨x, by simp, h⟩
      · exact Or.inl h
      · rcases ih h with h | ⟨r, hr, hc⟩
        · exact Or.inl h
        · exact Or.inr ⟨r, by simp [hr], hc⟩

theorem join_head {x : Str} {xs : List Str} (hx : x ≠ []) : (join [' '] (x :: xs)).head? = x.head? := by
  cases x with
  | nil => exact absurd rfl hx
  | cons c cs => cases xs <;> rfl

theorem join_last {l : List Str} (hl : ∀ r ∈ l, r ≠ []) {c : Char} (h : (join [' '] l).getLast? = some c) : ∃ r ∈ l, c ∈ r := by
  induction l with
  | nil => cases h
  | cons x xs ih =>
    cases xs with
    | nil => exact ⟨x, by simp, List.mem_of_getLast? h⟩
    | cons y ys =>
      rw [join] at h
      have hne : join [' '] (y :: ys) ≠ [] := by
        intro e
        have := join_head (xs := ys) (hl y (by simp))
        rw [e] at this
        cases hy : y with
        | nil => exact hl y (by simp) hy
        | cons a as => rw [hy] at this; cases this
      rw [List.getLast?_append, Option.or_of_isSome (by rw [List.getLast?_isSome]; exact hne)] at h
      obtain ⟨r, hr, hc⟩ := ih (fun r hr => hl r (by simp [hr])) h
      exact ⟨r, by simp [hr], hc⟩

/-- No list of names is a word for nothing, except a single one. -/
theorem null_noBlank : ∀ w ∈ nullWords, ' ' ∉ w := by decide +kernel

theorem join_blank {x y : Str} {l : List Str} : ' ' ∈ join [' '] (x :: y :: l) := by
  rw [join]; simp

theorem splitC_names {l : List Str} (h0 : l ≠ []) (h : ∀ r ∈ l, RunName r) : splitC ' ' (join [' '] l) = l :=
  splitC_join h0 fun r hr hc => absurd ((h r hr).2 ' ' hc).1 (by decide)

theorem seenRuns_names (q : Bool) {l : List Str} (h : ∀ r ∈ l, RunName r) (h1 : ∀ r ∈ l, r ∉ nullWords) : seenRuns q (some l) = l := by
  cases l with
  | nil => rfl
  | cons x xs =>
    have hnull : join [' '] (x :: xs) ∉ nullWords := by
      cases xs with
      | nil => exact h1 x (by simp)
      | cons y ys => intro hm; exact null_noBlank _ hm join_blank
    have hg : garbled q (join [' '] (x :: xs)) = join [' '] (x :: xs) := by
      apply garbled_plain
      intro c hc
      rcases mem_join hc with rfl | ⟨r, hr, hc⟩
      · decide
      · have := ((h r hr).2 c hc).2
        simp only [List.mem_cons, not_or] at this
        exact ⟨this.1, this.2.1, this.2.2.1, this.2.2.2.1⟩
    have hst : strip (join [' '] (x :: xs)) = join [' '] (x :: xs) := by
      apply strip_of_ends
      · intro c hc
        rw [join_head (h x (by simp)).1] at hc
        exact ((h x (by simp)).2 c (List.mem_of_mem_head? hc)).1
      · intro c hc
        obtain ⟨r, hr, hm⟩ := join_last (fun r hr => (h r hr).1) hc
        exact ((h r hr).2 c hm).1
    have hno : ∀ c ∈ [',', '['], c ∉ join [' '] (x :: xs) := by
      intro c hc hm
      rcases mem_join hm with rfl | ⟨r, hr, hm⟩
      · revert hc; decide
      · have := ((h r hr).2 c hm).2
        rcases List.mem_cons.1 hc with rfl | hc
        · exact this (by decide)
        · rw [List.mem_singleton.1 hc] at this; exact this (by decide)
    have e : seenText q (some (join [' '] (x :: xs))) = some (join [' '] (x :: xs)) := by
      simp only [seenText, if_neg hnull, hg, hst]
    have eu : unbracket (join [' '] (x :: xs)) = join [' '] (x :: xs) := if_neg fun h => hno '[' (by simp) h.1
    simp only [seenRuns, Option.getD_some, e, eu]
    unfold pieces
    rw [if_neg (hno ',' (by simp))]
    cases xs with
    | nil =>
      have : ' ' ∉ x := fun hm => absurd ((h x (by simp)).2 ' ' hm).1 (by decide)
      rw [show join [' '] [x] = x from rfl, if_neg this, if_neg (h x (by simp)).1]
    | cons y ys => rw [if_pos join_blank, splitC_names (by simp) h]

/-- C271: names without blanks, commas and brackets come back, whatever their number. -/
theorem C271_names_partial {W : Outside F T} [DecidableEq T] {r3 r6 : F → F} (G : Fair W r3 r6) {s : Site F T} (hs : s.Ok W) {l : List Str}
    (hr : s.runs = some l) (h : ∀ r ∈ l, RunName r) (h1 : ∀ r ∈ l, r ∉ nullWords) :
    ∃ m, readSite W [writeSite W s] = .ok m ∧ m.runs = some l := by
  refine ⟨_, C270_site_partial G hs, ?_⟩
  show some (seenRuns W.quotes s.runs) = _
  rw [hr, seenRuns_names W.quotes h h1]

/-- C271: if there are no commas and brackets, the names are cut at every blank: what is read has no blanks, and is the same text. -/
theorem C271_blanks_partial {W : Outside F T} [DecidableEq T] {r3 r6 : F → F} (G : Fair W r3 r6) {s : Site F T} (hs : s.Ok W) {l : List Str}
    (hr : s.runs = some l) (h : ∀ r ∈ l, ∀ c ∈ r, c ∉ ['&', '<', '>', '"', ',', '[']) (h1 : join [' '] l ∉ nullWords) :
    ∃ m k, readSite W [writeSite W s] = .ok m ∧ m.runs = some k ∧ (∀ r ∈ k, ' ' ∉ r) ∧ join [' '] k = strip (join [' '] l) := by
  refine ⟨_, _, C270_site_partial G hs, rfl, ?_⟩
  rw [hr]
  have hg : garbled W.quotes (join [' '] l) = join [' '] l := by
    apply garbled_plain
    intro c hc
    rcases mem_join hc with rfl | ⟨r, hr, hc⟩
    · decide
    · have := h r hr c hc
      simp only [List.mem_cons, not_or] at this
      exact ⟨this.1, this.2.1, this.2.2.1, this.2.2.2.1⟩
  have hno : ∀ c ∈ [',', '['], c ∉ strip (join [' '] l) := by
    intro c hc hm
    rcases mem_join (mem_of_mem_strip hm) with rfl | ⟨r, hr, hm⟩
    · revert hc; decide
    · have := h r hr c hm
      rcases List.mem_cons.1 hc with rfl | hc
      · exact this (by decide)
      · rw [List.mem_singleton.1 hc] at this; exact this (by decide)
  have e : seenText W.quotes (some (join [' '] l)) = some (strip (join [' '] l)) := by
    simp only [seenText, if_neg h1, hg]
  have eu : unbracket (strip (join [' '] l)) = strip (join [' '] l) := if_neg fun h => hno '[' (by simp) h.1
  simp only [seenRuns, Option.getD_some, e, eu]
  unfold pieces
  rw [if_neg (hno ',' (by simp))]
  by_cases hb : ' ' ∈ strip (join [' '] l)
  · rw [if_pos hb]
    refine ⟨?_, join_splitC _ _⟩
    intro r hr hc
    exact splitC_pieces _ _ r hr hc
  · rw [if_neg hb]
    by_cases hn : strip (join [' '] l) = []
    · rw [if_pos hn, hn]; exact ⟨by simp, rfl⟩
    · rw [if_neg hn]
      refine ⟨?_, rfl⟩
      intro r hr
      rw [List.mem_singleton.1 hr]
      exact hb

/-- The site with a run whose name has a blank. -/
def exBlank : Site Nat Nat := { exSite with runs := some ["run 1".toList, "run 2".toList] }

theorem exBlank_ok : exBlank.Ok exO := ⟨exSite_ok.project, exSite_ok.id, exSite_ok.lat, exSite_ok.lon, exSite_ok.datum, exSite_ok.year⟩

/-- C271 is false: `["run 1", "run 2"]` is read as `["run", "1", "run", "2"]`. -/
theorem C271_refuted : ¬ C271_claim := by
  intro h
  obtain ⟨m, h1, h2⟩ := h Nat Nat inferInstance exO id id exO_fair exBlank exBlank_ok _ rfl (by decide +kernel)
  rw [C270_site_partial exO_fair exBlank_ok] at h1
  cases h1
  exact absurd h2 (by decide +kernel)

example : seenRuns true exBlank.runs = ["run".toList, "1".toList, "run".toList, "2".toList] := by decide +kernel

/-! ## C272: other elements of a site -/

/-- A site with an element more, of any name, can be read. -/
def C272_claim : Prop := ∀ (F T : Type) (W : Outside F T) (d : List (Str × J)) (o m : Site F T), readDict W o (.dict d) = .ok m →
  ∀ k v, k ∉ OD.keys d → names.contains k = false → ∃ m', readDict W o (.dict (d ++ [(k, .str v)])) = .ok m'

/-- C272: any element of a name that is not one of a site's attributes ends the reading, whatever else the site has. -/
theorem C272_unknown_partial (W : Outside F T) (o : Site F T) (d : List (Str × J)) {k : Str} (h1 : k ∈ d.map Prod.fst)
    (h2 : k ∉ ["project".toList, "survey".toList, "year_collected".toList, "country".toList, "id".toList, "name".toList, "location".toList,
      "orientation".toList, "acquired_by".toList, "start".toList, "end".toList, "run_list".toList, "data_quality_notes".toList,
      "data_quality_warnings".toList, "comments".toList]) (h3 : W.other k = false) : readDict W o (.dict d) = .error .attributeError := by
  have : allKnown W d = false := by
    unfold allKnown
    rw [List.all_eq_false]
    obtain ⟨p, hp, rfl⟩ := List.mem_map.1 h1
    refine ⟨p, hp, ?_⟩
    rw [h3, Bool.or_false, List.contains_iff_mem]
    exact h2
  simp only [readDict, this]
  rfl

theorem bind_ok {α β : Type} {x : Except PyErr α} {f : α → Except PyErr β} {b : β} (h : x.bind f = .ok b) :
    ∃ a, x = .ok a ∧ f a = .ok b := by
  cases x with
  | error e => cases h
  | ok a => exact ⟨a, rfl, h⟩

/-- C272: comments on the quality of the data that have neither text nor attributes, or that are several, end the reading as well. -/
theorem C272_comments_partial (W : Outside F T) (o : Site F T) (d : List (Str × J)) {q : List (Str × J)} {c : J}
    (h : OD.get? d "data_quality_notes".toList = some (.dict q)) (hc : OD.get? q "comments".toList = some c)
    (hv : c = .null ∨ ∃ l, c = .list l) : ∃ e, readDict W o (.dict d) = .error e := by
  cases hr : readDict W o (.dict d) with
  | error e => exact ⟨e, rfl⟩
  | ok m =>
    exfalso
    have hq : readQuality W o.notes (.dict q) = .error .typeError := by
      have : field q "comments" (none, some []) (commentInto (none, none)) = .error .typeError := by
        unfold field
        rw [hc]
        rcases hv with rfl | ⟨l, rfl⟩ <;> rfl
      simp only [readQuality, this, Except.bind]
    have hf : field d "data_quality_notes" o.notes (readQuality W o.notes) = .error .typeError := by
      unfold field
      rw [h]
      exact hq
    simp only [readDict] at hr
    by_cases hk : allKnown W d = true
    · rw [if_pos hk] at hr
      unfold readFields at hr
      obtain ⟨_, _, hr⟩ := bind_ok hr
      obtain ⟨_, _, hr⟩ := bind_ok hr
      obtain ⟨_, _, hr⟩ := bind_ok hr
      obtain ⟨_, _, hr⟩ := bind_ok hr
      obtain ⟨_, _, hr⟩ := bind_ok hr
      obtain ⟨_, _, hr⟩ := bind_ok hr
      obtain ⟨_, _, hr⟩ := bind_ok hr
      obtain ⟨_, _, hr⟩ := bind_ok hr
      obtain ⟨_, _, hr⟩ := bind_ok hr
      obtain ⟨_, _, hr⟩ := bind_ok hr
      obtain ⟨_, _, hr⟩ := bind_ok hr
      obtain ⟨_, _, hr⟩ := bind_ok hr
      rw [hf] at hr
      cases hr
    · rw [if_neg hk] at hr; cases hr

/-- C272: a file without a site, or with two, cannot be read. -/
theorem C272_one_partial (W : Outside F T) (o : Site F T) : readInto W o [] = .error .keyError ∧ ∀ l : List J, readDict W o (.list l) = .error .attributeError :=
  ⟨rfl, fun _ => rfl⟩

/-- C272 is false: an element `Elevation` of the site itself ends the reading. -/
theorem C272_refuted : ¬ C272_claim := by
  intro h
  obtain ⟨m, hm⟩ := h Nat Nat exO [] (newSite exO) _ rfl "elevation".toList "7".toList (by decide) (by decide +kernel)
  rw [C272_unknown_partial (k := "elevation".toList) exO _ _ (by decide) (by decide +kernel) (by decide)] at hm
  cases hm

/-! ## C273: writing and reading again -/

theorem garbled_idem (q : Bool) (s : Str) : garbled q (garbled q s) = garbled q s := garbled_same q (garbled_special q s)

theorem garbled_strip (q : Bool) (s : Str) : garbled q (strip (garbled q s)) = strip (garbled q s) := by
  apply garbled_same
  obtain ⟨h1, h2, h3, h4⟩ := garbled_special q s
  exact ⟨fun h => h1 (mem_of_mem_strip h), fun h => h2 (mem_of_mem_strip h), fun h => h3 (mem_of_mem_strip h),
    fun hq h => h4 hq (mem_of_mem_strip h)⟩

theorem seen_null (q : Bool) {s : Str} (h : s ∈ nullWords) : seen q s = [] := by simp only [seen, seenText, if_pos h]; rfl

theorem seen_other (q : Bool) {s : Str} (h : s ∉ nullWords) : seen q s = strip (garbled q s) := by simp only [seen, seenText, if_neg h]; rfl

/-- What is read twice stays. -/
theorem seen_stable (q : Bool) (s : Str) : seen q (seen q (seen q s)) = seen q (seen q s) := by
  by_cases h : s ∈ nullWords
  · rw [seen_null q h]; rfl
  · rw [seen_other q h]
    by_cases h2 : strip (garbled q s) ∈ nullWords
    · rw [seen_null q h2]; rfl
    · have : seen q (strip (garbled q s)) = strip (garbled q s) := by rw [seen_other q h2, garbled_strip, strip_strip]
      rw [this, this]

theorem garbled_null {s : Str} (h : garbled true s ∈ nullWords) : garbled true s = s := by
  have hno : ∀ w ∈ nullWords, ';' ∉ w := by decide +kernel
  apply garbled_plain
  intro c hc
  have hm : ∀ x ∈ (if c = '&' then "andamp;".toList else if c = '<' then "andlt;".toList else if c = '>' then "andgt;".toList
      else if c = '"' then (if true then "andquot;".toList else ['"']) else [c]), x ∈ garbled true s := fun x hx =>
    List.mem_flatMap.2 ⟨c, hc, hx⟩
  refine ⟨?_, ?_, ?_, ?_⟩ <;> rintro rfl <;> exact hno _ h (hm ';' (by decide))

theorem seenAttr_stable (s : Str) : seenAttr (seenAttr s) = seenAttr s := by
  by_cases h : s ∈ nullWords
  · simp only [seenAttr, if_pos h]; rfl
  · have e : seenAttr s = garbled true s := by simp only [seenAttr, if_neg h]
    have h2 : garbled true s ∉ nullWords := fun hm => h (garbled_null hm ▸ hm)
    rw [e]
    simp only [seenAttr, if_neg h2, garbled_idem]

theorem seenComment_stable (q : Bool) (v : Option Str) :
    seenComment q (seenComment q (seenComment q v)) = seenComment q (seenComment q v) := by
  have key : ∀ s : Option Str, seenComment q s = (match seen q (s.getD []) with
      | [] => none
      | c :: cs => some (c :: cs)) := by
    intro s
    cases s with
    | none => rfl
    | some s =>
      unfold seenComment seen
      simp only [Option.getD_some]
      rcases seenText q (some s) with _ | _ | ⟨c, cs⟩ <;> rfl
  have key2 : ∀ s : Option Str, (seenComment q s).getD [] = seen q (s.getD []) := by
    intro s
    rw [key]
    cases seen q (s.getD []) <;> rfl
  rw [key (seenComment q (seenComment q v)), key2, key2, seen_stable, key (seenComment q v), key2]

theorem seenSite_ok {W : Outside F T} {r3 r6 : F → F} (G : Fair W r3 r6) {s : Site F T} (hs : s.Ok W) : (seenSite W r3 r6 s).Ok W where
  project := by
    have := seen_chars (q := W.quotes) project_special hs.project
    rw [List.all_eq_true] at this
    exact this
  id := by
    have := seen_chars (q := W.quotes) alnum_special hs.id
    rw [List.all_eq_true] at this
    exact this
  lat := G.lat _ hs.lat
  lon := G.lon _ hs.lon
  datum := hs.datum
  year := hs.year

theorem takeWhile_dot (s : Str) : (seenAttr (s.takeWhile (· ≠ '.'))).takeWhile (· ≠ '.') = seenAttr (s.takeWhile (· ≠ '.')) := by
  have h0 : ∀ c ∈ s.takeWhile (· ≠ '.'), c ≠ '.' := by
    induction s with
    | nil => simp
    | cons x xs ih =>
      rw [List.takeWhile_cons]
      by_cases hx : x = '.'
      · simp [hx]
      · intro c hc
        simp only [hx, ne_eq, not_false_eq_true, decide_true, if_true, List.mem_cons] at hc
        rcases hc with rfl | hc
        · exact hx
        · exact ih c hc
  generalize s.takeWhile (· ≠ '.') = t at h0
  have hall : ∀ u : Str, (∀ c ∈ u, decide (c ≠ '.') = true) → u.takeWhile (fun x => decide (x ≠ '.')) = u := by
    intro u hu
    induction u with
    | nil => rfl
    | cons x xs ih => rw [List.takeWhile_cons, if_pos (hu x (by simp)), ih fun c hc => hu c (by simp [hc])]
  apply hall
  intro c hc
  rw [decide_eq_true_iff]
  rintro rfl
  by_cases h : t ∈ nullWords
  · simp only [seenAttr, if_pos h] at hc; cases hc
  · simp only [seenAttr, if_neg h] at hc
    obtain ⟨x, hx, hc⟩ := List.mem_flatMap.1 hc
    have hx0 := h0 x hx
    by_cases h1 : x = '&'
    · subst h1; exact absurd hc (by decide)
    by_cases h2 : x = '<'
    · subst h2; exact absurd hc (by decide)
    by_cases h3 : x = '>'
    · subst h3; exact absurd hc (by decide)
    by_cases h4 : x = '"'
    · subst h4; exact absurd hc (by decide)
    · simp only [h1, h2, h3, h4, if_false, List.mem_singleton] at hc
      exact hx0 hc.symm

/-- C273: a site whose runs have ordinary names is the same from the second writing and reading on. -/
theorem C273_stable {W : Outside F T} [DecidableEq T] {r3 r6 : F → F} (G : Fair W r3 r6) (h3 : ∀ x, r3 (r3 x) = r3 x)
    (h6 : ∀ x, r6 (r6 x) = r6 x) {s m m' : Site F T} (hs : s.Ok W) (hr : ∀ r ∈ s.runs.getD [], RunName r ∧ r ∉ nullWords)
    (h1 : readSite W [writeSite W s] = .ok m) (h2 : readSite W [writeSite W m] = .ok m') : readSite W [writeSite W m'] = .ok m' := by
  rw [C270_site_partial G hs] at h1
  cases h1
  have o1 := seenSite_ok G hs
  rw [C270_site_partial G o1] at h2
  cases h2
  have o2 := seenSite_ok G o1
  rw [C270_site_partial G o2]
  have e1 : ∀ l : Option (List Str), (∀ r ∈ l.getD [], RunName r ∧ r ∉ nullWords) → seenRuns W.quotes l = l.getD [] := by
    intro l hl
    cases l with
    | none => rfl
    | some l => exact seenRuns_names W.quotes (fun r hr => (hl r hr).1) fun r hr => (hl r hr).2
  have e2 : seenRuns W.quotes s.runs = s.runs.getD [] := e1 _ hr
  have e3 : seenRuns W.quotes (some (s.runs.getD [])) = s.runs.getD [] := e1 (some (s.runs.getD [])) hr
  unfold seenSite seenPlace
  simp only [seen_stable, seenComment_stable, seenAttr_stable, Option.getD_some, takeWhile_dot, h3, h6, e2, e3]
  by_cases hl : s.layout = .orthogonal
  · by_cases he : W.earlier s.stop s.start = true
    · simp only [hl, he, if_true, ite_self, h3]
    · simp only [hl, he, if_true, if_false, h3, Bool.false_eq_true]
  · by_cases he : W.earlier s.stop s.start = true
    · simp only [hl, he, if_true, if_false, ite_self]
    · simp only [hl, he, if_false, Bool.false_eq_true]

/-- The site with a survey that is a word for nothing between blanks. -/
def exNone : Site Nat Nat := { exSite with survey := " None ".toList }

theorem exNone_ok : exNone.Ok exO := ⟨exSite_ok.project, exSite_ok.id, exSite_ok.lat, exSite_ok.lon, exSite_ok.datum, exSite_ok.year⟩

/-- C273: the first writing and reading is not enough: a text can become a word for nothing, which the second one removes. -/
theorem C273_first : ∃ m m', readSite exO [writeSite exO exNone] = .ok m ∧ readSite exO [writeSite exO m] = .ok m' ∧ m ≠ m' ∧
    readSite exO [writeSite exO m'] = .ok m' := by
  have h1 := C270_site_partial exO_fair exNone_ok
  have h2 := C270_site_partial exO_fair (seenSite_ok exO_fair exNone_ok)
  have hr : ∀ r ∈ exNone.runs.getD [], RunName r ∧ r ∉ nullWords := by
    unfold RunName
    decide +kernel
  exact ⟨_, _, h1, h2, by decide +kernel, C273_stable exO_fair (fun _ => rfl) (fun _ => rfl) exNone_ok hr h1 h2⟩

/-! ## C274: reading another file into the same object -/

/-- The site read is that of the file, whatever was read before. -/
def C274_claim : Prop := ∀ (F T : Type) (_ : DecidableEq T) (W : Outside F T) (r3 r6 : F → F), Fair W r3 r6 → ∀ s o : Site F T, s.Ok W → o.Ok W →
  ∀ m, readSite W [writeSite W o] = .ok m → readInto W m [writeSite W s] = readSite W [writeSite W s]

/-- C274: exactly what is there afterwards. -/
theorem C274_over_partial {W : Outside F T} [DecidableEq T] {r3 r6 : F → F} (G : Fair W r3 r6) (o : Site F T) {s : Site F T} (hs : s.Ok W) :
    readInto W o [writeSite W s] = .ok (seenOver W r3 r6 o s) := read_over G o s hs

/-- C274: reading is as into a new object if both sites are orthogonal and the file has a year, a run, the numbers of the data quality and
a comment on the warnings. -/
theorem C274_full_partial {W : Outside F T} [DecidableEq T] {r3 r6 : F → F} (G : Fair W r3 r6) {o s m : Site F T} (hs : s.Ok W) (ho : o.Ok W)
    (h1 : o.layout = .orthogonal) (h2 : s.layout = .orthogonal) (h3 : s.year.isSome) (h4 : s.runs.getD [] ≠ []) (h5 : s.notes.rating.isSome)
    (h6 : s.notes.goodFrom.isSome) (h7 : s.notes.goodTo.isSome) (h8 : s.warnings.flag.isSome)
    (h9 : (seenComment W.quotes s.warnings.value).isSome) (hm : readSite W [writeSite W o] = .ok m) :
    readInto W m [writeSite W s] = readSite W [writeSite W s] := by
  rw [C270_site_partial G ho] at hm
  cases hm
  rw [read_over G _ _ hs, C270_site_partial G hs]
  have e : ∀ {α : Type} {a b : Option α}, a.isSome → (a <|> b) = a := by
    intro α a b h
    cases a with
    | none => cases h
    | some x => rfl
  unfold seenOver
  simp only [e h3, e h5, e h6, e h7, e h8, e h9, if_neg h4, if_pos h2]
  unfold seenSite
  simp only [h1, h2, if_true]

/-- A site that is orthogonal and has no runs. -/
def exOther : Site Nat Nat := { exSite with layout := .orthogonal, runs := some [], year := none }

theorem exOther_ok : exOther.Ok exO :=
  ⟨exSite_ok.project, exSite_ok.id, exSite_ok.lat, exSite_ok.lon, exSite_ok.datum, by intro y h; cases h⟩

/-- C274 is false: after the first site, the second one has its runs, its year and its layout. -/
theorem C274_refuted : ¬ C274_claim := by
  intro h
  have h1 := h Nat Nat inferInstance exO id id exO_fair exOther exSite exOther_ok exSite_ok _ (C270_site_partial exO_fair exSite_ok)
  rw [C270_site_partial exO_fair exOther_ok, read_over exO_fair _ _ exOther_ok] at h1
  exact absurd (Except.ok.inj h1) (by decide +kernel)

example : (seenOver exO id id (seenSite exO id id exSite) exOther).runs = some ["MT1a".toList, "MT1b".toList] ∧
    (seenOver exO id id (seenSite exO id id exSite) exOther).layout = .siteLayout := by decide +kernel

/-! ## C350: years in files -/

theorem read_year {W : Outside F T} {o m : Site F T} {d : List (Str × J)} (h : readDict W o (.dict d) = .ok m) :
    field d "year_collected" o.year (yearOf W) = .ok m.year := by
  simp only [readDict] at h
  by_cases hk : allKnown W d = true
  · rw [if_pos hk] at h
    unfold readFields at h
    obtain ⟨_, _, h⟩ := bind_ok h
    obtain ⟨_, _, h⟩ := bind_ok h
    obtain ⟨y, hy, h⟩ := bind_ok h
    obtain ⟨_, _, h⟩ := bind_ok h
    obtain ⟨_, _, h⟩ := bind_ok h
    obtain ⟨_, _, h⟩ := bind_ok h
    obtain ⟨_, _, h⟩ := bind_ok h
    obtain ⟨_, _, h⟩ := bind_ok h
    obtain ⟨_, _, h⟩ := bind_ok h
    obtain ⟨_, _, h⟩ := bind_ok h
    obtain ⟨_, _, h⟩ := bind_ok h
    obtain ⟨_, _, h⟩ := bind_ok h
    obtain ⟨_, _, h⟩ := bind_ok h
    obtain ⟨_, _, h⟩ := bind_ok h
    obtain ⟨_, _, h⟩ := bind_ok h
    cases h
    exact hy
  · rw [if_neg hk] at h; cases h

/-- If the year of collection has no text, the site has no year. -/
def C350_claim : Prop := ∀ (F T : Type) (W : Outside F T) (d : List (Str × J)) (m : Site F T), readDict W (newSite W) (.dict d) = .ok m →
  OD.get? d "year_collected".toList = some .null → m.year = none

/-- C350: a range of years `a-b` is its first year. -/
theorem C350_range_partial {W : Outside F T} {o m : Site F T} {d : List (Str × J)} {a b : Str} (ha : '-' ∉ a) (hb : '-' ∉ b)
    (hd : OD.get? d "year_collected".toList = some (.str (a ++ '-' :: b))) (h : readDict W o (.dict d) = .ok m) :
    m.year.isSome ∧ m.year = W.year a := by
  have hf := read_year h
  simp only [field, hd, yearOf] at hf
  have hc : (a ++ '-' :: b).count '-' = 1 := by
    rw [List.count_append, List.count_cons_self, List.count_eq_zero.2 ha, List.count_eq_zero.2 hb]
  have hs : (split1 '-' (a ++ '-' :: b)).1 = a := by
    rw [split1_takeWhile, List.takeWhile_append_of_pos (by intro x hx; simp only [decide_eq_true_eq]; rintro rfl; exact ha hx)]
    simp
  rw [if_pos hc, hs] at hf
  cases hy : W.year a with
  | none => rw [hy] at hf; cases hf
  | some y => rw [hy] at hf; rw [← Except.ok.inj hf]; exact ⟨rfl, rfl⟩

/-- C350: any other text is the year of the time that it is, such as a date `a-b-c`. -/
theorem C350_text_partial {W : Outside F T} {o m : Site F T} {d : List (Str × J)} {s : Str} (hs : s.count '-' ≠ 1)
    (hd : OD.get? d "year_collected".toList = some (.str s)) (h : readDict W o (.dict d) = .ok m) : m.year.isSome ∧ m.year = W.year s := by
  have hf := read_year h
  simp only [field, hd, yearOf] at hf
  rw [if_neg hs] at hf
  cases hy : W.year s with
  | none => rw [hy] at hf; cases hf
  | some y => rw [hy] at hf; rw [← Except.ok.inj hf]; exact ⟨rfl, rfl⟩

/-- C350: without a text it is 1980, and without the element it is the year there was. -/
theorem C350_none_partial {W : Outside F T} {o m : Site F T} {d : List (Str × J)} (h : readDict W o (.dict d) = .ok m) :
    (OD.get? d "year_collected".toList = some .null → m.year = some 1980) ∧ (OD.get? d "year_collected".toList = none → m.year = o.year) := by
  have hf := read_year h
  constructor <;> intro hd <;> simp only [field, hd, yearOf] at hf <;> exact (Except.ok.inj hf).symm

/-- A site of a file with a range of years, and one whose year has no text. -/
theorem exYear : (∃ m, readDict exO (newSite exO) (.dict [("year_collected".toList, .str "2003-2005".toList)]) = .ok m ∧ m.year = some 2003) ∧
    ∃ m, readDict exO (newSite exO) (.dict [("year_collected".toList, .null)]) = .ok m :=
  ⟨⟨{ newSite exO with year := some 2003 }, by decide +kernel, rfl⟩, ⟨{ newSite exO with year := some 1980 }, by decide +kernel⟩⟩

/-- C350 is false: it is 1980. -/
theorem C350_refuted : ¬ C350_claim := by
  intro h
  obtain ⟨m, hm⟩ := exYear.2
  have h1 := h _ _ _ _ _ hm rfl
  rw [(C350_none_partial hm).1 rfl] at h1
  cases h1

end Verif.EmtfSite
