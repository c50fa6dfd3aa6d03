import Verif.Model.EmtfBlocks
import Verif.Props.EmtfSite

/-! # C275-C277: attachments and processing information in EMTF XML files -/

namespace Verif.EmtfBlocks
open Verif.Text Verif.EmtfData Verif.EmtfFile Verif.EmtfSite

variable {F T : Type}

/-! ## Specification -/

/-- The attachments that an object stands for. -/
def held (a : Attached) : List Att := if a.more = [] then [a.own] else a.more

/-- What remains of an attachment. -/
def seenAtt (q : Bool) (a : Att) : Att := ⟨seen q a.filename, seen q a.description⟩

/-- Names that `element_to_dict` takes for types of values. -/
def typeWords : List Str := ["float".toList, "string".toList, "integer".toList, "boolean".toList, "list".toList, "tuple".toList]

/-- A run that is read: it has a text for errors, and no dipole with exactly one electrode. -/
def Readable (n : Notes F T) : Bool := n.errors.isSome && n.dipoles.all fun d => d.pots.length != 1

/-- What is there after reading processing information into an object that holds `o` already. -/
def seenInfo (W : Outside F T) (r3 r6 : F → F) (w : Order) (o i : Info F T) : Info F T :=
  { sign := i.sign
    remote := if seenAttr i.remote ∈ typeWords then o.remote else seenAttr i.remote
    site := if w.site = true then seenOver W r3 r6 o.site i.site else { o.site with runs := some (o.site.runs.getD []) }
    notes := if w.notes = true ∧ i.notes ≠ [] then (i.notes.takeWhile Readable).map (seenNotes W.quotes r3) else o.notes
    processedBy := match i.processedBy with
      | none => o.processedBy
      | some s => seenText W.quotes (some s)
    date := i.date
    software := ⟨seen W.quotes i.software.name, i.software.lastMod,
      (match i.software.author with
        | none => o.software.author
        | some s => seenText W.quotes (some s)), o.software.version⟩
    tag := match i.tag with
      | none => o.tag
      | some s => seenText W.quotes (some s) }

/-- The site without the difference between no list of runs and an empty one. -/
def Info.plain (i : Info F T) : Info F T := { i with site := { i.site with runs := some (i.site.runs.getD []) } }

/-! ## Attachments -/

def attL (q : Bool) (a : Att) : List (Str × Option J) :=
  [("filename".toList, some (leafJ q (some a.filename))), ("description".toList, some (leafJ q (some a.description)))]

theorem att_val (q : Bool) (n : Nat) (a : Att) : Val q n (attEl a) (.dict (dictOf (attL q a))) := by
  have p1 := text_piece q (n + 1) "filename" (some a.filename) "Filename".toList "filename".toList (by decide) (by decide)
  have p2 := text_piece q (n + 1) "description" (some a.description) "Description".toList "description".toList (by decide) (by decide)
  have hv := Val.parent (n := n) "Attachment".toList (attrs := []) (p1.append p2) (Or.inl (by simp [textEl])) (by decide) (by decide) (by decide) (by simp)
  have e : attrJ [] = [] := rfl
  rw [e, List.append_nil] at hv
  exact hv

theorem read_att (q : Bool) (old a : Att) : readAtt old (.dict (dictOf (attL q a))) = .ok (seenAtt q a) := by
  have hn : ((attL q a).map Prod.fst).Nodup := (by decide : ["filename".toList, "description".toList].Nodup)
  have f1 : field (dictOf (attL q a)) "filename" old.filename plainText = .ok (seen q a.filename) := by
    rw [field_dictOf hn]; exact plainText_leaf _ _
  have f2 : field (dictOf (attL q a)) "description" old.description plainText = .ok (seen q a.description) := by
    rw [field_dictOf hn]; exact plainText_leaf _ _
  simp only [readAtt, f1, f2, Except.bind]
  rfl

theorem att_one (q : Bool) (o : Attached) (a : Att) : readAtts o [st q 1 (attEl a)] = .ok { o with own := seenAtt q a } := by
  have hv : rootValue [st q 1 (attEl a)] = .ok (some (.dict (dictOf (attL q a)))) :=
    rootValue_one (t := "Attachment".toList) (k := "attachment".toList) (tagged_st _ _ _ _ _ _) (by decide) (att_val q 1 a)
  unfold readAtts
  rw [hv]
  simp only [Except.bind, read_att]
  rfl

theorem att_many (q : Bool) (o : Attached) (a b : Att) (l : List Att) :
    readAtts o ((a :: b :: l).map fun x => st q 1 (attEl x)) = .ok { o with more := o.more ++ (a :: b :: l).map (seenAtt q) } := by
  have h : ∀ l : List Att, List.Forall₂ (fun e w => tagged (st q 1 e) "Attachment".toList ∧ Val q 1 e w) (l.map attEl)
      (l.map fun x => .dict (dictOf (attL q x))) := by
    intro l
    induction l with
    | nil => exact .nil
    | cons x xs ih => exact .cons ⟨tagged_st _ _ _ _ _ _, att_val q 1 x⟩ ih
  have hv := rootValue_many (k := "attachment".toList) (by decide) (h (a :: b :: l))
  have e : ((a :: b :: l).map fun x => st q 1 (attEl x)) = ((a :: b :: l).map attEl).map (st q 1) := by
    rw [List.map_map]; rfl
  unfold readAtts
  rw [e, hv]
  have hg : groupOf ((a :: b :: l).map fun x => J.dict (dictOf (attL q x))) = some (.list ((a :: b :: l).map fun x => J.dict (dictOf (attL q x)))) := by
    show some (J.list (((a :: b :: l).map fun x => J.dict (dictOf (attL q x))).map fix)) = _
    rw [List.map_map]
    rfl
  rw [hg]
  simp only [Except.bind]
  have hm : (((a :: b :: l).map fun x => J.dict (dictOf (attL q x))).mapM readItem) = .ok ((a :: b :: l).map (seenAtt q)) := by
    generalize a :: b :: l = l
    induction l with
    | nil => rfl
    | cons x xs ih =>
      rw [List.map_cons, List.mapM_cons, ih]
      show (readAtt ⟨[], []⟩ (.dict (dictOf (attL q x))) >>= _) = _
      rw [read_att]
      rfl
  rw [hm]
  rfl

/-! ## C275: attachments -/

/-- The attachments after reading are those of the file, whatever was read before. -/
def C275_claim : Prop := ∀ (q : Bool) (o a b : Attached), readAtts o (writeAtts q a) = .ok b → held b = (held a).map (seenAtt q)

/-- C275: one attachment is read into the object and its list stays; several are appended to its list. -/
theorem C275_read_partial (q : Bool) (o a : Attached) : readAtts o (writeAtts q a) =
    .ok (match held a with
      | [x] => { o with own := seenAtt q x }
      | l => { o with more := o.more ++ l.map (seenAtt q) }) := by
  unfold held writeAtts
  rcases h : a.more with _ | ⟨x, _ | ⟨y, l⟩⟩
  · exact att_one q o a.own
  · exact att_one q o x
  · rw [List.map_map]
    exact att_many q o x y l

/-- C275: reading into a new object. -/
theorem C275_new_partial (q : Bool) (a : Attached) : ∃ b, readAtts Attached.new (writeAtts q a) = .ok b ∧ held b = (held a).map (seenAtt q) := by
  rw [C275_read_partial]
  refine ⟨_, rfl, ?_⟩
  unfold held
  rcases h : a.more with _ | ⟨x, _ | ⟨y, l⟩⟩ <;> rfl

/-- C275: after reading several files, the list has the attachments of all those with more than one. -/
theorem C275_files_partial (q : Bool) (o : Attached) (l : List Attached) : ∃ b, readFiles o (l.map (writeAtts q)) = .ok b ∧
    b.more = o.more ++ ((l.map held).filter fun h => 1 < h.length).flatMap fun h => h.map (seenAtt q) := by
  induction l generalizing o with
  | nil => exact ⟨o, rfl, by simp⟩
  | cons a l ih =>
    rw [List.map_cons, readFiles, C275_read_partial]
    simp only [Except.bind]
    obtain ⟨b, h1, h2⟩ := ih (match held a with
      | [x] => { o with own := seenAtt q x }
      | l => { o with more := o.more ++ l.map (seenAtt q) })
    refine ⟨b, h1, ?_⟩
    rw [h2]
    have hne : held a ≠ [] := by
      unfold held
      by_cases hm : a.more = []
      · rw [if_pos hm]; simp
      · rw [if_neg hm]; exact hm
    rcases hh : held a with _ | ⟨x, _ | ⟨y, r⟩⟩
    · exact absurd hh hne
    · simp [hh]
    · simp [hh, List.append_assoc]

/-- Two attachments. -/
def exTwo : Attached := ⟨⟨[], []⟩, [⟨"a.zmm".toList, "one".toList⟩, ⟨"b.zmm".toList, "two".toList⟩]⟩

/-- C275 is false: after reading the file a second time there are four attachments. -/
theorem C275_refuted : ¬ C275_claim := by
  intro h
  have h1 := C275_read_partial false exTwo exTwo
  have h2 := congrArg List.length (h _ _ _ _ h1)
  exact absurd h2 (by decide +kernel)

example : readFiles Attached.new [writeAtts true exTwo, writeAtts true exTwo] =
    .ok ⟨⟨[], []⟩, exTwo.more ++ exTwo.more⟩ := by decide +kernel

/-! ## Processing information -/

theorem ref_attr (t : Str) : attrJ [("type".toList, t)] =
    opt "type".toList (if seenAttr t ∈ typeWords then none else some (.str (seenAttr t))) := by
  cases t with
  | nil => rfl
  | cons c cs => exact type_attr (some (c :: cs))

theorem ref_val (q : Bool) (n : Nat) (t : Str) : Val q n (.mk "RemoteRef".toList [("type".toList, t)] none [])
    (.dict (opt "type".toList (if seenAttr t ∈ typeWords then none else some (.str (seenAttr t))))) := by
  have hv := Val.parent (q := q) (n := n) "RemoteRef".toList (attrs := [("type".toList, t)]) (Piece.nil q (n + 1) [] [])
    (Or.inr (by simp)) (by simp) (by simp) (by simp) (by intro k hk; simp only [List.map_cons, List.map_nil, List.mem_singleton] at hk; subst hk; decide)
  rw [List.nil_append, ref_attr] at hv
  exact hv

theorem read_ref (old t : Str) : readRef old (.dict (opt "type".toList (if seenAttr t ∈ typeWords then none else some (.str (seenAttr t))))) =
    .ok (if seenAttr t ∈ typeWords then old else seenAttr t) := by
  have e : OD.get? (opt "type".toList (if seenAttr t ∈ typeWords then none else some (J.str (seenAttr t)))) "type".toList =
      if seenAttr t ∈ typeWords then none else some (J.str (seenAttr t)) := by rw [get?_opt, if_pos rfl]
  simp only [readRef, field, e]
  by_cases h : seenAttr t ∈ typeWords
  · simp only [if_pos h]
  · simp only [if_neg h]; rfl

def softwareL (W : Outside F T) [DecidableEq T] (s : Software T) : List (Str × Option J) :=
  [("name".toList, some (leafJ W.quotes (some s.name))),
    ("last_mod".toList, some (leafJ W.quotes (if s.lastMod = W.noTime then none else some (W.shownTime s.lastMod)))),
    ("author".toList, s.author.map fun a => leafJ W.quotes (some a))]

theorem software_val (W : Outside F T) [DecidableEq T] (n : Nat) (s : Software T) :
    Val W.quotes n (softwareEl W s) (.dict (dictOf (softwareL W s))) := by
  have p1 := text_piece W.quotes (n + 1) "name" (some s.name) "Name".toList "name".toList (by decide) (by decide)
  have p2 : Piece W.quotes (n + 1) [timeEl W.toWorld "last_mod" s.lastMod] ["LastMod".toList] ["last_mod".toList]
      (opt "last_mod".toList (some (leafJ W.quotes (if s.lastMod = W.noTime then none else some (W.shownTime s.lastMod))))) :=
    Piece.one (by decide) (tagged_st _ _ _ _ _ _) (Val.leaf _ _ _ _)
  have p3 := text_piece W.quotes (n + 1) "author" s.author "Author".toList "author".toList (by decide) (by decide)
  have hv := Val.parent (n := n) "ProcessingSoftware".toList (attrs := []) ((p1.append p2).append p3) (Or.inl (by simp [textEl])) (by decide) (by decide)
    (by decide) (by simp)
  have e : attrJ [] = [] := rfl
  rw [e, List.append_nil] at hv
  have hl : ∀ a b c : List (Str × J), a ++ b ++ c = a ++ (b ++ (c ++ [])) := by simp
  rw [hl] at hv
  exact hv

theorem optText_leaf (q : Bool) (o v : Option Str) :
    (match (v.map fun s => leafJ q (some s)) with | none => Except.ok o | some x => optText x) =
      .ok (match v with | none => o | some s => seenText q (some s)) := by
  cases v with
  | none => rfl
  | some s =>
    simp only [Option.map_some, leafJ]
    cases seenText q (some s) <;> rfl

theorem read_software {W : Outside F T} [DecidableEq T] {r3 r6 : F → F} (G : Fair W r3 r6) (o s : Software T) :
    readSoftware W.toWorld o (.dict (dictOf (softwareL W s))) = .ok ⟨seen W.quotes s.name, s.lastMod,
      (match s.author with | none => o.author | some a => seenText W.quotes (some a)), o.version⟩ := by
  have hn : ((softwareL W s).map Prod.fst).Nodup := (by decide : ["name".toList, "last_mod".toList, "author".toList].Nodup)
  have f1 : field (dictOf (softwareL W s)) "name" o.name plainText = .ok (seen W.quotes s.name) := by
    rw [field_dictOf hn]; exact plainText_leaf _ _
  have f2 : field (dictOf (softwareL W s)) "last_mod" o.lastMod (timeOf W.toWorld) = .ok s.lastMod := by
    rw [field_dictOf hn]; exact time_read G.good _
  have f3 : field (dictOf (softwareL W s)) "author" o.author optText =
      .ok (match s.author with | none => o.author | some a => seenText W.quotes (some a)) := by
    rw [field_dictOf hn]; exact optText_leaf _ _ _
  have f4 : field (dictOf (softwareL W s)) "version" o.version plainText = .ok o.version := by
    rw [field_dictOf hn]; rfl
  simp only [readSoftware, f1, f2, f3, f4, Except.bind]

/-! ### The remote site -/

theorem readUntil_eq {W : World F T} {r3 : F → F} {l : List (Notes F T)} {ws : List J}
    (h : List.Forall₂ (fun n w => readNote W w = noteRead W r3 n) l ws) :
    (readUntil W ws).1 = (l.takeWhile Readable).map (seenNotes W.quotes r3) ∧
      ((readUntil W ws).2 = none ∨ (readUntil W ws).2 = some .attributeError) := by
  induction h with
  | nil => exact ⟨rfl, Or.inl rfl⟩
  | @cons n w l ws hp _ ih =>
    rw [readUntil, hp]
    cases hE : n.errors with
    | none =>
      have e : noteRead W r3 n = .error .keyError := if_pos hE
      have e2 : (n :: l).takeWhile Readable = [] := by simp [List.takeWhile_cons, Readable, hE]
      rw [e, e2]
      exact ⟨rfl, Or.inl rfl⟩
    | some s =>
      have hne : ¬ n.errors = none := by rw [hE]; simp
      by_cases h1 : ∃ d ∈ n.dipoles, d.pots.length = 1
      · have e : noteRead W r3 n = .error .attributeError := (if_neg hne).trans (if_pos h1)
        have hr : Readable n = false := by
          obtain ⟨d, hd, hd1⟩ := h1
          unfold Readable
          rw [Bool.and_eq_false_iff]
          right
          rw [List.all_eq_false]
          exact ⟨d, hd, by simp [hd1]⟩
        have e2 : (n :: l).takeWhile Readable = [] := by simp [List.takeWhile_cons, hr]
        rw [e, e2]
        exact ⟨rfl, Or.inr rfl⟩
      · have e : noteRead W r3 n = .ok (seenNotes W.quotes r3 n) := (if_neg hne).trans (if_neg h1)
        have hr : Readable n = true := by
          unfold Readable
          rw [Bool.and_eq_true, List.all_eq_true]
          refine ⟨by rw [hE]; rfl, fun d hd => ?_⟩
          simp only [bne_iff_ne, ne_eq]
          exact fun hl => h1 ⟨d, hd, hl⟩
        have e2 : (n :: l).takeWhile Readable = n :: l.takeWhile Readable := by simp [List.takeWhile_cons, hr]
        rw [e, e2]
        simp only [List.map_cons, ih.1, true_and]
        exact ih.2

theorem readRuns_eq {W : World F T} {r3 : F → F} {l : List (Notes F T)} {v : J}
    (h : List.Forall₂ (fun n w => readNote W w = noteRead W r3 n) l (manyOf v)) :
    readRuns W v = .ok ((l.takeWhile Readable).map (seenNotes W.quotes r3)) := by
  have := readUntil_eq h
  unfold readRuns
  generalize readUntil W (manyOf v) = p at this
  obtain ⟨a, b⟩ := p
  obtain ⟨rfl, rfl | rfl⟩ := this <;> rfl

/-- The field notes as a piece of the remote information. -/
theorem notes_piece {W : World F T} [DecidableEq T] {r3 : F → F} (G : Good W r3) (k : Nat) {l : List (Notes F T)} (hl : ∀ n ∈ l, n.Ok) {es : List El}
    (h : l.mapM (noteEl W) = .ok es) : ∃ ws, Piece W.quotes k es ["FieldNotes".toList] ["field_notes".toList] (opt "field_notes".toList (groupOf ws)) ∧
      List.Forall₂ (fun n w => readNote W w = noteRead W r3 n) l ws ∧ ∀ w ∈ ws, ∃ D, w = J.dict D := by
  have hf := mapM_forall h
  have hw : ∃ ws, List.Forall₂ (fun e w => tagged (st W.quotes k e) "FieldNotes".toList ∧ Val W.quotes k e w) es ws ∧
      List.Forall₂ (fun n w => readNote W w = noteRead W r3 n) l ws ∧ ∀ w ∈ ws, ∃ D, w = J.dict D := by
    clear h
    induction hf with
    | nil => exact ⟨[], .nil, .nil, by simp⟩
    | @cons n e l r hp _ ih =>
      obtain ⟨ws, h1, h2, h3⟩ := ih fun n hn => hl n (by simp [hn])
      obtain ⟨ht, D, a1, a2⟩ := note_val G k n (hl n (by simp)) hp
      refine ⟨.dict D :: ws, .cons ⟨ht, a1⟩ h1, .cons a2 h2, ?_⟩
      intro w hw
      rcases List.mem_cons.1 hw with rfl | hw
      · exact ⟨D, rfl⟩
      · exact h3 w hw
  obtain ⟨ws, h1, h2, h3⟩ := hw
  exact ⟨ws, Piece.many (by decide) h1, h2, h3⟩

/-- The field notes in the element, and how they are read. -/
theorem runs_val {W : Outside F T} [DecidableEq T] {r3 r6 : F → F} (G : Fair W r3 r6) (k : Nat) (w : Order) (o i : Info F T)
    (hn : ∀ x ∈ i.notes, x.Ok) {es : List El} (he : (if w.notes then i.notes.mapM (noteEl W.toWorld) else .ok []) = .ok es) :
    ∃ g, Piece W.quotes k es ["FieldNotes".toList] ["field_notes".toList] (opt "field_notes".toList g) ∧
      (es = [] → g = none) ∧
      (match g with | none => Except.ok o.notes | some v => readRuns W.toWorld v) = .ok (seenInfo W r3 r6 w o i).notes := by
  have none_case : es = [] → (w.notes = true → i.notes = []) → ∃ g, Piece W.quotes k es ["FieldNotes".toList] ["field_notes".toList] (opt "field_notes".toList g) ∧
      (es = [] → g = none) ∧
      (match g with | none => Except.ok o.notes | some v => readRuns W.toWorld v) = .ok (seenInfo W r3 r6 w o i).notes := by
    rintro rfl h
    refine ⟨none, Piece.nil _ _ _ _, fun _ => rfl, ?_⟩
    unfold seenInfo
    simp only
    rw [if_neg]
    rintro ⟨h1, h2⟩
    exact h2 (h h1)
  cases hw : w.notes with
  | false =>
    rw [hw] at he
    cases he
    exact none_case rfl (by rw [hw]; intro h; cases h)
  | true =>
    rw [hw, if_pos rfl] at he
    obtain ⟨ws, h1, h2, h3⟩ := notes_piece G.good k hn he
    cases hi : i.notes with
    | nil =>
      rw [hi] at he
      cases he
      exact none_case rfl fun _ => hi
    | cons x xs =>
      have hm := manyOf_group h3
      have hws : ws ≠ [] := by
        rw [hi] at h2
        cases h2
        simp
      cases hg : groupOf ws with
      | none =>
        exfalso
        rcases ws with _ | ⟨a, _ | ⟨b, l⟩⟩
        · exact hws rfl
        · cases hg
        · cases hg
      | some v =>
        rw [hg] at hm h1
        simp only at hm
        refine ⟨some v, h1, ?_, ?_⟩
        · rintro rfl
          rw [hi] at he
          have := mapM_forall he
          cases this
        · rw [← hm] at h2
          have := readRuns_eq h2
          simp only
          rw [this]
          unfold seenInfo
          simp only
          rw [if_pos ⟨hw, by rw [hi]; simp⟩]

theorem remote_val {W : Outside F T} [DecidableEq T] {r3 r6 : F → F} (G : Fair W r3 r6) (n : Nat) (w : Order) (o i : Info F T) (hs : i.site.Ok W)
    (hn : ∀ x ∈ i.notes, x.Ok) {e : El} (he : remoteEl W w i = .ok e) : tagged (st W.quotes n e) "RemoteInfo".toList ∧
      ∃ v, Val W.quotes n e v ∧ ∃ s, readRemote W (o.site, o.notes) v = .ok (s, (seenInfo W r3 r6 w o i).notes) ∧
        { s with runs := some (s.runs.getD []) } = (seenInfo W r3 r6 w o i).site := by
  unfold remoteEl at he
  cases hr : (if w.notes then i.notes.mapM (noteEl W.toWorld) else .ok []) with
  | error e' => rw [hr] at he; cases he
  | ok es =>
    rw [hr] at he
    cases he
    refine ⟨tagged_st _ _ _ _ _ _, ?_⟩
    obtain ⟨g, hp, hg, hx⟩ := runs_val (r6 := r6) G (n + 1) w o i hn hr
    cases hw : w.site with
    | true =>
      have sp : Piece W.quotes (n + 1) [siteEl W i.site] ["Site".toList] ["site".toList]
          (opt "site".toList (some (.dict (dictOf (siteL W i.site))))) :=
        Piece.one (by decide) (tagged_st _ _ _ _ _ _) (site_val G _ _)
      have hv := Val.parent (n := n) "RemoteInfo".toList (attrs := []) (sp.append hp) (Or.inl (by simp)) (by decide) (by decide) (by decide) (by simp)
      have e : attrJ [] = [] := rfl
      rw [e, List.append_nil] at hv
      refine ⟨_, hv, ?_⟩
      have hread := read_site G o.site i.site hs
      cases hd : readDict W o.site (.dict (dictOf (siteL W i.site))) with
      | error e' => rw [hd] at hread; cases hread
      | ok m =>
        rw [hd] at hread
        have hm := Except.ok.inj hread
        refine ⟨m, ?_, ?_⟩
        · have g1 : OD.get? (opt "site".toList (some (J.dict (dictOf (siteL W i.site)))) ++ opt "field_notes".toList g) "site".toList =
              some (.dict (dictOf (siteL W i.site))) := rfl
          have g2 : OD.get? (opt "site".toList (some (J.dict (dictOf (siteL W i.site)))) ++ opt "field_notes".toList g) "field_notes".toList = g := by
            rw [OD.get?_append, get?_opt, get?_opt, if_neg (by decide), if_pos rfl]
            rfl
          have g3 : field (opt "site".toList (some (J.dict (dictOf (siteL W i.site)))) ++ opt "field_notes".toList g) "field_notes" o.notes
              (readRuns W.toWorld) = .ok (seenInfo W r3 r6 w o i).notes := by
            unfold field
            rw [g2]
            exact hx
          have r1 : readRemoteSite W o.site (opt "site".toList (some (J.dict (dictOf (siteL W i.site)))) ++ opt "field_notes".toList g) =
              .ok (m, false) := by
            unfold readRemoteSite
            rw [g1]
            simp only [hd]
          simp only [readRemote, r1, Except.bind, Bool.false_eq_true, if_false, g3]
        · refine hm.trans ?_
          unfold seenInfo
          simp only [hw, if_true]
    | false =>
      have hs' : (seenInfo W r3 r6 w o i).site = { o.site with runs := some (o.site.runs.getD []) } := by
        unfold seenInfo
        simp only [hw, Bool.false_eq_true, if_false]
      rw [hs']
      by_cases h0 : es = []
      · subst h0
        refine ⟨.null, Val.leaf W.quotes n "RemoteInfo".toList none, o.site, ?_, rfl⟩
        rw [hg rfl] at hx
        have := Except.ok.inj hx
        rw [← this]
        rfl
      · have hv := Val.parent (n := n) "RemoteInfo".toList (attrs := []) hp (Or.inl h0) (by decide) (by decide) (by decide) (by simp)
        have e : attrJ [] = [] := rfl
        rw [e, List.append_nil] at hv
        refine ⟨_, hv, o.site, ?_, rfl⟩
        have g1 : OD.get? (opt "field_notes".toList g) "site".toList = none := by
          rw [get?_opt, if_neg (by decide)]
        have g2 : OD.get? (opt "field_notes".toList g) "field_notes".toList = g := by
          rw [get?_opt, if_pos rfl]
        have r1 : readRemoteSite W o.site (opt "field_notes".toList g) = .ok (o.site, false) := by
          unfold readRemoteSite
          rw [g1]
        have g3 : field (opt "field_notes".toList g) "field_notes" o.notes (readRuns W.toWorld) = .ok (seenInfo W r3 r6 w o i).notes := by
          unfold field
          rw [g2]
          exact hx
        simp only [readRemote, r1, Except.bind, Bool.false_eq_true, if_false, g3]

def infoL (W : Outside F T) [DecidableEq T] (i : Info F T) (r : J) : List (Str × Option J) :=
  [("sign_convention".toList, some (leafJ W.quotes (some i.sign))),
    ("remote_ref".toList, some (.dict (opt "type".toList (if seenAttr i.remote ∈ typeWords then none else some (.str (seenAttr i.remote)))))),
    ("remote_info".toList, some r),
    ("processed_by".toList, i.processedBy.map fun a => leafJ W.quotes (some a)),
    ("process_date".toList, some (leafJ W.quotes (if i.date = W.noTime then none else some (W.shownTime i.date)))),
    ("processing_software".toList, some (.dict (dictOf (softwareL W i.software)))),
    ("processing_tag".toList, i.tag.map fun a => leafJ W.quotes (some a))]

theorem sign_seen (q : Bool) {s : Str} (h : s ∈ signs) : seenText q (some s) = some s := by
  have : ∀ q : Bool, ∀ s ∈ signs, seenText q (some s) = some s := by decide +kernel
  exact this q s h

theorem info_val {W : Outside F T} [DecidableEq T] {r3 r6 : F → F} (G : Fair W r3 r6) (n : Nat) (w : Order) (o i : Info F T) (hs : i.site.Ok W)
    (hn : ∀ x ∈ i.notes, x.Ok) (hg : i.sign ∈ signs) {e : El} (he : infoEl W w i = .ok e) : tagged (st W.quotes n e) "ProcessingInfo".toList ∧
      ∃ v, Val W.quotes n e v ∧ ∃ m, readInfoDict W o v = .ok m ∧ m.plain = seenInfo W r3 r6 w o i := by
  unfold infoEl at he
  cases hr : remoteEl W w i with
  | error e' => rw [hr] at he; cases he
  | ok re =>
    rw [hr] at he
    cases he
    refine ⟨tagged_st _ _ _ _ _ _, ?_⟩
    obtain ⟨ht, rv, hrv, s, hread, hsite⟩ := remote_val G (n + 1) w o i hs hn hr
    have p1 := text_piece W.quotes (n + 1) "sign_convention" (some i.sign) "SignConvention".toList "sign_convention".toList (by decide +kernel) (by decide +kernel)
    have p2 : Piece W.quotes (n + 1) [.mk "RemoteRef".toList [("type".toList, i.remote)] none []] ["RemoteRef".toList] ["remote_ref".toList]
        (opt "remote_ref".toList (some (.dict (opt "type".toList (if seenAttr i.remote ∈ typeWords then none else some (.str (seenAttr i.remote))))))) :=
      Piece.one (by decide) (tagged_st _ _ _ _ _ _) (ref_val _ _ _)
    have p3 : Piece W.quotes (n + 1) [re] ["RemoteInfo".toList] ["remote_info".toList] (opt "remote_info".toList (some rv)) :=
      Piece.one (by decide) ht hrv
    have p4 := text_piece W.quotes (n + 1) "processed_by" i.processedBy "ProcessedBy".toList "processed_by".toList (by decide +kernel) (by decide +kernel)
    have p5 : Piece W.quotes (n + 1) [timeEl W.toWorld "process_date" i.date] ["ProcessDate".toList] ["process_date".toList]
        (opt "process_date".toList (some (leafJ W.quotes (if i.date = W.noTime then none else some (W.shownTime i.date))))) :=
      Piece.one (by decide +kernel) (tagged_st _ _ _ _ _ _) (Val.leaf _ _ _ _)
    have p6 : Piece W.quotes (n + 1) [softwareEl W i.software] ["ProcessingSoftware".toList] ["processing_software".toList]
        (opt "processing_software".toList (some (.dict (dictOf (softwareL W i.software))))) :=
      Piece.one (by decide +kernel) (tagged_st _ _ _ _ _ _) (software_val _ _ _)
    have p7 := text_piece W.quotes (n + 1) "processing_tag" i.tag "ProcessingTag".toList "processing_tag".toList (by decide +kernel) (by decide +kernel)
    have hv := Val.parent (n := n) "ProcessingInfo".toList (attrs := [])
      ((((((p1.append p2).append p3).append p4).append p5).append p6).append p7)
      (Or.inl (by simp)) (by decide +kernel) (by decide +kernel) (by decide +kernel) (by simp)
    have e : attrJ [] = [] := rfl
    rw [e, List.append_nil] at hv
    have hl : ∀ a b c d e f g : List (Str × J), a ++ b ++ c ++ d ++ e ++ f ++ g = a ++ (b ++ (c ++ (d ++ (e ++ (f ++ (g ++ [])))))) := by simp
    rw [hl] at hv
    refine ⟨.dict (dictOf (infoL W i rv)), hv, ?_⟩
    have hnd : ((infoL W i rv).map Prod.fst).Nodup :=
      (by decide +kernel : ["sign_convention".toList, "remote_ref".toList, "remote_info".toList, "processed_by".toList, "process_date".toList,
        "processing_software".toList, "processing_tag".toList].Nodup)
    have f1 : field (dictOf (infoL W i rv)) "remote_ref" o.remote (readRef o.remote) =
        .ok (if seenAttr i.remote ∈ typeWords then o.remote else seenAttr i.remote) := by
      rw [field_dictOf hnd]; exact read_ref _ _
    have f2 : field (dictOf (infoL W i rv)) "remote_info" (o.site, o.notes) (readRemote W (o.site, o.notes)) =
        .ok (s, (seenInfo W r3 r6 w o i).notes) := by
      rw [field_dictOf hnd]; exact hread
    have f3 : field (dictOf (infoL W i rv)) "processing_software" o.software (readSoftware W.toWorld o.software) =
        .ok (seenInfo W r3 r6 w o i).software := by
      rw [field_dictOf hnd]; exact read_software G _ _
    have f4 : field (dictOf (infoL W i rv)) "sign_convention" o.sign signOf = .ok i.sign := by
      rw [field_dictOf hnd]
      show signOf (leafJ W.quotes (some i.sign)) = _
      unfold leafJ
      rw [sign_seen _ hg]
      simp only [signOf]
      rw [if_pos (List.contains_iff_mem.2 hg)]
    have f5 : field (dictOf (infoL W i rv)) "processed_by" o.processedBy optText = .ok (seenInfo W r3 r6 w o i).processedBy := by
      rw [field_dictOf hnd]; exact optText_leaf _ _ _
    have f6 : field (dictOf (infoL W i rv)) "process_date" o.date (timeOf W.toWorld) = .ok i.date := by
      rw [field_dictOf hnd]; exact time_read G.good _
    have f7 : field (dictOf (infoL W i rv)) "processing_tag" o.tag optText = .ok (seenInfo W r3 r6 w o i).tag := by
      rw [field_dictOf hnd]; exact optText_leaf _ _ _
    refine ⟨_, by simp only [readInfoDict, f1, f2, f3, f4, f5, f6, f7, Except.bind]; rfl, ?_⟩
    unfold Info.plain
    simp only [hsite]
    rfl

/-! ## C276: what several writes of an object put into their files -/

/-- The file has the remote site if and only if it has an identifier, and the remote field notes unless they are to be skipped. -/
def C276_claim : Prop := ∀ (F T : Type) (_ : DecidableEq T) (W : Outside F T) (l : List (Bool × Info F T)),
  writes W ⟨true, true⟩ l = l.map fun p => writeInfo W ⟨decide (p.2.site.id ∉ ["".toList, "None".toList, "none".toList]), !p.1⟩ p.2

theorem prepare_eq (o : Order) (skip : Bool) (id : Str) :
    prepare o skip id = ⟨o.site && decide (id ∉ ["".toList, "None".toList, "none".toList]), o.notes && !skip⟩ := by
  unfold prepare
  have e : ["".toList, "None".toList, "none".toList].contains id = decide (id ∈ ["".toList, "None".toList, "none".toList]) := by
    rw [Bool.eq_iff_iff, List.contains_iff_mem, decide_eq_true_iff]
  rw [e]
  have e2 : decide (id ∉ ["".toList, "None".toList, "none".toList]) = !decide (id ∈ ["".toList, "None".toList, "none".toList]) := decide_not
  rw [e2]
  generalize decide (id ∈ ["".toList, "None".toList, "none".toList]) = b
  obtain ⟨o1, o2⟩ := o
  revert o1 o2 skip b
  decide

theorem writes_append (W : Outside F T) [DecidableEq T] (o : Order) (l : List (Bool × Info F T)) (p : Bool × Info F T) :
    writes W o (l ++ [p]) = writes W o l ++
      [writeInfo W ⟨o.site && (l ++ [p]).all fun x => decide (x.2.site.id ∉ ["".toList, "None".toList, "none".toList]),
        o.notes && (l ++ [p]).all fun x => !x.1⟩ p.2] := by
  induction l generalizing o with
  | nil =>
    simp only [List.nil_append, writes, prepare_eq, List.all_cons, List.all_nil, Bool.and_true]
  | cons x l ih =>
    rw [List.cons_append, writes, ih, writes, prepare_eq]
    simp only [List.all_cons, Bool.and_assoc, List.cons_append]

/-- C276: a write puts the remote site into its file if and only if it had an identifier at this and at all earlier writes, and the remote field
notes if and only if they were not to be skipped at this and all earlier writes. -/
theorem C276_writes_partial (W : Outside F T) [DecidableEq T] (l : List (Bool × Info F T)) (p : Bool × Info F T) :
    writes W ⟨true, true⟩ (l ++ [p]) = writes W ⟨true, true⟩ l ++
      [writeInfo W ⟨decide (∀ x ∈ l ++ [p], x.2.site.id ∉ ["".toList, "None".toList, "none".toList]), decide (∀ x ∈ l ++ [p], x.1 = false)⟩ p.2] := by
  rw [writes_append]
  have e1 : (l ++ [p]).all (fun x => decide (x.2.site.id ∉ ["".toList, "None".toList, "none".toList])) =
      decide (∀ x ∈ l ++ [p], x.2.site.id ∉ ["".toList, "None".toList, "none".toList]) := by
    rw [Bool.eq_iff_iff, List.all_eq_true, decide_eq_true_iff]
    exact forall₂_congr fun x _ => decide_eq_true_iff
  have e2 : (l ++ [p]).all (fun x => !x.1) = decide (∀ x ∈ l ++ [p], x.1 = false) := by
    rw [Bool.eq_iff_iff, List.all_eq_true, decide_eq_true_iff]
    exact forall₂_congr fun x _ => by simp
  rw [e1, e2, Bool.true_and, Bool.true_and]

/-- C276: the first write is as it should be. -/
theorem C276_first_partial (W : Outside F T) [DecidableEq T] (skip : Bool) (i : Info F T) :
    writes W ⟨true, true⟩ [(skip, i)] = [writeInfo W ⟨decide (i.site.id ∉ ["".toList, "None".toList, "none".toList]), !skip⟩ i] := by
  rw [writes, prepare_eq]
  rfl

/-- C276: what a write leaves out of the remote site stays out. -/
theorem C276_gone_partial (W : Outside F T) [DecidableEq T] (l : List (Bool × Info F T)) (p : Bool × Info F T) {x : Bool × Info F T} (hx : x ∈ l)
    (hid : x.2.site.id = []) : ∃ b, writes W ⟨true, true⟩ (l ++ [p]) = writes W ⟨true, true⟩ l ++ [writeInfo W ⟨false, b⟩ p.2] := by
  refine ⟨decide (∀ x ∈ l ++ [p], x.1 = false), (C276_writes_partial W l p).trans ?_⟩
  have : decide (∀ x ∈ l ++ [p], x.2.site.id ∉ ["".toList, "None".toList, "none".toList]) = false := by
    rw [decide_eq_false_iff_not]
    intro h
    exact h x (List.mem_append_left _ hx) (by rw [hid]; decide)
  rw [this]

/-- Processing information with a remote site. -/
def exInfo : Info Nat Nat := { newInfo exO with site := exSite, remote := "Robust Remote Reference".toList, tag := some "MT1bc".toList }

/-! ## C277: processing information -/

/-- Processing information in a file is that of the object, as texts are escaped and numbers rounded. -/
def C277_claim : Prop := ∀ (F T : Type) (_ : DecidableEq T) (W : Outside F T) (r3 r6 : F → F), Fair W r3 r6 → ∀ i : Info F T, i.site.Ok W →
  (∀ n ∈ i.notes, n.Ok) → i.sign ∈ signs → ∀ e, writeInfo W ⟨true, true⟩ i = .ok e → ∃ m, readInfo W (newInfo W) [e] = .ok m ∧
    m.remote = seenAttr i.remote ∧ m.notes = i.notes.map (seenNotes W.quotes r3) ∧ m.software.version = i.software.version

/-- C277: exactly what is there after reading. -/
theorem C277_info_partial {W : Outside F T} [DecidableEq T] {r3 r6 : F → F} (G : Fair W r3 r6) (w : Order) (o : Info F T) {i : Info F T}
    (hs : i.site.Ok W) (hn : ∀ x ∈ i.notes, x.Ok) (hg : i.sign ∈ signs) {e : El} (he : writeInfo W w i = .ok e) :
    ∃ m, readInfo W o [e] = .ok m ∧ m.plain = seenInfo W r3 r6 w o i := by
  unfold writeInfo at he
  cases hr : infoEl W w i with
  | error e' => rw [hr] at he; cases he
  | ok e' =>
    rw [hr] at he
    cases he
    obtain ⟨ht, v, hv, m, h1, h2⟩ := info_val G 1 w o i hs hn hg hr
    refine ⟨m, ?_, h2⟩
    have hroot : rootValue [st W.quotes 1 e'] = .ok (some v) := rootValue_one (k := "processing_info".toList) ht (by decide +kernel) hv
    unfold readInfo
    show (rootValue [st W.quotes 1 e']).bind _ = _
    rw [hroot]
    exact h1

/-- C277: it can be written if and only if the remote field notes can or are not written. -/
theorem C277_writable_partial (W : Outside F T) [DecidableEq T] (w : Order) (i : Info F T) : (∃ e, writeInfo W w i = .ok e) ↔
    (w.notes = true → ∀ n ∈ i.notes, n.rate ≠ none ∧ ∀ d ∈ n.dipoles, d.name ≠ none ∧ d.type ≠ none) := by
  rw [← C240_writable W.toWorld i.notes]
  unfold writeInfo infoEl remoteEl writeNotes
  cases hw : w.notes with
  | false => exact ⟨fun _ h => (by cases h), fun _ => ⟨_, rfl⟩⟩
  | true =>
    rw [if_pos rfl]
    cases i.notes.mapM (noteEl W.toWorld) with
    | error e => exact ⟨fun ⟨_, h⟩ => (by cases h), fun h => by obtain ⟨_, h⟩ := h rfl; cases h⟩
    | ok r => exact ⟨fun _ _ => ⟨_, rfl⟩, fun _ => ⟨_, rfl⟩⟩

/-- C277: a file without the element changes nothing. -/
theorem C277_absent_partial (W : Outside F T) (o : Info F T) : readInfo W o [] = .ok o := rfl

/-- C277: an unknown child of the remote site is no exception, and the field notes are not read. -/
theorem C277_silent_partial (W : Outside F T) (o : Site F T × List (Notes F T)) {d e : List (Str × J)} {k : Str} (hd : OD.get? d "site".toList = some (.dict e))
    (h1 : k ∈ e.map Prod.fst) (h2 : k ∉ ["project".toList, "survey".toList, "year_collected".toList, "country".toList, "id".toList,
      "name".toList, "location".toList, "orientation".toList, "acquired_by".toList, "start".toList, "end".toList, "run_list".toList,
      "data_quality_notes".toList, "data_quality_warnings".toList, "comments".toList]) (h3 : W.other k = false) :
    ∃ s, readRemote W o (.dict d) = .ok (s, o.2) := by
  refine ⟨o.1, ?_⟩
  have hr := C272_unknown_partial W o.1 e h1 h2 h3
  simp only [readRemote, readRemoteSite, hd, hr, Except.bind, if_true]

example : ∃ s, readRemote exO (newSite exO, []) (.dict [("site".toList, .dict [("elevation".toList, .str "1".toList)])]) = .ok (s, []) :=
  C277_silent_partial (k := "elevation".toList) exO _ rfl (by decide) (by decide +kernel) (by decide +kernel)

theorem exInfo_reads : ∃ e m, writeInfo exO ⟨true, true⟩ exInfo = .ok e ∧ readInfo exO (newInfo exO) [e] = .ok m ∧
    m.plain = seenInfo exO id id ⟨true, true⟩ (newInfo exO) exInfo := by
  obtain ⟨e, he⟩ := (C277_writable_partial exO ⟨true, true⟩ exInfo).2 (by intro _ n hn; cases hn)
  obtain ⟨m, h1, h2⟩ := C277_info_partial exO_fair ⟨true, true⟩ (newInfo exO) (i := exInfo) exSite_ok (by intro n hn; cases hn) (by decide) he
  exact ⟨e, m, he, h1, h2⟩

/-- C276 is false: the remote site is given an identifier after the first write. -/
theorem C276_refuted : ¬ C276_claim := by
  intro h
  have h1 := h Nat Nat inferInstance exO [(false, newInfo exO), (false, exInfo)]
  have h2 : (writes exO ⟨true, true⟩ [(false, newInfo exO), (false, exInfo)]).getLast? = some (writeInfo exO ⟨false, true⟩ exInfo) := rfl
  have h3 : ([(false, newInfo exO), (false, exInfo)].map fun p : Bool × Info Nat Nat =>
      writeInfo exO ⟨decide (p.2.site.id ∉ ["".toList, "None".toList, "none".toList]), !p.1⟩ p.2).getLast? =
      some (writeInfo exO ⟨true, true⟩ exInfo) := rfl
  rw [h1, h3] at h2
  have h4 := Option.some.inj h2
  obtain ⟨e, m, he, h5, h6⟩ := exInfo_reads
  obtain ⟨m', g5, g6⟩ := C277_info_partial exO_fair ⟨false, true⟩ (newInfo exO) (i := exInfo) exSite_ok (by intro n hn; cases hn) (by decide)
    (h4 ▸ he)
  rw [h5] at g5
  cases g5
  have h7 := congrArg (fun i => i.site.id) (h6.symm.trans g6)
  exact absurd h7 (by decide +kernel)

/-- C277 is false: the version of the software is not written. -/
theorem C277_refuted : ¬ C277_claim := by
  intro h
  have hw : ∃ e, writeInfo exO ⟨true, true⟩ { exInfo with software := ⟨"EMTF".toList, 0, none, "1.0".toList⟩ } = .ok e :=
    (C277_writable_partial exO ⟨true, true⟩ _).2 (by intro _ n hn; cases hn)
  obtain ⟨e, he⟩ := hw
  obtain ⟨m, h1, h2⟩ := C277_info_partial exO_fair ⟨true, true⟩ (newInfo exO) exSite_ok (by intro n hn; cases hn)
    (by decide) he
  obtain ⟨m', g1, _, _, g2⟩ := h Nat Nat inferInstance exO id id exO_fair _ exSite_ok (by intro n hn; cases hn) (by decide) e he
  rw [h1] at g1
  cases g1
  have h3 : m.software.version = [] := congrArg (fun i => i.software.version) h2
  rw [g2] at h3
  cases h3

end Verif.EmtfBlocks
