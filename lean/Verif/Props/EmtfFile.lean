import Verif.Model.EmtfFile
import Verif.Props.EmtfData
import Mathlib.Data.List.Forall2
import Mathlib.Data.List.Nodup

/-! # C240-C244: field notes and site layout in EMTF XML files -/

namespace Verif.EmtfFile
open Verif.Text Verif.EmtfData

/-! ## Specification -/

/-- What is read of a text that was written. -/
def garbled (q : Bool) (s : Str) : Str :=
  s.flatMap fun c =>
    if c = '&' then "andamp;".toList else if c = '<' then "andlt;".toList else if c = '>' then "andgt;".toList
    else if c = '"' then (if q then "andquot;".toList else ['"']) else [c]

/-- Texts that count as no text. -/
def nullWords : List Str :=
  ["".toList, "null".toList, "None".toList, "NONE".toList, "NULL".toList, "Null".toList, "none".toList,
    "1980-01-01T00:00:00".toList, "1980-01-01T00:00:00+00:00".toList]

/-- What remains of a text of an element. -/
def seenText (q : Bool) (s : Option Str) : Option Str :=
  match s with
  | none => none
  | some s => if s ∈ nullWords then none else some (strip (garbled q s))

/-- What remains of a text that is an attribute of an element. -/
def seenAttr (s : Str) : Str := if s ∈ nullWords then [] else garbled true s

/-- What remains of the type of an instrument. -/
def seenType (s : Option Str) : Str :=
  match s with
  | none => []
  | some s =>
    if seenAttr s ∈ ["float".toList, "string".toList, "integer".toList, "boolean".toList, "list".toList, "tuple".toList] then []
    else seenAttr s

/-- What remains of an instrument. -/
def seenTool (q : Bool) (t : Tool) : Tool :=
  { id := some ((seenText q t.id).getD []), manufacturer := some ((seenText q t.manufacturer).getD []),
    type := some (seenType t.type), model := none, name := seenText q t.name, settings := seenText q t.settings }

/-- What remains of an electrode. -/
def seenPot (q : Bool) (p : Pot) : Pot :=
  { location := p.location, number := seenAttr p.number, value := (seenText q (some p.comments)).getD [], comments := [] }

/-- What remains of a dipole. -/
def seenDipole {F : Type} (q : Bool) (r3 : F → F) (d : Dipole F) : Dipole F :=
  { manufacturer := seenText q d.manufacturer, length := d.length.map r3, azimuth := d.azimuth.map r3,
    name := d.name.map seenAttr, type := d.type.map seenAttr, pots := d.pots.map (seenPot q) }

/-- What remains of the text of a comment: blanks alone are nothing. -/
def seenComment (q : Bool) (s : Option Str) : Option Str :=
  match seenText q s with
  | some (c :: cs) => some (c :: cs)
  | _ => none

/-- What remains of the notes of a run. -/
def seenNotes {F T : Type} (q : Bool) (r3 : F → F) (n : Notes F T) : Notes F T :=
  { run := seenAttr n.run, inst := seenTool q n.inst, rate := n.rate, start := n.start, stop := n.stop,
    author := some (seenAttr (n.author.getD [])), value := seenComment q n.value, errors := seenText q n.errors,
    mags := n.mags.map (seenTool q), dipoles := n.dipoles.map (seenDipole q r3) }

/-- What remains of a channel of the site layout. -/
def seenChan {F : Type} (zero : F) (r3 : F → F) (c : Chan F) : Chan F :=
  { electric := c.electric, name := seenAttr c.name, orientation := r3 c.orientation, x := r3 c.x, y := r3 c.y, z := r3 c.z,
    x2 := if c.electric then r3 c.x2 else zero, y2 := if c.electric then r3 c.y2 else zero,
    z2 := if c.electric then r3 c.z2 else zero }

/-- A text of a number: no blanks, nothing special, and something. -/
def Plain (s : Str) : Prop := s ≠ [] ∧ s ∉ nullWords ∧ ∀ c ∈ s, ws c = false ∧ c ≠ '&' ∧ c ≠ '<' ∧ c ≠ '>' ∧ c ≠ '"'

/-- Numbers and times are read as they were printed, lengths and places to three decimals. -/
structure Good {F T : Type} (W : World F T) (r3 : F → F) : Prop where
  shown : ∀ x, Plain (W.shown x) ∧ W.parse (W.shown x) = some x
  fixed : ∀ x, Plain (W.fixed x) ∧ W.parse (W.fixed x) = some (r3 x)
  time : ∀ t, t ≠ W.noTime → Plain (W.shownTime t) ∧ W.parseTime (W.shownTime t) = some t

/-! ## Texts -/

theorem nullWords_eq (s : Str) : nullValues.contains s = decide (s ∈ nullWords) := by
  rw [Bool.eq_iff_iff, List.contains_iff_mem, decide_eq_true_iff]
  exact Iff.rfl

theorem storedText_eq (q : Bool) (s : Str) : storedText q s = garbled q s := by
  unfold storedText garbled replaceC
  rw [List.flatMap_assoc]
  apply List.flatMap_congr
  intro c _
  unfold entity
  by_cases h1 : c = '&'
  · subst h1; cases q <;> decide
  by_cases h2 : c = '<'
  · subst h2; cases q <;> decide
  by_cases h3 : c = '>'
  · subst h3; cases q <;> decide
  by_cases h4 : c = '"'
  · subst h4; cases q <;> decide
  · simp [h1, h2, h3, h4]

theorem garbled_plain (q : Bool) {s : Str} (h : ∀ c ∈ s, c ≠ '&' ∧ c ≠ '<' ∧ c ≠ '>' ∧ c ≠ '"') : garbled q s = s := by
  unfold garbled
  induction s with
  | nil => rfl
  | cons c cs ih =>
    obtain ⟨h1, h2, h3, h4⟩ := h c (by simp)
    rw [List.flatMap_cons, ih fun x hx => h x (by simp [hx])]
    simp [h1, h2, h3, h4]

theorem garbled_ne (q : Bool) {s : Str} (h : s ≠ []) : garbled q s ≠ [] := by
  cases s with
  | nil => exact absurd rfl h
  | cons c cs =>
    unfold garbled
    rw [List.flatMap_cons]
    intro e
    have := (List.append_eq_nil_iff.1 e).1
    revert this
    by_cases h1 : c = '&'
    · simp [h1]
    by_cases h2 : c = '<'
    · simp [h2]
    by_cases h3 : c = '>'
    · simp [h3]
    by_cases h4 : c = '"'
    · cases q <;> simp [h4]
    · simp [h1, h2, h3, h4]

theorem plain_seen (q : Bool) {s : Str} (h : Plain s) : seenText q (some s) = some s ∧ garbled q s = s ∧ strip s = s := by
  have e : garbled q s = s := garbled_plain q fun c hc => (h.2.2 c hc).2
  have e' : strip s = s := strip_noWs fun c hc => (h.2.2 c hc).1
  refine ⟨?_, e, e'⟩
  simp only [seenText, if_neg h.2.1, e, e']

/-! ## Elements in the file -/

/-- An attribute in the file. -/
def attrOf (p : Str × Str) : Str × Str := (p.1, seenAttr p.2)

/-- A tag in the file. -/
def tagOf (t : Str) : Str := if t = "value".toList then t else capwords t

/-- An element in the file, read again. -/
def st (q : Bool) (n : Nat) (e : El) : El := stored q (pretty n e)

theorem storedAll_map (q : Bool) (l : List El) : storedAll q l = l.map (stored q) := by
  induction l with
  | nil => rfl
  | cons e es ih => rw [storedAll, ih]; rfl

theorem prettyAll_map (n : Nat) (l : List El) : prettyAll n l = l.map (pretty n) := by
  induction l with
  | nil => rfl
  | cons e es ih => rw [prettyAll, ih]; rfl

theorem st_eq (q : Bool) (n : Nat) (tag : Str) (a : List (Str × Str)) (t : Option Str) (ks : List El) :
    st q n (.mk tag a t ks) = .mk (tagOf tag) (a.map attrOf) ((spaced (n + 1) (noNull t) ks).map (storedText q))
      (ks.map (st q (n + 1))) := by
  unfold st
  rw [pretty, stored, storedAll_map, prettyAll_map]
  congr 1
  · rw [List.map_map]
    apply List.map_congr_left
    intro p _
    simp only [Function.comp_def, attrOf, seenAttr, storedText_eq, nullWords_eq, decide_eq_true_iff]
    split
    · rfl
    · rfl
  · rw [List.map_map]; rfl

/-- A leaf without attributes. -/
def leafJ (q : Bool) (t : Option Str) : J :=
  match seenText q t with
  | none => .null
  | some s => .str s

theorem addText_leaf (q : Bool) (t : Option Str) (v : J) :
    addText [] false ((noNull t).map (storedText q)) v = .ok (match seenText q t with
      | none => v
      | some s => .str s) := by
  cases t with
  | none => rfl
  | some s =>
    by_cases h : s ∈ nullWords
    · simp only [noNull, nullWords_eq, h, decide_true, if_true, seenText]
      rfl
    · simp only [noNull, nullWords_eq, h, decide_false, seenText]
      have hs : s ≠ [] := by
        intro e; subst e; exact h (by decide)
      have hg := garbled_ne q hs
      simp only [Bool.false_eq_true, if_false, Option.map_some, storedText_eq]
      cases hc : garbled q s with
      | nil => exact absurd hc hg
      | cons c cs => rfl

theorem toDict_leaf (q : Bool) (n : Nat) (tag : Str) (t : Option Str) : toDict (st q n (.mk tag [] t [])) = .ok (leafJ q t) := by
  rw [st_eq]
  simp only [List.map_nil, toDict, toDicts, bind, Except.bind, spaced, finish]
  have : setAttrs [] (base [] []) = .ok .null := rfl
  rw [this]
  have e : remaining [] = [] := rfl
  simp only [List.isEmpty_nil, Bool.not_true, e]
  rw [addText_leaf]
  unfold leafJ
  rfl

theorem toDict_units (q : Bool) (n : Nat) (tag u : Str) {s : Str} (hs : Plain s) :
    toDict (st q n (.mk tag [("units".toList, u)] (some s) [])) = .ok (.str s) := by
  rw [st_eq]
  simp only [List.map_nil, List.map_cons, toDict, toDicts, bind, Except.bind, spaced, finish]
  have : setAttrs [attrOf ("units".toList, u)] (base [attrOf ("units".toList, u)] []) = .ok (.dict []) := by
    generalize seenAttr u = u'
    rfl
  have e : remaining [attrOf ("units".toList, u)] = [] := rfl
  rw [this]
  simp only [List.isEmpty_nil, Bool.not_true, e]
  rw [addText_leaf, (plain_seen q hs).1]

theorem toDicts_append (a b : List El) : toDicts (a ++ b) = (toDicts a).bind fun x => (toDicts b).map fun y => x ++ y := by
  induction a with
  | nil => rw [List.nil_append, toDicts]; simp only [Except.bind]; cases toDicts b <;> rfl
  | cons e es ih =>
    cases e with
    | mk tag at' t ks =>
      rw [List.cons_append, toDicts, ih, toDicts]
      simp only [bind, Except.bind]
      cases toDict (.mk tag at' t ks) with
      | error e => rfl
      | ok v =>
        simp only
        cases toDicts es with
        | error e => rfl
        | ok vs =>
          simp only
          cases toDicts b <;> rfl

/-- Tag and value of an element. -/
def tagged (e : El) (t : Str) : Prop := match e with | .mk tag _ _ _ => tag = t

theorem toDicts_cons {e : El} {t : Str} {v : J} (ht : tagged e t) (h : toDict e = .ok v) (es : List El) :
    toDicts (e :: es) = (toDicts es).map fun vs => (t, v) :: vs := by
  cases e with
  | mk tag a tx ks =>
    cases (show tag = t from ht)
    rw [toDicts, h]
    simp only [bind, Except.bind]
    cases toDicts es <;> rfl

theorem toDicts_same {es : List El} {t : Str} {vs : List J} (h : List.Forall₂ (fun e v => tagged e t ∧ toDict e = .ok v) es vs) :
    toDicts es = .ok (vs.map fun v => (t, v)) := by
  induction h with
  | nil => rfl
  | cons hp _ ih => rw [toDicts_cons hp.1 hp.2, ih]; rfl

theorem tagged_st (q : Bool) (n : Nat) (tag : Str) (a : List (Str × Str)) (t : Option Str) (ks : List El) :
    tagged (st q n (.mk tag a t ks)) (tagOf tag) := by rw [st_eq]; rfl

/-! ## Groups of children -/

/-- Children in groups of the same name. -/
abbrev Groups := List (Str × List J)

/-- The children, one after the other. -/
def Groups.flat (gs : Groups) : List (Str × J) := gs.flatMap fun g => g.2.map fun v => (g.1, v)

theorem addChild_group (d : OD Str (List J)) (t : Str) (l : List J) (ht : t ∉ OD.keys d) (hl : l ≠ []) :
    (l.map fun v => (t, v)).foldl addChild d = d ++ [(t, l)] := by
  have step : ∀ (l acc : List J), (l.map fun v => (t, v)).foldl addChild (d ++ [(t, acc)]) = d ++ [(t, acc ++ l)] := by
    intro l
    induction l with
    | nil => intro acc; simp
    | cons v vs ih =>
      intro acc
      rw [List.map_cons, List.foldl_cons]
      have : addChild (d ++ [(t, acc)]) (t, v) = d ++ [(t, acc ++ [v])] := by
        unfold addChild
        have hg : OD.get? (d ++ [(t, acc)]) t = some acc := by
          rw [OD.get?_append, (OD.get?_eq_none_iff d t).2 ht]; simp [OD.get?_cons]
        simp only [hg]
        rw [OD.set_append_last _ _ _ _ ht]
      rw [this, ih]
      simp
  cases l with
  | nil => exact absurd rfl hl
  | cons v vs =>
    rw [List.map_cons, List.foldl_cons]
    have : addChild d (t, v) = d ++ [(t, [v])] := by
      unfold addChild
      have hg : OD.get? d t = none := (OD.get?_eq_none_iff d t).2 ht
      simp only [hg]
      rw [OD.set_of_not_mem _ ht]
    rw [this, step]
    simp

theorem fold_groups (gs : Groups) (d : OD Str (List J)) (hn : (OD.keys d ++ gs.map Prod.fst).Nodup) (hne : ∀ g ∈ gs, g.2 ≠ []) :
    gs.flat.foldl addChild d = d ++ gs := by
  induction gs generalizing d with
  | nil => simp [Groups.flat]
  | cons g gs ih =>
    have ht : g.1 ∉ OD.keys d := fun hm => (List.nodup_append.1 hn).2.2 g.1 hm g.1 (by simp) rfl
    have : Groups.flat (g :: gs) = (g.2.map fun v => (g.1, v)) ++ Groups.flat gs := by simp [Groups.flat]
    rw [this, List.foldl_append, addChild_group d g.1 g.2 ht (hne g (by simp)), ih]
    · simp
    · simpa [OD.keys_append] using hn
    · intro x hx; exact hne x (by simp [hx])

/-- The dictionary of the children. -/
theorem base_groups (attrs : List (Str × Str)) (gs : Groups) (h0 : gs ≠ []) (hn : (gs.map Prod.fst).Nodup) (hne : ∀ g ∈ gs, g.2 ≠ [])
    (hi : "item".toList ∉ gs.map Prod.fst) : base attrs gs.flat = .dict (gs.map fun g => (g.1, single g.2)) := by
  have hf := fold_groups gs [] (by simpa using hn) hne
  unfold base
  cases hl : gs.flat with
  | nil =>
    exfalso
    cases gs with
    | nil => exact h0 rfl
    | cons g gs =>
      have := hne g (by simp)
      cases hg : g.2 with
      | nil => exact this hg
      | cons v vs => simp [Groups.flat, hg] at hl
  | cons x xs =>
    simp only
    rw [← hl, hf, List.nil_append]
    have : OD.get? (gs.map fun p => (p.1, single p.2)) "item".toList = none := by
      rw [OD.get?_eq_none_iff]
      intro hm
      apply hi
      simpa [OD.keys, List.map_map, Function.comp_def] using hm
    rw [this]

/-- The attributes that become keys. -/
def kept (attrs : List (Str × Str)) : List (Str × Str) :=
  attrs.filter fun p => !(dropUnits attrs p || dropType attrs p)

theorem setItems (l : List (Str × Str)) (d : List (Str × J)) (hn : (d.map Prod.fst ++ l.map Prod.fst).Nodup) :
    l.foldlM (fun v p => setItem v p.1 (.str p.2)) (J.dict d) = .ok (.dict (d ++ l.map fun p => (p.1, J.str p.2))) := by
  induction l generalizing d with
  | nil => simp; rfl
  | cons p ps ih =>
    rw [List.foldlM_cons]
    have hp : p.1 ∉ OD.keys d := fun hm => (List.nodup_append.1 hn).2.2 p.1 hm p.1 (by simp) rfl
    have : setItem (J.dict d) p.1 (.str p.2) = .ok (.dict (d ++ [(p.1, .str p.2)])) := by
      change Except.ok (J.dict (OD.set d p.1 (J.str p.2))) = _
      rw [OD.set_of_not_mem _ hp]
    rw [this]
    simp only [bind, Except.bind]
    rw [ih]
    · simp
    · simpa using hn

theorem setAttrs_kept (attrs : List (Str × Str)) (d : List (Str × J)) (hn : (d.map Prod.fst ++ attrs.map Prod.fst).Nodup) :
    setAttrs attrs (.dict d) = .ok (.dict (d ++ (kept attrs).map fun p => (p.1, J.str p.2))) := by
  unfold setAttrs
  apply setItems
  refine hn.sublist ?_
  exact List.Sublist.append (List.Sublist.refl _) (List.Sublist.map _ List.filter_sublist)

theorem storedText_ws (q : Bool) {t : Str} (h : ∀ c ∈ t, ws c = true) : storedText q t = t := by
  rw [storedText_eq]
  apply garbled_plain
  intro c hc
  have := h c hc
  refine ⟨?_, ?_, ?_, ?_⟩ <;> rintro rfl <;> revert this <;> decide

/-- An element with children. -/
theorem toDict_parent (q : Bool) (n : Nat) (tag : Str) (attrs : List (Str × Str)) {kids : List El} (gs : Groups)
    (hk : toDicts (kids.map (st q (n + 1))) = .ok gs.flat) (h0 : gs ≠ [])
    (hn : (gs.map Prod.fst ++ attrs.map Prod.fst).Nodup) (hne : ∀ g ∈ gs, g.2 ≠ []) (hi : "item".toList ∉ gs.map Prod.fst) :
    toDict (st q n (.mk tag attrs none kids)) =
      .ok (.dict ((gs.map fun g => (g.1, single g.2)) ++ (kept (attrs.map attrOf)).map fun p => (p.1, J.str p.2))) := by
  have hkids : kids ≠ [] := by
    rintro rfl
    rw [List.map_nil, toDicts] at hk
    cases gs with
    | nil => exact h0 rfl
    | cons g gs =>
      cases hg : g.2 with
      | nil => exact hne g (by simp) hg
      | cons v vs => simp [Groups.flat, hg] at hk
  have hfl : gs.flat ≠ [] := by
    intro e
    cases gs with
    | nil => exact h0 rfl
    | cons g gs =>
      cases hg : g.2 with
      | nil => exact hne g (by simp) hg
      | cons v vs => simp [Groups.flat, hg] at e
  obtain ⟨t, e1, e2⟩ := spaced_ws (n + 1) kids hkids
  rw [st_eq, e1, Option.map_some, storedText_ws q e2]
  refine toDict_kids _ e2 hk hfl (base_groups _ gs h0 (List.nodup_append.1 hn).1 hne hi) ?_
  apply setAttrs_kept
  simpa [List.map_map, Function.comp_def, attrOf] using hn

/-! ## Keys in small letters -/

/-- What becomes of an item of a list. -/
def fix : J → J
  | .null => .dict []
  | .str _ => .dict []
  | v => v

theorem lowerKeys_fix {v w : J} (h : lowVal v = .ok w) : lowerKeys v = .ok (fix w) := by
  cases v with
  | null => cases h; rfl
  | str s => cases h; rfl
  | dict d =>
    change lowerKeys (.dict d) = .ok w at h
    rw [h]
    rw [lowerKeys] at h
    cases hd : lowerKids d [] with
    | error e => rw [hd] at h; cases h
    | ok x => rw [hd] at h; cases h; rfl
  | list l =>
    change lowerKeys (.list l) = .ok w at h
    rw [h]
    rw [lowerKeys] at h
    cases hd : lowerItems l with
    | error e => rw [hd] at h; cases h
    | ok x => rw [hd] at h; cases h; rfl

/-- A group in small letters. -/
def lowGroup : List J → J
  | [w] => w
  | ws => .list (ws.map fix)

theorem lowVal_group {vs ws : List J} (h : List.Forall₂ (fun v w => lowVal v = .ok w) vs ws) :
    lowVal (single vs) = .ok (lowGroup ws) := by
  have hl : ∀ {vs ws : List J}, List.Forall₂ (fun v w => lowVal v = .ok w) vs ws → lowerItems vs = .ok (ws.map fix) := by
    intro vs ws h
    induction h with
    | nil => rfl
    | cons hp _ ih => rw [lowerItems, lowerKeys_fix hp, ih]; rfl
  cases h with
  | nil => rfl
  | cons hp ht =>
    cases ht with
    | nil => exact hp
    | cons hq hr =>
      show lowVal (J.list _) = _
      change lowerKeys (J.list _) = _
      rw [lowerKeys, hl (List.Forall₂.cons hp (List.Forall₂.cons hq hr))]
      rfl

/-! ## Values of elements and pieces of children -/

/-- The value of an element, its keys in small letters. -/
def Val (q : Bool) (n : Nat) (e : El) (w : J) : Prop := ∃ v, toDict (st q n e) = .ok v ∧ lowVal v = .ok w

/-- The keys that elements give, in small letters, of possible tags `T` and keys `K`. -/
def Piece (q : Bool) (n : Nat) (es : List El) (T K : List Str) (l : List (Str × J)) : Prop :=
  ∃ gs : Groups, toDicts (es.map (st q n)) = .ok gs.flat ∧ (∀ g ∈ gs, g.2 ≠ []) ∧ (gs.map Prod.fst).Sublist T ∧
    (l.map Prod.fst).Sublist K ∧ List.Forall₂ (fun g p => Names.validateName g.1 = .ok p.1 ∧ lowVal (single g.2) = .ok p.2) gs l

theorem Piece.nil (q : Bool) (n : Nat) (T K : List Str) : Piece q n [] T K [] :=
  ⟨[], rfl, by simp, by simp, by simp, .nil⟩

theorem Piece.append {q : Bool} {n : Nat} {es es' : List El} {T T' K K' : List Str} {l l' : List (Str × J)}
    (h : Piece q n es T K l) (h' : Piece q n es' T' K' l') : Piece q n (es ++ es') (T ++ T') (K ++ K') (l ++ l') := by
  obtain ⟨gs, a1, a2, a3, a4, a5⟩ := h
  obtain ⟨gs', b1, b2, b3, b4, b5⟩ := h'
  refine ⟨gs ++ gs', ?_, ?_, ?_, ?_, ?_⟩
  · rw [List.map_append, toDicts_append, a1, b1]
    simp [Except.bind, Except.map, Groups.flat]
  · intro g hg
    rcases List.mem_append.1 hg with hg | hg
    · exact a2 g hg
    · exact b2 g hg
  · rw [List.map_append]; exact a3.append b3
  · rw [List.map_append]; exact a4.append b4
  · exact List.rel_append a5 b5

/-- A key that may be there. -/
def opt (k : Str) (o : Option J) : List (Str × J) :=
  match o with
  | none => []
  | some v => [(k, v)]

/-- The value of elements of the same name. -/
def groupOf (ws : List J) : Option J :=
  match ws with
  | [] => none
  | w :: ws => some (lowGroup (w :: ws))

theorem get?_opt (k k' : Str) (o : Option J) : OD.get? (opt k o) k' = if k = k' then o else none := by
  cases o with
  | none => simp [opt]
  | some v => simp [opt, OD.get?_cons]

theorem opt_keys (k : Str) (o : Option J) : ((opt k o).map Prod.fst).Sublist [k] := by
  cases o <;> simp [opt]

theorem Piece.many {q : Bool} {n : Nat} {es : List El} {t k : Str} {ws : List J} (hk : Names.validateName t = .ok k)
    (h : List.Forall₂ (fun e w => tagged (st q n e) t ∧ Val q n e w) es ws) : Piece q n es [t] [k] (opt k (groupOf ws)) := by
  have : ∃ vs, List.Forall₂ (fun e v => tagged e t ∧ toDict e = .ok v) (es.map (st q n)) vs ∧
      List.Forall₂ (fun v w => lowVal v = .ok w) vs ws := by
    induction h with
    | nil => exact ⟨[], .nil, .nil⟩
    | cons hp _ ih =>
      obtain ⟨ht, v, h1, h2⟩ := hp
      obtain ⟨vs, i1, i2⟩ := ih
      exact ⟨v :: vs, .cons ⟨ht, h1⟩ i1, .cons h2 i2⟩
  obtain ⟨vs, h1, h2⟩ := this
  cases h2 with
  | nil =>
    cases h with
    | nil => exact Piece.nil q n _ _
  | @cons v w vs ws hp hr =>
    refine ⟨[(t, v :: vs)], ?_, ?_, ?_, opt_keys _ _, ?_⟩
    · rw [toDicts_same h1]; simp [Groups.flat]
    · simp
    · simp
    · exact .cons ⟨hk, lowVal_group (.cons hp hr)⟩ .nil

theorem Piece.one {q : Bool} {n : Nat} {e : El} {t k : Str} {w : J} (hk : Names.validateName t = .ok k)
    (ht : tagged (st q n e) t) (h : Val q n e w) : Piece q n [e] [t] [k] [(k, w)] :=
  Piece.many hk (.cons ⟨ht, h⟩ .nil)

theorem toDicts_ne {es : List El} (h : toDicts es = .ok []) : es = [] := by
  cases es with
  | nil => rfl
  | cons e es =>
    cases e with
    | mk tag a t ks =>
      rw [toDicts] at h
      simp only [bind, Except.bind] at h
      cases h1 : toDict (.mk tag a t ks) with
      | error e => rw [h1] at h; cases h
      | ok v =>
        rw [h1] at h
        simp only at h
        cases h2 : toDicts es with
        | error e => rw [h2] at h; cases h
        | ok vs => rw [h2] at h; cases h

/-- Attributes as keys. -/
def attrJ (attrs : List (Str × Str)) : List (Str × J) := (kept (attrs.map attrOf)).map fun p => (p.1, J.str p.2)

theorem attrJ_keys (attrs : List (Str × Str)) : ((attrJ attrs).map Prod.fst).Sublist (attrs.map Prod.fst) := by
  have : (attrs.map Prod.fst) = (attrs.map attrOf).map Prod.fst := by simp [List.map_map, Function.comp_def, attrOf]
  rw [this]
  have e : (attrJ attrs).map Prod.fst = (kept (attrs.map attrOf)).map Prod.fst := by
    simp [attrJ, List.map_map, Function.comp_def]
  rw [e]
  exact List.Sublist.map _ List.filter_sublist

/-- An element with children or attributes. -/
theorem Val.parent {q : Bool} {n : Nat} (tag : Str) {attrs : List (Str × Str)} {kids : List El} {T K : List Str}
    {l : List (Str × J)} (h : Piece q (n + 1) kids T K l) (h0 : kids ≠ [] ∨ attrs ≠ [])
    (hT : (T ++ attrs.map Prod.fst).Nodup) (hK : (K ++ attrs.map Prod.fst).Nodup) (hi : "item".toList ∉ T)
    (ha : ∀ k ∈ attrs.map Prod.fst, Names.validateName k = .ok k) :
    Val q n (.mk tag attrs none kids) (.dict (l ++ attrJ attrs)) := by
  obtain ⟨gs, a1, a2, a3, a4, a5⟩ := h
  have hn : (gs.map Prod.fst ++ attrs.map Prod.fst).Nodup := hT.sublist (a3.append (List.Sublist.refl _))
  refine ⟨.dict ((gs.map fun g => (g.1, single g.2)) ++ attrJ attrs), ?_, ?_⟩
  · by_cases hg : gs = []
    · subst hg
      have hk : kids = [] := by
        have := toDicts_ne a1
        simpa using this
      subst hk
      have hat : attrs ≠ [] := by simpa using h0
      rw [st_eq, toDict]
      simp only [List.map_nil, toDicts, bind, Except.bind, spaced, finish]
      have hb : base (attrs.map attrOf) [] = .dict [] := by
        cases attrs with
        | nil => exact absurd rfl hat
        | cons a as => rfl
      rw [hb, setAttrs_kept _ _ (by simpa [List.map_map, Function.comp_def, attrOf] using hn)]
      rfl
    · exact toDict_parent q n tag attrs gs a1 hg hn a2 fun hm => hi (a3.subset hm)
  · change lowerKeys (.dict _) = _
    rw [lowerKeys, lowerKids_eq (l' := l ++ attrJ attrs)]
    · rfl
    · apply List.rel_append
      · rw [List.forall₂_map_left_iff]; exact a5
      · rw [List.forall₂_same]
        intro p hp
        refine ⟨ha _ ((attrJ_keys attrs).subset (List.mem_map_of_mem hp)), ?_⟩
        obtain ⟨x, _, rfl⟩ := List.mem_map.1 hp
        rfl
    · simp only [List.map_nil, List.nil_append, List.map_append]
      exact hK.sublist (a4.append (attrJ_keys attrs))

theorem Val.leaf (q : Bool) (n : Nat) (tag : Str) (t : Option Str) : Val q n (.mk tag [] t []) (leafJ q t) := by
  refine ⟨_, toDict_leaf q n tag t, ?_⟩
  unfold leafJ
  cases seenText q t <;> rfl

theorem Val.units (q : Bool) (n : Nat) (tag u : Str) {s : Str} (hs : Plain s) :
    Val q n (.mk tag [("units".toList, u)] (some s) []) (.str s) := ⟨_, toDict_units q n tag u hs, rfl⟩

/-! ## Instruments -/

theorem toolKid_piece (q : Bool) (n : Nat) (k : String) (t : Str) (v : Option Str) (ht : tagOf k.toList = t)
    (hk : Names.validateName t = .ok k.toList) :
    Piece q n (toolKid k v) [t] [k.toList] (opt k.toList ((seenText q v).map .str)) := by
  cases v with
  | none => exact Piece.nil _ _ _ _
  | some s =>
    unfold toolKid
    by_cases h : s ∈ nullWords
    · simp only [nullWords_eq, h, decide_true, if_true, seenText]
      exact Piece.nil _ _ _ _
    · simp only [nullWords_eq, h, decide_false, seenText]
      refine Piece.one hk (ht ▸ tagged_st _ _ _ _ _ _) ?_
      have := Val.leaf q n k.toList (some s)
      simpa only [leafJ, seenText, if_neg h] using this

/-- The type of an instrument as a key. -/
def typeJ (t : Option Str) : Option J :=
  match t with
  | some (c :: cs) =>
    if seenAttr (c :: cs) ∈ ["float".toList, "string".toList, "integer".toList, "boolean".toList, "list".toList, "tuple".toList] then none
    else some (.str (seenAttr (c :: cs)))
  | _ => none

/-- The keys of an instrument. -/
def toolD (q : Bool) (t : Tool) : List (Str × J) :=
  (opt "manufacturer".toList ((seenText q t.manufacturer).map .str) ++ opt "name".toList ((seenText q t.name).map .str) ++
    opt "id".toList ((seenText q t.id).map .str) ++ opt "settings".toList ((seenText q t.settings).map .str)) ++
  opt "type".toList (typeJ t.type)

theorem type_attr (t : Option Str) : attrJ (typeAttr t) =
    opt "type".toList (typeJ t) := by
  rcases t with _ | _ | ⟨c, cs⟩
  · rfl
  · rfl
  · simp only [typeJ, typeAttr]
    generalize hs : seenAttr (c :: cs) = s
    have e : attrJ [("type".toList, c :: cs)] = (kept [("type".toList, s)]).map fun p => (p.1, J.str p.2) := by
      simp only [attrJ, List.map_cons, List.map_nil, attrOf, hs]
    rw [e]
    have e2 : dropType [("type".toList, s)] ("type".toList, s) =
        decide (s ∈ ["float".toList, "string".toList, "integer".toList, "boolean".toList, "list".toList, "tuple".toList]) := by
      unfold dropType
      rw [Bool.eq_iff_iff, decide_eq_true_iff, Bool.and_eq_true, List.contains_iff_mem]
      exact ⟨fun h => h.2, fun h => ⟨rfl, h⟩⟩
    have e3 : dropUnits [("type".toList, s)] ("type".toList, s) = false := rfl
    unfold kept
    rw [List.filter_cons, e2, e3]
    by_cases h : s ∈ ["float".toList, "string".toList, "integer".toList, "boolean".toList, "list".toList, "tuple".toList]
    · simp only [h, decide_true, if_true]; rfl
    · simp only [h, decide_false, if_false]; rfl

theorem tool_val (q : Bool) (n : Nat) (tag : String) (t : Tool) :
    ∃ w, Val q n (toolEl tag t) w ∧ (w = .dict (toolD q t) ∨ (w = .null ∧ toolD q t = [])) := by
  have hp : Piece q (n + 1) (toolKid "manufacturer" t.manufacturer ++ toolKid "name" t.name ++ toolKid "id" t.id ++ toolKid "settings" t.settings)
      _ _ _ := (((toolKid_piece q (n + 1) "manufacturer" "Manufacturer".toList t.manufacturer (by decide) (by decide)).append
        (toolKid_piece q (n + 1) "name" "Name".toList t.name (by decide) (by decide))).append
        (toolKid_piece q (n + 1) "id" "Id".toList t.id (by decide) (by decide))).append
        (toolKid_piece q (n + 1) "settings" "Settings".toList t.settings (by decide) (by decide))
  unfold toolEl
  have hm := type_attr t.type
  have hsub : ((typeAttr t.type).map Prod.fst).Sublist ["type".toList] := by
    rcases t.type with _ | _ | ⟨c, cs⟩ <;> simp [typeAttr]
  generalize typeAttr t.type = attrs at hm hsub ⊢
  by_cases h0 : (toolKid "manufacturer" t.manufacturer ++ toolKid "name" t.name ++ toolKid "id" t.id ++ toolKid "settings" t.settings) ≠ [] ∨ attrs ≠ []
  · refine ⟨_, Val.parent tag.toList hp h0 ?_ ?_ (by decide) ?_, Or.inl ?_⟩
    · exact List.Nodup.sublist ((List.Sublist.refl _).append hsub) (by decide)
    · exact List.Nodup.sublist ((List.Sublist.refl _).append hsub) (by decide)
    · intro k hk
      have := hsub.subset hk
      rw [List.mem_singleton.1 this]; decide
    · rw [hm]; rfl
  · push_neg at h0
    obtain ⟨hk, ha⟩ := h0
    rw [hk, ha]
    refine ⟨_, Val.leaf q n tag.toList none, Or.inr ⟨rfl, ?_⟩⟩
    subst ha
    have hty : opt "type".toList (typeJ t.type) = [] := hm.symm
    obtain ⟨gs, a1, a2, _, _, a5⟩ := hp
    rw [hk, List.map_nil, toDicts] at a1
    have hg : gs = [] := by
      cases gs with
      | nil => rfl
      | cons g gs =>
        cases hg : g.2 with
        | nil => exact absurd hg (a2 g (by simp))
        | cons v vs => simp [Groups.flat, hg] at a1
    subst hg
    cases hd : toolD q t with
    | nil => rfl
    | cons x xs =>
      exfalso
      unfold toolD at hd
      rw [hty, List.append_nil] at hd
      rw [hd] at a5
      cases a5

theorem optText_opt (q : Bool) (v : Option Str) (o : Option Str) :
    (match (seenText q v).map J.str with | none => Except.ok o | some x => optText x) = .ok (match seenText q v with | none => o | some s => some s) := by
  cases seenText q v <;> rfl

theorem read_toolD (q : Bool) (t : Tool) : readTool (.dict (toolD q t)) = .ok (seenTool q t) := by
  have g : ∀ k : String, OD.get? (toolD q t) k.toList =
      if "manufacturer".toList = k.toList then (seenText q t.manufacturer).map .str
      else if "name".toList = k.toList then (seenText q t.name).map .str
      else if "id".toList = k.toList then (seenText q t.id).map .str
      else if "settings".toList = k.toList then (seenText q t.settings).map .str
      else if "type".toList = k.toList then typeJ t.type else none := by
    intro k
    unfold toolD
    simp only [OD.get?_append, get?_opt]
    by_cases h1 : "manufacturer".toList = k.toList
    · rw [← h1]
      simp (decide := true)
    by_cases h2 : "name".toList = k.toList
    · rw [← h2]; simp (decide := true)
    by_cases h3 : "id".toList = k.toList
    · rw [← h3]; simp (decide := true)
    by_cases h4 : "settings".toList = k.toList
    · rw [← h4]; simp (decide := true)
    · simp only [h1, h2, h3, h4, if_false, Option.none_or]
  have f1 : field (toolD q t) "id" (some []) optText = .ok (some ((seenText q t.id).getD [])) := by
    unfold field; rw [g "id", if_neg (by decide), if_neg (by decide), if_pos rfl]; cases seenText q t.id <;> rfl
  have f2 : field (toolD q t) "manufacturer" (some []) optText = .ok (some ((seenText q t.manufacturer).getD [])) := by
    unfold field; rw [g "manufacturer", if_pos rfl]; cases seenText q t.manufacturer <;> rfl
  have f3 : field (toolD q t) "type" (some []) optText = .ok (some (seenType t.type)) := by
    unfold field; rw [g "type", if_neg (by decide), if_neg (by decide), if_neg (by decide), if_neg (by decide), if_pos rfl]
    rcases t.type with _ | _ | ⟨c, cs⟩
    · rfl
    · rfl
    · unfold typeJ seenType
      simp only
      by_cases h : seenAttr (c :: cs) ∈ ["float".toList, "string".toList, "integer".toList, "boolean".toList, "list".toList, "tuple".toList]
      · rw [if_pos h, if_pos h]
      · rw [if_neg h, if_neg h]; rfl
  have f4 : field (toolD q t) "name" none optText = .ok (seenText q t.name) := by
    unfold field; rw [g "name", if_neg (by decide), if_pos rfl]; cases seenText q t.name <;> rfl
  have f5 : field (toolD q t) "settings" none optText = .ok (seenText q t.settings) := by
    unfold field; rw [g "settings", if_neg (by decide), if_neg (by decide), if_neg (by decide), if_pos rfl]
    cases seenText q t.settings <;> rfl
  have f6 : field (toolD q t) "model" none optText = .ok none := by
    unfold field; rw [g "model", if_neg (by decide), if_neg (by decide), if_neg (by decide), if_neg (by decide), if_neg (by decide)]
  unfold readTool
  simp only [f1, f2, f3, f4, f5, f6, Except.bind]
  rfl

/-- The value of an instrument, alone and in a list. -/
theorem tool_read (q : Bool) (n : Nat) (tag : String) (t : Tool) :
    ∃ w, Val q n (toolEl tag t) w ∧ readTool w = .ok (seenTool q t) ∧ readTool (fix w) = .ok (seenTool q t) ∧ manyOf w = [w] := by
  obtain ⟨w, h, rfl | ⟨rfl, e⟩⟩ := tool_val q n tag t
  · exact ⟨_, h, read_toolD q t, read_toolD q t, rfl⟩
  · have := read_toolD q t
    rw [e] at this
    exact ⟨_, h, this, this, rfl⟩

/-! ## Dipoles -/

theorem remaining_two {p r : Str × Str} (h1 : p.1 ≠ "units".toList) (h2 : p.1 ≠ "type".toList) :
    (remaining [p, r]).isEmpty = false := by
  unfold remaining
  rw [List.filter_cons]
  have : (!(dropUnits [p, r] p || dropType [p, r] p || (p.1 == "type".toList && [p, r].any fun q => q.1 == "units".toList))) = true := by
    have e1 : (p.1 == "units".toList) = false := by simpa using h1
    have e2 : (p.1 == "type".toList) = false := by simpa using h2
    unfold dropUnits dropType
    rw [e1, e2]
    rfl
  rw [if_pos this]
  rfl

/-- The text of an element with attributes. -/
def textJ (q : Bool) (t : Str) : Option J :=
  match seenText q (some t) with
  | some (c :: cs) => some (.str (c :: cs))
  | _ => none

theorem addText_attrs (q : Bool) (t : Str) {rest : List (Str × Str)} (hr : rest.isEmpty = false) (d : List (Str × J))
    (hd : "value".toList ∉ OD.keys d) :
    addText rest false ((noNull (some t)).map (storedText q)) (.dict d) = .ok (.dict (d ++ opt "value".toList (textJ q t))) := by
  unfold textJ
  by_cases h : t ∈ nullWords
  · have : noNull (some t) = some [] := by simp only [noNull, nullWords_eq, h, decide_true, if_true]
    rw [this]
    simp only [seenText, if_pos h]
    show Except.ok (J.dict d) = _
    simp [opt]
  · have : noNull (some t) = some t := by simp only [noNull, nullWords_eq, h, decide_false]; rfl
    rw [this, Option.map_some, storedText_eq]
    simp only [seenText, if_neg h]
    have hs : t ≠ [] := by rintro rfl; exact h (by decide)
    have hg := garbled_ne q hs
    cases hc : garbled q t with
    | nil => exact absurd hc hg
    | cons c cs =>
      simp only [addText, hr, Bool.false_or, Bool.not_false, if_true]
      cases hst : strip (c :: cs) with
      | nil => simp [opt]
      | cons a as =>
        simp only [List.isEmpty_cons, Bool.false_eq_true, if_false]
        change Except.ok (J.dict (OD.set d _ _)) = _
        rw [OD.set_of_not_mem _ hd]
        rfl

/-- An element with attributes and a text. -/
theorem Val.attrs {q : Bool} {n : Nat} (tag : Str) {attrs : List (Str × Str)} (t : Str) (h0 : attrs ≠ [])
    (hr : (remaining (attrs.map attrOf)).isEmpty = false) (hn : (attrs.map Prod.fst ++ ["value".toList]).Nodup)
    (ha : ∀ k ∈ attrs.map Prod.fst, Names.validateName k = .ok k) :
    Val q n (.mk tag attrs (some t) []) (.dict (attrJ attrs ++ opt "value".toList (textJ q t))) := by
  have hb : base (attrs.map attrOf) [] = .dict [] := by
    cases attrs with
    | nil => exact absurd rfl h0
    | cons a as => rfl
  have hn1 := (List.nodup_append.1 hn).1
  have hv : "value".toList ∉ OD.keys (attrJ attrs) := by
    intro hm
    exact (List.nodup_append.1 hn).2.2 _ ((attrJ_keys attrs).subset hm) "value".toList (by simp) rfl
  refine ⟨.dict (attrJ attrs ++ opt "value".toList (textJ q t)), ?_, ?_⟩
  · rw [st_eq, toDict]
    simp only [List.map_nil, toDicts, bind, Except.bind, spaced, finish]
    rw [hb, setAttrs_kept _ _ (by simpa [List.map_map, Function.comp_def, attrOf] using hn1)]
    simp only [List.nil_append, List.isEmpty_nil, Bool.not_true]
    exact addText_attrs q t hr _ hv
  · change lowerKeys (.dict _) = _
    rw [lowerKeys, lowerKids_eq (l' := attrJ attrs ++ opt "value".toList (textJ q t))]
    · rfl
    · apply List.rel_append
      · rw [List.forall₂_same]
        intro p hp
        refine ⟨ha _ ((attrJ_keys attrs).subset (List.mem_map_of_mem hp)), ?_⟩
        obtain ⟨x, _, rfl⟩ := List.mem_map.1 hp
        rfl
      · rw [List.forall₂_same]
        unfold textJ
        intro p hp
        rcases h : seenText q (some t) with _ | _ | ⟨c, cs⟩
        · rw [h] at hp; cases hp
        · rw [h] at hp; cases hp
        · rw [h] at hp
          rw [List.mem_singleton.1 hp]
          exact ⟨rfl, rfl⟩
    · simp only [List.map_nil, List.nil_append, List.map_append]
      exact hn.sublist ((attrJ_keys attrs).append (opt_keys _ _))

/-- The places an electrode can have (common/enumerations.py L104-L109). -/
def Pot.Ok (p : Pot) : Prop := p.location ∈ ["N".toList, "S".toList, "E".toList, "W".toList, []]

/-- The keys of an electrode. -/
def potD (q : Bool) (p : Pot) : List (Str × J) :=
  [("location".toList, .str p.location), ("number".toList, .str (seenAttr p.number))] ++ opt "value".toList (textJ q p.comments)

theorem pot_val (q : Bool) (n : Nat) (p : Pot) (h : p.Ok) : Val q n (potEl p) (.dict (potD q p)) := by
  have e : attrJ [("location".toList, upper p.location), ("number".toList, p.number)] =
      [("location".toList, .str (seenAttr (upper p.location))), ("number".toList, .str (seenAttr p.number))] := rfl
  have e2 : seenAttr (upper p.location) = p.location := by
    unfold Pot.Ok at h
    revert h
    generalize p.location = s
    revert s
    decide
  have := Val.attrs (q := q) (n := n) "Electrode".toList (attrs := [("location".toList, upper p.location), ("number".toList, p.number)]) p.comments
    (by simp) (remaining_two (by simp only [attrOf]; decide) (by simp only [attrOf]; decide)) (by simp only [List.map_cons, List.map_nil]; decide)
    (by simp only [List.map_cons, List.map_nil]; decide)
  rw [e, e2] at this
  exact this

theorem read_pot (q : Bool) (p : Pot) (h : p.Ok) : readPot (.dict (potD q p)) = .ok (seenPot q p) := by
  have f1 : field (potD q p) "location" [] locationOf = .ok p.location := by
    have : OD.get? (potD q p) "location".toList = some (.str p.location) := rfl
    unfold field
    rw [this]
    unfold Pot.Ok at h
    revert h
    simp only
    generalize p.location = s
    revert s
    decide
  have f2 : field (potD q p) "number" ['0'] plainText = .ok (seenAttr p.number) := rfl
  have f3 : field (potD q p) "value" [] plainText = .ok ((seenText q (some p.comments)).getD []) := by
    have : OD.get? (potD q p) "value".toList = textJ q p.comments := by
      unfold potD
      rw [OD.get?_append, get?_opt, if_pos rfl]
      rfl
    unfold field
    rw [this]
    unfold textJ
    rcases seenText q (some p.comments) with _ | _ | ⟨c, cs⟩ <;> rfl
  unfold readPot
  simp only [f1, f2, f3, Except.bind]
  rfl

/-- The text of a number as a key. -/
def numD {F : Type} (k : Str) (fmt : F → Str) (x : Option F) : List (Str × J) := opt k (x.map fun x => .str (fmt x))

theorem number_piece {F : Type} (q : Bool) (n : Nat) (tag units : String) (fmt : F → Str) (x : Option F) (k : Str) (t : Str)
    (ht : tagOf tag.toList = t) (hk : Names.validateName t = .ok k) (h : ∀ x, Plain (fmt x)) :
    Piece q n (numberEl tag units fmt x) [t] [k] (numD k fmt x) := by
  cases x with
  | none => exact Piece.nil _ _ _ _
  | some x => exact Piece.one hk (ht ▸ tagged_st _ _ _ _ _ _) (Val.units q n _ _ (h x))

variable {F T : Type}

/-- The keys of a dipole. -/
def dipoleD (W : World F T) (d : Dipole F) (nm ty : Str) : List (Str × J) :=
  ([("manufacturer".toList, leafJ W.quotes d.manufacturer)] ++
    (numD "length".toList W.fixed d.length ++ numD "azimuth".toList W.fixed d.azimuth ++
      opt "electrode".toList (groupOf (d.pots.map fun p => .dict (potD W.quotes p))))) ++
  [("name".toList, .str (seenAttr nm)), ("type".toList, .str (seenAttr ty))]

theorem dipole_val {W : World F T} {r3 : F → F} (G : Good W r3) (n : Nat) (d : Dipole F) (hp : ∀ p ∈ d.pots, p.Ok) {e : El}
    (he : dipoleEl W d = .ok e) : tagged (st W.quotes n e) "Dipole".toList ∧
      ∃ nm ty, d.name = some nm ∧ d.type = some ty ∧ Val W.quotes n e (.dict (dipoleD W d nm ty)) := by
  unfold dipoleEl at he
  cases hn : d.name with
  | none => rw [hn] at he; cases he
  | some nm =>
    cases hy : d.type with
    | none => rw [hn, hy] at he; cases he
    | some ty =>
      rw [hn, hy] at he
      simp only [Except.ok.injEq] at he
      subst he
      refine ⟨tagged_st _ _ _ _ _ _, nm, ty, rfl, rfl, ?_⟩
      have pm : Piece W.quotes (n + 1) [.mk "manufacturer".toList [] d.manufacturer []] ["Manufacturer".toList] ["manufacturer".toList] _ :=
        Piece.one (by decide) (tagged_st _ _ _ _ _ _) (Val.leaf W.quotes (n + 1) "manufacturer".toList d.manufacturer)
      have pl := number_piece W.quotes (n + 1) "length" "meters" W.fixed d.length "length".toList "Length".toList (by decide) (by decide)
        fun x => (G.fixed x).1
      have pa := number_piece W.quotes (n + 1) "azimuth" "degrees" W.fixed d.azimuth "azimuth".toList "Azimuth".toList (by decide) (by decide)
        fun x => (G.fixed x).1
      have pp : Piece W.quotes (n + 1) (d.pots.map potEl) ["Electrode".toList] ["electrode".toList]
          (opt "electrode".toList (groupOf (d.pots.map fun p => .dict (potD W.quotes p)))) := by
        apply Piece.many (by decide)
        rw [List.forall₂_map_left_iff, List.forall₂_map_right_iff, List.forall₂_same]
        intro p hpm
        exact ⟨tagged_st _ _ _ _ _ _, pot_val _ _ p (hp p hpm)⟩
      have := Val.parent (n := n) "Dipole".toList (attrs := [("name".toList, nm), ("type".toList, ty)]) (pm.append ((pl.append pa).append pp))
        (by simp) (by simp only [List.map_cons, List.map_nil]; decide) (by simp only [List.map_cons, List.map_nil]; decide) (by decide)
        (by simp only [List.map_cons, List.map_nil]; decide)
      exact this

theorem numD_read {W : World F T} {r : F → F} {fmt : F → Str} (h : ∀ x, W.parse (fmt x) = some (r x)) (x : Option F) :
    (match x.map fun x => J.str (fmt x) with | none => Except.ok none | some v => optNum W v) = .ok (x.map r) := by
  cases x with
  | none => rfl
  | some x => simp only [Option.map_some, optNum, h]

/-- What reading the electrodes gives. -/
def potsRead (q : Bool) (l : List Pot) : Except PyErr (List Pot) :=
  if l.length = 1 then .error .attributeError else .ok (l.map (seenPot q))

theorem mapM_ok' {α β : Type} {f : α → Except PyErr β} {g : α → β} {l : List α} (h : ∀ x ∈ l, f x = .ok (g x)) :
    l.mapM f = .ok (l.map g) := by
  induction l with
  | nil => rfl
  | cons a as ih =>
    rw [List.mapM_cons, h a (by simp), ih fun x hx => h x (by simp [hx])]
    rfl

theorem read_pots (q : Bool) (l : List Pot) (h : ∀ p ∈ l, p.Ok) :
    (match groupOf (l.map fun p => J.dict (potD q p)) with | none => Except.ok [] | some v => readPots v) = potsRead q l := by
  rcases l with _ | ⟨a, _ | ⟨b, l⟩⟩
  · rfl
  · rfl
  · simp only [List.map_cons, groupOf, lowGroup, readPots, potsRead, List.length_cons]
    rw [if_neg (by omega)]
    have : (J.dict (potD q a) :: J.dict (potD q b) :: l.map fun p => J.dict (potD q p)).map fix =
        (a :: b :: l).map fun p => J.dict (potD q p) := by
      simp [fix, List.map_map, Function.comp_def]
    have e2 : ((a :: b :: l).map fun p => J.dict (potD q p)).mapM readPot = .ok ((a :: b :: l).map (seenPot q)) := by
      rw [List.mapM_map]
      exact mapM_ok' fun p hp => read_pot q p (h p hp)
    rw [← List.map_cons, ← List.map_cons] at *
    rw [this]
    exact e2

/-- What reading a dipole gives. -/
def dipoleRead (W : World F T) (r3 : F → F) (d : Dipole F) : Except PyErr (Dipole F) :=
  if d.pots.length = 1 then .error .attributeError else .ok (seenDipole W.quotes r3 d)

theorem read_dipole {W : World F T} {r3 : F → F} (G : Good W r3) (d : Dipole F) (hp : ∀ p ∈ d.pots, p.Ok) {nm ty : Str}
    (hn : d.name = some nm) (hy : d.type = some ty) : readDipole W (.dict (dipoleD W d nm ty)) = dipoleRead W r3 d := by
  have f1 : field (dipoleD W d nm ty) "manufacturer" none optText = .ok (seenText W.quotes d.manufacturer) := by
    have : OD.get? (dipoleD W d nm ty) "manufacturer".toList = some (leafJ W.quotes d.manufacturer) := rfl
    unfold field; rw [this]
    unfold leafJ
    cases seenText W.quotes d.manufacturer <;> rfl
  have g : ∀ k : Str, OD.get? (dipoleD W d nm ty) k = (((OD.get? [("manufacturer".toList, leafJ W.quotes d.manufacturer)] k).or
      (((if "length".toList = k then d.length.map fun x => J.str (W.fixed x) else none).or
        (if "azimuth".toList = k then d.azimuth.map fun x => J.str (W.fixed x) else none)).or
        (if "electrode".toList = k then groupOf (d.pots.map fun p => .dict (potD W.quotes p)) else none))).or
      (OD.get? [("name".toList, J.str (seenAttr nm)), ("type".toList, .str (seenAttr ty))] k)) := by
    intro k
    unfold dipoleD numD
    simp only [OD.get?_append, get?_opt]
  have f2 : field (dipoleD W d nm ty) "length" none (optNum W) = .ok (d.length.map r3) := by
    unfold field
    rw [g]
    have : ∀ o : Option J, ((((OD.get? [("manufacturer".toList, leafJ W.quotes d.manufacturer)] "length".toList).or
      (((if "length".toList = "length".toList then o else none).or
        (if "azimuth".toList = "length".toList then d.azimuth.map fun x => J.str (W.fixed x) else none)).or
        (if "electrode".toList = "length".toList then groupOf (d.pots.map fun p => .dict (potD W.quotes p)) else none))).or
      (OD.get? [("name".toList, J.str (seenAttr nm)), ("type".toList, .str (seenAttr ty))] "length".toList))) = o := by
      intro o
      rw [if_neg (by decide : ¬ "azimuth".toList = "length".toList), if_neg (by decide : ¬ "electrode".toList = "length".toList), if_pos rfl]
      cases o <;> rfl
    rw [this]
    exact numD_read (fun x => (G.fixed x).2) d.length
  have f3 : field (dipoleD W d nm ty) "azimuth" none (optNum W) = .ok (d.azimuth.map r3) := by
    unfold field
    rw [g]
    have : ∀ o : Option J, ((((OD.get? [("manufacturer".toList, leafJ W.quotes d.manufacturer)] "azimuth".toList).or
      (((if "length".toList = "azimuth".toList then d.length.map fun x => J.str (W.fixed x) else none).or
        (if "azimuth".toList = "azimuth".toList then o else none)).or
        (if "electrode".toList = "azimuth".toList then groupOf (d.pots.map fun p => .dict (potD W.quotes p)) else none))).or
      (OD.get? [("name".toList, J.str (seenAttr nm)), ("type".toList, .str (seenAttr ty))] "azimuth".toList))) = o := by
      intro o
      rw [if_neg (by decide : ¬ "length".toList = "azimuth".toList), if_neg (by decide : ¬ "electrode".toList = "azimuth".toList), if_pos rfl]
      cases o <;> rfl
    rw [this]
    exact numD_read (fun x => (G.fixed x).2) d.azimuth
  have f4 : field (dipoleD W d nm ty) "name" none optText = .ok (d.name.map seenAttr) := by
    unfold field
    rw [g, if_neg (by decide), if_neg (by decide), if_neg (by decide), hn]
    rfl
  have f5 : field (dipoleD W d nm ty) "type" none optText = .ok (d.type.map seenAttr) := by
    unfold field
    rw [g, if_neg (by decide), if_neg (by decide), if_neg (by decide), hy]
    rfl
  have f6 : field (dipoleD W d nm ty) "electrode" [] readPots = potsRead W.quotes d.pots := by
    unfold field
    rw [g]
    have : ∀ o : Option J, ((((OD.get? [("manufacturer".toList, leafJ W.quotes d.manufacturer)] "electrode".toList).or
      (((if "length".toList = "electrode".toList then d.length.map fun x => J.str (W.fixed x) else none).or
        (if "azimuth".toList = "electrode".toList then d.azimuth.map fun x => J.str (W.fixed x) else none)).or
        (if "electrode".toList = "electrode".toList then o else none))).or
      (OD.get? [("name".toList, J.str (seenAttr nm)), ("type".toList, .str (seenAttr ty))] "electrode".toList))) = o := by
      intro o
      rw [if_neg (by decide : ¬ "length".toList = "electrode".toList), if_neg (by decide : ¬ "azimuth".toList = "electrode".toList), if_pos rfl]
      cases o <;> rfl
    rw [this]
    exact read_pots W.quotes d.pots hp
  unfold readDipole
  simp only [f1, f2, f3, f4, f5, f6, Except.bind]
  unfold potsRead dipoleRead
  by_cases h1 : d.pots.length = 1
  · rw [if_pos h1, if_pos h1]
  · rw [if_neg h1, if_neg h1]; rfl

/-! ## Runs -/

/-- A dictionary of keys that may be there. -/
def dictOf (l : List (Str × Option J)) : List (Str × J) := l.flatMap fun p => opt p.1 p.2

theorem get?_dictOf {l : List (Str × Option J)} (h : (l.map Prod.fst).Nodup) (k : Str) :
    OD.get? (dictOf l) k = (OD.get? l k).bind id := by
  induction l with
  | nil => rfl
  | cons p ps ih =>
    have e : dictOf (p :: ps) = opt p.1 p.2 ++ dictOf ps := by simp [dictOf]
    rw [List.map_cons, List.nodup_cons] at h
    rw [e, OD.get?_append, get?_opt, ih h.2, OD.get?_cons]
    by_cases hk : p.1 = k
    · subst hk
      have : OD.get? ps p.1 = none := (OD.get?_eq_none_iff ps p.1).2 h.1
      rw [this, if_pos rfl, if_pos rfl]
      simp
    · rw [if_neg hk, if_neg hk]; simp

theorem mapM_forall {α β : Type} {f : α → Except PyErr β} {l : List α} {r : List β} (h : l.mapM f = .ok r) :
    List.Forall₂ (fun a b => f a = .ok b) l r := by
  induction l generalizing r with
  | nil => cases h; exact .nil
  | cons a as ih =>
    rw [List.mapM_cons] at h
    cases ha : f a with
    | error e => rw [ha] at h; cases h
    | ok b =>
      rw [ha] at h
      cases hs : as.mapM f with
      | error e => rw [hs] at h; cases h
      | ok bs => rw [hs] at h; cases h; exact .cons ha (ih hs)

theorem forall_mapM {α β : Type} {f : α → Except PyErr β} {l : List α} {r : List β} (h : List.Forall₂ (fun a b => f a = .ok b) l r) :
    l.mapM f = .ok r := by
  induction h with
  | nil => rfl
  | cons hp _ ih => rw [List.mapM_cons, hp, ih]; rfl

/-- The value of a comment. -/
def commentD (q : Bool) (author value : Option Str) : List (Str × J) :=
  [("author".toList, .str (seenAttr (author.getD [])))] ++ opt "value".toList (textJ q (value.getD []))

theorem comment_val (q : Bool) (n : Nat) (author value : Option Str) :
    Val q n (commentEl author value) (.dict (commentD q author value)) :=
  Val.attrs "Comments".toList (attrs := [("author".toList, author.getD [])]) (value.getD []) (by simp) rfl
    (by simp only [List.map_cons, List.map_nil]; decide) (by simp only [List.map_cons, List.map_nil]; decide)

theorem read_comment (q : Bool) (author value : Option Str) :
    readComment (.dict (commentD q author value)) = .ok (some (seenAttr (author.getD [])), seenComment q value) := by
  have f1 : field (commentD q author value) "author" none optText = .ok (some (seenAttr (author.getD []))) := rfl
  have f2 : field (commentD q author value) "value" none optText = .ok (seenComment q value) := by
    have : OD.get? (commentD q author value) "value".toList = textJ q (value.getD []) := by
      unfold commentD
      rw [OD.get?_append, get?_opt, if_pos rfl]
      rfl
    unfold field
    rw [this]
    cases value with
    | none => rfl
    | some s =>
      unfold textJ seenComment
      simp only [Option.getD_some]
      rcases seenText q (some s) with _ | _ | ⟨c, cs⟩ <;> rfl
  unfold readComment
  simp only [f1, f2, Except.bind]

theorem groupOf_many {α : Type} {f : J → Except PyErr α} {ws : List J} {r : Except PyErr (List α)}
    (h : ws.mapM (fun w => f w) = r) (h' : (ws.map fix).mapM f = r) (hm : ∀ w ∈ ws, manyOf w = [w]) :
    (match groupOf ws with | some m => (manyOf m).mapM f | none => Except.ok []) = r := by
  rcases ws with _ | ⟨a, _ | ⟨b, l⟩⟩
  · exact h
  · simp only [groupOf, lowGroup, hm a (by simp)]; exact h
  · exact h'

theorem forall_right {α β : Type} {R : α → β → Prop} {l : List α} {r : List β} (h : List.Forall₂ R l r) (b : β) (hb : b ∈ r) :
    ∃ a, R a b := by
  induction h with
  | nil => cases hb
  | cons hp _ ih =>
    rcases List.mem_cons.1 hb with rfl | hb
    · exact ⟨_, hp⟩
    · exact ih hb

theorem dipoles_read (W : World F T) (r3 : F → F) (l : List (Dipole F)) : l.mapM (dipoleRead W r3) =
    if ∃ d ∈ l, d.pots.length = 1 then .error .attributeError else .ok (l.map (seenDipole W.quotes r3)) := by
  induction l with
  | nil => rw [if_neg (by simp)]; rfl
  | cons d ds ih =>
    rw [List.mapM_cons, ih]
    by_cases h1 : d.pots.length = 1
    · have e : dipoleRead W r3 d = .error .attributeError := if_pos h1
      rw [e]
      exact (if_pos ⟨d, by simp, h1⟩).symm
    · have e : dipoleRead W r3 d = .ok (seenDipole W.quotes r3 d) := if_neg h1
      rw [e]
      by_cases h2 : ∃ d ∈ ds, d.pots.length = 1
      · obtain ⟨x, hx, hx2⟩ := h2
        rw [if_pos ⟨x, hx, hx2⟩, if_pos ⟨x, by simp [hx], hx2⟩]; rfl
      · rw [if_neg h2, if_neg]
        · rfl
        · rintro ⟨x, hx, hx2⟩
          rcases List.mem_cons.1 hx with rfl | hx
          · exact h1 hx2
          · exact h2 ⟨x, hx, hx2⟩

/-- The keys of the notes of a run. -/
def noteL (W : World F T) [DecidableEq T] (n : Notes F T) (wi : J) (wms wds : List J) (x : F) : List (Str × Option J) :=
  [("instrument".toList, some wi), ("magnetometer".toList, groupOf wms), ("dipole".toList, groupOf wds),
    ("comments".toList, some (.dict (commentD W.quotes n.author n.value))),
    ("errors".toList, n.errors.map fun s => leafJ W.quotes (some s)), ("sampling_rate".toList, some (.str (W.shown x))),
    ("start".toList, some (leafJ W.quotes (if n.start = W.noTime then none else some (W.shownTime n.start)))),
    ("end".toList, some (leafJ W.quotes (if n.stop = W.noTime then none else some (W.shownTime n.stop)))),
    ("run".toList, some (.str (seenAttr n.run)))]

theorem errors_piece (q : Bool) (n : Nat) (v : Option Str) :
    Piece q n (textEl "errors" v) ["Errors".toList] ["errors".toList] (opt "errors".toList (v.map fun s => leafJ q (some s))) := by
  cases v with
  | none => exact Piece.nil _ _ _ _
  | some s =>
    refine Piece.one (by decide) (tagged_st _ _ _ _ _ _) ?_
    have := Val.leaf q n (capwords "errors".toList) (if nullValues.contains s then none else some s)
    by_cases h : s ∈ nullWords
    · simp only [nullWords_eq, h, decide_true, if_true] at this ⊢
      simpa only [leafJ, seenText, if_pos h] using this
    · simp only [nullWords_eq, h, decide_false] at this ⊢
      exact this

theorem leafJ_null (q : Bool) (s : Str) : leafJ q (if nullValues.contains s then none else some s) = leafJ q (some s) := by
  by_cases h : s ∈ nullWords
  · simp only [nullWords_eq, h, decide_true, if_true, leafJ, seenText]
  · simp only [nullWords_eq, h, decide_false]; rfl

theorem time_read {W : World F T} [DecidableEq T] {r3 : F → F} (G : Good W r3) (t : T) :
    timeOf W (leafJ W.quotes (if t = W.noTime then none else some (W.shownTime t))) = .ok t := by
  by_cases h : t = W.noTime
  · rw [if_pos h, h]; rfl
  · rw [if_neg h]
    obtain ⟨h1, h2⟩ := G.time t h
    have e : leafJ W.quotes (some (W.shownTime t)) = .str (W.shownTime t) := by
      unfold leafJ; rw [(plain_seen _ h1).1]
    rw [e]
    simp only [timeOf, h2]

/-- What reading the notes of a run gives. -/
def noteRead (W : World F T) (r3 : F → F) (n : Notes F T) : Except PyErr (Notes F T) :=
  if n.errors = none then .error .keyError
  else if ∃ d ∈ n.dipoles, d.pots.length = 1 then .error .attributeError
  else .ok (seenNotes W.quotes r3 n)

/-- The electrodes of the notes. -/
def Notes.Ok (n : Notes F T) : Prop := ∀ d ∈ n.dipoles, ∀ p ∈ d.pots, p.Ok

theorem note_val {W : World F T} [DecidableEq T] {r3 : F → F} (G : Good W r3) (k : Nat) (n : Notes F T) (hn : n.Ok) {e : El}
    (he : noteEl W n = .ok e) : tagged (st W.quotes k e) "FieldNotes".toList ∧
      ∃ D, Val W.quotes k e (.dict D) ∧ readNote W (.dict D) = noteRead W r3 n := by
  unfold noteEl at he
  cases hr : n.rate with
  | none => rw [hr] at he; cases he
  | some x =>
    rw [hr] at he
    simp only at he
    cases hd : n.dipoles.mapM (dipoleEl W) with
    | error e' => rw [hd] at he; cases he
    | ok ds =>
      rw [hd] at he
      simp only [Except.bind, Except.ok.injEq] at he
      subst he
      refine ⟨tagged_st _ _ _ _ _ _, ?_⟩
      obtain ⟨wi, i1, i2, _, _⟩ := tool_read W.quotes (k + 1) "Instrument" n.inst
      have hm : ∃ wms, List.Forall₂ (fun t w => Val W.quotes (k + 1) (toolEl "Magnetometer" t) w ∧ readTool w = .ok (seenTool W.quotes t) ∧
          readTool (fix w) = .ok (seenTool W.quotes t) ∧ manyOf w = [w]) n.mags wms := by
        induction n.mags with
        | nil => exact ⟨[], .nil⟩
        | cons t ts ih =>
          obtain ⟨wms, h⟩ := ih
          obtain ⟨w, hw⟩ := tool_read W.quotes (k + 1) "Magnetometer" t
          exact ⟨w :: wms, .cons hw h⟩
      obtain ⟨wms, hm⟩ := hm
      have hdd := mapM_forall hd
      have hdw : ∃ wds, List.Forall₂ (fun e w => tagged (st W.quotes (k + 1) e) "Dipole".toList ∧ Val W.quotes (k + 1) e w) ds wds ∧
          List.Forall₂ (fun d w => (∃ D, w = J.dict D) ∧ readDipole W w = dipoleRead W r3 d) n.dipoles wds := by
        have hok : ∀ d ∈ n.dipoles, ∀ p ∈ d.pots, p.Ok := hn
        generalize n.dipoles = l at hdd hok
        clear hd
        induction hdd with
        | nil => exact ⟨[], .nil, .nil⟩
        | @cons d e l es hp _ ih =>
          obtain ⟨wds, h1, h2⟩ := ih fun d hd => hok d (by simp [hd])
          obtain ⟨ht, nm, ty, a1, a2, a3⟩ := dipole_val G (k + 1) d (hok d (by simp)) hp
          exact ⟨_, .cons ⟨ht, a3⟩ h1, .cons ⟨⟨_, rfl⟩, read_dipole G d (hok d (by simp)) a1 a2⟩ h2⟩
      obtain ⟨wds, hw1, hw2⟩ := hdw
      have p1 : Piece W.quotes (k + 1) [toolEl "Instrument" n.inst] ["Instrument".toList] ["instrument".toList] (opt "instrument".toList (some wi)) :=
        Piece.one (by decide) (tagged_st _ _ _ _ _ _) i1
      have p2 : Piece W.quotes (k + 1) (n.mags.map (toolEl "Magnetometer")) ["Magnetometer".toList] ["magnetometer".toList]
          (opt "magnetometer".toList (groupOf wms)) := by
        apply Piece.many (by decide)
        rw [List.forall₂_map_left_iff]
        exact hm.imp fun t w h => ⟨tagged_st _ _ _ _ _ _, h.1⟩
      have p3 : Piece W.quotes (k + 1) ds ["Dipole".toList] ["dipole".toList] (opt "dipole".toList (groupOf wds)) :=
        Piece.many (by decide) hw1
      have p4 : Piece W.quotes (k + 1) [commentEl n.author n.value] ["Comments".toList] ["comments".toList]
          (opt "comments".toList (some (.dict (commentD W.quotes n.author n.value)))) :=
        Piece.one (by decide) (tagged_st _ _ _ _ _ _) (comment_val _ _ _ _)
      have p5 := errors_piece W.quotes (k + 1) n.errors
      have p6 := number_piece W.quotes (k + 1) "SamplingRate" "Hz" W.shown (some x) "sampling_rate".toList "SamplingRate".toList (by decide)
        (by decide) fun x => (G.shown x).1
      have p7 : Piece W.quotes (k + 1) [timeEl W "start" n.start] ["Start".toList] ["start".toList]
          (opt "start".toList (some (leafJ W.quotes (if n.start = W.noTime then none else some (W.shownTime n.start))))) :=
        Piece.one (by decide) (tagged_st _ _ _ _ _ _) (Val.leaf _ _ _ _)
      have p8 : Piece W.quotes (k + 1) [timeEl W "end" n.stop] ["End".toList] ["end".toList]
          (opt "end".toList (some (leafJ W.quotes (if n.stop = W.noTime then none else some (W.shownTime n.stop))))) :=
        Piece.one (by decide) (tagged_st _ _ _ _ _ _) (Val.leaf _ _ _ _)
      have hv := Val.parent (n := k) "field_notes".toList (attrs := [("run".toList, n.run)])
        ((((((p1.append p2).append p3).append p4).append p5).append p6).append (p7.append p8))
        (Or.inr (by simp)) (by simp only [List.map_cons, List.map_nil]; decide) (by simp only [List.map_cons, List.map_nil]; decide) (by decide)
        (by simp only [List.map_cons, List.map_nil]; decide)
      refine ⟨dictOf (noteL W n wi wms wds x), ?_, ?_⟩
      · have e : dictOf (noteL W n wi wms wds x) = _ := rfl
        have e2 : attrJ [("run".toList, n.run)] = opt "run".toList (some (.str (seenAttr n.run))) := rfl
        rw [e2] at hv
        simp only [dictOf, noteL, List.flatMap_cons, List.flatMap_nil, List.append_nil]
        rw [numD, Option.map_some] at hv
        have hl : ∀ a b c d e f g h i : List (Str × J), a ++ b ++ c ++ d ++ e ++ f ++ (g ++ h) ++ i =
            a ++ (b ++ (c ++ (d ++ (e ++ (f ++ (g ++ (h ++ i))))))) := by simp
        rw [hl] at hv
        exact hv
      · have g : ∀ k : String, (J.dict (dictOf (noteL W n wi wms wds x))).get k.toList =
            match (OD.get? (noteL W n wi wms wds x) k.toList).bind id with
            | some v => .ok v
            | none => .error .keyError := by
          intro k
          show (match OD.get? (dictOf (noteL W n wi wms wds x)) k.toList with | some v => Except.ok v | none => .error PyErr.keyError) = _
          rw [get?_dictOf]
          exact (by decide : ["instrument".toList, "magnetometer".toList, "dipole".toList, "comments".toList, "errors".toList,
            "sampling_rate".toList, "start".toList, "end".toList, "run".toList].Nodup)
        have g1 : (J.dict (dictOf (noteL W n wi wms wds x))).get "run".toList = .ok (.str (seenAttr n.run)) := by rw [g]; rfl
        have g2 : (J.dict (dictOf (noteL W n wi wms wds x))).get "instrument".toList = .ok wi := by rw [g]; rfl
        have g3 : (J.dict (dictOf (noteL W n wi wms wds x))).get "sampling_rate".toList = .ok (.str (W.shown x)) := by rw [g]; rfl
        have g4 : (J.dict (dictOf (noteL W n wi wms wds x))).get "start".toList =
            .ok (leafJ W.quotes (if n.start = W.noTime then none else some (W.shownTime n.start))) := by rw [g]; rfl
        have g5 : (J.dict (dictOf (noteL W n wi wms wds x))).get "end".toList =
            .ok (leafJ W.quotes (if n.stop = W.noTime then none else some (W.shownTime n.stop))) := by rw [g]; rfl
        have g6 : (J.dict (dictOf (noteL W n wi wms wds x))).get "comments".toList = .ok (.dict (commentD W.quotes n.author n.value)) := by
          rw [g]; rfl
        have g7 : (J.dict (dictOf (noteL W n wi wms wds x))).get "errors".toList =
            match n.errors.map fun s => leafJ W.quotes (some s) with
            | some v => .ok v
            | none => .error .keyError := by rw [g]; rfl
        have g8 : (J.dict (dictOf (noteL W n wi wms wds x))).get "magnetometer".toList =
            match groupOf wms with
            | some v => .ok v
            | none => .error .keyError := by rw [g]; rfl
        have g9 : (J.dict (dictOf (noteL W n wi wms wds x))).get "dipole".toList =
            match groupOf wds with
            | some v => .ok v
            | none => .error .keyError := by rw [g]; rfl
        have m1 : magsOf (J.dict (dictOf (noteL W n wi wms wds x))) = .ok (n.mags.map (seenTool W.quotes)) := by
          unfold magsOf
          rw [g8]
          have := groupOf_many (f := readTool) (ws := wms) (r := .ok (n.mags.map (seenTool W.quotes)))
            (forall_mapM (by
              rw [List.forall₂_map_right_iff]
              exact hm.flip.imp fun w t h => h.2.1))
            (by
              rw [List.mapM_map]
              apply forall_mapM
              rw [List.forall₂_map_right_iff]
              exact hm.flip.imp fun w t h => h.2.2.1)
            (by
              intro w hw
              obtain ⟨t, h⟩ := forall_right hm w hw
              exact h.2.2.2)
          rw [← this]
          cases groupOf wms <;> rfl
        have m2 : dipolesOf W (J.dict (dictOf (noteL W n wi wms wds x))) = n.dipoles.mapM (dipoleRead W r3) := by
          unfold dipolesOf
          rw [g9]
          have hsame : wds.mapM (readDipole W) = n.dipoles.mapM (dipoleRead W r3) := by
            generalize n.dipoles = l at hw2
            clear hw1 hv p3 g g1 g2 g3 g4 g5 g6 g7 g8 g9 m1
            induction hw2 with
            | nil => rfl
            | cons h _ ih => rw [List.mapM_cons, List.mapM_cons, h.2, ih]
          have := groupOf_many (f := readDipole W) (ws := wds) (r := n.dipoles.mapM (dipoleRead W r3)) hsame
            (by
              have : wds.map fix = wds := by
                conv_rhs => rw [← List.map_id wds]
                apply List.map_congr_left
                intro w hw
                obtain ⟨t, ⟨D, rfl⟩, _⟩ := forall_right hw2 w hw
                rfl
              rw [this]; exact hsame)
            (by
              intro w hw
              obtain ⟨t, ⟨D, rfl⟩, _⟩ := forall_right hw2 w hw
              rfl)
          rw [← this]
          cases groupOf wds <;> rfl
        have m3 : commentOf (J.dict (dictOf (noteL W n wi wms wds x))) = .ok (some (seenAttr (n.author.getD [])), seenComment W.quotes n.value) := by
          unfold commentOf
          rw [g6]
          exact read_comment _ _ _
        have m4 : optNum W (.str (W.shown x)) = .ok (some x) := by simp only [optNum, (G.shown x).2]
        unfold readNote
        rw [g1, g2, g3, g4, g5, g7, m1, m2, m3]
        simp only [Except.bind, plainText, i2, m4, time_read G]
        unfold noteRead
        cases hE : n.errors with
        | none => rfl
        | some s =>
          simp only [Option.map_some, reduceCtorEq, if_false]
          have e1 : optText (leafJ W.quotes (some s)) = .ok (seenText W.quotes (some s)) := by
            unfold leafJ
            cases seenText W.quotes (some s) <;> rfl
          rw [e1]
          simp only
          rw [dipoles_read]
          by_cases h1 : ∃ d ∈ n.dipoles, d.pots.length = 1
          · rw [if_pos h1, if_pos h1]
          · rw [if_neg h1, if_neg h1]
            simp only [seenNotes, hE, hr]

/-! ## Files -/

theorem rootValue_one {q : Bool} {n : Nat} {e : El} {t k : Str} {w : J} (ht : tagged (st q n e) t)
    (hk : Names.validateName t = .ok k) (h : Val q n e w) : rootValue [st q n e] = .ok (some w) := by
  obtain ⟨v, h1, h2⟩ := h
  unfold rootValue
  rw [toDicts_cons ht h1]
  simp only [toDicts, Except.map, Except.bind]
  rw [lowerKids_eq (l' := [(k, w)]) (.cons ⟨hk, h2⟩ .nil) [] (by simp)]
  rfl

theorem rootValue_many {q : Bool} {n : Nat} {es : List El} {ws : List J} {t k : Str} (hk : Names.validateName t = .ok k)
    (h : List.Forall₂ (fun e w => tagged (st q n e) t ∧ Val q n e w) es ws) : rootValue (es.map (st q n)) = .ok (groupOf ws) := by
  rcases h with _ | ⟨ha, _ | ⟨hb, hr⟩⟩
  · rfl
  · exact rootValue_one ha.1 hk ha.2
  · rename_i e1 w1 e2 w2 es ws
    have h2 : ∃ vs, List.Forall₂ (fun e v => tagged e t ∧ toDict e = .ok v) ((e1 :: e2 :: es).map (st q n)) vs ∧
        List.Forall₂ (fun v w => lowVal v = .ok w) vs (w1 :: w2 :: ws) := by
      have h : List.Forall₂ (fun e w => tagged (st q n e) t ∧ Val q n e w) (e1 :: e2 :: es) (w1 :: w2 :: ws) := .cons ha (.cons hb hr)
      generalize e1 :: e2 :: es = es at h
      generalize w1 :: w2 :: ws = ws at h
      induction h with
      | nil => exact ⟨[], .nil, .nil⟩
      | cons hp _ ih =>
        obtain ⟨ht, v, h1, h2⟩ := hp
        obtain ⟨vs, i1, i2⟩ := ih
        exact ⟨v :: vs, .cons ⟨ht, h1⟩ i1, .cons h2 i2⟩
    obtain ⟨vs, h1, h2⟩ := h2
    unfold rootValue
    rw [toDicts_same h1]
    rcases h2 with _ | ⟨g1, _ | ⟨g2, g3⟩⟩
    rename_i v1 v2 vs
    simp only [Except.bind, List.map_cons, List.map_map, Function.comp_def, List.map_id']
    have hg := lowVal_group (List.Forall₂.cons g1 (.cons g2 g3))
    rw [lowerKids_eq (l' := [(k, lowGroup (w1 :: w2 :: ws))]) (.cons ⟨hk, hg⟩ .nil) [] (by simp)]
    rfl

/-- Whether a run has the element for errors. -/
def hasErrors (n : Notes F T) : Bool := n.errors.isSome

theorem readAll_eq {W : World F T} {r3 : F → F} {l : List (Notes F T)} {ws : List J}
    (h : List.Forall₂ (fun n w => readNote W w = noteRead W r3 n) l ws) :
    readAll W ws = if ∃ n ∈ l.takeWhile hasErrors, ∃ d ∈ n.dipoles, d.pots.length = 1 then .error .attributeError
      else .ok ((l.takeWhile hasErrors).map (seenNotes W.quotes r3)) := by
  induction h with
  | nil => rw [if_neg (by simp)]; rfl
  | @cons n w l ws hp _ ih =>
    rw [readAll, hp]
    cases hE : n.errors with
    | none =>
      have e : noteRead W r3 n = .error .keyError := if_pos hE
      have e2 : (n :: l).takeWhile hasErrors = [] := by simp [List.takeWhile_cons, hasErrors, hE]
      rw [e, e2, if_neg (by simp)]
      rfl
    | some s =>
      have hne : ¬ n.errors = none := by rw [hE]; simp
      have e2 : (n :: l).takeWhile hasErrors = n :: l.takeWhile hasErrors := by simp [List.takeWhile_cons, hasErrors, hE]
      rw [e2]
      by_cases h1 : ∃ d ∈ n.dipoles, d.pots.length = 1
      · have e : noteRead W r3 n = .error .attributeError := (if_neg hne).trans (if_pos h1)
        rw [e, if_pos ⟨n, by simp, h1⟩]
      · have e : noteRead W r3 n = .ok (seenNotes W.quotes r3 n) := (if_neg hne).trans (if_neg h1)
        rw [e, ih]
        by_cases h2 : ∃ n ∈ l.takeWhile hasErrors, ∃ d ∈ n.dipoles, d.pots.length = 1
        · obtain ⟨x, hx, hx2⟩ := h2
          rw [if_pos ⟨x, hx, hx2⟩, if_pos ⟨x, List.mem_cons_of_mem _ hx, hx2⟩]
          rfl
        · rw [if_neg h2, if_neg]
          · rfl
          · rintro ⟨x, hx, hx2⟩
            rcases List.mem_cons.1 hx with rfl | hx
            · exact h1 hx2
            · exact h2 ⟨x, hx, hx2⟩

theorem manyOf_group {ws : List J} (h : ∀ w ∈ ws, ∃ D, w = J.dict D) :
    (match groupOf ws with | none => [] | some v => manyOf v) = ws := by
  rcases ws with _ | ⟨a, _ | ⟨b, l⟩⟩
  · rfl
  · obtain ⟨D, rfl⟩ := h a (by simp); rfl
  · show (a :: b :: l).map fix = _
    conv_rhs => rw [← List.map_id (a :: b :: l)]
    apply List.map_congr_left
    intro w hw
    obtain ⟨D, rfl⟩ := h w hw
    rfl

/-! ## C240: which field notes can be written -/

/-- Field notes that can be written to a file. -/
def Writable (n : Notes F T) : Prop := n.rate ≠ none ∧ ∀ d ∈ n.dipoles, d.name ≠ none ∧ d.type ≠ none

theorem mapM_ok_iff {α β : Type} (f : α → Except PyErr β) (l : List α) : (∃ r, l.mapM f = .ok r) ↔ ∀ a ∈ l, ∃ b, f a = .ok b := by
  induction l with
  | nil => exact ⟨fun _ _ h => (by cases h), fun _ => ⟨[], rfl⟩⟩
  | cons a as ih =>
    constructor
    · rintro ⟨r, h⟩
      have := mapM_forall h
      cases this with
      | cons h1 h2 =>
        intro x hx
        rcases List.mem_cons.1 hx with rfl | hx
        · exact ⟨_, h1⟩
        · exact ih.1 ⟨_, forall_mapM h2⟩ x hx
    · intro h
      obtain ⟨b, hb⟩ := h a (by simp)
      obtain ⟨r, hr⟩ := ih.2 fun x hx => h x (by simp [hx])
      exact ⟨b :: r, by rw [List.mapM_cons, hb, hr]; rfl⟩

/-- C240: field notes are written if and only if every run has a sampling rate and every dipole a name and a type. -/
theorem C240_writable (W : World F T) [DecidableEq T] (l : List (Notes F T)) :
    (∃ es, writeNotes W l = .ok es) ↔ ∀ n ∈ l, n.rate ≠ none ∧ ∀ d ∈ n.dipoles, d.name ≠ none ∧ d.type ≠ none := by
  have h1 : (∃ es, writeNotes W l = .ok es) ↔ ∃ r, l.mapM (noteEl W) = .ok r := by
    unfold writeNotes
    cases l.mapM (noteEl W) with
    | error e => exact ⟨fun ⟨_, h⟩ => (by cases h), fun ⟨_, h⟩ => (by cases h)⟩
    | ok r => exact ⟨fun _ => ⟨r, rfl⟩, fun _ => ⟨_, rfl⟩⟩
  rw [h1, mapM_ok_iff]
  refine forall_congr' fun n => forall_congr' fun _ => ?_
  unfold noteEl
  cases hr : n.rate with
  | none => exact ⟨fun ⟨_, h⟩ => (by cases h), fun h => absurd rfl h.1⟩
  | some x =>
    have h2 : (∃ r, n.dipoles.mapM (dipoleEl W) = .ok r) ↔ ∀ d ∈ n.dipoles, d.name ≠ none ∧ d.type ≠ none := by
      rw [mapM_ok_iff]
      refine forall_congr' fun d => forall_congr' fun _ => ?_
      unfold dipoleEl
      cases hn : d.name with
      | none => exact ⟨fun ⟨_, h⟩ => (by cases h), fun h => absurd rfl h.1⟩
      | some nm =>
        cases hy : d.type with
        | none => exact ⟨fun ⟨_, h⟩ => (by cases h), fun h => absurd rfl h.2⟩
        | some ty => exact ⟨fun _ => ⟨by simp, by simp⟩, fun _ => ⟨_, rfl⟩⟩
    simp only
    constructor
    · rintro ⟨b, h⟩
      refine ⟨by simp, h2.1 ?_⟩
      cases hd : n.dipoles.mapM (dipoleEl W) with
      | error e => rw [hd] at h; cases h
      | ok r => exact ⟨r, rfl⟩
    · rintro ⟨_, h⟩
      obtain ⟨r, hr⟩ := h2.2 h
      rw [hr]
      exact ⟨_, rfl⟩

/-! ## C241: field notes of a file -/

/-- Runs with their notes are in the file, as they are rounded and escaped. -/
def C241_claim : Prop := ∀ (F T : Type) (_ : DecidableEq T) (W : World F T) (r3 : F → F), Good W r3 → ∀ (l : List (Notes F T)),
  (∀ n ∈ l, n.Ok) → ∀ es, writeNotes W l = .ok es → readNotes W es = .ok (l.map (seenNotes W.quotes r3))

/-- C241: the runs up to the first without a text for errors are read; a dipole with exactly one electrode in one of them is an
error. -/
theorem C241_notes_partial {W : World F T} [DecidableEq T] {r3 : F → F} (G : Good W r3) {l : List (Notes F T)} (hl : ∀ n ∈ l, n.Ok)
    {es : List El} (h : writeNotes W l = .ok es) : readNotes W es =
      if ∃ n ∈ l.takeWhile (fun n : Notes F T => n.errors.isSome), ∃ d ∈ n.dipoles, d.pots.length = 1 then .error .attributeError
      else .ok ((l.takeWhile fun n : Notes F T => n.errors.isSome).map (seenNotes W.quotes r3)) := by
  unfold writeNotes at h
  cases hm : l.mapM (noteEl W) with
  | error e => rw [hm] at h; cases h
  | ok r =>
    rw [hm] at h
    cases h
    have hf := mapM_forall hm
    have hw : ∃ ws, List.Forall₂ (fun e w => tagged (st W.quotes 1 e) "FieldNotes".toList ∧ Val W.quotes 1 e w) r ws ∧
        List.Forall₂ (fun n w => readNote W w = noteRead W r3 n) l ws ∧ ∀ w ∈ ws, ∃ D, w = J.dict D := by
      clear hm
      induction hf with
      | nil => exact ⟨[], .nil, .nil, by simp⟩
      | @cons n e l r hp _ ih =>
        obtain ⟨ws, h1, h2, h3⟩ := ih fun n hn => hl n (by simp [hn])
        obtain ⟨ht, D, a1, a2⟩ := note_val G 1 n (hl n (by simp)) hp
        refine ⟨.dict D :: ws, .cons ⟨ht, a1⟩ h1, .cons a2 h2, ?_⟩
        intro w hw
        rcases List.mem_cons.1 hw with rfl | hw
        · exact ⟨D, rfl⟩
        · exact h3 w hw
    obtain ⟨ws, h1, h2, h3⟩ := hw
    have hv : rootValue (r.map fun e => stored W.quotes (pretty 1 e)) = .ok (groupOf ws) :=
      rootValue_many (k := "field_notes".toList) (by decide) h1
    have hmany := manyOf_group h3
    have hr := readAll_eq h2
    rw [← show hasErrors = (fun n : Notes F T => n.errors.isSome) from rfl, ← hr]
    unfold readNotes
    rw [hv]
    simp only [Except.bind]
    cases hg : groupOf ws with
    | none => rw [hg] at hmany; rw [← hmany]; rfl
    | some v => rw [hg] at hmany; simp only at hmany ⊢; rw [hmany]

/-! ### A concrete case -/

/-- Natural numbers and times that are natural numbers. -/
def exW : World Nat Nat where
  shown := showNat
  fixed := showNat
  parse := parseDigits
  shownTime := showNat
  parseTime := parseDigits
  noTime := 0
  quotes := true

theorem showNat_plain (n : Nat) : Plain (showNat n) := by
  have hd := EmtfData.showNat_digit n
  refine ⟨EmtfData.showNat_ne n, ?_, ?_⟩
  · have := num_not_null (EmtfData.showNat_ne n) fun c hc => Or.inl (hd c hc)
    rw [nullWords_eq] at this
    simpa using this
  · intro c hc
    have h := hd c hc
    refine ⟨numChar_ws h, ?_, ?_, ?_, ?_⟩ <;> rintro rfl <;> revert h <;> decide

theorem exW_good : Good exW id :=
  ⟨fun x => ⟨showNat_plain x, parseDigits_showNat x⟩, fun x => ⟨showNat_plain x, parseDigits_showNat x⟩,
    fun t _ => ⟨showNat_plain t, parseDigits_showNat t⟩⟩

/-- Two runs, the second without a text for errors. -/
def exNotes : List (Notes Nat Nat) :=
  [{ run := "MT1a".toList, inst := { id := some "12".toList, type := some "wide <band>".toList, model := some "X".toList },
     rate := some 1, start := 5, stop := 9, author := some "Kim".toList, value := some "sun & rain".toList, errors := some "none at all".toList,
     mags := [{ id := some "3".toList }, {}],
     dipoles := [{ name := some "ex".toList, type := some "wire".toList, length := some 100,
                   pots := [{ location := "N".toList, number := "1".toList, comments := " wet ".toList }, { location := "S".toList }] }] },
   { run := "MT1b".toList, rate := some 1, start := 0, stop := 9 }]

theorem exNotes_read : (match writeNotes exW exNotes with | .ok es => readNotes exW es | .error e => .error e) =
    .ok [{ run := "MT1a".toList, inst := { id := some "12".toList, type := some "wide andlt;bandandgt;".toList },
           rate := some 1, start := 5, stop := 9, author := some "Kim".toList, value := some "sun andamp; rain".toList,
           errors := some "none at all".toList, mags := [{ id := some "3".toList }, {}],
           dipoles := [{ name := some "ex".toList, type := some "wire".toList, length := some 100,
                         pots := [{ location := "N".toList, number := "1".toList, value := "wet".toList }, { location := "S".toList }] }] }] := by
  have h : ∃ es, writeNotes exW exNotes = .ok es := (C240_writable exW exNotes).2 (by decide)
  obtain ⟨es, h⟩ := h
  rw [h]
  simp only
  rw [C241_notes_partial exW_good (by unfold exNotes Notes.Ok Pot.Ok; decide) h]
  decide +kernel

/-- C241 is false: a run without a text for errors is lost, with all that follow. -/
theorem C241_refuted : ¬ C241_claim := by
  intro h
  obtain ⟨es, he⟩ := (C240_writable exW exNotes).2 (by decide)
  have h1 := h Nat Nat inferInstance exW id exW_good exNotes (by unfold exNotes Notes.Ok Pot.Ok; decide) es he
  have h2 := exNotes_read
  rw [he] at h2
  simp only at h2
  rw [h1] at h2
  revert h2
  decide +kernel

/-! ## C243: texts in files -/

/-- A text that is not a word for nothing and has no blanks at its ends is read as it was written. -/
def C243_claim : Prop := ∀ (F T : Type) (_ : DecidableEq T) (W : World F T) (r3 : F → F), Good W r3 → ∀ (n : Notes F T), n.Ok →
  (∀ d ∈ n.dipoles, d.pots.length ≠ 1) → ∀ s, n.errors = some s → s ∉ nullWords → strip s = s → ∀ es, writeNotes W [n] = .ok es →
    ∃ m, readNotes W es = .ok [m] ∧ m.errors = some s

theorem garbled_special (q : Bool) (s : Str) : '&' ∉ garbled q s ∧ '<' ∉ garbled q s ∧ '>' ∉ garbled q s ∧ (q = true → '"' ∉ garbled q s) := by
  have key : ∀ c, ∀ x ∈ (if c = '&' then "andamp;".toList else if c = '<' then "andlt;".toList else if c = '>' then "andgt;".toList
    else if c = '"' then (if q then "andquot;".toList else ['"']) else [c]), x ≠ '&' ∧ x ≠ '<' ∧ x ≠ '>' ∧ (q = true → x ≠ '"') := by
    intro c x hx
    by_cases h1 : c = '&'
    · rw [if_pos h1] at hx
      revert x; cases q <;> decide
    rw [if_neg h1] at hx
    by_cases h2 : c = '<'
    · rw [if_pos h2] at hx
      revert x; cases q <;> decide
    rw [if_neg h2] at hx
    by_cases h3 : c = '>'
    · rw [if_pos h3] at hx
      revert x; cases q <;> decide
    rw [if_neg h3] at hx
    by_cases h4 : c = '"'
    · rw [if_pos h4] at hx
      revert x; cases q <;> decide
    rw [if_neg h4, List.mem_singleton] at hx
    subst hx
    exact ⟨h1, h2, h3, fun _ => h4⟩
  refine ⟨?_, ?_, ?_, ?_⟩
  · intro h
    obtain ⟨c, _, hx⟩ := List.mem_flatMap.1 h
    exact (key c _ hx).1 rfl
  · intro h
    obtain ⟨c, _, hx⟩ := List.mem_flatMap.1 h
    exact (key c _ hx).2.1 rfl
  · intro h
    obtain ⟨c, _, hx⟩ := List.mem_flatMap.1 h
    exact (key c _ hx).2.2.1 rfl
  · intro hq h
    obtain ⟨c, _, hx⟩ := List.mem_flatMap.1 h
    exact (key c _ hx).2.2.2 hq rfl

theorem garbled_same (q : Bool) {s : Str} (h : '&' ∉ s ∧ '<' ∉ s ∧ '>' ∉ s ∧ (q = true → '"' ∉ s)) : garbled q s = s := by
  obtain ⟨h1, h2, h3, h4⟩ := h
  unfold garbled
  induction s with
  | nil => rfl
  | cons c cs ih =>
    simp only [List.mem_cons, not_or] at h1 h2 h3 h4
    rw [List.flatMap_cons, ih h1.2 h2.2 h3.2 fun hq => (h4 hq).2, if_neg (Ne.symm h1.1), if_neg (Ne.symm h2.1), if_neg (Ne.symm h3.1)]
    by_cases hc : c = '"'
    · rw [if_pos hc, hc]
      cases q with
      | false => rfl
      | true => exact absurd hc.symm (h4 rfl).1
    · rw [if_neg hc]; rfl

/-- C243: a text for errors of a run is read as it was written if and only if it has no ampersand, no angle brackets and, before
Python 3.13, no quotation marks (blanks at its ends, words for nothing and dipoles with one electrode aside). -/
theorem C243_text_partial {W : World F T} [DecidableEq T] {r3 : F → F} (G : Good W r3) {n : Notes F T} (hn : n.Ok)
    (hd : ∀ d ∈ n.dipoles, d.pots.length ≠ 1) {s : Str} (hs : n.errors = some s) (h0 : s ∉ nullWords) (h1 : strip s = s)
    {es : List El} (h : writeNotes W [n] = .ok es) :
    (∃ m, readNotes W es = .ok [m] ∧ m.errors = some s) ↔
      '&' ∉ s ∧ '<' ∉ s ∧ '>' ∉ s ∧ (W.quotes = true → '"' ∉ s) := by
  have hr := C241_notes_partial G (l := [n]) (by simpa using hn) h
  have ht : [n].takeWhile (fun n : Notes F T => n.errors.isSome) = [n] := by simp [List.takeWhile_cons, hs]
  rw [ht, if_neg] at hr
  · rw [hr]
    have e : (seenNotes W.quotes r3 n).errors = some (strip (garbled W.quotes s)) := by
      simp only [seenNotes, hs, seenText, if_neg h0]
    constructor
    · rintro ⟨m, hm, he⟩
      cases hm
      rw [e] at he
      have hg : strip (garbled W.quotes s) = s := Option.some.inj he
      obtain ⟨g1, g2, g3, g4⟩ := garbled_special W.quotes s
      rw [← hg]
      exact ⟨fun x => g1 (mem_of_mem_strip x), fun x => g2 (mem_of_mem_strip x), fun x => g3 (mem_of_mem_strip x), fun hq x => g4 hq (mem_of_mem_strip x)⟩
    · intro hx
      exact ⟨_, rfl, by rw [e, garbled_same _ hx, h1]⟩
  · rintro ⟨x, hx, d, h2, h3⟩
    rw [List.mem_singleton.1 hx] at h2
    exact hd d h2 h3

/-- A run with an angle bracket in a text. -/
def exBracket : Notes Nat Nat := { run := "MT1a".toList, rate := some 1, start := 0, stop := 1, errors := some "gaps < 5 s".toList }

/-- C243 is false: angle brackets come back as letters. -/
theorem C243_refuted : ¬ C243_claim := by
  intro h
  obtain ⟨es, he⟩ := (C240_writable exW [exBracket]).2 (by decide)
  have h1 := h Nat Nat inferInstance exW id exW_good exBracket (fun d hd => (by cases hd)) (by decide) _ rfl (by decide) (by decide) es he
  rw [C243_text_partial exW_good (fun d hd => (by cases hd)) (by decide) rfl (by decide) (by decide) he] at h1
  exact h1.2.1 (by decide)

/-! ## C242: the site layout -/

/-- What is read of the channels of one side. -/
def seenSide {F : Type} (zero : F) (r3 : F → F) (l : List (Chan F)) : List (Chan F) :=
  (l.filter fun c => !c.electric).map (seenChan zero r3) ++ (l.filter fun c => c.electric).map (seenChan zero r3)

/-- The channels of the layout are read again, in the same order. -/
def C242_claim : Prop := ∀ (F T : Type) (W : World F T) (r3 : F → F) (zero : F), Good W r3 → ∀ (l : List (Chan F) × List (Chan F)),
  readLayout W zero (writeLayout W l) = .ok (l.1.map (seenChan zero r3), l.2.map (seenChan zero r3))

theorem get?_addChild (l : List (Str × J)) (d : OD Str (List J)) (t : Str) :
    OD.get? (l.foldl addChild d) t =
      match (l.filter fun p => p.1 = t).map Prod.snd with
      | [] => OD.get? d t
      | v :: vs => some ((OD.get? d t).getD [] ++ v :: vs) := by
  induction l generalizing d with
  | nil => rfl
  | cons p ps ih =>
    rw [List.foldl_cons, ih]
    have hc : OD.get? (addChild d p) t = if p.1 = t then some ((OD.get? d t).getD [] ++ [p.2]) else OD.get? d t := by
      unfold addChild
      by_cases h : p.1 = t
      · rw [if_pos h]
        cases hg : OD.get? d p.1 with
        | none => simp only; rw [OD.get?_set, if_pos h, ← h, hg]; rfl
        | some vs => simp only; rw [OD.get?_set, if_pos h, ← h, hg]; rfl
      · rw [if_neg h]
        cases hg : OD.get? d p.1 with
        | none => simp only; rw [OD.get?_set, if_neg h]
        | some vs => simp only; rw [OD.get?_set, if_neg h]
    rw [hc, List.filter_cons]
    by_cases h : p.1 = t
    · simp only [h, if_true, decide_true, List.map_cons]
      cases (ps.filter fun p => p.1 = t).map Prod.snd with
      | nil => rfl
      | cons v vs => simp
    · simp only [h, if_false, decide_false, Bool.false_eq_true]

theorem addChild_keys (l : List (Str × J)) (d : OD Str (List J)) (hd : OD.WF d) :
    OD.WF (l.foldl addChild d) ∧ ∀ k ∈ OD.keys (l.foldl addChild d), k ∈ OD.keys d ∨ k ∈ l.map Prod.fst := by
  induction l generalizing d with
  | nil => exact ⟨hd, fun k h => Or.inl h⟩
  | cons p ps ih =>
    rw [List.foldl_cons]
    have h1 : OD.WF (addChild d p) ∧ ∀ k ∈ OD.keys (addChild d p), k ∈ OD.keys d ∨ k = p.1 := by
      unfold addChild
      cases OD.get? d p.1 with
      | none => exact ⟨hd.set _ _, fun k hk => ((OD.mem_keys_set _ _ _ _).1 hk).symm⟩
      | some vs => exact ⟨hd.set _ _, fun k hk => ((OD.mem_keys_set _ _ _ _).1 hk).symm⟩
    obtain ⟨a, b⟩ := ih _ h1.1
    refine ⟨a, fun k hk => ?_⟩
    rcases b k hk with h | h
    · rcases h1.2 k h with h | h
      · exact Or.inl h
      · exact Or.inr (by simp [h])
    · exact Or.inr (by rw [List.map_cons]; exact List.mem_cons_of_mem _ h)

/-- The tag of a channel. -/
def kind (b : Bool) : Str := if b then "Electric".toList else "Magnetic".toList

/-- The key of a channel. -/
def kindK (b : Bool) : Str := if b then "electric".toList else "magnetic".toList

/-- The keys of a channel. -/
def chanD (W : World F T) (c : Chan F) : List (Str × Str) :=
  [("name".toList, seenAttr c.name), ("orientation".toList, W.fixed c.orientation), ("x".toList, W.fixed c.x),
    ("y".toList, W.fixed c.y), ("z".toList, W.fixed c.z)] ++
  (if c.electric then [("x2".toList, W.fixed c.x2), ("y2".toList, W.fixed c.y2), ("z2".toList, W.fixed c.z2)] else [])

/-- The value of a channel. -/
def chanJ (W : World F T) (c : Chan F) : J := .dict ((chanD W c).map fun p => (p.1, J.str p.2))

theorem plain_attr {s : Str} (h : Plain s) : seenAttr s = s := by
  unfold seenAttr
  rw [if_neg h.2.1]
  exact garbled_plain true fun c hc => (h.2.2 c hc).2

theorem chan_val {W : World F T} {r3 : F → F} (G : Good W r3) (n : Nat) (c : Chan F) :
    tagged (st W.quotes n (chanEl W c)) (kind c.electric) ∧ toDict (st W.quotes n (chanEl W c)) = .ok (chanJ W c) ∧
      lowVal (chanJ W c) = .ok (chanJ W c) := by
  have hf : ∀ x, seenAttr (W.fixed x) = W.fixed x := fun x => plain_attr (G.fixed x).1
  refine ⟨?_, ?_, ?_⟩
  · unfold chanEl kind
    rw [st_eq]
    cases c.electric <;> rfl
  · unfold chanEl
    rw [st_eq, toDict]
    simp only [List.map_nil, toDicts, bind, Except.bind, spaced, finish]
    have hm : ∀ (a : List (Str × Str)), a.map attrOf = chanD W c → kept (chanD W c) = chanD W c → chanD W c ≠ [] →
        ((chanD W c).map Prod.fst).Nodup →
        setAttrs (a.map attrOf) (base (a.map attrOf) []) = .ok (chanJ W c) := by
      intro a h1 h2 h3 h4
      rw [h1]
      have hb : base (chanD W c) [] = .dict [] := by
        cases hc : chanD W c with
        | nil => exact absurd hc h3
        | cons _ _ => rfl
      rw [hb, setAttrs_kept _ _ (by simpa using h4), h2]
      rfl
    rw [hm]
    · rfl
    · unfold chanD
      cases c.electric <;> simp only [List.map_append, List.map_cons, List.map_nil, attrOf, hf, if_true, Bool.false_eq_true, if_false]
    · unfold chanD
      cases c.electric <;> rfl
    · simp [chanD]
    · unfold chanD
      cases c.electric
      · exact (by decide : ["name".toList, "orientation".toList, "x".toList, "y".toList, "z".toList].Nodup)
      · exact (by decide : ["name".toList, "orientation".toList, "x".toList, "y".toList, "z".toList, "x2".toList, "y2".toList, "z2".toList].Nodup)
  · apply lower_flat
    · unfold chanD
      intro p hp
      have : p.1 ∈ ["name".toList, "orientation".toList, "x".toList, "y".toList, "z".toList, "x2".toList, "y2".toList, "z2".toList] := by
        rcases List.mem_append.1 hp with hp | hp
        · have := List.mem_map_of_mem (f := Prod.fst) hp
          simp only [List.map_cons, List.map_nil] at this
          exact List.mem_append_left ["x2".toList, "y2".toList, "z2".toList] this
        · cases hc : c.electric with
          | false => rw [hc] at hp; cases hp
          | true =>
            rw [hc, if_pos rfl] at hp
            have := List.mem_map_of_mem (f := Prod.fst) hp
            simp only [List.map_cons, List.map_nil] at this
            exact List.mem_append_right ["name".toList, "orientation".toList, "x".toList, "y".toList, "z".toList] this
      revert this
      generalize p.1 = k
      revert k
      decide
    · unfold chanD
      cases c.electric
      · exact (by decide : ["name".toList, "orientation".toList, "x".toList, "y".toList, "z".toList].Nodup)
      · exact (by decide : ["name".toList, "orientation".toList, "x".toList, "y".toList, "z".toList, "x2".toList, "y2".toList, "z2".toList].Nodup)

theorem read_chan {W : World F T} {r3 : F → F} (G : Good W r3) (zero : F) (c : Chan F) :
    readChan W zero c.electric (chanJ W c) = .ok (seenChan zero r3 c) := by
  have hn : ∀ x, num W zero (.str (W.fixed x)) = .ok (r3 x) := by
    intro x; simp only [num, (G.fixed x).2]
  unfold readChan chanJ
  cases hc : c.electric with
  | false =>
    have e : (chanD W c).map (fun p => (p.1, J.str p.2)) = [("name".toList, .str (seenAttr c.name)), ("orientation".toList, .str (W.fixed c.orientation)), ("x".toList, .str (W.fixed c.x)),
        ("y".toList, .str (W.fixed c.y)), ("z".toList, .str (W.fixed c.z))] := by
      unfold chanD; rw [hc]; rfl
    rw [e]
    have f1 : field [("name".toList, J.str (seenAttr c.name)), ("orientation".toList, .str (W.fixed c.orientation)), ("x".toList, .str (W.fixed c.x)),
        ("y".toList, .str (W.fixed c.y)), ("z".toList, .str (W.fixed c.z))] "name" [] plainText = .ok (seenAttr c.name) := rfl
    have f2 : field [("name".toList, J.str (seenAttr c.name)), ("orientation".toList, .str (W.fixed c.orientation)), ("x".toList, .str (W.fixed c.x)),
        ("y".toList, .str (W.fixed c.y)), ("z".toList, .str (W.fixed c.z))] "orientation" zero (num W zero) = .ok (r3 c.orientation) := hn _
    have f3 : field [("name".toList, J.str (seenAttr c.name)), ("orientation".toList, .str (W.fixed c.orientation)), ("x".toList, .str (W.fixed c.x)),
        ("y".toList, .str (W.fixed c.y)), ("z".toList, .str (W.fixed c.z))] "x" zero (num W zero) = .ok (r3 c.x) := hn _
    have f4 : field [("name".toList, J.str (seenAttr c.name)), ("orientation".toList, .str (W.fixed c.orientation)), ("x".toList, .str (W.fixed c.x)),
        ("y".toList, .str (W.fixed c.y)), ("z".toList, .str (W.fixed c.z))] "y" zero (num W zero) = .ok (r3 c.y) := hn _
    have f5 : field [("name".toList, J.str (seenAttr c.name)), ("orientation".toList, .str (W.fixed c.orientation)), ("x".toList, .str (W.fixed c.x)),
        ("y".toList, .str (W.fixed c.y)), ("z".toList, .str (W.fixed c.z))] "z" zero (num W zero) = .ok (r3 c.z) := hn _
    simp only [f1, f2, f3, f4, f5, Except.bind]
    unfold seenChan
    rw [hc]
    rfl
  | true =>
    have e : (chanD W c).map (fun p => (p.1, J.str p.2)) = [("name".toList, .str (seenAttr c.name)), ("orientation".toList, .str (W.fixed c.orientation)), ("x".toList, .str (W.fixed c.x)),
        ("y".toList, .str (W.fixed c.y)), ("z".toList, .str (W.fixed c.z)), ("x2".toList, .str (W.fixed c.x2)), ("y2".toList, .str (W.fixed c.y2)), ("z2".toList, .str (W.fixed c.z2))] := by
      unfold chanD; rw [hc]; rfl
    rw [e]
    generalize hD : [("name".toList, J.str (seenAttr c.name)), ("orientation".toList, .str (W.fixed c.orientation)), ("x".toList, .str (W.fixed c.x)),
        ("y".toList, .str (W.fixed c.y)), ("z".toList, .str (W.fixed c.z)), ("x2".toList, .str (W.fixed c.x2)), ("y2".toList, .str (W.fixed c.y2)), ("z2".toList, .str (W.fixed c.z2))] = D
    have f1 : field D "name" [] plainText = .ok (seenAttr c.name) := by rw [← hD]; rfl
    have f2 : field D "orientation" zero (num W zero) = .ok (r3 c.orientation) := by rw [← hD]; exact hn _
    have f3 : field D "x" zero (num W zero) = .ok (r3 c.x) := by rw [← hD]; exact hn _
    have f4 : field D "y" zero (num W zero) = .ok (r3 c.y) := by rw [← hD]; exact hn _
    have f5 : field D "z" zero (num W zero) = .ok (r3 c.z) := by rw [← hD]; exact hn _
    have f6 : field D "x2" zero (num W zero) = .ok (r3 c.x2) := by rw [← hD]; exact hn _
    have f7 : field D "y2" zero (num W zero) = .ok (r3 c.y2) := by rw [← hD]; exact hn _
    have f8 : field D "z2" zero (num W zero) = .ok (r3 c.z2) := by rw [← hD]; exact hn _
    simp only [f1, f2, f3, f4, f5, f6, f7, f8, Except.bind, if_true]
    unfold seenChan
    rw [hc]
    rfl

theorem single_dicts {l : List J} (h : ∀ v ∈ l, ∃ d, v = J.dict d) : manyOf (single l) = l := by
  rcases l with _ | ⟨a, _ | ⟨b, l⟩⟩
  · rfl
  · obtain ⟨D, rfl⟩ := h a (by simp); rfl
  · rfl

/-- The channels of one kind. -/
def sel (l : List (Chan F)) (b : Bool) : List (Chan F) := l.filter fun c => c.electric == b

theorem sel_tags (W : World F T) (l : List (Chan F)) (b : Bool) :
    ((l.map fun c => (kind c.electric, chanJ W c)).filter fun p => p.1 = kind b).map Prod.snd = (sel l b).map (chanJ W) := by
  induction l with
  | nil => rfl
  | cons c cs ih =>
    have e : decide (kind c.electric = kind b) = (c.electric == b) := by cases c.electric <;> cases b <;> decide
    unfold sel at *
    rw [List.map_cons, List.filter_cons, List.filter_cons]
    simp only [e]
    by_cases h : (c.electric == b) = true
    · rw [if_pos h, if_pos h, List.map_cons, List.map_cons, ih]
    · rw [if_neg h, if_neg h, ih]

theorem kind_low : ∀ b, Names.validateName (kind b) = .ok (kindK b) := by decide

theorem side_val {W : World F T} {r3 : F → F} (G : Good W r3) (n : Nat) (tag : String) (l : List (Chan F)) :
    ∃ D, Val W.quotes n (sideEl W tag l) (.dict D) ∧
      ∀ b, OD.get? D (kindK b) = if sel l b = [] then none else some (single ((sel l b).map (chanJ W))) := by
  have hk : toDicts ((l.map (chanEl W)).map (st W.quotes (n + 1))) = .ok (l.map fun c => (kind c.electric, chanJ W c)) := by
    induction l with
    | nil => rfl
    | cons c cs ih =>
      obtain ⟨h1, h2, _⟩ := chan_val G (n + 1) c
      rw [List.map_cons, List.map_cons, toDicts_cons h1 h2, ih]
      rfl
  have ha : attrJ [("ref".toList, "site".toList), ("units".toList, "m".toList)] = [("ref".toList, .str "site".toList)] := by
    have e : attrJ [("ref".toList, "site".toList), ("units".toList, "m".toList)] = [("ref".toList, .str (seenAttr "site".toList))] := rfl
    rw [e, (by decide : seenAttr "site".toList = "site".toList)]
  cases hl : l with
  | nil =>
    refine ⟨_, Val.parent tag.toList (Piece.nil _ _ [] []) (Or.inr (by simp)) (by decide) (by decide) (by decide) (by decide), ?_⟩
    intro b
    rw [ha, if_pos (show sel ([] : List (Chan F)) b = [] from rfl)]
    cases b <;> rfl
  | cons c cs =>
    rw [← hl]
    generalize hg : (l.map fun c => (kind c.electric, chanJ W c)).foldl addChild [] = gs
    obtain ⟨wf, hkeys⟩ := addChild_keys (l.map fun c => (kind c.electric, chanJ W c)) [] OD.WF_nil
    rw [hg] at wf hkeys
    have hget : ∀ b, OD.get? gs (kind b) = if sel l b = [] then none else some ((sel l b).map (chanJ W)) := by
      intro b
      rw [← hg, get?_addChild, sel_tags]
      cases sel l b with
      | nil => rfl
      | cons x xs => rfl
    have hkind : ∀ k ∈ OD.keys gs, ∃ b, k = kind b := by
      intro k hk
      rcases hkeys k hk with h | h
      · cases h
      · rw [List.map_map] at h
        obtain ⟨c, _, rfl⟩ := List.mem_map.1 h
        exact ⟨c.electric, rfl⟩
    have hval : ∀ g ∈ gs, ∃ b, g = (kind b, (sel l b).map (chanJ W)) := by
      intro g hgm
      obtain ⟨b, hb⟩ := hkind g.1 (OD.mem_keys_of_mem (k := g.1) (v := g.2) hgm)
      have := OD.get?_of_mem wf (k := g.1) (v := g.2) hgm
      rw [hb, hget] at this
      by_cases hs : sel l b = []
      · rw [if_pos hs] at this; cases this
      · rw [if_neg hs] at this
        exact ⟨b, Prod.ext hb (Option.some.inj this).symm⟩
    -- the keys in small letters
    let low : Str × List J → Str × J := fun g => (kindK (g.1 == kind true), single g.2)
    have hlow : ∀ b (v : List J), low (kind b, v) = (kindK b, single v) := by intro b v; cases b <;> rfl
    refine ⟨gs.map low ++ [("ref".toList, .str "site".toList)], ⟨.dict (gs.map (fun g => (g.1, single g.2)) ++ [("ref".toList, .str "site".toList)]), ?_, ?_⟩, ?_⟩
    · obtain ⟨t, e1, e2⟩ := spaced_ws (n + 1) (l.map (chanEl W)) (by simp [hl])
      unfold sideEl
      rw [st_eq, e1, Option.map_some, storedText_ws _ e2]
      refine toDict_kids _ e2 hk (by simp [hl]) (d := gs.map fun g => (g.1, single g.2)) ?_ ?_
      · unfold base
        cases hc : l.map fun c => (kind c.electric, chanJ W c) with
        | nil => rw [hl] at hc; cases hc
        | cons x xs =>
          simp only
          rw [← hc, hg]
          have : OD.get? (gs.map fun p => (p.1, single p.2)) "item".toList = none := by
            rw [OD.get?_eq_none_iff]
            intro hm
            have hm' : "item".toList ∈ OD.keys gs := by simpa [OD.keys, List.map_map, Function.comp_def] using hm
            obtain ⟨b, hb⟩ := hkind _ hm'
            cases b <;> revert hb <;> decide
          rw [this]
      · rw [setAttrs_kept]
        · congr 2
        · have hk2 : (gs.map fun g => (g.1, single g.2)).map Prod.fst = OD.keys gs := by simp [OD.keys, List.map_map, Function.comp_def]
          rw [hk2]
          refine List.nodup_append.2 ⟨wf, by decide, ?_⟩
          intro a ha b hb e
          obtain ⟨x, rfl⟩ := hkind a ha
          subst e
          cases x <;> revert hb <;> decide
    · change lowerKeys (.dict _) = _
      rw [lowerKeys, lowerKids_eq (l' := gs.map low ++ [("ref".toList, .str "site".toList)])]
      · rfl
      · apply List.rel_append
        · rw [List.forall₂_map_left_iff, List.forall₂_map_right_iff, List.forall₂_same]
          intro g hgm
          obtain ⟨b, rfl⟩ := hval g hgm
          rw [hlow]
          refine ⟨kind_low b, ?_⟩
          apply lowVal_single
          · intro v hv
            obtain ⟨c, _, rfl⟩ := List.mem_map.1 hv
            exact (chan_val G n c).2.2
          · intro v hv
            obtain ⟨c, _, rfl⟩ := List.mem_map.1 hv
            exact ⟨_, rfl⟩
        · exact .cons ⟨by decide, rfl⟩ .nil
      · have hf : ∀ k ∈ OD.keys gs, ∀ k' ∈ OD.keys gs, kindK (k == kind true) = kindK (k' == kind true) → k = k' := by
          intro k hk k' hk' e
          obtain ⟨b, rfl⟩ := hkind k hk
          obtain ⟨b', rfl⟩ := hkind k' hk'
          revert e
          cases b <;> cases b' <;> decide
        have e : (gs.map low).map Prod.fst = (OD.keys gs).map fun k => kindK (k == kind true) := by
          simp [low, OD.keys, List.map_map, Function.comp_def]
        rw [List.map_nil, List.nil_append, List.map_append, e]
        refine List.nodup_append.2 ⟨List.Nodup.map_on hf wf, by simp, ?_⟩
        intro a ha b hb e
        obtain ⟨k, hk, rfl⟩ := List.mem_map.1 ha
        obtain ⟨x, rfl⟩ := hkind k hk
        subst e
        cases x <;> revert hb <;> decide
    · intro b
      have e : ∀ (l : OD Str (List J)), (∀ k ∈ OD.keys l, ∃ b, k = kind b) → OD.get? (l.map low) (kindK b) = (OD.get? l (kind b)).map single := by
        intro l hl
        induction l with
        | nil => rfl
        | cons p ps ih =>
          obtain ⟨x, hx⟩ := hl p.1 (by simp)
          have e : low p = (kindK x, single p.2) := by
            have := hlow x p.2
            rw [← hx] at this
            exact this
          rw [List.map_cons, e, OD.get?_cons, OD.get?_cons, ih fun k hk => hl k (by simp [hk]), hx]
          have hd : (kindK x = kindK b) = (kind x = kind b) := by cases x <;> cases b <;> simp [kind, kindK]
          simp only [hd]
          by_cases h : kind x = kind b
          · rw [if_pos h, if_pos h]; rfl
          · rw [if_neg h, if_neg h]
      rw [OD.get?_append, e gs hkind, hget]
      by_cases hs : sel l b = []
      · rw [if_pos hs, if_pos hs]
        cases b <;> decide
      · rw [if_neg hs, if_neg hs]; rfl

theorem readKind_eq {W : World F T} {D E : List (Str × J)} {side : String} {l : List (Chan F)} {b : Bool} {k : String}
    (hk : k.toList = kindK b) (h1 : OD.get? D side.toList = some (.dict E))
    (h2 : OD.get? E (kindK b) = if sel l b = [] then none else some (single ((sel l b).map (chanJ W)))) :
    readKind (.dict D) side k = some ((sel l b).map (chanJ W)) := by
  have e : ((J.dict D).get side.toList).bind (fun s => s.get k.toList) =
      if sel l b = [] then .error .keyError else .ok (single ((sel l b).map (chanJ W))) := by
    have g1 : (J.dict D).get side.toList = .ok (.dict E) := by simp only [J.get, h1]
    rw [g1, hk]
    simp only [Except.bind, J.get, h2]
    by_cases hs : sel l b = []
    · rw [if_pos hs, if_pos hs]
    · rw [if_neg hs, if_neg hs]
  unfold readKind
  rw [e]
  by_cases hs : sel l b = []
  · rw [if_pos hs, hs]; rfl
  · rw [if_neg hs]
    have hm := single_dicts (l := (sel l b).map (chanJ W)) (by
      intro v hv
      obtain ⟨c, _, rfl⟩ := List.mem_map.1 hv
      exact ⟨_, rfl⟩)
    have hne : single ((sel l b).map (chanJ W)) ≠ .null := by
      intro e
      rw [e] at hm
      cases hx : sel l b with
      | nil => exact hs hx
      | cons c cs =>
        rw [hx] at hm
        change [J.null] = chanJ W c :: _ at hm
        injection hm with h _
        cases h
    cases hx : single ((sel l b).map (chanJ W)) with
    | null => exact absurd hx hne
    | str s => rw [← hm, hx]
    | dict d => rw [← hm, hx]
    | list l => rw [← hm, hx]

theorem read_sel {W : World F T} {r3 : F → F} (G : Good W r3) (zero : F) (l : List (Chan F)) (b : Bool) :
    ((sel l b).map (chanJ W)).mapM (readChan W zero b) = .ok ((sel l b).map (seenChan zero r3)) := by
  rw [List.mapM_map]
  apply mapM_ok'
  intro c hc
  have : c.electric = b := by
    have := (List.mem_filter.1 hc).2
    simpa using this
  rw [← this]
  exact read_chan G zero c

theorem readSide_eq {W : World F T} {r3 : F → F} (G : Good W r3) (zero : F) {D E : List (Str × J)} {side : String} {l : List (Chan F)}
    (h1 : OD.get? D side.toList = some (.dict E))
    (h2 : ∀ b, OD.get? E (kindK b) = if sel l b = [] then none else some (single ((sel l b).map (chanJ W)))) :
    readSide W zero (.dict D) side = .ok (seenSide zero r3 l) := by
  unfold readSide
  rw [readKind_eq (k := "magnetic") (b := false) rfl h1 (h2 false), readKind_eq (k := "electric") (b := true) rfl h1 (h2 true)]
  simp only
  rw [read_sel G, read_sel G]
  have s1 : sel l false = l.filter fun c => !c.electric := by
    unfold sel; congr 1; funext c; cases c.electric <;> rfl
  have s2 : sel l true = l.filter fun c => c.electric := by
    unfold sel; congr 1; funext c; cases c.electric <;> rfl
  rw [s1, s2]
  rfl

/-- C242: all channels are read, to three decimals, on each side the magnetic ones before the electric ones. -/
theorem C242_layout_partial {W : World F T} {r3 : F → F} (G : Good W r3) (zero : F) (l : List (Chan F) × List (Chan F)) :
    readLayout W zero (writeLayout W l) = .ok
      ((l.1.filter fun c => !c.electric).map (seenChan zero r3) ++ (l.1.filter fun c => c.electric).map (seenChan zero r3),
       (l.2.filter fun c => !c.electric).map (seenChan zero r3) ++ (l.2.filter fun c => c.electric).map (seenChan zero r3)) := by
  obtain ⟨D1, v1, g1⟩ := side_val G 2 "InputChannels" l.1
  obtain ⟨D2, v2, g2⟩ := side_val G 2 "OutputChannels" l.2
  have p1 : Piece W.quotes 2 [sideEl W "InputChannels" l.1] ["InputChannels".toList] ["input_channels".toList] [("input_channels".toList, .dict D1)] :=
    Piece.one (by decide) (tagged_st _ _ _ _ _ _) v1
  have p2 : Piece W.quotes 2 [sideEl W "OutputChannels" l.2] ["OutputChannels".toList] ["output_channels".toList] [("output_channels".toList, .dict D2)] :=
    Piece.one (by decide) (tagged_st _ _ _ _ _ _) v2
  have hv := Val.parent (n := 1) "SiteLayout".toList (attrs := []) (p1.append p2) (Or.inl (by simp)) (by decide) (by decide) (by decide) (by simp)
  have hr : rootValue [writeLayout W l] = .ok (some (.dict ([("input_channels".toList, .dict D1)] ++ [("output_channels".toList, .dict D2)] ++ attrJ []))) :=
    rootValue_one (t := "SiteLayout".toList) (k := "site_layout".toList) (tagged_st _ _ _ _ _ _) (by decide) hv
  unfold readLayout
  rw [hr]
  simp only [Except.bind]
  rw [readSide_eq G zero (side := "input_channels") (E := D1) (l := l.1) rfl g1,
    readSide_eq G zero (side := "output_channels") (E := D2) (l := l.2) rfl g2]
  rfl

/-- An electric and a magnetic channel. -/
def exLayout : List (Chan Nat) × List (Chan Nat) :=
  ([⟨false, "Hx".toList, 11, 1, 2, 3, 0, 0, 0⟩],
   [⟨true, "Ex".toList, 11, 1, 2, 3, 4, 5, 6⟩, ⟨false, "Hz".toList, 0, 1, 2, 3, 0, 0, 0⟩, ⟨true, "Ey".toList, 90, 1, 2, 3, 4, 5, 6⟩])

theorem exLayout_read : readLayout exW 0 (writeLayout exW exLayout) = .ok
    ([⟨false, "Hx".toList, 11, 1, 2, 3, 0, 0, 0⟩],
     [⟨false, "Hz".toList, 0, 1, 2, 3, 0, 0, 0⟩, ⟨true, "Ex".toList, 11, 1, 2, 3, 4, 5, 6⟩, ⟨true, "Ey".toList, 90, 1, 2, 3, 4, 5, 6⟩]) := by
  rw [C242_layout_partial exW_good]
  decide +kernel

/-- C242 is false: the order of the channels is not kept. -/
theorem C242_refuted : ¬ C242_claim := by
  intro h
  have h1 := h Nat Nat exW id 0 exW_good exLayout
  rw [exLayout_read] at h1
  revert h1
  decide +kernel

end Verif.EmtfFile
