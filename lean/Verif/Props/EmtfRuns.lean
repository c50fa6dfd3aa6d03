import Verif.Model.EmtfRuns
import Verif.Lemmas.OD
import Verif.Lemmas.Sorted
import Verif.Lemmas.Text

/-!
# Runs and channels of a station after `to_emtfxml` and `from_emtfxml`

C226: runs, C227: sensors, C228: electrodes, C229: places and orientations, C230: which stations can be converted,
C231: comments of runs.
-/

namespace Verif.EmtfRuns
open Verif.Text Verif.EmtfData

variable {F T : Type} {W : World F T}

/-! ## Lists -/

theorem mapM_index {α β : Type} {f : α → Except PyErr β} {l : List α} {r : List β} (h : l.mapM f = .ok r) :
    r.length = l.length ∧ ∀ (i : Nat) a b, l[i]? = some a → r[i]? = some b → f a = .ok b := by
  induction l generalizing r with
  | nil =>
    simp only [List.mapM_nil, pure, Except.pure, Except.ok.injEq] at h
    subst h
    exact ⟨rfl, fun i a b h _ => by simp at h⟩
  | cons x xs ih =>
    rw [List.mapM_cons] at h
    cases hx : f x with
    | error e => rw [hx] at h; cases h
    | ok y =>
      cases hs : xs.mapM f with
      | error e => rw [hx, hs] at h; cases h
      | ok ys =>
        rw [hx, hs] at h
        simp only [bind, Except.bind, pure, Except.pure, Except.ok.injEq] at h
        subst h
        obtain ⟨h1, h2⟩ := ih hs
        refine ⟨by simp [h1], ?_⟩
        intro i a b ha hb
        cases i with
        | zero =>
          simp only [List.getElem?_cons_zero, Option.some.injEq] at ha hb
          subst ha; subst hb; exact hx
        | succ i =>
          simp only [List.getElem?_cons_succ] at ha hb
          exact h2 i a b ha hb

theorem mapM_total {α β : Type} {f : α → Except PyErr β} {l : List α} (h : ∀ a ∈ l, ∃ b, f a = .ok b) : ∃ r, l.mapM f = .ok r := by
  induction l with
  | nil => exact ⟨[], rfl⟩
  | cons x xs ih =>
    obtain ⟨y, hy⟩ := h x (by simp)
    obtain ⟨ys, hys⟩ := ih fun a ha => h a (by simp [ha])
    exact ⟨y :: ys, by rw [List.mapM_cons, hy, hys]; rfl⟩

theorem mapM_mem {α β : Type} {f : α → Except PyErr β} {l : List α} {r : List β} (h : l.mapM f = .ok r) (a : α) (ha : a ∈ l) :
    ∃ b ∈ r, f a = .ok b := by
  obtain ⟨h1, h2⟩ := mapM_index h
  obtain ⟨i, hi, rfl⟩ := List.getElem_of_mem ha
  have hi' : i < r.length := by omega
  exact ⟨r[i], List.getElem_mem hi', h2 i _ _ (List.getElem?_eq_getElem hi) (List.getElem?_eq_getElem hi')⟩

theorem mapM_filter {α β : Type} {f : α → Except PyErr β} {p : α → Bool} {q : β → Bool} {l : List α} {r : List β}
    (h : l.mapM f = .ok r) (hpq : ∀ a ∈ l, ∀ b, f a = .ok b → q b = p a) : (l.filter p).mapM f = .ok (r.filter q) := by
  induction l generalizing r with
  | nil =>
    simp only [List.mapM_nil, pure, Except.pure, Except.ok.injEq] at h
    subst h; rfl
  | cons x xs ih =>
    rw [List.mapM_cons] at h
    cases hx : f x with
    | error e => rw [hx] at h; cases h
    | ok y =>
      cases hs : xs.mapM f with
      | error e => rw [hx, hs] at h; cases h
      | ok ys =>
        rw [hx, hs] at h
        simp only [bind, Except.bind, pure, Except.pure, Except.ok.injEq] at h
        subst h
        have := ih hs fun a ha b hb => hpq a (by simp [ha]) b hb
        have e := hpq x (by simp) y hx
        rw [List.filter_cons, List.filter_cons, e]
        cases p x with
        | false => simpa using this
        | true => simp only [if_true]; rw [List.mapM_cons, hx, this]; rfl

/-! ## Places -/

/-- The name of a channel of the layout, in small letters. -/
def lname (c : LayChan F) : Str := lower c.name

/-- The place of a channel in a layout. -/
def placeIn (L : List (LayChan F)) (k : Str) : Option (Place F) := (L.find? fun c => lname c = k).map fun c => c.rest

/-- What a layout does to a magnetic channel. -/
def movedMag (L : List (LayChan F)) (s e : T) (k : Str) (m : Mag F T) : Mag F T :=
  match placeIn L k with
  | some p => placeMag s e k p m
  | none => m

/-- What a layout does to an electric channel. -/
def movedElec (L : List (LayChan F)) (s e : T) (k : Str) (c : Elec F T) : Elec F T :=
  match placeIn L k with
  | some p => placeElec s e k p c
  | none => c

theorem placeIn_cons_self (c : LayChan F) (L : List (LayChan F)) : placeIn (c :: L) (lname c) = some c.rest := by
  simp [placeIn]

theorem placeIn_cons_ne {c : LayChan F} {k : Str} (L : List (LayChan F)) (h : lname c ≠ k) : placeIn (c :: L) k = placeIn L k := by
  simp [placeIn, List.find?_cons, h]

theorem placeIn_none {L : List (LayChan F)} {k : Str} (h : k ∉ L.map lname) : placeIn L k = none := by
  unfold placeIn
  rw [List.find?_eq_none.2]
  · rfl
  · intro c hc he
    exact h (List.mem_map.2 ⟨c, hc, by simpa using he⟩)

theorem placeIn_mem {L : List (LayChan F)} (hn : (L.map lname).Nodup) {c : LayChan F} (hc : c ∈ L) : placeIn L (lname c) = some c.rest := by
  induction L with
  | nil => cases hc
  | cons a as ih =>
    rw [List.map_cons, List.nodup_cons] at hn
    rcases List.mem_cons.1 hc with rfl | h
    · exact placeIn_cons_self _ _
    · rw [placeIn_cons_ne, ih hn.2 h]
      intro he
      exact hn.1 (he ▸ List.mem_map.2 ⟨c, h, rfl⟩)

theorem fold_missing (s e : T) (L : List (LayChan F)) (hn : (L.map lname).Nodup) (r : Run F T) (c : LayChan F) (hc : c ∈ L)
    (h1 : OD.get? r.mag (lname c) = none) (h2 : OD.get? r.elec (lname c) = none) :
    L.foldlM (placeChannel s e) r = .error .attributeError := by
  induction L generalizing r with
  | nil => cases hc
  | cons a as ih =>
    rw [List.map_cons, List.nodup_cons] at hn
    rw [List.foldlM_cons]
    unfold placeChannel
    rcases List.mem_cons.1 hc with rfl | h
    · unfold lname at h1 h2
      rw [h1]
      simp only
      rw [h2]
      rfl
    · have hne : lname c ≠ lower a.name := by
        intro he
        exact hn.1 (List.mem_map.2 ⟨c, h, he⟩)
      cases hm : OD.get? r.mag (lower a.name) with
      | some m =>
        exact ih hn.2 _ h (by rw [OD.get?_set_ne _ _ hne]; exact h1) h2
      | none =>
        simp only
        cases he : OD.get? r.elec (lower a.name) with
        | some m => exact ih hn.2 _ h h1 (by rw [OD.get?_set_ne _ _ hne]; exact h2)
        | none => rfl

theorem fold_place (s e : T) (L : List (LayChan F)) (hn : (L.map lname).Nodup) (r : Run F T)
    (h : ∀ c ∈ L, (OD.get? r.mag (lname c)).isSome ∨ (OD.get? r.elec (lname c)).isSome) :
    ∃ r', L.foldlM (placeChannel s e) r = .ok r' ∧ r'.id = r.id ∧ r'.logger = r.logger ∧ r'.rate = r.rate ∧ r'.start = r.start ∧
      r'.stop = r.stop ∧ r'.comments = r.comments ∧ (∀ k, OD.get? r'.mag k = (OD.get? r.mag k).map (movedMag L s e k)) ∧
      ∀ k, OD.get? r.mag k = none → OD.get? r'.elec k = (OD.get? r.elec k).map (movedElec L s e k) := by
  induction L generalizing r with
  | nil =>
    refine ⟨r, rfl, rfl, rfl, rfl, rfl, rfl, rfl, ?_, ?_⟩
    · intro k; cases OD.get? r.mag k <;> rfl
    · intro k _; cases OD.get? r.elec k <;> rfl
  | cons a as ih =>
    rw [List.map_cons, List.nodup_cons] at hn
    have ha : placeIn as (lower a.name) = none := placeIn_none hn.1
    rw [List.foldlM_cons]
    cases hm : OD.get? r.mag (lower a.name) with
    | some m =>
      have step : placeChannel s e r a = .ok { r with mag := OD.set r.mag (lower a.name) (placeMag s e (lower a.name) a.rest m) } := by
        unfold placeChannel; rw [hm]
      rw [step]
      obtain ⟨r', h1, h2, h3, h4, h5, h6, h7, h8, h9⟩ := ih hn.2
        { r with mag := OD.set r.mag (lower a.name) (placeMag s e (lower a.name) a.rest m) } (by
          intro c hc
          rcases h c (by simp [hc]) with g | g
          · left
            show (OD.get? (OD.set r.mag _ _) _).isSome = true
            rw [OD.get?_set]; split
            · rfl
            · exact g
          · exact Or.inr g)
      refine ⟨r', h1, h2, h3, h4, h5, h6, h7, ?_, ?_⟩
      · intro k
        rw [h8 k]
        show (OD.get? (OD.set r.mag _ _) k).map _ = _
        rw [OD.get?_set]
        by_cases hk : lower a.name = k
        · subst hk
          rw [if_pos rfl, hm]
          simp only [Option.map_some, movedMag, ha]
          rw [show placeIn (a :: as) (lower a.name) = some a.rest from placeIn_cons_self a as]
        · rw [if_neg hk]
          unfold movedMag
          rw [placeIn_cons_ne as (show lname a ≠ k from hk)]
      · intro k hk
        have hne : lname a ≠ k := by rintro rfl; rw [show lname a = lower a.name from rfl, hm] at hk; cases hk
        rw [h9 k (by show OD.get? (OD.set r.mag _ _) k = none; rw [OD.get?_set_ne _ _ (show k ≠ lower a.name from fun h => hne h.symm)]; exact hk)]
        unfold movedElec
        rw [placeIn_cons_ne as hne]
    | none =>
      cases he : OD.get? r.elec (lower a.name) with
      | none =>
        rcases h a (by simp) with g | g
        · rw [show lname a = lower a.name from rfl, hm] at g; cases g
        · rw [show lname a = lower a.name from rfl, he] at g; cases g
      | some m =>
        have step : placeChannel s e r a = .ok { r with elec := OD.set r.elec (lower a.name) (placeElec s e (lower a.name) a.rest m) } := by
          unfold placeChannel; rw [hm]; simp only; rw [he]
        rw [step]
        obtain ⟨r', h1, h2, h3, h4, h5, h6, h7, h8, h9⟩ := ih hn.2
          { r with elec := OD.set r.elec (lower a.name) (placeElec s e (lower a.name) a.rest m) } (by
            intro c hc
            rcases h c (by simp [hc]) with g | g
            · exact Or.inl g
            · right
              show (OD.get? (OD.set r.elec _ _) _).isSome = true
              rw [OD.get?_set]; split
              · rfl
              · exact g)
        refine ⟨r', h1, h2, h3, h4, h5, h6, h7, ?_, ?_⟩
        · intro k
          rw [h8 k]
          show (OD.get? r.mag k).map _ = _
          by_cases hk : k = lower a.name
          · subst hk; rw [hm]; rfl
          · unfold movedMag
            rw [placeIn_cons_ne as (show lname a ≠ k from fun h => hk h.symm)]
        · intro k hk
          rw [h9 k hk]
          show (OD.get? (OD.set r.elec _ _) k).map _ = _
          rw [OD.get?_set]
          by_cases hk : lower a.name = k
          · subst hk
            rw [if_pos rfl, he]
            simp only [Option.map_some, movedElec, ha]
            rw [show placeIn (a :: as) (lower a.name) = some a.rest from placeIn_cons_self a as]
          · rw [if_neg hk]
            unfold movedElec
            rw [placeIn_cons_ne as (show lname a ≠ k from hk)]

/-! ## The layout -/

/-- The names of the channels in a layout. -/
def names5 : List Str := ["hx".toList, "hy".toList, "hz".toList, "ex".toList, "ey".toList]

theorem lower_cap : ∀ k ∈ names5, lower (capitalize k) = k := by decide +kernel
theorem lower_names : ∀ k ∈ names5, lower k = k := by decide +kernel

/-- A place without anything. -/
def origin (W : World F T) : Place F := ⟨W.zero, W.zero, W.zero, W.zero, W.zero, W.zero, W.zero⟩

theorem lay_names {d : OD Str (Place F)} (hk : ∀ k ∈ OD.keys d, k ∈ names5) : (layChans d).map lname = OD.keys d := by
  unfold layChans OD.keys
  rw [List.map_map]
  apply List.map_congr_left
  intro p hp
  exact lower_cap p.1 (hk p.1 (List.mem_map.2 ⟨p, hp, rfl⟩))

/-- What `_update_site_layout` makes of a layout: exactly the channels wanted, each with its place or at the origin. -/
theorem update_spec {d : OD Str (Place F)} (wf : d.WF) (hk : ∀ k ∈ OD.keys d, k ∈ names5) {w : List Str} (hw : w.Nodup)
    (hw5 : ∀ k ∈ w, k ∈ names5) :
    ((updateChannels (fresh W) w (layChans d)).map lname).Perm w ∧
    ∀ c ∈ updateChannels (fresh W) w (layChans d), c.rest = (OD.get? d (lname c)).getD (origin W) := by
  have hmem : ∀ c ∈ layChans d, OD.get? d (lname c) = some c.rest := by
    intro c hc
    obtain ⟨p, hp, rfl⟩ := List.mem_map.1 hc
    show OD.get? d (lower (capitalize p.1)) = some p.2
    rw [lower_cap p.1 (hk p.1 (List.mem_map.2 ⟨p, hp, rfl⟩))]
    exact OD.get?_of_mem wf hp
  unfold updateChannels
  split
  · next h =>
    refine ⟨?_, fun c hc => by rw [hmem c hc]; rfl⟩
    have p1 := pySorted_perm leStr w
    have p2 := pySorted_perm leStr ((layChans d).map fun c => lower c.name)
    rw [h] at p1
    exact (p2.symm.trans p1)
  · have each : ∀ k ∈ w, ((let found := (layChans d).filter fun c => lower c.name = lower k
        if found.isEmpty then [fresh W k] else found).map lname = [k]) ∧
        ∀ c ∈ (let found := (layChans d).filter fun c => lower c.name = lower k
          if found.isEmpty then [fresh W k] else found), c.rest = (OD.get? d (lname c)).getD (origin W) := by
      intro k hkw
      rw [lower_names k (hw5 k hkw)]
      simp only
      split
      · next he =>
        have hnone : OD.get? d k = none := by
          cases hg : OD.get? d k with
          | none => rfl
          | some p =>
            have hin : (⟨capitalize k, p⟩ : LayChan F) ∈ (layChans d).filter fun c => lower c.name = k := by
              rw [List.mem_filter]
              refine ⟨List.mem_map.2 ⟨(k, p), OD.mem_of_get? hg, rfl⟩, ?_⟩
              simp only [decide_eq_true_eq]
              exact lower_cap k (hw5 k hkw)
            rw [List.isEmpty_iff] at he
            rw [he] at hin; cases hin
        have hl : lname (fresh W k) = k := lower_names k (hw5 k hkw)
        refine ⟨by simp [hl], ?_⟩
        intro c hc
        simp only [List.mem_singleton] at hc
        subst hc
        rw [hl, hnone]; rfl
      · next he =>
        refine ⟨?_, fun c hc => by rw [hmem c (List.mem_filter.1 hc).1]; rfl⟩
        have hnd : ((layChans d).map lname).Nodup := by rw [lay_names hk]; exact wf
        generalize layChans d = L at he hnd
        induction L with
        | nil => simp at he
        | cons a as ih =>
          rw [List.map_cons, List.nodup_cons] at hnd
          rw [List.filter_cons] at he ⊢
          by_cases ha : lower a.name = k
          · simp only [ha, decide_true, if_true, List.map_cons]
            have : (as.filter fun c => decide (lower c.name = k)) = [] := by
              rw [List.filter_eq_nil_iff]
              intro c hc hck
              simp only [decide_eq_true_eq] at hck
              exact hnd.1 (List.mem_map.2 ⟨c, hc, by unfold lname; rw [hck, ha]⟩)
            rw [this]
            show [lname a] = [k]
            unfold lname; rw [ha]
          · simp only [ha, decide_false, Bool.false_eq_true, if_false] at he ⊢
            exact ih he hnd.2
    constructor
    · rw [List.map_flatMap]
      have : (w.flatMap fun k => (let found := (layChans d).filter fun c => lower c.name = lower k
          if found.isEmpty then [fresh W k] else found).map lname) = w := by
        clear hw hw5
        rename_i hs
        clear hs
        induction w with
        | nil => rfl
        | cons k ks ih =>
          rw [List.flatMap_cons, (each k (by simp)).1, ih fun a ha => each a (by simp [ha])]
          rfl
      rw [this]
    · intro c hc
      obtain ⟨k, hk, hc⟩ := List.mem_flatMap.1 hc
      exact (each k hk).2 c hc

/-- The last of the runs that has a magnetic channel. -/
def lastMag (runs : List (Run F T)) (c : Str) : Option (Mag F T) := (runs.filterMap fun r => OD.get? r.mag c).getLast?

/-- The last of the runs that has an electric channel. -/
def lastElec (runs : List (Run F T)) (c : Str) : Option (Elec F T) := (runs.filterMap fun r => OD.get? r.elec c).getLast?

theorem getLast?_cons_or {α : Type} (o : Option α) (l : List α) :
    (match o with | some a => a :: l | none => l).getLast? = l.getLast?.or o := by
  cases o with
  | none => simp
  | some a =>
    cases l with
    | nil => rfl
    | cons b bs =>
      rw [List.getLast?_cons_cons]
      cases h : (b :: bs).getLast? with
      | none => simp at h
      | some x => rfl

/-- Channels that are added are in the names given. -/
def Within (l : List Str) (d : OD Str (Place F)) : Prop := d.WF ∧ ∀ k ∈ OD.keys d, k ∈ l

theorem Within.set {l : List Str} {d : OD Str (Place F)} (h : Within l d) {k : Str} (hk : k ∈ l) (p : Place F) : Within l (OD.set d k p) := by
  refine ⟨OD.WF.set h.1 k p, fun k' hk' => ?_⟩
  rcases (OD.mem_keys_set _ _ _ _).1 hk' with h' | h'
  · exact h' ▸ hk
  · exact h.2 k' h'

/-- Set a channel that is there. -/
def setOpt (d : OD Str (Place F)) (k : Str) : Option (Place F) → OD Str (Place F)
  | some p => OD.set d k p
  | none => d

theorem Within.setOpt {l : List Str} {d : OD Str (Place F)} (h : Within l d) (k : Str) (hk : k ∈ l) (o : Option (Place F)) :
    Within l (setOpt d k o) := by
  cases o with
  | none => exact h
  | some a => exact h.set hk _

theorem get?_setOpt (d : OD Str (Place F)) (k k' : Str) (o : Option (Place F)) :
    OD.get? (setOpt d k o) k' = if k = k' then o.or (OD.get? d k') else OD.get? d k' := by
  cases o with
  | none => simp [setOpt]
  | some a => exact OD.get?_set d k k' _

/-- Names of the inputs and of the outputs that are laid out. -/
def inNames : List Str := ["hx".toList, "hy".toList]
def outNames : List Str := ["hz".toList, "ex".toList, "ey".toList]

section
variable [DecidableEq F]

theorem add_eq (st : OD Str (Place F) × OD Str (Place F)) (r : Run F T) : addPlaces W st r =
    (setOpt (setOpt st.1 "hx".toList ((OD.get? r.mag "hx".toList).map (magPlace W))) "hy".toList ((OD.get? r.mag "hy".toList).map (magPlace W)),
     setOpt (setOpt (setOpt st.2 "hz".toList ((OD.get? r.mag "hz".toList).map (magPlace W))) "ex".toList
       ((OD.get? r.elec "ex".toList).map (elecPlace W "ex".toList))) "ey".toList ((OD.get? r.elec "ey".toList).map (elecPlace W "ey".toList))) := by
  unfold addPlaces
  simp only
  cases OD.get? r.mag "hx".toList <;> cases OD.get? r.mag "hy".toList <;> cases OD.get? r.mag "hz".toList <;>
    cases OD.get? r.elec "ex".toList <;> cases OD.get? r.elec "ey".toList <;> rfl

theorem add_within (st : OD Str (Place F) × OD Str (Place F)) (r : Run F T) (h1 : Within inNames st.1) (h2 : Within outNames st.2) :
    Within inNames (addPlaces W st r).1 ∧ Within outNames (addPlaces W st r).2 := by
  rw [add_eq]
  constructor
  · exact (h1.setOpt _ (by decide +kernel) _).setOpt _ (by decide +kernel) _
  · exact ((h2.setOpt _ (by decide +kernel) _).setOpt _ (by decide +kernel) _).setOpt _ (by decide +kernel) _

theorem add_get (st : OD Str (Place F) × OD Str (Place F)) (r : Run F T) :
    (∀ c ∈ inNames, OD.get? (addPlaces W st r).1 c = ((OD.get? r.mag c).map (magPlace W)).or (OD.get? st.1 c)) ∧
    OD.get? (addPlaces W st r).2 "hz".toList = ((OD.get? r.mag "hz".toList).map (magPlace W)).or (OD.get? st.2 "hz".toList) ∧
    ∀ c ∈ ["ex".toList, "ey".toList], OD.get? (addPlaces W st r).2 c = ((OD.get? r.elec c).map (elecPlace W c)).or (OD.get? st.2 c) := by
  have e1 : ("hx".toList : Str) ≠ "hy".toList := by decide
  have e2 : ("hz".toList : Str) ≠ "ex".toList := by decide
  have e3 : ("hz".toList : Str) ≠ "ey".toList := by decide
  have e4 : ("ex".toList : Str) ≠ "ey".toList := by decide
  rw [add_eq]
  refine ⟨?_, ?_, ?_⟩
  · intro c hc
    rcases List.mem_cons.1 hc with rfl | hc
    · simp only [get?_setOpt]
      rw [if_neg e1.symm, if_pos trivial]
    · rw [List.mem_singleton] at hc
      subst hc
      simp only [get?_setOpt]
      rw [if_pos trivial, if_neg e1]
  · simp only [get?_setOpt]
    rw [if_neg e3.symm, if_neg e2.symm, if_pos trivial]
  · intro c hc
    rcases List.mem_cons.1 hc with rfl | hc
    · simp only [get?_setOpt]
      rw [if_neg e4.symm, if_pos trivial, if_neg e2]
    · rw [List.mem_singleton] at hc
      subst hc
      simp only [get?_setOpt]
      rw [if_pos trivial, if_neg e4, if_neg e3]

theorem last_or {α β γ : Type} (f : α → Option β) (g : β → γ) (r : α) (rs : List α) (o : Option γ) :
    (((rs.filterMap f).getLast?.map g).or (((f r).map g).or o)) = ((((r :: rs).filterMap f).getLast?).map g).or o := by
  rw [List.filterMap_cons]
  cases h : f r with
  | none => simp
  | some b =>
    simp only [Option.map_some, Option.some_or]
    cases hs : rs.filterMap f with
    | nil => rfl
    | cons c cs =>
      rw [List.getLast?_cons_cons]
      cases hl : (c :: cs).getLast? with
      | none => simp at hl
      | some x => rfl

theorem places (runs : List (Run F T)) (st : OD Str (Place F) × OD Str (Place F)) (h1 : Within inNames st.1) (h2 : Within outNames st.2) :
    Within inNames (runs.foldl (addPlaces W) st).1 ∧ Within outNames (runs.foldl (addPlaces W) st).2 ∧
    (∀ c ∈ inNames, OD.get? (runs.foldl (addPlaces W) st).1 c = ((lastMag runs c).map (magPlace W)).or (OD.get? st.1 c)) ∧
    OD.get? (runs.foldl (addPlaces W) st).2 "hz".toList = ((lastMag runs "hz".toList).map (magPlace W)).or (OD.get? st.2 "hz".toList) ∧
    ∀ c ∈ ["ex".toList, "ey".toList],
      OD.get? (runs.foldl (addPlaces W) st).2 c = ((lastElec runs c).map (elecPlace W c)).or (OD.get? st.2 c) := by
  induction runs generalizing st with
  | nil => exact ⟨h1, h2, fun c _ => rfl, rfl, fun c _ => rfl⟩
  | cons r rs ih =>
    obtain ⟨w1, w2⟩ := add_within (W := W) st r h1 h2
    obtain ⟨g1, g2, g3⟩ := add_get (W := W) st r
    obtain ⟨i1, i2, i3, i4, i5⟩ := ih (addPlaces W st r) w1 w2
    rw [List.foldl_cons]
    refine ⟨i1, i2, ?_, ?_, ?_⟩
    · intro c hc
      rw [i3 c hc, g1 c hc]
      exact last_or _ _ r rs _
    · rw [i4, g2]
      exact last_or _ _ r rs _
    · intro c hc
      rw [i5 c hc, g3 c hc]
      exact last_or _ _ r rs _

/-- The channels a layout has, by whether there are an impedance and a tipper. -/
def laidOut (z t : Bool) : List Str :=
  (if z || t then ["hx".toList, "hy".toList] else []) ++ (if z then ["ex".toList, "ey".toList] else []) ++ (if t then ["hz".toList] else [])

/-- The place of a channel: that of the last run that has it. -/
def placeOf (W : World F T) (runs : List (Run F T)) (c : Str) : Place F :=
  if c ∈ ["ex".toList, "ey".toList] then ((lastElec runs c).map (elecPlace W c)).getD (origin W)
  else ((lastMag runs c).map (magPlace W)).getD (origin W)

theorem names_facts (z t : Bool) :
    (inputNames z t).Nodup ∧ (outputNames z t).Nodup ∧ (∀ k ∈ inputNames z t, k ∈ inNames) ∧ (∀ k ∈ outputNames z t, k ∈ outNames) ∧
    (inputNames z t ++ outputNames z t).Perm (laidOut z t) ∧ (laidOut z t).Nodup := by
  cases z <;> cases t <;> decide +kernel

theorem mem_names5 : (∀ k ∈ inNames, k ∈ names5) ∧ ∀ k ∈ outNames, k ∈ names5 := by decide +kernel

/-- The layout of an object that was written and brought up to date. -/
theorem layout_spec {runs : List (Run F T)} {o : Obj F T} (h : write W runs = .ok o) (z t : Bool) :
    let L := (refresh W z t o).inputs ++ (refresh W z t o).outputs
    (L.map lname).Nodup ∧ (∀ k, k ∈ L.map lname ↔ k ∈ laidOut z t) ∧
    ∀ k, placeIn L k = if k ∈ laidOut z t then some (placeOf W runs k) else none := by
  intro L
  have ho : o.inputs = layChans (runs.foldl (addPlaces W) ([], [])).1 ∧ o.outputs = layChans (runs.foldl (addPlaces W) ([], [])).2 := by
    unfold write at h
    cases hm : runs.mapM (writeNotes W) with
    | error e => rw [hm] at h; cases h
    | ok ns => rw [hm] at h; injection h with h; subst h; exact ⟨rfl, rfl⟩
  obtain ⟨w1, w2, g1, g2, g3⟩ := places (W := W) runs ([], []) ⟨by simp [OD.WF, OD.keys], by simp [OD.keys]⟩ ⟨by simp [OD.WF, OD.keys], by simp [OD.keys]⟩
  obtain ⟨n1, n2, n3, n4, n5, n6⟩ := names_facts z t
  obtain ⟨m1, m2⟩ := mem_names5
  obtain ⟨p1, q1⟩ := update_spec (W := W) w1.1 (fun k hk => m1 k (w1.2 k hk)) n1 (fun k hk => m1 k (n3 k hk))
  obtain ⟨p2, q2⟩ := update_spec (W := W) w2.1 (fun k hk => m2 k (w2.2 k hk)) n2 (fun k hk => m2 k (n4 k hk))
  have hL : L = updateChannels (fresh W) (inputNames z t) (layChans (runs.foldl (addPlaces W) ([], [])).1) ++
      updateChannels (fresh W) (outputNames z t) (layChans (runs.foldl (addPlaces W) ([], [])).2) := by
    show updateChannels (fresh W) (inputNames z t) o.inputs ++ updateChannels (fresh W) (outputNames z t) o.outputs = _
    rw [ho.1, ho.2]
  have hp : (L.map lname).Perm (laidOut z t) := by
    rw [hL, List.map_append]
    exact (p1.append p2).trans n5
  have hn : (L.map lname).Nodup := hp.nodup_iff.2 n6
  refine ⟨hn, fun k => hp.mem_iff, ?_⟩
  intro k
  split
  · next hk =>
    obtain ⟨c, hc, rfl⟩ := List.mem_map.1 (hp.mem_iff.2 hk)
    rw [placeIn_mem hn hc]
    congr 1
    rw [hL, List.mem_append] at hc
    have split5 : (∀ k ∈ inNames, k ∉ ["ex".toList, "ey".toList]) ∧ ∀ k ∈ outNames, k ∈ ["ex".toList, "ey".toList] ∨ k = "hz".toList ∧ k ∉ ["ex".toList, "ey".toList] := by
      decide +kernel
    rcases hc with hc | hc
    · rw [q1 c hc]
      have hin : lname c ∈ inNames := n3 _ (p1.mem_iff.1 (List.mem_map.2 ⟨c, hc, rfl⟩))
      rw [g1 _ hin, placeOf, if_neg (split5.1 _ hin)]
      cases lastMag runs (lname c) <;> rfl
    · rw [q2 c hc]
      have hin : lname c ∈ outNames := n4 _ (p2.mem_iff.1 (List.mem_map.2 ⟨c, hc, rfl⟩))
      rcases split5.2 _ hin with h' | ⟨h', h''⟩
      · rw [g3 _ h', placeOf, if_pos h']
        cases lastElec runs (lname c) <;> rfl
      · rw [placeOf, if_neg h'', h', g2]
        cases lastMag runs "hz".toList <;> rfl
  · next hk => exact placeIn_none fun h => hk (hp.mem_iff.1 h)

/-! ## Field notes -/

/-- The comments under a name, the last of them: comments are `name:text` between semicolons. -/
def lastOf (key : Str) (s : Option Str) : Option Str :=
  (((s.map (splitC ';')).getD []).filterMap fun p => match split1 ':' p with
    | (k, some v) => if strip k = key then some (strip v) else none
    | (_, none) => none).getLast?

/-- A name of a comment that changes nothing but comments. -/
def QuietName (k : Str) : Prop :=
  k ∈ ["comments.author".toList, "comments.value".toList, "errors".toList] ∨
  ('.' ∉ k ∧ k ∉ ["run".toList, "sampling_rate".toList, "start".toList, "end".toList, "comments".toList, "instrument".toList,
    "magnetometer".toList, "dipole".toList])

/-- Comments that change nothing but comments. -/
def Quiet (s : Option Str) : Prop :=
  ∀ t, s = some t → ∀ p ∈ splitC ';' t, ∀ k v, split1 ':' p = (k, some v) → QuietName (strip k)

theorem quiet_set (n : Notes F T) {k : Str} (h : QuietName k) (v : Str) : setNote W n k v = .ok
    { n with author := if k = "comments.author".toList then some v else n.author,
             value := if k = "comments.value".toList then some v else n.value,
             errors := if k = "errors".toList then some v else n.errors } := by
  have e1 : ("comments.author".toList : Str) ≠ "comments.value".toList := by decide +kernel
  have e2 : ("comments.author".toList : Str) ≠ "errors".toList := by decide +kernel
  have e3 : ("comments.value".toList : Str) ≠ "errors".toList := by decide +kernel
  unfold setNote
  by_cases h1 : k = "comments.author".toList
  · rw [if_pos h1, if_pos h1, if_neg (h1 ▸ e1), if_neg (h1 ▸ e2)]
  by_cases h2 : k = "comments.value".toList
  · rw [if_neg h1, if_pos h2, if_neg h1, if_pos h2, if_neg (h2 ▸ e3)]
  by_cases h3 : k = "errors".toList
  · rw [if_neg h1, if_neg h2, if_pos h3, if_neg h1, if_neg h2, if_pos h3]
  rw [if_neg h1, if_neg h2, if_neg h3, if_neg h1, if_neg h2, if_neg h3]
  rcases h with h | ⟨h, h'⟩
  · simp only [List.mem_cons, List.not_mem_nil, or_false] at h
    rcases h with h | h | h
    · exact absurd h h1
    · exact absurd h h2
    · exact absurd h h3
  · rw [if_neg h, if_neg]
    intro hk
    simp only [noteNames, List.map_cons, List.map_nil, List.mem_cons, List.not_mem_nil, or_false] at hk h'
    rcases hk with hk | hk | hk | hk | hk | hk | hk | hk | hk
    · exact h3 hk
    all_goals exact h' (by simp only [hk, true_or, or_true])

/-- What was said under a name in some comments. -/
def saidOf (key : Str) (l : List Str) : Option Str :=
  (l.filterMap fun p => match split1 ':' p with
    | (k, some v) => if strip k = key then some (strip v) else none
    | (_, none) => none).getLast?

theorem said_cons (key p : Str) (l : List Str) (o : Option Str) :
    (saidOf key (p :: l)).or o = (saidOf key l).or (match split1 ':' p with
      | (k, some v) => if strip k = key then some (strip v) else o
      | (_, none) => o) := by
  unfold saidOf
  have := last_or (fun p => match split1 ':' p with
    | (k, some v) => if strip k = key then some (strip v) else none
    | (_, none) => none) (id : Str → Str) p l o
  simp only [Option.map_id_fun, id] at this
  rw [← this]
  congr 1
  rcases split1 ':' p with ⟨k, _ | v⟩
  · rfl
  · simp only
    split <;> rfl

theorem comments_fold (l : List Str) (n : Notes F T) (h : ∀ p ∈ l, ∀ k v, split1 ':' p = (k, some v) → QuietName (strip k)) :
    l.foldlM (writeComment W) n = .ok
      { n with author := (saidOf "comments.author".toList l).or n.author,
               value := (saidOf "comments.value".toList l).or n.value,
               errors := (saidOf "errors".toList l).or n.errors } := by
  induction l generalizing n with
  | nil => rfl
  | cons p l ih =>
    rw [List.foldlM_cons, said_cons, said_cons, said_cons]
    unfold writeComment
    rcases hs : split1 ':' p with ⟨k, _ | v⟩
    · exact ih n fun q hq => h q (by simp [hq])
    · simp only
      rw [quiet_set n (h p (by simp) k v hs) (strip v)]
      exact ih _ fun q hq => h q (by simp [hq])

/-- The instrument in the field notes of a run. -/
def loggerNote (r : Run F T) : Inst := { id := r.logger.id, name := r.logger.type, manufacturer := r.logger.manufacturer }

theorem comments_ok (n : Notes F T) (c : Option Str) (h : Quiet c) : writeComments W n c = .ok
      { n with author := (lastOf "comments.author".toList c).or n.author,
               value := (lastOf "comments.value".toList c).or n.value,
               errors := (lastOf "errors".toList c).or n.errors } := by
  cases c with
  | none => rfl
  | some s => exact comments_fold (splitC ';' s) n (h s rfl)

theorem notes_ok {r : Run F T} (hq : Quiet r.comments) {n : Notes F T} (h : writeNotes W r = .ok n) :
    n.run = r.id ∧ n.inst = loggerNote r ∧ n.rate = r.rate ∧ n.start = r.start ∧ n.stop = r.stop ∧
    n.author = lastOf "comments.author".toList r.comments ∧ n.value = lastOf "comments.value".toList r.comments ∧
    n.errors = lastOf "errors".toList r.comments ∧ n.mags = writeMags r ["hx".toList, "hy".toList, "hz".toList] ∧
    writeDipoles W r ["ex".toList, "ey".toList] = .ok n.dipoles := by
  unfold writeNotes at h
  rw [comments_ok _ _ hq] at h
  cases hd : writeDipoles W r ["ex".toList, "ey".toList] with
  | error e => rw [hd] at h; cases h
  | ok ds =>
    rw [hd] at h
    injection h with h
    subst h
    exact ⟨rfl, rfl, rfl, rfl, rfl, Option.or_none, Option.or_none, Option.or_none, rfl, rfl⟩

theorem notes_iff {r : Run F T} (hq : Quiet r.comments) :
    (∃ n, writeNotes W r = .ok n) ↔ ∃ ds, writeDipoles W r ["ex".toList, "ey".toList] = .ok ds := by
  unfold writeNotes
  rw [comments_ok _ _ hq]
  cases hd : writeDipoles W r ["ex".toList, "ey".toList] with
  | error e => exact ⟨fun ⟨n, h⟩ => (by cases h), fun ⟨n, h⟩ => (by cases h)⟩
  | ok ds => exact ⟨fun _ => ⟨ds, rfl⟩, fun _ => ⟨_, rfl⟩⟩

/-- What a layout does to a magnetic channel of a run. -/
def laidMag (W : World F T) (z t : Bool) (runs : List (Run F T)) (s e : T) (k : Str) (m : Mag F T) : Mag F T :=
  if k ∈ laidOut z t then placeMag s e k (placeOf W runs k) m else m

/-- What a layout does to an electric channel of a run. -/
def laidElec (W : World F T) (z t : Bool) (runs : List (Run F T)) (s e : T) (k : Str) (m : Elec F T) : Elec F T :=
  if k ∈ laidOut z t then placeElec s e k (placeOf W runs k) m else m

/-- The runs with a sampling rate. -/
def kept (W : World F T) (runs : List (Run F T)) : List (Run F T) := runs.filter fun r => r.rate ≠ W.zero

theorem write_ok {runs : List (Run F T)} {o : Obj F T} (h : write W runs = .ok o) : runs.mapM (writeNotes W) = .ok o.notes := by
  unfold write at h
  cases hm : runs.mapM (writeNotes W) with
  | error e => rw [hm] at h; cases h
  | ok ns => rw [hm] at h; injection h with h; subst h; rfl

theorem readRun_spec {runs : List (Run F T)} {o : Obj F T} (h : write W runs = .ok o) (z t : Bool) (n : Notes F T) :
    ((∃ r', readRun W (refresh W z t o) n = .ok r') ↔
      ∀ c ∈ laidOut z t, (OD.get? (readMags W n) c).isSome ∨ (OD.get? (readDipoles W n) c).isSome) ∧
    ∀ r', readRun W (refresh W z t o) n = .ok r' →
      r'.id = n.run ∧ r'.logger = (bareRun W n).logger ∧ r'.rate = n.rate ∧ r'.start = n.start ∧ r'.stop = n.stop ∧
      r'.comments = some (W.value (readComments n)) ∧
      (∀ k, OD.get? r'.mag k = (OD.get? (readMags W n) k).map (laidMag W z t runs n.start n.stop k)) ∧
      ∀ k, OD.get? (readMags W n) k = none → OD.get? r'.elec k = (OD.get? (readDipoles W n) k).map (laidElec W z t runs n.start n.stop k) := by
  obtain ⟨l1, l2, l3⟩ := layout_spec h z t
  have hmm : ∀ k, movedMag ((refresh W z t o).inputs ++ (refresh W z t o).outputs) n.start n.stop k = laidMag W z t runs n.start n.stop k := by
    intro k; funext m
    unfold movedMag laidMag
    rw [l3 k]
    split <;> simp_all
  have hme : ∀ k, movedElec ((refresh W z t o).inputs ++ (refresh W z t o).outputs) n.start n.stop k = laidElec W z t runs n.start n.stop k := by
    intro k; funext m
    unfold movedElec laidElec
    rw [l3 k]
    split <;> simp_all
  by_cases hall : ∀ c ∈ laidOut z t, (OD.get? (readMags W n) c).isSome ∨ (OD.get? (readDipoles W n) c).isSome
  · obtain ⟨r', h1, h2, h3, h4, h5, h6, h7, h8, h9⟩ := fold_place n.start n.stop
      ((refresh W z t o).inputs ++ (refresh W z t o).outputs) l1 (bareRun W n)
      (fun c hc => hall _ ((l2 _).1 (List.mem_map.2 ⟨c, hc, rfl⟩)))
    refine ⟨⟨fun _ => hall, fun _ => ⟨r', h1⟩⟩, ?_⟩
    intro r'' hr
    have : r'' = r' := by
      unfold readRun at hr
      rw [h1] at hr
      injection hr with hr
      exact hr.symm
    subst this
    exact ⟨h2, h3, h4, h5, h6, h7, fun k => by rw [h8 k, hmm k]; rfl, fun k hk => by rw [h9 k hk, hme k]; rfl⟩
  · have herr : readRun W (refresh W z t o) n = .error .attributeError := by
      have : ∃ c ∈ laidOut z t, OD.get? (readMags W n) c = none ∧ OD.get? (readDipoles W n) c = none := by
        refine Classical.byContradiction fun hno => hall fun c hc => ?_
        cases h1 : OD.get? (readMags W n) c with
        | some m => exact Or.inl rfl
        | none =>
          cases h2 : OD.get? (readDipoles W n) c with
          | some m => exact Or.inr rfl
          | none => exact absurd ⟨c, hc, h1, h2⟩ hno
      obtain ⟨c, hc, h1, h2⟩ := this
      obtain ⟨ch, hch, rfl⟩ := List.mem_map.1 ((l2 c).2 hc)
      exact fold_missing _ _ _ l1 (bareRun W n) ch hch h1 h2
    refine ⟨⟨fun ⟨r', hr⟩ => (by rw [herr] at hr; cases hr), fun h => absurd h hall⟩, ?_⟩
    intro r' hr
    rw [herr] at hr; cases hr

/-- Reading what was written of runs that there are. -/
theorem convert_eq (runs : List (Run F T)) (hne : runs ≠ []) {o : Obj F T} (h : write W runs = .ok o) (st : Str) (s e : T) (z t : Bool) :
    convert W st s e z t runs = (o.notes.filter fun n => n.rate ≠ W.zero).mapM (readRun W (refresh W z t o)) := by
  unfold convert
  rw [h]
  show read W st s e t (refresh W z t o) = _
  have hl := (mapM_index (write_ok h)).1
  unfold read
  have : (refresh W z t o).notes = o.notes := rfl
  rw [this]
  cases hn : o.notes with
  | nil =>
    rw [hn] at hl
    exact absurd (List.length_eq_zero_iff.1 hl.symm) hne
  | cons a as => rfl

theorem convert_core {runs : List (Run F T)} (hq : ∀ r ∈ runs, Quiet r.comments) (hne : runs ≠ []) {st : Str} {s e : T} {z t : Bool}
    {rs : List (Run F T)} (h : convert W st s e z t runs = .ok rs) :
    rs.length = (kept W runs).length ∧ ∀ (i : Nat) r r', (kept W runs)[i]? = some r → rs[i]? = some r' →
      ∃ n o, write W runs = .ok o ∧ writeNotes W r = .ok n ∧ Quiet r.comments ∧ readRun W (refresh W z t o) n = .ok r' := by
  cases hw : write W runs with
  | error er => unfold convert at h; rw [hw] at h; cases h
  | ok o =>
    rw [convert_eq runs hne hw] at h
    have hf : (kept W runs).mapM (writeNotes W) = .ok (o.notes.filter fun n => n.rate ≠ W.zero) := by
      refine mapM_filter (write_ok hw) ?_
      intro a ha b hb
      rw [(notes_ok (hq a ha) hb).2.2.1]
    obtain ⟨a1, a2⟩ := mapM_index hf
    obtain ⟨b1, b2⟩ := mapM_index h
    refine ⟨b1.trans a1, ?_⟩
    intro i r r' hr hr'
    have hi : i < (kept W runs).length := (List.getElem?_eq_some_iff.1 hr).1
    have hi2 : i < (o.notes.filter fun n => n.rate ≠ W.zero).length := by omega
    have hn : (o.notes.filter fun n => n.rate ≠ W.zero)[i]? = some (o.notes.filter fun n => n.rate ≠ W.zero)[i] := List.getElem?_eq_getElem hi2
    exact ⟨_, o, rfl, a2 i _ _ hr hn, hq r (List.mem_filter.1 (List.mem_of_getElem? hr)).1, b2 i _ _ hn hr'⟩

/-! ## Sensors -/

/-- What is kept of the sensor of a channel: its name is the component. -/
def sensorOf (c : Str) (i : Inst) : Inst := { id := i.id, name := some c, manufacturer := i.manufacturer, type := i.type }

/-- The sensor of a magnetic channel of a run is that of a long period system. -/
def Long (r : Run F T) (c : Str) : Prop :=
  ∃ m, OD.get? r.mag c = some m ∧ (m.sensor.name = some "NIMS".toList ∨ m.sensor.name = some "LEMI".toList) ∧
    m.sensor.type = some "fluxgate".toList

/-- A run with one magnetometer `m` of the channel `c`: the channel is the only one, or the first and of long period. -/
def OneSensor (r : Run F T) (c : Str) (m : Mag F T) : Prop :=
  OD.get? r.mag c = some m ∧
  ((c = "hx".toList ∧ (Long r "hx".toList ∨ (OD.get? r.mag "hy".toList = none ∧ OD.get? r.mag "hz".toList = none))) ∨
   (c = "hy".toList ∧ OD.get? r.mag "hx".toList = none ∧ (Long r "hy".toList ∨ OD.get? r.mag "hz".toList = none)) ∨
   (c = "hz".toList ∧ OD.get? r.mag "hx".toList = none ∧ OD.get? r.mag "hy".toList = none))

theorem long_iff (r : Run F T) {c : Str} {m : Mag F T} (h : OD.get? r.mag c = some m) : Long r c ↔ longPeriod m.sensor = true := by
  unfold Long longPeriod
  rw [h]
  simp only [Option.some.injEq, exists_eq_left', Bool.and_eq_true, Bool.or_eq_true, decide_eq_true_eq]

theorem long_none (r : Run F T) {c : Str} (h : OD.get? r.mag c = none) : ¬ Long r c := by
  rintro ⟨m, hm, _⟩
  rw [h] at hm; cases hm

theorem writeMags_none {r : Run F T} {c : Str} {cs : List Str} (h : OD.get? r.mag c = none) : writeMags r (c :: cs) = writeMags r cs := by
  rw [writeMags, h]

theorem writeMags_long {r : Run F T} {c : Str} {cs : List Str} {m : Mag F T} (h : OD.get? r.mag c = some m) (hl : Long r c) :
    writeMags r (c :: cs) = [sensorOf c m.sensor] := by
  rw [writeMags, h]
  simp only
  rw [if_pos ((long_iff r h).1 hl)]
  rfl

theorem writeMags_some {r : Run F T} {c : Str} {cs : List Str} {m : Mag F T} (h : OD.get? r.mag c = some m) (hl : ¬ Long r c) :
    writeMags r (c :: cs) = sensorOf c m.sensor :: writeMags r cs := by
  rw [writeMags, h]
  simp only
  rw [if_neg (fun e => hl ((long_iff r h).2 e))]
  rfl

theorem mags_one {r : Run F T} {c : Str} {m : Mag F T} (h : OneSensor r c m) :
    writeMags r ["hx".toList, "hy".toList, "hz".toList] = [sensorOf c m.sensor] := by
  obtain ⟨hm, h | h | h⟩ := h
  · obtain ⟨rfl, h⟩ := h
    by_cases hl : Long r "hx".toList
    · exact writeMags_long hm hl
    · rcases h with h | ⟨h1, h2⟩
      · exact absurd h hl
      · rw [writeMags_some hm hl, writeMags_none h1, writeMags_none h2, writeMags]
  · obtain ⟨rfl, h1, h⟩ := h
    rw [writeMags_none h1]
    by_cases hl : Long r "hy".toList
    · exact writeMags_long hm hl
    · rcases h with h | h
      · exact absurd h hl
      · rw [writeMags_some hm hl, writeMags_none h, writeMags]
  · obtain ⟨rfl, h1, h2⟩ := h
    rw [writeMags_none h1, writeMags_none h2]
    by_cases hl : Long r "hz".toList
    · exact writeMags_long hm hl
    · rw [writeMags_some hm hl, writeMags]

theorem read_one {n : Notes F T} {i : Inst} (h : n.mags = [i]) (c : Str) :
    OD.get? (readMags W n) c = if c ∈ ["hx".toList, "hy".toList, "hz".toList] then some (newMag W n i) else none := by
  unfold readMags
  rw [h]
  simp only [List.map_cons, List.map_nil]
  by_cases h1 : "hx".toList = c
  · subst h1; rfl
  by_cases h2 : "hy".toList = c
  · subst h2; rfl
  by_cases h3 : "hz".toList = c
  · subst h3; rfl
  rw [if_neg]
  · rw [← Option.not_isSome_iff_eq_none, OD.get?_isSome_iff]
    simp only [OD.keys, List.map_cons, List.map_nil, List.mem_cons, List.not_mem_nil, or_false]
    rintro (h | h | h)
    · exact h1 h.symm
    · exact h2 h.symm
    · exact h3 h.symm
  · simp only [List.mem_cons, List.not_mem_nil, or_false]
    rintro (h | h | h)
    · exact h1 h.symm
    · exact h2 h.symm
    · exact h3 h.symm

/-- Whether a magnetic channel that is not alone is written: no channel before it is of long period. -/
def Before (r : Run F T) (c : Str) : Prop :=
  (c = "hx".toList) ∨ (c = "hy".toList ∧ ¬ Long r "hx".toList) ∨ (c = "hz".toList ∧ ¬ Long r "hx".toList ∧ ¬ Long r "hy".toList)

/-- One step of reading the magnetometers. -/
def magStep (W : World F T) (n : Notes F T) (d : OD Str (Mag F T)) (i : Inst) : OD Str (Mag F T) :=
  match i.name with
  | some c => OD.set d (lower c) (newMag W n i)
  | none => d

theorem readMags_many {n : Notes F T} (h : n.mags.length ≠ 1) : readMags W n = n.mags.foldl (magStep W n) [] := by
  unfold readMags
  split
  · next h' => rw [h'] at h; exact absurd rfl h
  · rfl

theorem magStep_sensor (n : Notes F T) (d : OD Str (Mag F T)) {c : Str} (hc : c ∈ names5) (i : Inst) :
    magStep W n d (sensorOf c i) = OD.set d c (newMag W n (sensorOf c i)) := by
  unfold magStep
  show OD.set d (lower c) _ = _
  rw [lower_names c hc]

theorem fold_absent (r : Run F T) (n : Notes F T) (cs : List Str) (hcs : ∀ k ∈ cs, k ∈ names5) (c : Str) (hc : c ∉ cs) (d : OD Str (Mag F T)) :
    OD.get? ((writeMags r cs).foldl (magStep W n) d) c = OD.get? d c := by
  induction cs generalizing d with
  | nil => rfl
  | cons k ks ih =>
    rw [List.mem_cons, not_or] at hc
    cases hm : OD.get? r.mag k with
    | none => rw [writeMags_none hm]; exact ih (fun x hx => hcs x (by simp [hx])) hc.2 d
    | some m =>
      by_cases hl : Long r k
      · rw [writeMags_long hm hl, List.foldl_cons, List.foldl_nil, magStep_sensor n d (hcs k (by simp)), OD.get?_set_ne _ _ hc.1]
      · rw [writeMags_some hm hl, List.foldl_cons, ih (fun x hx => hcs x (by simp [hx])) hc.2, magStep_sensor n d (hcs k (by simp)),
          OD.get?_set_ne _ _ hc.1]

theorem fold_written (r : Run F T) (n : Notes F T) (pre : List Str) (c : Str) (post : List Str) (hcs : ∀ k ∈ pre ++ c :: post, k ∈ names5)
    (hnd : (pre ++ c :: post).Nodup) (hp : ∀ k ∈ pre, ¬ Long r k) (d : OD Str (Mag F T)) :
    OD.get? ((writeMags r (pre ++ c :: post)).foldl (magStep W n) d) c =
      ((OD.get? r.mag c).map fun m => newMag W n (sensorOf c m.sensor)).or (OD.get? d c) := by
  induction pre generalizing d with
  | nil =>
    rw [List.nil_append] at hnd hcs ⊢
    have hpost : c ∉ post := (List.nodup_cons.1 hnd).1
    have hps : ∀ k ∈ post, k ∈ names5 := fun k hk => hcs k (by simp [hk])
    cases hm : OD.get? r.mag c with
    | none =>
      rw [writeMags_none hm, fold_absent r n post hps c hpost]; rfl
    | some m =>
      by_cases hl : Long r c
      · rw [writeMags_long hm hl, List.foldl_cons, List.foldl_nil, magStep_sensor n d (hcs c (by simp)), OD.get?_set_self]; rfl
      · rw [writeMags_some hm hl, List.foldl_cons, fold_absent r n post hps c hpost, magStep_sensor n d (hcs c (by simp)), OD.get?_set_self]
        rfl
  | cons k ks ih =>
    rw [List.cons_append] at hnd hcs ⊢
    obtain ⟨hk, hnd⟩ := List.nodup_cons.1 hnd
    have hps : ∀ x ∈ ks ++ c :: post, x ∈ names5 := fun x hx => hcs x (List.mem_cons_of_mem _ hx)
    have hck : c ≠ k := by rintro rfl; exact hk (by simp)
    cases hm : OD.get? r.mag k with
    | none => rw [writeMags_none hm]; exact ih hps hnd (fun x hx => hp x (by simp [hx])) d
    | some m =>
      rw [writeMags_some hm (hp k (by simp)), List.foldl_cons, ih hps hnd (fun x hx => hp x (by simp [hx])),
        magStep_sensor n d (hcs k (by simp)), OD.get?_set_ne _ _ hck]

theorem fold_hidden (r : Run F T) (n : Notes F T) (pre : List Str) (c : Str) (post : List Str) (hcs : ∀ k ∈ pre ++ c :: post, k ∈ names5)
    (hnd : (pre ++ c :: post).Nodup) (hp : ∃ k ∈ pre, Long r k) (d : OD Str (Mag F T)) :
    OD.get? ((writeMags r (pre ++ c :: post)).foldl (magStep W n) d) c = OD.get? d c := by
  induction pre generalizing d with
  | nil => obtain ⟨k, hk, _⟩ := hp; cases hk
  | cons k ks ih =>
    rw [List.cons_append] at hnd hcs ⊢
    obtain ⟨hk, hnd⟩ := List.nodup_cons.1 hnd
    have hps : ∀ x ∈ ks ++ c :: post, x ∈ names5 := fun x hx => hcs x (List.mem_cons_of_mem _ hx)
    have hck : c ≠ k := by rintro rfl; exact hk (by simp)
    by_cases hl : Long r k
    · obtain ⟨m, hm, _⟩ := id hl
      rw [writeMags_long hm hl, List.foldl_cons, List.foldl_nil, magStep_sensor n d (hcs k (by simp)), OD.get?_set_ne _ _ hck]
    · have hp' : ∃ x ∈ ks, Long r x := by
        obtain ⟨x, hx, h⟩ := hp
        rcases List.mem_cons.1 hx with rfl | hx
        · exact absurd h hl
        · exact ⟨x, hx, h⟩
      cases hm : OD.get? r.mag k with
      | none => rw [writeMags_none hm]; exact ih hps hnd hp' d
      | some m =>
        rw [writeMags_some hm hl, List.foldl_cons, ih hps hnd hp', magStep_sensor n d (hcs k (by simp)), OD.get?_set_ne _ _ hck]

theorem mags_nil {r : Run F T} {c : Str} {cs : List Str} (h : writeMags r (c :: cs) = []) : OD.get? r.mag c = none ∧ writeMags r cs = [] := by
  cases hm : OD.get? r.mag c with
  | none => rw [writeMags_none hm] at h; exact ⟨rfl, h⟩
  | some m =>
    by_cases hl : Long r c
    · rw [writeMags_long hm hl] at h; cases h
    · rw [writeMags_some hm hl] at h; cases h

/-- One magnetometer is written exactly for the runs that are said to have one. -/
theorem one_of_length {r : Run F T} (h : (writeMags r ["hx".toList, "hy".toList, "hz".toList]).length = 1) : ∃ c m, OneSensor r c m := by
  cases hx : OD.get? r.mag "hx".toList with
  | some m =>
    refine ⟨_, m, hx, Or.inl ⟨rfl, ?_⟩⟩
    by_cases hl : Long r "hx".toList
    · exact Or.inl hl
    · rw [writeMags_some hx hl, List.length_cons] at h
      have h' := List.length_eq_zero_iff.1 (Nat.succ.inj h)
      exact Or.inr ⟨(mags_nil h').1, (mags_nil (mags_nil h').2).1⟩
  | none =>
    rw [writeMags_none hx] at h
    cases hy : OD.get? r.mag "hy".toList with
    | some m =>
      refine ⟨_, m, hy, Or.inr (Or.inl ⟨rfl, hx, ?_⟩)⟩
      by_cases hl : Long r "hy".toList
      · exact Or.inl hl
      · rw [writeMags_some hy hl, List.length_cons] at h
        have h' := List.length_eq_zero_iff.1 (Nat.succ.inj h)
        exact Or.inr (mags_nil h').1
    | none =>
      rw [writeMags_none hy] at h
      cases hz : OD.get? r.mag "hz".toList with
      | some m => exact ⟨_, m, hz, Or.inr (Or.inr ⟨rfl, hx, hy⟩)⟩
      | none => rw [writeMags_none hz] at h; cases h

/-- The magnetic channels that are read if there is not one magnetometer only. -/
theorem read_many {r : Run F T} {n : Notes F T} (hn : n.mags = writeMags r ["hx".toList, "hy".toList, "hz".toList])
    (h : ∀ c m, ¬ OneSensor r c m) (c : Str) :
    (Before r c → OD.get? (readMags W n) c = (OD.get? r.mag c).map fun m => newMag W n (sensorOf c m.sensor)) ∧
    (¬ Before r c → OD.get? (readMags W n) c = none) := by
  have hl : n.mags.length ≠ 1 := by
    intro e
    rw [hn] at e
    obtain ⟨c, m, h'⟩ := one_of_length e
    exact h c m h'
  rw [readMags_many hl, hn]
  have h5 : ∀ k ∈ (["hx".toList, "hy".toList, "hz".toList] : List Str), k ∈ names5 := by decide +kernel
  have hnd : (["hx".toList, "hy".toList, "hz".toList] : List Str).Nodup := by decide +kernel
  constructor
  · rintro (rfl | ⟨rfl, h1⟩ | ⟨rfl, h1, h2⟩)
    · exact (fold_written r n [] _ ["hy".toList, "hz".toList] h5 hnd (by simp) []).trans Option.or_none
    · exact (fold_written r n ["hx".toList] _ ["hz".toList] h5 hnd (by simpa using h1) []).trans Option.or_none
    · refine (fold_written r n ["hx".toList, "hy".toList] _ [] h5 hnd ?_ []).trans Option.or_none
      intro k hk
      rcases List.mem_cons.1 hk with rfl | hk
      · exact h1
      · rw [List.mem_singleton] at hk; exact hk ▸ h2
  · intro hb
    by_cases hc : c ∈ (["hx".toList, "hy".toList, "hz".toList] : List Str)
    · simp only [List.mem_cons, List.not_mem_nil, or_false] at hc
      rcases hc with rfl | rfl | rfl
      · exact absurd (Or.inl rfl) hb
      · refine fold_hidden r n ["hx".toList] _ ["hz".toList] h5 hnd ⟨"hx".toList, by simp, ?_⟩ []
        exact Classical.byContradiction fun hn => hb (Or.inr (Or.inl ⟨rfl, hn⟩))
      · refine fold_hidden r n ["hx".toList, "hy".toList] _ [] h5 hnd ?_ []
        by_cases h1 : Long r "hx".toList
        · exact ⟨_, by simp, h1⟩
        · refine ⟨"hy".toList, by simp, ?_⟩
          exact Classical.byContradiction fun hn => hb (Or.inr (Or.inr ⟨rfl, h1, hn⟩))
    · exact fold_absent r n _ h5 c hc []

/-! ## Electrodes -/

/-- The electric channel that is read for one that was written. -/
def dipoleOf (W : World F T) (r : Run F T) (e : Elec F T) (pid pty nid : Str) : Elec F T :=
  { pos := { newPole W with inst := { id := some pid, name := none, manufacturer := e.pos.inst.manufacturer, type := some (W.comment pty) } },
    neg := { newPole W with inst := { id := some nid, name := none, manufacturer := e.pos.inst.manufacturer, type := some (W.comment pty) } },
    length := e.length, azimuth := W.zero, translated := e.translated, start := r.start, stop := r.stop }

/-- Electrodes with what is needed. -/
def Named (e : Elec F T) (pid pty nid : Str) : Prop :=
  e.pos.inst.id = some pid ∧ e.pos.inst.type = some pty ∧ e.neg.inst.id = some nid

theorem dipole_iff (c : Str) (e : Elec F T) : (∃ d, writeDipole W c e = .ok d) ↔ ∃ pid pty nid, Named e pid pty nid := by
  unfold writeDipole Named need
  cases e.pos.inst.id <;> cases e.pos.inst.type <;> cases e.neg.inst.id <;> simp [Except.bind]

theorem loc_ex : lower "N".toList = "n".toList ∧ lower "E".toList = "e".toList ∧ lower "S".toList = "s".toList ∧ lower "W".toList = "w".toList := by
  decide +kernel

theorem dipole_read {c : Str} {e : Elec F T} {d : Dipole F} (h : writeDipole W c e = .ok d) {r : Run F T} {n : Notes F T}
    (h1 : n.start = r.start) (h2 : n.stop = r.stop) :
    d.name = capitalize c ∧ ∃ pid pty nid, Named e pid pty nid ∧ readDipole W n d = dipoleOf W r e pid pty nid := by
  obtain ⟨pid, pty, nid, a1, a2, a3⟩ := (dipole_iff (W := W) c e).1 ⟨d, h⟩
  unfold writeDipole need at h
  rw [a1, a2, a3] at h
  simp only [Except.bind, Except.ok.injEq] at h
  subst h
  refine ⟨rfl, pid, pty, nid, ⟨a1, a2, a3⟩, ?_⟩
  obtain ⟨l1, l2, l3, l4⟩ := loc_ex
  have e1 : "s".toList ∉ ["n".toList, "e".toList] := by decide +kernel
  have e2 : "w".toList ∉ ["n".toList, "e".toList] := by decide +kernel
  have e3 : "n".toList ∈ ["n".toList, "e".toList] := by decide +kernel
  have e4 : "e".toList ∈ ["n".toList, "e".toList] := by decide +kernel
  have e5 : "s".toList ∈ ["s".toList, "w".toList] := by decide +kernel
  have e6 : "w".toList ∈ ["s".toList, "w".toList] := by decide +kernel
  unfold readDipole dipoleOf
  simp only [List.foldl_cons, List.foldl_nil, h1, h2]
  unfold readPot
  by_cases hc : c = "ex".toList
  · simp only [if_pos hc, l1, l3, if_pos e3, if_neg e1, if_pos e5]
    rfl
  · simp only [if_neg hc, l2, l4, if_pos e4, if_neg e2, if_pos e6]
    rfl

theorem dipoles_iff (r : Run F T) (cs : List Str) : (∃ ds, writeDipoles W r cs = .ok ds) ↔
    ∀ c ∈ cs, ∀ e, OD.get? r.elec c = some e → ∃ pid pty nid, Named e pid pty nid := by
  induction cs with
  | nil => exact ⟨fun _ c hc => (by cases hc), fun _ => ⟨[], rfl⟩⟩
  | cons c cs ih =>
    unfold writeDipoles
    cases hm : OD.get? r.elec c with
    | none =>
      simp only
      rw [ih]
      constructor
      · intro h k hk e he
        rcases List.mem_cons.1 hk with rfl | hk
        · rw [hm] at he; cases he
        · exact h k hk e he
      · exact fun h k hk => h k (by simp [hk])
    | some e =>
      simp only
      constructor
      · rintro ⟨ds, h⟩
        cases hd : writeDipole W c e with
        | error er => rw [hd] at h; cases h
        | ok d =>
          cases hs : writeDipoles W r cs with
          | error er => rw [hd, hs] at h; cases h
          | ok ds' =>
            intro k hk e' he'
            rcases List.mem_cons.1 hk with rfl | hk
            · rw [hm] at he'; injection he' with he'; subst he'
              exact (dipole_iff (W := W) k e).1 ⟨d, hd⟩
            · exact ih.1 ⟨ds', hs⟩ k hk e' he'
      · intro h
        obtain ⟨d, hd⟩ := (dipole_iff (W := W) c e).2 (h c (by simp) e hm)
        obtain ⟨ds, hs⟩ := ih.2 fun k hk => h k (by simp [hk])
        exact ⟨d :: ds, by rw [hd, hs]; rfl⟩

theorem dipoles_get (r : Run F T) (n : Notes F T) (h1 : n.start = r.start) (h2 : n.stop = r.stop) (cs : List Str)
    (hcs : ∀ k ∈ cs, k ∈ names5) (hnd : cs.Nodup) (ds : List (Dipole F)) (h : writeDipoles W r cs = .ok ds) (d0 : OD Str (Elec F T)) (c : Str) :
    (c ∉ cs → OD.get? (ds.foldl (fun e d => OD.set e (lower d.name) (readDipole W n d)) d0) c = OD.get? d0 c) ∧
    (c ∈ cs → OD.get? d0 c = none →
      (OD.get? r.elec c = none → OD.get? (ds.foldl (fun e d => OD.set e (lower d.name) (readDipole W n d)) d0) c = none) ∧
      ∀ e, OD.get? r.elec c = some e → ∃ pid pty nid, Named e pid pty nid ∧
        OD.get? (ds.foldl (fun e d => OD.set e (lower d.name) (readDipole W n d)) d0) c = some (dipoleOf W r e pid pty nid)) := by
  induction cs generalizing ds d0 with
  | nil =>
    unfold writeDipoles at h
    injection h with h
    subst h
    exact ⟨fun _ => rfl, fun hc => (by cases hc)⟩
  | cons k ks ih =>
    obtain ⟨hk, hnd⟩ := List.nodup_cons.1 hnd
    have hps : ∀ x ∈ ks, x ∈ names5 := fun x hx => hcs x (by simp [hx])
    unfold writeDipoles at h
    cases hm : OD.get? r.elec k with
    | none =>
      rw [hm] at h
      simp only at h
      have hi := ih hps hnd ds h d0
      refine ⟨fun hc => hi.1 fun hc' => hc (by simp [hc']), fun hc hd => ?_⟩
      rcases List.mem_cons.1 hc with rfl | hc
      · refine ⟨fun _ => by rw [hi.1 hk, hd], fun e he => ?_⟩
        rw [hm] at he; cases he
      · exact hi.2 hc hd
    | some e =>
      rw [hm] at h
      simp only at h
      cases hd : writeDipole W k e with
      | error er => rw [hd] at h; cases h
      | ok d =>
        cases hs : writeDipoles W r ks with
        | error er => rw [hd, hs] at h; cases h
        | ok ds' =>
          rw [hd, hs] at h
          simp only [Except.bind, Except.map, Except.ok.injEq] at h
          subst h
          obtain ⟨hname, pid, pty, nid, hN, hR⟩ := dipole_read hd (r := r) (n := n) h1 h2
          have hlow : lower d.name = k := by rw [hname]; exact lower_cap k (hcs k (by simp))
          rw [List.foldl_cons, hlow]
          have hi := ih hps hnd ds' hs (OD.set d0 k (readDipole W n d))
          refine ⟨fun hc => ?_, fun hc hd0 => ?_⟩
          · rw [List.mem_cons, not_or] at hc
            rw [hi.1 hc.2, OD.get?_set_ne _ _ hc.1]
          · by_cases hck : c = k
            · subst hck
              refine ⟨fun h' => (by rw [hm] at h'; cases h'), fun e' he' => ?_⟩
              rw [hm] at he'; injection he' with he'; subst he'
              exact ⟨pid, pty, nid, hN, by rw [hi.1 hk, OD.get?_set_self, hR]⟩
            · refine hi.2 ?_ (by rw [OD.get?_set_ne _ _ hck]; exact hd0)
              rcases List.mem_cons.1 hc with h' | h'
              · exact absurd h' hck
              · exact h'

/-! ## A run that was converted -/

/-- The magnetic and electric names are apart. -/
theorem apart : (∀ c ∈ ["ex".toList, "ey".toList], c ∉ (["hx".toList, "hy".toList, "hz".toList] : List Str)) ∧
    (∀ c ∈ ["hx".toList, "hy".toList, "hz".toList], c ∉ (["ex".toList, "ey".toList] : List Str)) ∧
    ∀ c ∈ ["ex".toList, "ey".toList], c ∈ names5 := by decide +kernel

theorem before_mem {r : Run F T} {c : Str} (h : Before r c) : c ∈ (["hx".toList, "hy".toList, "hz".toList] : List Str) := by
  rcases h with rfl | ⟨rfl, _⟩ | ⟨rfl, _⟩
  · exact List.mem_cons_self
  · exact List.mem_cons_of_mem _ List.mem_cons_self
  · exact List.mem_cons_of_mem _ (List.mem_cons_of_mem _ List.mem_cons_self)

theorem mags_elec {r : Run F T} {n : Notes F T} (hn : n.mags = writeMags r ["hx".toList, "hy".toList, "hz".toList]) (c : Str)
    (hc : c ∉ (["hx".toList, "hy".toList, "hz".toList] : List Str)) : OD.get? (readMags W n) c = none := by
  by_cases h : ∃ c m, OneSensor r c m
  · obtain ⟨c', m, h⟩ := h
    rw [read_one (hn.trans (mags_one h)), if_neg hc]
  · exact (read_many hn (fun c m h' => h ⟨c, m, h'⟩) c).2 fun hb => hc (before_mem hb)

/-- A magnetic channel is read. -/
def HasMag (r : Run F T) (c : Str) : Prop := (∃ c' m, OneSensor r c' m) ∨ (Before r c ∧ (OD.get? r.mag c).isSome)

theorem mags_some {r : Run F T} {n : Notes F T} (hn : n.mags = writeMags r ["hx".toList, "hy".toList, "hz".toList]) (c : Str)
    (hc : c ∈ (["hx".toList, "hy".toList, "hz".toList] : List Str)) : (OD.get? (readMags W n) c).isSome ↔ HasMag r c := by
  by_cases h : ∃ c m, OneSensor r c m
  · obtain ⟨c', m, h'⟩ := h
    rw [read_one (hn.trans (mags_one h')), if_pos hc]
    exact ⟨fun _ => Or.inl ⟨c', m, h'⟩, fun _ => rfl⟩
  · obtain ⟨h1, h2⟩ := read_many (W := W) hn (fun c m h' => h ⟨c, m, h'⟩) c
    by_cases hb : Before r c
    · rw [h1 hb, Option.isSome_map]
      exact ⟨fun h => Or.inr ⟨hb, h⟩, fun h' => h'.elim (fun h' => absurd h' h) fun h' => h'.2⟩
    · rw [h2 hb]
      exact ⟨fun h => (by cases h), fun h' => h'.elim (fun h' => absurd h' h) fun h' => absurd h'.1 hb⟩

theorem dipoles_read {r : Run F T} {n : Notes F T} (h1 : n.start = r.start) (h2 : n.stop = r.stop)
    (hd : writeDipoles W r ["ex".toList, "ey".toList] = .ok n.dipoles) (c : Str) (hc : c ∈ (["ex".toList, "ey".toList] : List Str)) :
    (OD.get? r.elec c = none → OD.get? (readDipoles W n) c = none) ∧
    ∀ e, OD.get? r.elec c = some e → ∃ pid pty nid, Named e pid pty nid ∧ OD.get? (readDipoles W n) c = some (dipoleOf W r e pid pty nid) :=
  (dipoles_get r n h1 h2 _ apart.2.2 (by decide +kernel) n.dipoles hd [] c).2 hc rfl

theorem dipoles_some {r : Run F T} {n : Notes F T} (h1 : n.start = r.start) (h2 : n.stop = r.stop)
    (hd : writeDipoles W r ["ex".toList, "ey".toList] = .ok n.dipoles) (c : Str) :
    (OD.get? (readDipoles W n) c).isSome ↔ c ∈ (["ex".toList, "ey".toList] : List Str) ∧ (OD.get? r.elec c).isSome := by
  by_cases hc : c ∈ (["ex".toList, "ey".toList] : List Str)
  · obtain ⟨g1, g2⟩ := dipoles_read h1 h2 hd c hc
    cases he : OD.get? r.elec c with
    | none => rw [g1 he]; exact ⟨fun h => (by cases h), fun h => h.2⟩
    | some e =>
      obtain ⟨_, _, _, _, h⟩ := g2 e he
      rw [h]; exact ⟨fun _ => ⟨hc, rfl⟩, fun _ => rfl⟩
  · have := (dipoles_get r n h1 h2 _ apart.2.2 (by decide +kernel) n.dipoles hd [] c).1 hc
    unfold readDipoles
    rw [this]
    exact ⟨fun h => (by cases h), fun h => absurd h.1 hc⟩

/-! ## C226: runs -/

/-- Runs that are told apart by the conversion. -/
def header (r : Run F T) : Str × Option Str × Option Str × Option Str × F × T × T :=
  (r.id, r.logger.id, r.logger.type, r.logger.manufacturer, r.rate, r.start, r.stop)

end

/-- C226: the runs of a station survive the conversion to EMTF XML and back, with id, data logger, sampling rate and times. -/
def C226_claim : Prop := ∀ (W : World Int Nat) (station : Str) (start stop : Nat) (z t : Bool) (runs rs : List (Run Int Nat)), runs ≠ [] →
  (∀ r ∈ runs, r.comments = none) → convert W station start stop z t runs = .ok rs → rs.map header = runs.map header

/-- A world with plain comments. -/
def W0 : World Int Nat := ⟨0, id, id, 0, fun n _ _ => .ok n⟩

/-- A run without anything. -/
def run0 (id : Str) (rate : Int) : Run Int Nat := ⟨id, {}, rate, 1, 2, none, [], []⟩

/-- A run without sampling rate is lost. -/
theorem C226_refuted : ¬ C226_claim := by
  intro h
  have := h W0 "s".toList 0 0 false false [run0 "a".toList 0] [] (by simp) (by simp [run0]) (by rfl)
  simp at this

section
variable [DecidableEq F]

/-- C226, as far as it holds: the runs with a sampling rate survive in their order, with id, data logger, sampling rate and
times. (Missing: the other runs.) -/
theorem C226_partial {runs : List (Run F T)} (hq : ∀ r ∈ runs, Quiet r.comments) (hne : runs ≠ []) {st : Str} {s e : T} {z t : Bool}
    {rs : List (Run F T)} (h : convert W st s e z t runs = .ok rs) :
    rs.map header = (runs.filter fun r => r.rate ≠ W.zero).map header := by
  obtain ⟨h1, h2⟩ := convert_core hq hne h
  apply List.ext_getElem?
  intro i
  rw [List.getElem?_map, List.getElem?_map]
  cases hr : (kept W runs)[i]? with
  | none =>
    have : rs[i]? = none := by rw [List.getElem?_eq_none_iff] at hr ⊢; omega
    have hr' : (runs.filter fun r => r.rate ≠ W.zero)[i]? = none := hr
    rw [this, hr']
  | some r =>
    have hr' : (runs.filter fun r => r.rate ≠ W.zero)[i]? = some r := hr
    have hi : i < (kept W runs).length := (List.getElem?_eq_some_iff.1 hr).1
    have hi' : i < rs.length := by omega
    have hrs := List.getElem?_eq_getElem hi'
    obtain ⟨n, o, hw, hn, hqr, hrr⟩ := h2 i r _ hr hrs
    rw [hrs, hr']
    obtain ⟨a1, a2, a3, a4, a5, _⟩ := notes_ok hqr hn
    obtain ⟨b1, b2, b3, b4, b5, _⟩ := (readRun_spec hw z t n).2 _ hrr
    simp only [Option.map_some, Option.some.injEq, header]
    rw [b1, b2, b3, b4, b5]
    simp only [bareRun]
    rw [a1, a2, a3, a4, a5]
    rfl

/-- C226: a station without runs gets one, named after the station. -/
theorem C226_empty (st : Str) (s e : T) (z t : Bool) : ∃ r : Run F T, convert W st s e z t [] = .ok [r] ∧ r.id = st ++ "a".toList := by
  have hw : write W ([] : List (Run F T)) = .ok ⟨[], [], []⟩ := rfl
  obtain ⟨l1, l2, l3⟩ := layout_spec hw z t
  obtain ⟨r', h1, h2, _⟩ := fold_place s e ((refresh W z t ⟨[], [], []⟩).inputs ++ (refresh W z t ⟨[], [], []⟩).outputs) l1 (defaultRun W st t) (by
    intro c hc
    have hm := (l2 _).1 (List.mem_map.2 ⟨c, hc, rfl⟩)
    rw [OD.get?_isSome_iff, OD.get?_isSome_iff]
    have hk : OD.keys (defaultRun W st t).elec = ["ex".toList, "ey".toList] := rfl
    have hk2 : OD.keys (defaultRun W st t).mag = if t then ["hx".toList, "hy".toList, "hz".toList] else ["hx".toList, "hy".toList] := by
      cases t <;> rfl
    rw [hk, hk2]
    generalize lname c = k at hm
    cases z <;> cases t <;> simp [laidOut] at hm ⊢ <;> tauto)
  refine ⟨r', ?_, h2⟩
  unfold convert
  rw [hw]
  show (((refresh W z t ⟨[], [], []⟩).inputs ++ (refresh W z t ⟨[], [], []⟩).outputs).foldlM (placeChannel s e) (defaultRun W st t)).map _ = _
  rw [h1]
  rfl

/-- A run `r` of the station, and the run `r'` it becomes. -/
def Becomes (W : World F T) (st : Str) (s e : T) (z t : Bool) (runs : List (Run F T)) (r r' : Run F T) : Prop :=
  (∀ r ∈ runs, Quiet r.comments) ∧ ∃ rs, convert W st s e z t runs = .ok rs ∧
    ∃ i : Nat, (runs.filter fun r => r.rate ≠ W.zero)[i]? = some r ∧ rs[i]? = some r'

theorem Becomes.core {st : Str} {s e : T} {z t : Bool} {runs : List (Run F T)} {r r' : Run F T} (h : Becomes W st s e z t runs r r') :
    ∃ n o, write W runs = .ok o ∧ writeNotes W r = .ok n ∧ Quiet r.comments ∧ readRun W (refresh W z t o) n = .ok r' := by
  obtain ⟨hq, rs, hc, i, h1, h2⟩ := h
  have hne : runs ≠ [] := by rintro rfl; simp at h1
  exact (convert_core hq hne hc).2 i r r' h1 h2

end

/-! ## C227: sensors -/

/-- C227: the sensors of the magnetic channels survive the conversion to EMTF XML and back. -/
def C227_claim : Prop := ∀ (W : World Int Nat) (st : Str) (s e : Nat) (z t : Bool) (runs : List (Run Int Nat)) (r r' : Run Int Nat),
  Becomes W st s e z t runs r r' → ∀ c m m', OD.get? r.mag c = some m → OD.get? r'.mag c = some m' → m'.sensor = m.sensor

/-- A magnetic channel with a sensor. -/
def mag0 (i : Inst) (x : Int) : Mag Int Nat := ⟨i, x, 0, 0, 10, none, 3, 4⟩

/-- A run with two magnetic channels. -/
def run1 : Run Int Nat :=
  { run0 "a".toList 8 with mag := [("hx".toList, mag0 { id := some "11".toList, name := some "coil".toList } 1),
                                   ("hy".toList, mag0 { id := some "12".toList, name := some "coil".toList } 2)] }

theorem run1_becomes (mag : OD Str (Mag Int Nat)) (rs : List (Run Int Nat)) (r' : Run Int Nat)
    (h : convert W0 "s".toList 0 0 false false [{ run1 with mag := mag }] = .ok rs) (hr : rs[0]? = some r') :
    Becomes W0 "s".toList 0 0 false false [{ run1 with mag := mag }] { run1 with mag := mag } r' :=
  ⟨(by intro r hr t ht; rw [List.mem_singleton] at hr; subst hr; cases ht), rs, h, 0, rfl, hr⟩

/-- The name of the sensor is lost: the component takes its place. -/
theorem C227_refuted : ¬ C227_claim := by
  intro h
  have hb := run1_becomes run1.mag _ _ (by rfl) (by rfl)
  have := h W0 "s".toList 0 0 false false _ _ _ hb "hx".toList _ _ (by rfl) (by rfl)
  exact absurd (congrArg Inst.name this) (by decide +kernel)

section
variable [DecidableEq F]

/-- C227, as far as it holds: unless a run has one magnetometer only, a magnetic channel keeps id, manufacturer and type of
its sensor; channels behind one of a long period system are lost. (Missing: the name of the sensor.) -/
theorem C227_partial {st : Str} {s e : T} {z t : Bool} {runs : List (Run F T)} {r r' : Run F T} (h : Becomes W st s e z t runs r r')
    (hone : ∀ c m, ¬ OneSensor r c m) (c : Str) (hc : c ∈ (["hx".toList, "hy".toList, "hz".toList] : List Str)) :
    (Before r c → (OD.get? r'.mag c).map (·.sensor) = (OD.get? r.mag c).map fun m => sensorOf c m.sensor) ∧
    (¬ Before r c → OD.get? r'.mag c = none) := by
  obtain ⟨n, o, hw, hn, hq, hr⟩ := h.core
  obtain ⟨_, _, _, _, _, _, _, _, hm, _⟩ := notes_ok hq hn
  obtain ⟨_, _, _, _, _, _, hmag, _⟩ := (readRun_spec hw z t n).2 _ hr
  obtain ⟨h1, h2⟩ := read_many (W := W) hm hone c
  rw [hmag c]
  constructor
  · intro hb
    rw [h1 hb, Option.map_map, Option.map_map]
    congr 1
    funext m
    simp only [Function.comp, laidMag]
    split
    · unfold placeMag; split <;> rfl
    · rfl
  · intro hb
    rw [h2 hb]; rfl

/-- C227: with one magnetometer, the three magnetic channels get its sensor. -/
theorem C227_one {st : Str} {s e : T} {z t : Bool} {runs : List (Run F T)} {r r' : Run F T} (h : Becomes W st s e z t runs r r')
    {c : Str} {m : Mag F T} (hone : OneSensor r c m) (c' : Str) (hc : c' ∈ (["hx".toList, "hy".toList, "hz".toList] : List Str)) :
    (OD.get? r'.mag c').map (·.sensor) = some (sensorOf c m.sensor) := by
  obtain ⟨n, o, hw, hn, hq, hr⟩ := h.core
  obtain ⟨_, _, _, _, _, _, _, _, hm, _⟩ := notes_ok hq hn
  obtain ⟨_, _, _, _, _, _, hmag, _⟩ := (readRun_spec hw z t n).2 _ hr
  rw [hmag c', read_one (hm.trans (mags_one hone)), if_pos hc]
  simp only [Option.map_some, Option.some.injEq, laidMag]
  split
  · unfold placeMag; split <;> rfl
  · rfl

end

/-! ## C228: electrodes -/

/-- C228: the electrodes of the electric channels survive the conversion to EMTF XML and back. -/
def C228_claim : Prop := ∀ (W : World Int Nat) (st : Str) (s e : Nat) (z t : Bool) (runs : List (Run Int Nat)) (r r' : Run Int Nat),
  (∀ s, W.comment s = s) → Becomes W st s e z t runs r r' → ∀ c m m', OD.get? r.elec c = some m → OD.get? r'.elec c = some m' →
    m'.pos.inst = m.pos.inst ∧ m'.neg.inst = m.neg.inst

/-- An electrode. -/
def pole (id type : String) (x2 : Int) : Pole Int := ⟨⟨some id.toList, none, some [], some type.toList⟩, 0, 0, 0, x2, 0, 0⟩

/-- An electric channel. -/
def elec0 (length x2 : Int) : Elec Int Nat := ⟨pole "1" "silver" x2, pole "2" "lead" 0, length, 20, none, 3, 4⟩

/-- A run with an electric channel. -/
def run2 : Run Int Nat := { run0 "a".toList 8 with elec := [("ex".toList, elec0 100 0)] }

theorem run2_becomes (rs : List (Run Int Nat)) (r' : Run Int Nat)
    (h : convert W0 "s".toList 0 0 false false [run2] = .ok rs) (hr : rs[0]? = some r') :
    Becomes W0 "s".toList 0 0 false false [run2] run2 r' :=
  ⟨(by intro r hr t ht; rw [List.mem_singleton] at hr; subst hr; cases ht), rs, h, 0, rfl, hr⟩

/-- The negative electrode gets the type of the positive one. -/
theorem C228_refuted : ¬ C228_claim := by
  intro h
  have hb := run2_becomes _ _ (by rfl) (by rfl)
  have := (h W0 "s".toList 0 0 false false _ _ _ (fun _ => rfl) hb "ex".toList _ _ (by rfl) (by rfl)).2
  exact absurd (congrArg Inst.type this) (by decide +kernel)

section
variable [DecidableEq F]

theorem elec_of {st : Str} {s e : T} {z t : Bool} {runs : List (Run F T)} {r r' : Run F T} (h : Becomes W st s e z t runs r r')
    (c : Str) (hc : c ∈ (["ex".toList, "ey".toList] : List Str)) :
    (OD.get? r.elec c = none → OD.get? r'.elec c = none) ∧
    ∀ m, OD.get? r.elec c = some m → ∃ pid pty nid, Named m pid pty nid ∧
      OD.get? r'.elec c = some (laidElec W z t runs r.start r.stop c (dipoleOf W r m pid pty nid)) := by
  obtain ⟨n, o, hw, hn, hq, hr⟩ := h.core
  obtain ⟨_, _, _, g4, g5, _, _, _, hm, hd⟩ := notes_ok hq hn
  obtain ⟨_, _, _, _, _, _, _, hel⟩ := (readRun_spec hw z t n).2 _ hr
  obtain ⟨d1, d2⟩ := dipoles_read g4 g5 hd c hc
  rw [hel c (mags_elec hm c (apart.1 c hc)), g4, g5]
  constructor
  · intro h; rw [d1 h]; rfl
  · intro m h
    obtain ⟨pid, pty, nid, hN, hg⟩ := d2 m h
    exact ⟨pid, pty, nid, hN, by rw [hg]; rfl⟩

/-- C228, as far as it holds: electric channels keep the length of the dipole and the ids of the electrodes, and the positive
one its manufacturer and type, as far as a comment keeps it. (Missing: manufacturer and type of the negative electrode, which
become those of the positive one, and the names.) -/
theorem C228_partial {st : Str} {s e : T} {z t : Bool} {runs : List (Run F T)} {r r' : Run F T} (h : Becomes W st s e z t runs r r')
    (c : Str) (hc : c ∈ (["ex".toList, "ey".toList] : List Str)) :
    (OD.get? r.elec c = none → OD.get? r'.elec c = none) ∧
    ∀ m, OD.get? r.elec c = some m → ∃ m', OD.get? r'.elec c = some m' ∧ m'.length = m.length ∧
      m'.pos.inst = ⟨m.pos.inst.id, none, m.pos.inst.manufacturer, m.pos.inst.type.map W.comment⟩ ∧
      m'.neg.inst = ⟨m.neg.inst.id, none, m.pos.inst.manufacturer, m.pos.inst.type.map W.comment⟩ := by
  obtain ⟨h1, h2⟩ := elec_of h c hc
  refine ⟨h1, fun m hm => ?_⟩
  obtain ⟨pid, pty, nid, ⟨a1, a2, a3⟩, hg⟩ := h2 m hm
  refine ⟨_, hg, ?_⟩
  rw [a1, a2, a3]
  unfold laidElec
  split
  · unfold placeElec; split <;> exact ⟨rfl, rfl, rfl⟩
  · exact ⟨rfl, rfl, rfl⟩

end

/-! ## C229: places and orientations -/

/-- C229: places and orientations of the channels survive the conversion to EMTF XML and back. -/
def C229_claim : Prop := ∀ (W : World Int Nat) (st : Str) (s e : Nat) (z t : Bool) (runs : List (Run Int Nat)) (r r' : Run Int Nat),
  Becomes W st s e z t runs r r' → ∀ c m m', c ∈ laidOut z t → OD.get? r.mag c = some m → OD.get? r'.mag c = some m' →
    m'.x = m.x ∧ m'.y = m.y ∧ m'.z = m.z ∧ m'.azimuth = m.azimuth

/-- Two runs with the magnetic channels in other places. -/
def run3 (id : Str) (x : Int) : Run Int Nat :=
  { run0 id 8 with mag := [("hx".toList, mag0 {} x), ("hy".toList, mag0 {} x), ("hz".toList, mag0 {} x)] }

theorem run3_becomes (rs : List (Run Int Nat)) (r' : Run Int Nat)
    (h : convert W0 "s".toList 0 0 false true [run3 "a".toList 1, run3 "b".toList 2] = .ok rs) (hr : rs[0]? = some r') :
    Becomes W0 "s".toList 0 0 false true [run3 "a".toList 1, run3 "b".toList 2] (run3 "a".toList 1) r' :=
  ⟨(by intro r hr t ht; simp only [List.mem_cons, List.not_mem_nil, or_false] at hr; rcases hr with rfl | rfl <;> cases ht),
   rs, h, 0, rfl, hr⟩

/-- All runs get the places of the last one. -/
theorem C229_refuted : ¬ C229_claim := by
  intro h
  have hb := run3_becomes _ _ (by rfl) (by rfl)
  have := (h W0 "s".toList 0 0 false true _ _ _ hb "hx".toList _ _ (by decide +kernel) (by rfl) (by rfl)).1
  exact absurd this (by decide +kernel)

section
variable [DecidableEq F]

/-- C229, as far as it holds: a magnetic channel gets place and orientation of the last run of the station that has the
channel, the translated azimuth before the measured one, and the times of its run. (Missing: its own, if the runs differ, and
its measured azimuth.) -/
theorem C229_partial {st : Str} {s e : T} {z t : Bool} {runs : List (Run F T)} {r r' : Run F T} (h : Becomes W st s e z t runs r r')
    (c : Str) (hc : c ∈ (["hx".toList, "hy".toList, "hz".toList] : List Str)) (hl : c ∈ laidOut z t)
    {m m' : Mag F T} (hlast : (runs.filterMap fun r => OD.get? r.mag c).getLast? = some m) (hm' : OD.get? r'.mag c = some m') :
    m'.x = m.x ∧ m'.y = m.y ∧ m'.z = m.z ∧ m'.azimuth = m.translated.getD m.azimuth ∧
    m'.translated = some (m.translated.getD m.azimuth) ∧ m'.start = r.start ∧ m'.stop = r.stop := by
  obtain ⟨n, o, hw, hn, hq, hr⟩ := h.core
  obtain ⟨_, _, _, g4, g5, _, _, _, hm, hd⟩ := notes_ok hq hn
  obtain ⟨_, _, _, _, _, _, hmag, _⟩ := (readRun_spec hw z t n).2 _ hr
  rw [hmag c] at hm'
  obtain ⟨q, _, rfl⟩ := Option.map_eq_some_iff.1 hm'
  unfold laidMag placeMag placeOf
  rw [if_pos hl, if_pos hc, if_neg (apart.2.1 c hc), show lastMag runs c = some m from hlast, ← g4, ← g5]
  simp only [Option.map_some, Option.getD_some, magPlace, turned]
  cases m.translated <;> simp

/-- C229: an electric channel gets the place of the negative electrode and the second place of the positive one, of the last
run of the station that has the channel; with all of them at the origin, the length of the dipole is the second place. -/
theorem C229_electric {st : Str} {s e : T} {z t : Bool} {runs : List (Run F T)} {r r' : Run F T} (h : Becomes W st s e z t runs r r')
    (c : Str) (hc : c ∈ (["ex".toList, "ey".toList] : List Str)) (hl : c ∈ laidOut z t)
    {m m' : Elec F T} (hlast : (runs.filterMap fun r => OD.get? r.elec c).getLast? = some m) (hm' : OD.get? r'.elec c = some m') :
    (m'.neg.x, m'.neg.y, m'.neg.z) = (m.neg.x, m.neg.y, m.neg.z) ∧ m'.pos.z2 = m.pos.z2 ∧
    ((m.neg.x ≠ W.zero ∨ m.neg.y ≠ W.zero ∨ m.pos.x2 ≠ W.zero ∨ m.pos.y2 ≠ W.zero) → (m'.pos.x2, m'.pos.y2) = (m.pos.x2, m.pos.y2)) ∧
    (m.neg.x = W.zero ∧ m.neg.y = W.zero ∧ m.pos.x2 = W.zero ∧ m.pos.y2 = W.zero →
      (m'.pos.x2, m'.pos.y2) = if c = "ex".toList then (m.length, W.zero) else (W.zero, m.length)) ∧
    (m'.pos.x, m'.pos.y, m'.pos.z, m'.neg.x2, m'.neg.y2, m'.neg.z2) = (W.zero, W.zero, W.zero, W.zero, W.zero, W.zero) ∧
    m'.azimuth = m.translated.getD m.azimuth ∧ m'.translated = some (m.translated.getD m.azimuth) ∧
    m'.start = r.start ∧ m'.stop = r.stop := by
  obtain ⟨h1, h2⟩ := elec_of h c hc
  cases he : OD.get? r.elec c with
  | none => rw [h1 he] at hm'; cases hm'
  | some q =>
    obtain ⟨pid, pty, nid, _, hg⟩ := h2 q he
    rw [hm'] at hg
    injection hg with hg
    subst hg
    unfold laidElec placeElec placeOf
    rw [if_pos hl, if_pos hc, if_pos hc, show lastElec runs c = some m from hlast]
    simp only [Option.map_some, Option.getD_some, elecPlace, turned, dipoleOf, newPole]
    refine ⟨trivial, trivial, ?_, ?_, trivial, ?_, ?_, trivial, trivial⟩
    · intro hne
      have hf : ¬ (m.neg.x = W.zero ∧ m.neg.y = W.zero ∧ m.pos.x2 = W.zero ∧ m.pos.y2 = W.zero) := by
        rintro ⟨a, b, c, d⟩
        rcases hne with h | h | h | h
        · exact h a
        · exact h b
        · exact h c
        · exact h d
      rw [if_neg fun h => hf h.1, if_neg fun h => hf h.1]
    · intro hf
      have hne : ("ex".toList : Str) ≠ "ey".toList := by decide
      simp only [List.mem_cons, List.not_mem_nil, or_false] at hc
      by_cases hx : c = "ex".toList
      · have hy : c ≠ "ey".toList := hx ▸ hne
        rw [if_pos hx, if_pos ⟨hf, hx⟩, if_neg (fun h => hy h.2), hf.2.2.2]
      · have hy : c = "ey".toList := hc.resolve_left hx
        rw [if_neg hx, if_neg (fun h => hx h.2), if_pos ⟨hf, hy⟩, hf.2.2.1]
    · cases m.translated <;> rfl
    · cases m.translated <;> rfl

/-! ## C230: which stations can be converted -/

theorem laid_all (P : Str → Prop) (z t : Bool) : (∀ c ∈ laidOut z t, P c) ↔
    ((z = true ∨ t = true) → P "hx".toList ∧ P "hy".toList) ∧ (t = true → P "hz".toList) ∧ (z = true → P "ex".toList ∧ P "ey".toList) := by
  have h : (∀ c ∈ laidOut z t, P c) ↔ ((if z || t then P "hx".toList ∧ P "hy".toList else True) ∧
      (if z then P "ex".toList ∧ P "ey".toList else True)) ∧ (if t then P "hz".toList else True) := by
    unfold laidOut
    cases z <;> cases t <;> simp only [Bool.or_false, Bool.or_true, Bool.false_eq_true, if_true, if_false, List.nil_append,
      List.append_nil, List.cons_append, List.forall_mem_cons, List.not_mem_nil, false_implies, implies_true, and_true, true_and, and_assoc]
  rw [h]
  generalize P "hx".toList = a
  generalize P "hy".toList = b
  generalize P "hz".toList = c
  generalize P "ex".toList = d
  generalize P "ey".toList = e
  cases z <;> cases t <;> simp <;> tauto

/-- C230: runs can be converted exactly if the electrodes have ids and types and each run with a sampling rate has each channel
that belongs to the transfer function: `hx` and `hy`, `ex` and `ey` for an impedance, `hz` for a tipper, where one magnetometer
counts for the three magnetic channels. -/
theorem C230_iff {runs : List (Run F T)} (hq : ∀ r ∈ runs, Quiet r.comments) (hne : runs ≠ []) (st : Str) (s e : T) (z t : Bool) :
    (∃ rs, convert W st s e z t runs = .ok rs) ↔
    (∀ r ∈ runs, ∀ c ∈ ["ex".toList, "ey".toList], ∀ m, OD.get? r.elec c = some m → ∃ pid pty nid, Named m pid pty nid) ∧
    ∀ r ∈ runs, r.rate ≠ W.zero →
      ((z = true ∨ t = true) → HasMag r "hx".toList ∧ HasMag r "hy".toList) ∧ (t = true → HasMag r "hz".toList) ∧
      (z = true → (OD.get? r.elec "ex".toList).isSome ∧ (OD.get? r.elec "ey".toList).isSome) := by
  have key : ∀ r ∈ runs, ∀ n, writeNotes W r = .ok n →
      ((∀ c ∈ laidOut z t, (OD.get? (readMags W n) c).isSome ∨ (OD.get? (readDipoles W n) c).isSome) ↔
        ((z = true ∨ t = true) → HasMag r "hx".toList ∧ HasMag r "hy".toList) ∧ (t = true → HasMag r "hz".toList) ∧
        (z = true → (OD.get? r.elec "ex".toList).isSome ∧ (OD.get? r.elec "ey".toList).isSome)) := by
    intro r hr n hn
    obtain ⟨_, _, _, g4, g5, _, _, _, hm, hd⟩ := notes_ok (hq r hr) hn
    have hmag : ∀ c ∈ (["hx".toList, "hy".toList, "hz".toList] : List Str),
        ((OD.get? (readMags W n) c).isSome ∨ (OD.get? (readDipoles W n) c).isSome) ↔ HasMag r c := by
      intro c hc
      rw [mags_some hm c hc, dipoles_some g4 g5 hd c]
      exact ⟨fun h => h.elim id fun h => absurd h.1 (apart.2.1 c hc), Or.inl⟩
    have hel : ∀ c ∈ (["ex".toList, "ey".toList] : List Str),
        ((OD.get? (readMags W n) c).isSome ∨ (OD.get? (readDipoles W n) c).isSome) ↔ (OD.get? r.elec c).isSome := by
      intro c hc
      rw [mags_elec hm c (apart.1 c hc), dipoles_some g4 g5 hd c]
      exact ⟨fun h => h.elim (fun h => by cases h) fun h => h.2, fun h => Or.inr ⟨hc, h⟩⟩
    have m1 := hmag "hx".toList (by simp)
    have m2 := hmag "hy".toList (by simp)
    have m3 := hmag "hz".toList (by simp)
    have e1 := hel "ex".toList (by simp)
    have e2 := hel "ey".toList (by simp)
    rw [laid_all, m1, m2, m3, e1, e2]
  constructor
  · rintro ⟨rs, h⟩
    cases hw : write W runs with
    | error er => unfold convert at h; rw [hw] at h; cases h
    | ok o =>
      have hmm := write_ok hw
      refine ⟨?_, ?_⟩
      · intro r hr
        obtain ⟨n, _, hn⟩ := mapM_mem hmm r hr
        exact (dipoles_iff (W := W) r _).1 ((notes_iff (hq r hr)).1 ⟨n, hn⟩)
      · intro r hr hz
        rw [convert_eq runs hne hw] at h
        obtain ⟨n, hnm, hn⟩ := mapM_mem hmm r hr
        have hin : n ∈ o.notes.filter fun n => n.rate ≠ W.zero := by
          rw [List.mem_filter]
          refine ⟨hnm, ?_⟩
          rw [(notes_ok (hq r hr) hn).2.2.1]
          simpa using hz
        obtain ⟨r', _, hr'⟩ := mapM_mem h n hin
        exact (key r hr n hn).1 ((readRun_spec hw z t n).1.1 ⟨r', hr'⟩)
  · rintro ⟨h1, h2⟩
    obtain ⟨ns, hns⟩ := mapM_total (f := writeNotes W) (l := runs) fun r hr =>
      (notes_iff (hq r hr)).2 ((dipoles_iff (W := W) r _).2 (h1 r hr))
    have hw : ∃ o, write W runs = .ok o := ⟨_, by unfold write; rw [hns]; rfl⟩
    obtain ⟨o, hw⟩ := hw
    rw [convert_eq runs hne hw]
    have hmm := write_ok hw
    refine mapM_total fun n hn => ?_
    rw [List.mem_filter] at hn
    obtain ⟨i, hi, hin⟩ := List.getElem_of_mem hn.1
    obtain ⟨q1, q2⟩ := mapM_index hmm
    have hi' : i < runs.length := by omega
    have hni := q2 i _ n (List.getElem?_eq_getElem hi') (by rw [List.getElem?_eq_getElem hi, hin])
    have hr := List.getElem_mem hi'
    refine (readRun_spec hw z t n).1.2 ((key _ hr n hni).2 (h2 _ hr ?_))
    have := hn.2
    rw [(notes_ok (hq _ hr) hni).2.2.1] at this
    simpa using this

end

/-- A run without `hz`: it can be converted with an impedance, not with a tipper. -/
example : (∃ rs, convert W0 "s".toList 0 0 false false [run1] = .ok rs) ∧ convert W0 "s".toList 0 0 false true [run1] = .error .attributeError :=
  ⟨⟨_, rfl⟩, rfl⟩

/-! ## C231: comments of runs -/

/-- C231: the comments of a run survive the conversion to EMTF XML and back. -/
def C231_claim : Prop := ∀ (W : World Int Nat) (st : Str) (s e : Nat) (z t : Bool) (runs : List (Run Int Nat)) (r r' : Run Int Nat),
  (∀ s, W.value s = s) → Becomes W st s e z t runs r r' → r'.comments = r.comments

/-- A run with a comment. -/
def run4 : Run Int Nat := { run1 with comments := some "windy".toList }

theorem windy_quiet : Quiet run4.comments := by
  intro t ht p hp k v hs
  have ht' : "windy".toList = t := Option.some.inj ht
  subst ht'
  have : splitC ';' "windy".toList = ["windy".toList] := by decide +kernel
  rw [this, List.mem_singleton] at hp
  subst hp
  have e : split1 ':' "windy".toList = ("windy".toList, none) := by decide +kernel
  rw [e] at hs
  cases hs

theorem windy_becomes (rs : List (Run Int Nat)) (r' : Run Int Nat)
    (h : convert W0 "s".toList 0 0 false false [run4] = .ok rs) (hr : rs[0]? = some r') :
    Becomes W0 "s".toList 0 0 false false [run4] run4 r' :=
  ⟨fun r hr => by rw [List.mem_singleton] at hr; subst hr; exact windy_quiet, rs, h, 0, rfl, hr⟩

/-- Comments that are not a name with a text are lost. -/
theorem C231_refuted : ¬ C231_claim := by
  intro h
  have hb := windy_becomes _ _ (by rfl) (by rfl)
  have := h W0 "s".toList 0 0 false false _ _ _ (fun _ => rfl) hb
  exact absurd this (by decide +kernel)

section
variable [DecidableEq F]

/-- What is written for a comment under a name. -/
def told (key : String) (c : Option Str) : List Str :=
  match lastOf key.toList c with
  | none => []
  | some v => if v = [] then [] else [key.toList ++ ":".toList ++ v]

/-- C231, as far as it holds: what is left of the comments of a run are the last ones under the names `comments.author`,
`comments.value` and `errors`, in this order. (Missing: all others.) -/
theorem C231_partial {st : Str} {s e : T} {z t : Bool} {runs : List (Run F T)} {r r' : Run F T} (h : Becomes W st s e z t runs r r') :
    r'.comments = some (W.value (join "; ".toList
      (told "comments.author" r.comments ++ told "comments.value" r.comments ++ told "errors" r.comments))) := by
  obtain ⟨n, o, hw, hn, hq, hr⟩ := h.core
  obtain ⟨_, _, _, _, _, g1, g2, g3, _⟩ := notes_ok hq hn
  obtain ⟨_, _, _, _, _, hc, _⟩ := (readRun_spec hw z t n).2 _ hr
  rw [hc]
  unfold readComments told
  rw [g1, g2, g3]
  generalize lastOf "comments.author".toList r.comments = a
  generalize lastOf "comments.value".toList r.comments = b
  generalize lastOf "errors".toList r.comments = c
  have e1 : ("comments.author".toList ++ ":".toList : Str) = "comments.author:".toList := by decide +kernel
  have e2 : ("comments.value".toList ++ ":".toList : Str) = "comments.value:".toList := by decide +kernel
  have e3 : ("errors".toList ++ ":".toList : Str) = "errors:".toList := by decide +kernel
  rw [e1, e2, e3]
  rcases a with _ | (_ | _) <;> rcases b with _ | (_ | _) <;> rcases c with _ | (_ | _) <;> rfl

/-- C231: a comment under a dotted name whose first part is not known to the field notes makes the conversion fail. -/
theorem C231_dotted {runs : List (Run F T)} {r : Run F T} (hr : r ∈ runs) {text p k v : Str} (hc : r.comments = some text)
    (hp : p ∈ splitC ';' text) (hs : split1 ':' p = (k, some v)) (hd : '.' ∈ strip k)
    (hk : (splitC '.' (strip k)).headD [] ∉ ["errors".toList, "run".toList, "sampling_rate".toList, "start".toList, "end".toList,
      "comments".toList, "instrument".toList, "magnetometer".toList, "dipole".toList]) (st : Str) (s e : T) (z t : Bool) :
    ∀ rs, convert W st s e z t runs ≠ .ok rs := by
  intro rs h
  have hbad : ∀ n : Notes F T, writeComment W n p = .error .attributeError := by
    intro n
    unfold writeComment
    rw [hs]
    simp only
    have : setNote W n (strip k) (strip v) = .error .attributeError := by
      have n1 : strip k ≠ "comments.author".toList := by
        intro h'; rw [h'] at hk; exact hk (by decide +kernel)
      have n2 : strip k ≠ "comments.value".toList := by
        intro h'; rw [h'] at hk; exact hk (by decide +kernel)
      have n3 : strip k ≠ "errors".toList := by
        intro h'; rw [h'] at hd; exact absurd hd (by decide +kernel)
      unfold setNote
      rw [if_neg n1, if_neg n2, if_neg n3, if_pos hd, if_neg]
      exact hk
    rw [this]
  have hfold : ∀ (l : List Str) (n : Notes F T), p ∈ l → ∀ n', l.foldlM (writeComment W) n ≠ .ok n' := by
    intro l
    induction l with
    | nil => intro n hp; cases hp
    | cons q qs ih =>
      intro n hp n' h
      rw [List.foldlM_cons] at h
      rcases List.mem_cons.1 hp with rfl | hp
      · rw [hbad n] at h; cases h
      · cases hq : writeComment W n q with
        | error er => rw [hq] at h; cases h
        | ok n2 => rw [hq] at h; exact ih n2 hp n' h
  cases hw : write W runs with
  | error er => unfold convert at h; rw [hw] at h; cases h
  | ok o =>
    obtain ⟨n, _, hn⟩ := mapM_mem (write_ok hw) r hr
    unfold writeNotes at hn
    rw [hc] at hn
    unfold writeComments at hn
    simp only at hn
    generalize hN : ({ run := r.id, inst := { id := r.logger.id, name := r.logger.type, manufacturer := r.logger.manufacturer },
                       rate := r.rate, start := r.start, stop := r.stop } : Notes F T) = N at hn
    cases hq : (splitC ';' text).foldlM (writeComment W) N with
    | error er => rw [hq] at hn; cases hn
    | ok n2 => exact hfold _ _ hp _ hq

end

/-! ## Cases -/

/-- C226: the second of two runs has no sampling rate. -/
example : ∃ rs, convert W0 "s".toList 0 0 false false [run1, run0 "b".toList 0] = .ok rs ∧ rs.map header = [header run1] :=
  ⟨_, rfl, rfl⟩

theorem two_mags : (writeMags run1 ["hx".toList, "hy".toList, "hz".toList]).length ≠ 1 := by decide +kernel

/-- C227: two magnetometers. -/
example : (∃ r', Becomes W0 "s".toList 0 0 false false [run1] run1 r') ∧ (∀ c m, ¬ OneSensor run1 c m) ∧
    Before run1 "hx".toList ∧ Before run1 "hy".toList := by
  refine ⟨⟨_, run1_becomes run1.mag _ _ (by rfl) (by rfl)⟩, fun c m h => absurd (congrArg List.length (mags_one h)) two_mags,
    Or.inl rfl, Or.inr (Or.inl ⟨rfl, ?_⟩)⟩
  rintro ⟨m, hm, _, ht⟩
  injection hm with hm
  subst hm
  exact absurd ht (by decide +kernel)

/-- C227: a long period system. -/
def run5 : Run Int Nat := { run1 with mag := [("hx".toList, mag0 ⟨some "11".toList, some "NIMS".toList, some [], some "fluxgate".toList⟩ 1),
                                              ("hy".toList, mag0 {} 2)] }

example : OneSensor run5 "hx".toList (mag0 ⟨some "11".toList, some "NIMS".toList, some [], some "fluxgate".toList⟩ 1) ∧
    ∃ r', Becomes W0 "s".toList 0 0 false false [run5] run5 r' ∧ (OD.get? r'.mag "hz".toList).isSome :=
  ⟨⟨rfl, Or.inl ⟨rfl, Or.inl ⟨_, rfl, Or.inl rfl, rfl⟩⟩⟩, _, run1_becomes run5.mag _ _ (by rfl) (by rfl), rfl⟩

/-- C228, C229: an electric channel, which with an impedance is laid out. -/
def run6 : Run Int Nat := { run1 with elec := [("ex".toList, elec0 100 0), ("ey".toList, elec0 90 7)] }

theorem run6_becomes (rs : List (Run Int Nat)) (r' : Run Int Nat)
    (h : convert W0 "s".toList 0 0 true false [run6] = .ok rs) (hr : rs[0]? = some r') :
    Becomes W0 "s".toList 0 0 true false [run6] run6 r' :=
  ⟨(by intro r hr t ht; rw [List.mem_singleton] at hr; subst hr; cases ht), rs, h, 0, rfl, hr⟩

example : ∃ r', Becomes W0 "s".toList 0 0 true false [run6] run6 r' ∧ "ex".toList ∈ laidOut true false ∧
    (∃ m, ([run6].filterMap fun r => OD.get? r.elec "ex".toList).getLast? = some m) ∧
    (OD.get? r'.elec "ex".toList).map (fun m => (m.pos.x2, m.pos.y2)) = some (100, 0) ∧
    (OD.get? r'.elec "ey".toList).map (fun m => (m.pos.x2, m.pos.y2)) = some (7, 0) :=
  ⟨_, run6_becomes _ _ (by rfl) (by rfl), by decide +kernel, ⟨_, rfl⟩, by decide +kernel, by decide +kernel⟩

/-- C231: comments with names, and one that cannot be written. -/
example : lastOf "comments.author".toList (some "comments.author: me; windy; errors:none".toList) = some "me".toList ∧
    told "errors" (some "comments.author: me; windy; errors:none".toList) = ["errors:none".toList] := by decide +kernel

example : "a.b:c".toList ∈ splitC ';' "x;a.b:c".toList ∧ split1 ':' "a.b:c".toList = ("a.b".toList, some "c".toList) ∧
    '.' ∈ strip "a.b".toList ∧ (splitC '.' (strip "a.b".toList)).headD [] = "a".toList := by decide +kernel

end Verif.EmtfRuns
