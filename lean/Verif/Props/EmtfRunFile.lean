import Verif.Model.EmtfRunFile
import Verif.Props.EmtfFile
import Verif.Props.EmtfRuns

/-! # C244: runs of a station in EMTF XML files -/

namespace Verif.EmtfRunFile
open Verif.Text Verif.EmtfFile

variable {F T : Type}

/-! ## Specification -/

/-- The attributes of a run, but for its comments and channels. -/
structure Header (F T : Type) where
  id : Str
  loggerId : Option Str
  loggerType : Option Str
  loggerMaker : Option Str
  rate : F
  start : T
  stop : T
  deriving DecidableEq, Repr

/-- The attributes of a run. -/
def headerOf (r : EmtfRuns.Run F T) : Header F T :=
  ⟨r.id, r.logger.id, r.logger.type, r.logger.manufacturer, r.rate, r.start, r.stop⟩

/-- What remains of them in a file. -/
def seenHeader (q : Bool) (r : EmtfRuns.Run F T) : Header F T :=
  ⟨seenAttr r.id, some ((seenText q r.logger.id).getD []), seenText q r.logger.type, some ((seenText q r.logger.manufacturer).getD []),
    r.rate, r.start, r.stop⟩

/-- A run whose comments have a part `errors: …`. -/
def SaysErrors (r : EmtfRuns.Run F T) : Prop :=
  ∃ s, r.comments = some s ∧ ∃ p ∈ splitC ';' s, ∃ k v, split1 ':' p = (k, some v) ∧ strip k = "errors".toList

/-- C244: the runs of a station that have a sampling rate are in an EMTF XML file. -/
def C244_claim : Prop := ∀ (F T : Type) (_ : DecidableEq F) (_ : DecidableEq T) (W : EmtfRuns.World F T) (V : EmtfFile.World F T) (r3 : F → F),
  Good V r3 → ∀ (st : Str) (s e : T) (z t : Bool) (runs : List (EmtfRuns.Run F T)), (∀ r ∈ runs, EmtfRuns.Quiet r.comments) →
    (∀ r ∈ runs, r.rate ≠ W.zero) → runs ≠ [] → ∀ rs, viaFile W V st s e z t runs = .ok rs →
      rs.map headerOf = runs.map (seenHeader V.quotes)

/-! ## Proofs -/

theorem placed {s e : T} {L : List (EmtfRuns.LayChan F)} {r r' : EmtfRuns.Run F T} (h : L.foldlM (EmtfRuns.placeChannel s e) r = .ok r') :
    headerOf r' = headerOf r := by
  induction L generalizing r with
  | nil => cases h; rfl
  | cons c cs ih =>
    rw [List.foldlM_cons] at h
    cases hc : EmtfRuns.placeChannel s e r c with
    | error e => rw [hc] at h; cases h
    | ok r1 =>
      rw [hc] at h
      rw [ih h]
      unfold EmtfRuns.placeChannel at hc
      split at hc
      · cases hc; rfl
      · split at hc
        · cases hc; rfl
        · cases hc

theorem lastOf_some (r : EmtfRuns.Run F T) : (EmtfRuns.lastOf "errors".toList r.comments).isSome = true ↔ SaysErrors r := by
  unfold EmtfRuns.lastOf SaysErrors
  cases hc : r.comments with
  | none =>
    simp only [Option.map_none, Option.getD_none, List.filterMap_nil, List.getLast?_nil]
    exact ⟨fun h => (by cases h), fun ⟨_, h, _⟩ => (by cases h)⟩
  | some s =>
    simp only [Option.map_some, Option.getD_some]
    have hlast : ∀ l : List Str, l.getLast?.isSome = true ↔ l ≠ [] := by intro l; cases l <;> simp [List.getLast?_cons]
    rw [hlast]
    constructor
    · intro h
      obtain ⟨x, hx⟩ := List.exists_mem_of_ne_nil _ h
      obtain ⟨p, hp, hv⟩ := List.mem_filterMap.1 hx
      rcases hs : split1 ':' p with ⟨k, _ | v⟩
      · rw [hs] at hv; cases hv
      · rw [hs] at hv
        simp only at hv
        by_cases hk : strip k = "errors".toList
        · exact ⟨s, rfl, p, hp, k, v, hs, hk⟩
        · rw [if_neg hk] at hv; cases hv
    · rintro ⟨s', hs', p, hp, k, v, h1, h2⟩
      cases hs'
      apply List.ne_nil_of_mem (a := strip v)
      rw [List.mem_filterMap]
      refine ⟨p, hp, ?_⟩
      rw [h1]
      exact if_pos h2

theorem dipoles_two {W : EmtfRuns.World F T} {r : EmtfRuns.Run F T} {l : List Str} {ds : List (EmtfRuns.Dipole F)}
    (h : EmtfRuns.writeDipoles W r l = .ok ds) : ∀ d ∈ ds, d.pots.length = 2 ∧
      ∀ p ∈ d.pots, p.location ∈ ["N".toList, "S".toList, "E".toList, "W".toList, []] := by
  induction l generalizing ds with
  | nil => cases h; intro d hd; cases hd
  | cons c cs ih =>
    rw [EmtfRuns.writeDipoles] at h
    cases hg : OD.get? r.elec c with
    | none => rw [hg] at h; exact ih h
    | some ch =>
      rw [hg] at h
      simp only at h
      cases hd : EmtfRuns.writeDipole W c ch with
      | error e => rw [hd] at h; cases h
      | ok d =>
        rw [hd] at h
        cases hr : EmtfRuns.writeDipoles W r cs with
        | error e => rw [hr] at h; cases h
        | ok ds' =>
          rw [hr] at h
          cases h
          intro x hx
          rcases List.mem_cons.1 hx with rfl | hx
          · unfold EmtfRuns.writeDipole at hd
            cases h1 : EmtfRuns.need ch.pos.inst.id with
            | error e => rw [h1] at hd; cases hd
            | ok a =>
              cases h2 : EmtfRuns.need ch.pos.inst.type with
              | error e => rw [h1, h2] at hd; cases hd
              | ok b =>
                cases h3 : EmtfRuns.need ch.neg.inst.id with
                | error e => rw [h1, h2, h3] at hd; cases hd
                | ok c' =>
                  rw [h1, h2, h3] at hd
                  cases hd
                  refine ⟨rfl, ?_⟩
                  intro p hp
                  simp only [List.mem_cons, List.not_mem_nil, or_false] at hp
                  by_cases hc : c = "ex".toList
                  · rcases hp with rfl | rfl <;> simp only [if_pos hc] <;> decide
                  · rcases hp with rfl | rfl <;> simp only [if_neg hc] <;> decide
          · exact ih hr x hx

theorem takeWhile_forall {α β : Type} {R : α → β → Prop} {p : α → Bool} {q : β → Bool} (hpq : ∀ a b, R a b → p a = q b) {l : List α}
    {r : List β} (h : List.Forall₂ R l r) : List.Forall₂ R (l.takeWhile p) (r.takeWhile q) := by
  induction h with
  | nil => exact .nil
  | @cons a b l r hp _ ih =>
    rw [List.takeWhile_cons, List.takeWhile_cons, hpq a b hp]
    cases q b with
    | true => exact .cons hp ih
    | false => exact .nil

theorem read_none [DecidableEq F] {W : EmtfRuns.World F T} {st : Str} {s e : T} {t : Bool} {o : EmtfRuns.Obj F T}
    {rs : List (EmtfRuns.Run F T)} (h : EmtfRuns.read W st s e t o = .ok rs) (hn : o.notes = []) :
    ∃ r, rs = [r] ∧ r.id = st ++ "a".toList := by
  unfold EmtfRuns.read at h
  rw [hn] at h
  simp only at h
  cases hx : (o.inputs ++ o.outputs).foldlM (EmtfRuns.placeChannel s e) (EmtfRuns.defaultRun W st t) with
  | error e => rw [hx] at h; cases h
  | ok r =>
    rw [hx] at h
    cases h
    exact ⟨r, rfl, congrArg Header.id (placed hx)⟩

/-- Field notes that come from a run through a file. -/
def Fits (r : EmtfRuns.Run F T) (n : EmtfRuns.Notes F T) : Prop :=
  n.run = r.id ∧ n.inst = EmtfRuns.loggerNote r ∧ n.rate = r.rate ∧ n.start = r.start ∧ n.stop = r.stop

theorem read_some [DecidableEq F] {W : EmtfRuns.World F T} {V : EmtfFile.World F T} {r3 : F → F} {st : Str} {s e : T} {t : Bool}
    {o : EmtfRuns.Obj F T} {rs l : List (EmtfRuns.Run F T)} {ns : List (EmtfRuns.Notes F T)}
    (hf : List.Forall₂ Fits l ns) (hne : l ≠ [])
    (h : EmtfRuns.read W st s e t o = .ok rs) (hn : o.notes = ((ns.map toNotes).map (seenNotes V.quotes r3)).map (ofNotes W.zero)) :
    rs.map headerOf = (l.filter fun r => r.rate ≠ W.zero).map (seenHeader V.quotes) := by
  have hr : EmtfRuns.read W st s e t o = (o.notes.filter fun n => n.rate ≠ W.zero).mapM (EmtfRuns.readRun W o) := by
    unfold EmtfRuns.read
    cases hns : o.notes with
    | nil =>
      exfalso
      rw [hn] at hns
      cases hf with
      | nil => exact hne rfl
      | cons _ _ => cases hns
    | cons _ _ => rfl
  rw [hr, hn] at h
  clear hr hn hne
  have hrd : ∀ n r, EmtfRuns.readRun W o n = .ok r → headerOf r = headerOf (EmtfRuns.bareRun W n) := fun n r h => placed h
  generalize EmtfRuns.readRun W o = rd at h hrd
  induction hf generalizing rs with
  | nil => cases h; rfl
  | @cons r n l ns hp _ ih =>
    obtain ⟨h1, h2, h3, h4, h5⟩ := hp
    rw [List.map_cons, List.map_cons, List.map_cons] at h
    have e3 : (ofNotes W.zero (seenNotes V.quotes r3 (toNotes n))).rate = r.rate := by rw [← h3]; rfl
    by_cases hz : r.rate ≠ W.zero
    · rw [List.filter_cons_of_pos (by simpa [e3] using hz), List.mapM_cons] at h
      rw [List.filter_cons_of_pos (by simpa using hz), List.map_cons]
      cases ha : rd (ofNotes W.zero (seenNotes V.quotes r3 (toNotes n))) with
      | error e => rw [ha] at h; cases h
      | ok r' =>
        rw [ha] at h
        cases hb : (((ns.map toNotes).map (seenNotes V.quotes r3)).map (ofNotes W.zero)).filter (fun n => decide (n.rate ≠ W.zero)) |>.mapM rd with
        | error e => rw [hb] at h; cases h
        | ok rs' =>
          rw [hb] at h
          cases h
          rw [List.map_cons, ih hb, hrd _ _ ha]
          congr 1
          unfold headerOf EmtfRuns.bareRun seenHeader
          simp only [ofNotes, seenNotes, toNotes, ofTool, seenTool, toTool, h1, h2, h3, h4, h5, EmtfRuns.loggerNote, Option.getD_some]
    · rw [List.filter_cons_of_neg (by simpa [e3] using hz)] at h
      rw [List.filter_cons_of_neg (by simpa using hz)]
      exact ih h

/-- C244: the runs up to the first whose comments do not say `errors: …` are read, with what files keep of their ids and data
loggers; without any of them there is one run, whose id is that of the station and the letter a. -/
theorem C244_runs_partial [DecidableEq F] [DecidableEq T] {W : EmtfRuns.World F T} {V : EmtfFile.World F T} {r3 : F → F} (G : Good V r3)
    {st : Str} {s e : T} {z t : Bool} {runs : List (EmtfRuns.Run F T)} (hq : ∀ r ∈ runs, EmtfRuns.Quiet r.comments)
    {rs : List (EmtfRuns.Run F T)} (h : viaFile W V st s e z t runs = .ok rs) :
    ∃ l rest, runs = l ++ rest ∧ (∀ r ∈ l, SaysErrors r) ∧ (∀ r, rest.head? = some r → ¬ SaysErrors r) ∧
      (l = [] → ∃ r, rs = [r] ∧ r.id = st ++ "a".toList) ∧
      (l ≠ [] → rs.map headerOf = (l.filter fun r => r.rate ≠ W.zero).map (seenHeader V.quotes)) := by
  classical
  unfold viaFile at h
  cases hw : EmtfRuns.write W runs with
  | error e => rw [hw] at h; cases h
  | ok o =>
    rw [hw] at h
    simp only [Except.bind] at h
    have hnotes : (EmtfRuns.refresh W z t o).notes = o.notes := rfl
    rw [hnotes] at h
    cases he : EmtfFile.writeNotes V (o.notes.map toNotes) with
    | error e => rw [he] at h; cases h
    | ok es =>
      rw [he] at h
      simp only at h
      have hf := mapM_forall (EmtfRuns.write_ok hw)
      have hn : List.Forall₂ (fun r n => n.run = r.id ∧ n.inst = EmtfRuns.loggerNote r ∧ n.rate = r.rate ∧ n.start = r.start ∧ n.stop = r.stop ∧
          (n.errors.isSome = true ↔ SaysErrors r) ∧ ∀ d ∈ n.dipoles, d.pots.length = 2 ∧
            ∀ p ∈ d.pots, p.location ∈ ["N".toList, "S".toList, "E".toList, "W".toList, []]) runs o.notes := by
        clear h he hnotes hw
        generalize o.notes = ns at hf
        induction hf with
        | nil => exact .nil
        | @cons r n runs ns hp _ ih =>
          refine .cons ?_ (ih fun r hr => hq r (by simp [hr]))
          obtain ⟨a1, a2, a3, a4, a5, _, _, a6, _, a7⟩ := EmtfRuns.notes_ok (hq r (by simp)) hp
          exact ⟨a1, a2, a3, a4, a5, by rw [a6, lastOf_some], dipoles_two a7⟩
      have hok : ∀ n ∈ o.notes.map toNotes, n.Ok := by
        intro n hn'
        obtain ⟨m, hm, rfl⟩ := List.mem_map.1 hn'
        obtain ⟨r, hr⟩ := forall_right hn m hm
        intro d hd p hp
        obtain ⟨d', hd', rfl⟩ := List.mem_map.1 hd
        obtain ⟨p', hp', rfl⟩ := List.mem_map.1 hp
        exact (hr.2.2.2.2.2.2 d' hd').2 p' hp'
      have hread := C241_notes_partial G hok he
      rw [if_neg] at hread
      · rw [hread] at h
        simp only at h
        cases hl : EmtfFile.readLayout V W.zero (EmtfFile.writeLayout V ((EmtfRuns.refresh W z t o).inputs.map toChan, (EmtfRuns.refresh W z t o).outputs.map toChan)) with
        | error e => rw [hl] at h; cases h
        | ok lay =>
          rw [hl] at h
          simp only at h
          refine ⟨runs.takeWhile (fun r => decide (SaysErrors r)), runs.dropWhile (fun r => decide (SaysErrors r)),
            (List.takeWhile_append_dropWhile ..).symm, ?_, ?_, ?_⟩
          · intro r hr
            have := List.all_takeWhile (p := fun r => decide (SaysErrors r)) (l := runs)
            simpa using List.all_eq_true.1 this r hr
          · intro r hr
            have := List.head?_dropWhile_not (fun r => decide (SaysErrors r)) runs
            rw [hr] at this
            simpa using this
          have ht : (o.notes.map toNotes).takeWhile (fun n : EmtfFile.Notes F T => n.errors.isSome) =
              (o.notes.takeWhile fun n => n.errors.isSome).map toNotes := by
            rw [List.takeWhile_map]; rfl
          rw [ht] at h
          have hn2 := takeWhile_forall (p := fun r => decide (SaysErrors r)) (q := fun n : EmtfRuns.Notes F T => n.errors.isSome)
            (fun r n h => by rw [Bool.eq_iff_iff, decide_eq_true_iff]; exact h.2.2.2.2.2.1.symm) hn
          generalize runs.takeWhile (fun r => decide (SaysErrors r)) = l at hn2
          generalize o.notes.takeWhile (fun n => n.errors.isSome) = ns at hn2 h
          refine ⟨?_, ?_⟩
          · rintro rfl
            cases hn2
            exact read_none h rfl
          · intro hne
            exact read_some (hn2.imp fun r n h => ⟨h.1, h.2.1, h.2.2.1, h.2.2.2.1, h.2.2.2.2.1⟩) hne h rfl
      · rintro ⟨n, hn', d, hd, h1⟩
        have hmem := (List.takeWhile_sublist _).subset hn'
        obtain ⟨m, hm, rfl⟩ := List.mem_map.1 hmem
        obtain ⟨r, hr⟩ := forall_right hn m hm
        obtain ⟨d', hd', rfl⟩ := List.mem_map.1 hd
        have := (hr.2.2.2.2.2.2 d' hd').1
        simp only [toDipole, List.length_map] at h1
        omega

/-! ### A concrete case -/

/-- The plainest world. -/
def exR : EmtfRuns.World Nat Nat := ⟨0, id, id, 0, fun n _ _ => .ok n⟩

/-- A run without channels. -/
def exRun (id : Str) (comments : Option Str) : EmtfRuns.Run Nat Nat := ⟨id, { id := some "12".toList }, 8, 1, 2, comments, [], []⟩

/-- Two runs, the first of which says that there were no errors. -/
def exRuns : List (EmtfRuns.Run Nat Nat) := [exRun "a".toList (some "errors: none".toList), exRun "b".toList none]

/-- Only the first of them is in the file. -/
theorem exRuns_read : ((viaFile exR exW "MT1".toList 1 2 false false exRuns).map fun rs => rs.map fun r => r.id) = .ok ["a".toList] := by
  decide +kernel

/-- If the first run says nothing of errors, neither run is in the file and a run is made up. -/
theorem exNone_read : ((viaFile exR exW "MT1".toList 1 2 false false [exRun "x".toList none, exRun "y".toList none]).map
    fun rs => rs.map fun r => r.id) = .ok ["MT1a".toList] := by
  decide +kernel

/-- The comments of the two runs can be told apart by their names. -/
theorem exRuns_quiet : ∀ r ∈ exRuns, EmtfRuns.Quiet r.comments := by
  intro r hr
  unfold exRuns at hr
  rcases List.mem_cons.1 hr with rfl | hr
  · intro t ht p hp k v hs
    have ht' : "errors: none".toList = t := Option.some.inj ht
    subst ht'
    have : splitC ';' "errors: none".toList = ["errors: none".toList] := by decide +kernel
    rw [this, List.mem_singleton] at hp
    subst hp
    have e : split1 ':' "errors: none".toList = ("errors".toList, some " none".toList) := by decide +kernel
    rw [e] at hs
    cases hs
    unfold EmtfRuns.QuietName
    decide +kernel
  · rw [List.mem_singleton] at hr
    subst hr
    intro t ht
    cases ht

/-- C244 is false: runs after the first that says nothing of errors are not in the file. -/
theorem C244_refuted : ¬ C244_claim := by
  intro h
  have h1 := exRuns_read
  cases hv : viaFile exR exW "MT1".toList 1 2 false false exRuns with
  | error e => rw [hv] at h1; cases h1
  | ok rs =>
    rw [hv] at h1
    have h2 := h Nat Nat inferInstance inferInstance exR exW id exW_good "MT1".toList 1 2 false false exRuns exRuns_quiet
      (by decide) (by decide) rs hv
    have h3 : (rs.map fun r => r.id).length = 1 := by
      exact (congrArg List.length (Except.ok.inj h1)).trans rfl
    have h4 := congrArg List.length h2
    rw [List.length_map, List.length_map] at h4
    rw [List.length_map, h4] at h3
    exact absurd h3 (by decide)

end Verif.EmtfRunFile
