import Verif.Model.FieldCache
import Verif.Lemmas.Text

/-! # C374-C376: descriptions of attributes in memory and on disk -/

namespace Verif.FieldCache

/-! ### What a description says -/

/-- The summary below a path of names in a tree. -/
def Tree.at : Tree → List Str → Option Field
  | .leaf f, [] => some f
  | .leaf _, _ :: _ => none
  | .node _, [] => none
  | .node fs, n :: p =>
    match lookup fs n with
    | some t => t.at p
    | none => none

/-- The field below a path of names in the classes of a version of the package. -/
def Lib.at (lib : Lib) : Cls → List Str → Option Field
  | _, [] => none
  | c, n :: p =>
    match (lib.fields c).find? (fun f => f.part.deprecated.isNone && f.part.name == n) with
    | none => none
    | some f =>
      match f.part.ann with
      | .simple _ => if p = [] then some f else none
      | .model d => lib.at d p

/-- The tree says of every path what the classes say. -/
def Right (lib : Lib) (c : Cls) (t : Tree) : Prop := ∀ p, t.at p = lib.at c p

/-- The classes are not made of themselves, and the depth of calls is enough. -/
def Layered (n : Nat) (lib : Lib) : Prop :=
  ∃ rank : Cls → Nat, (∀ c, rank c < n) ∧ ∀ c f d, f ∈ lib.fields c → f.part.ann = .model d → rank d < rank c

/-- All versions of the package that are started are of `L`. -/
def Only (L : Lib → Prop) (l : List Step) : Prop := ∀ lib disk, Step.start lib disk ∈ l → L lib

/-! ### Invariants -/

/-- Two versions have the same fingerprint of a class. -/
def SamePrint (a b : Lib) (c : Cls) : Prop := a.pyd = b.pyd ∧ ((a.fields c).map Field.part).Perm ((b.fields c).map Field.part)

theorem sameKey_iff {a b : Lib} {c d : Cls} : sameKey (keyOf a c) (keyOf b d) = true ↔ c = d ∧ a.pyd = b.pyd ∧
    ((a.fields c).map Field.part).Perm ((b.fields d).map Field.part) := by
  unfold sameKey keyOf
  simp only [Bool.and_eq_true, beq_iff_eq, List.isPerm_iff, and_assoc]

/-- Whenever fingerprints are the same, what the classes say is the same. -/
def Agree (L : Lib → Prop) : Prop := ∀ a b c, L a → L b → SamePrint a b c → ∀ p, a.at c p = b.at c p

/-- The files have been written by versions of `L`, and are right for them. -/
def DiskOk (L : Lib → Prop) (s : State) : Prop := ∀ q ∈ s.disk, ∃ lib c, L lib ∧ q.1 = keyOf lib c ∧ Right lib c q.2

/-- What is in memory is right, but for classes that are being looked at. -/
def MemOk (lib : Lib) (B : List Cls) (s : State) : Prop := ∀ c t, lookup s.mem c = some t → c ∈ B ∨ Right lib c t

theorem memOk_nil {lib : Lib} {B : List Cls} {d : List (Key × Tree)} : MemOk lib B { mem := [], disk := d } := by
  intro c t h
  cases h

theorem diskOk_nil {L : Lib → Prop} {m : List (Cls × Tree)} : DiskOk L { mem := m, disk := [] } := by
  intro q h
  cases h

theorem lookup_cons {α : Type} (n m : Str) (x : α) (l : List (Str × α)) : lookup ((n, x) :: l) m = if n = m then some x else lookup l m := by
  unfold lookup
  by_cases h : n = m
  · rw [if_pos h, List.find?_cons_of_pos (by simpa using h)]; rfl
  · rw [if_neg h, List.find?_cons_of_neg (by simpa using h)]

theorem find_cons (n : Str) (f : Field) (fs : List Field) :
    (f :: fs).find? (fun f => f.part.deprecated.isNone && f.part.name == n) =
      if f.part.deprecated = none ∧ f.part.name = n then some f else fs.find? (fun f => f.part.deprecated.isNone && f.part.name == n) := by
  by_cases h : f.part.deprecated = none ∧ f.part.name = n
  · rw [if_pos h, List.find?_cons_of_pos (by simp [h.1, h.2])]
  · rw [if_neg h, List.find?_cons_of_neg (by simpa [Option.isNone_iff_eq_none] using h)]

/-- What the fields of a list say. -/
def fieldsAt (lib : Lib) (fs : List Field) (n : Str) (p : List Str) : Option Field :=
  match fs.find? (fun f => f.part.deprecated.isNone && f.part.name == n) with
  | none => none
  | some f =>
    match f.part.ann with
    | .simple _ => if p = [] then some f else none
    | .model d => lib.at d p

theorem entries_ok (L : Lib → Prop) (lib : Lib) (disk : Bool) (g : State → Cls → State × Tree) (B : List Cls) (fs : List Field)
    (hg : ∀ f ∈ fs, ∀ d, f.part.ann = .model d → ∀ s, MemOk lib B s → (disk = true → DiskOk L s) →
      Right lib d (g s d).2 ∧ MemOk lib B (g s d).1 ∧ (DiskOk L s → DiskOk L (g s d).1))
    (s : State) (hm : MemOk lib B s) (hd : disk = true → DiskOk L s) :
    MemOk lib B (entries g s fs).1 ∧ (DiskOk L s → DiskOk L (entries g s fs).1) ∧
      ∀ n p, (match lookup (entries g s fs).2 n with
        | some t => t.at p
        | none => none) = fieldsAt lib fs n p := by
  induction fs generalizing s with
  | nil => exact ⟨hm, id, fun n p => rfl⟩
  | cons f fs ih =>
    have hg' := fun f' (h : f' ∈ fs) => hg f' (List.mem_cons_of_mem _ h)
    unfold entries
    by_cases hdep : f.part.deprecated.isSome = true
    · rw [if_pos hdep]
      obtain ⟨a, b, c⟩ := ih hg' s hm hd
      refine ⟨a, b, fun n p => (c n p).trans ?_⟩
      unfold fieldsAt
      rw [find_cons, if_neg (fun x => by rw [x.1] at hdep; exact absurd hdep (by decide))]
    · rw [if_neg hdep]
      have hnone : f.part.deprecated = none := by simpa using hdep
      cases ha : f.part.ann with
      | simple r =>
        obtain ⟨a, b, c⟩ := ih hg' s hm hd
        refine ⟨a, b, fun n p => ?_⟩
        simp only
        rw [lookup_cons]
        unfold fieldsAt
        rw [find_cons]
        by_cases hn : f.part.name = n
        · rw [if_pos hn, if_pos ⟨hnone, hn⟩]
          simp only [ha]
          cases p <;> simp [Tree.at]
        · rw [if_neg hn, if_neg (fun x => hn x.2)]
          exact c n p
      | model d =>
        obtain ⟨r1, r2, r3⟩ := hg f (by simp) d ha s hm hd
        obtain ⟨a, b, c⟩ := ih hg' (g s d).1 r2 (fun x => r3 (hd x))
        refine ⟨a, fun x => b (r3 x), fun n p => ?_⟩
        simp only
        rw [lookup_cons]
        unfold fieldsAt
        rw [find_cons]
        by_cases hn : f.part.name = n
        · rw [if_pos hn, if_pos ⟨hnone, hn⟩]
          simp only [ha]
          exact r1 p
        · rw [if_neg hn, if_neg (fun x => hn x.2)]
          exact c n p

theorem get_ok (L : Lib → Prop) (lib : Lib) (disk : Bool) (rank : Cls → Nat)
    (hr : ∀ c f d, f ∈ lib.fields c → f.part.ann = .model d → rank d < rank c) (hL : disk = true → L lib ∧ Agree L)
    (n : Nat) (c : Cls) (B : List Cls) (hn : rank c < n) (hB : ∀ b ∈ B, rank c < rank b) (s : State) (hm : MemOk lib B s)
    (hd : disk = true → DiskOk L s) :
    Right lib c (get disk lib n s c).2 ∧ MemOk lib B (get disk lib n s c).1 ∧ (DiskOk L s → DiskOk L (get disk lib n s c).1) := by
  induction n generalizing c B s with
  | zero => omega
  | succ n ih =>
    unfold get
    cases hl : lookup s.mem c with
    | some t =>
      refine ⟨?_, hm, id⟩
      rcases hm c t hl with h | h
      · exact absurd (hB c h) (by omega)
      · exact h
    | none =>
      simp only
      cases hk : (if disk = true then load s.disk (keyOf lib c) else none) with
      | some t =>
        simp only
        have hdisk : disk = true := by
          cases hdv : disk with
          | true => rfl
          | false =>
            rw [hdv, if_neg (by decide)] at hk
            cases hk
        rw [if_pos hdisk] at hk
        have hright : Right lib c t := by
          unfold load at hk
          obtain ⟨q, hq, rfl⟩ := Option.map_eq_some_iff.1 hk
          obtain ⟨lib', c', hl', hkey, hr'⟩ := hd hdisk q (List.mem_of_find?_eq_some hq)
          have hs := List.find?_some hq
          rw [hkey] at hs
          obtain ⟨rfl, h1, h2⟩ := sameKey_iff.1 hs
          intro p
          rw [hr' p]
          exact (hL hdisk).2 lib' lib c' hl' (hL hdisk).1 ⟨h1, h2⟩ p
        refine ⟨hright, ?_, id⟩
        intro e t' he
        rw [lookup_cons] at he
        split at he
        · next heq => subst heq; cases he; exact Or.inr hright
        · exact hm e t' he
      | none =>
        simp only
        have hm1 : MemOk lib (c :: B) { s with mem := (c, .node []) :: s.mem } := by
          intro e t he
          rw [lookup_cons] at he
          split at he
          · next heq => exact Or.inl (by simp [heq])
          · exact (hm e t he).imp (List.mem_cons_of_mem _) id
        obtain ⟨a, b, hf⟩ := entries_ok L lib disk (get disk lib n) (c :: B) (lib.fields c) (by
          intro f hfm d ha s' hm' hd'
          have hlt := hr c f d hfm ha
          refine ih d (c :: B) (by omega) ?_ s' hm' hd'
          intro x hx
          rcases List.mem_cons.1 hx with rfl | hx
          · exact hlt
          · exact Nat.lt_trans hlt (hB x hx)) { s with mem := (c, .node []) :: s.mem } hm1 hd
        have hright : Right lib c (.node (entries (get disk lib n) { s with mem := (c, .node []) :: s.mem } (lib.fields c)).2) := by
          intro p
          cases p with
          | nil => rfl
          | cons m p =>
            have : lib.at c (m :: p) = fieldsAt lib (lib.fields c) m p := rfl
            rw [this, ← hf m p]
            rfl
        refine ⟨hright, ?_, ?_⟩
        · intro e t he
          rw [lookup_cons] at he
          split at he
          · next heq => subst heq; cases he; exact Or.inr hright
          · next hne =>
            rcases a e t he with h | h
            · exact Or.inl ((List.mem_cons.1 h).resolve_left (fun x => hne x.symm))
            · exact Or.inr h
        · intro hds
          have hb := b hds
          by_cases hdk : disk = true
          · intro q hq
            simp only [if_pos hdk] at hq
            rcases List.mem_cons.1 hq with rfl | hq
            · exact ⟨lib, c, (hL hdk).1, rfl, hright⟩
            · exact hb q hq
          · intro q hq
            simp only [if_neg hdk] at hq
            exact hb q hq

/-- The invariant of a computer. -/
def Ok (L : Lib → Prop) (w : World) : Prop := L w.lib ∧ MemOk w.lib [] w.state ∧ DiskOk L w.state

theorem step_ok {L : Lib → Prop} {n : Nat} (hL : ∀ lib, L lib → Layered n lib) (ha : Agree L) (w : World) (x : Step)
    (hx : ∀ lib disk, x = .start lib disk → L lib) (h : Ok L w) : Ok L (step n w x) := by
  obtain ⟨h1, h2, h3⟩ := h
  cases x with
  | ask c =>
    obtain ⟨rank, hb, hr⟩ := hL _ h1
    obtain ⟨_, b, d⟩ := get_ok L w.lib w.disk rank hr (fun _ => ⟨h1, ha⟩) n c [] (hb c) (fun _ h => nomatch h) w.state h2 (fun _ => h3)
    exact ⟨h1, b, d h3⟩
  | clear => exact ⟨h1, memOk_nil, h3⟩
  | start lib disk => exact ⟨hx lib disk rfl, memOk_nil, h3⟩
  | lose i => exact ⟨h1, h2, fun q hq => h3 q (List.mem_of_mem_eraseIdx hq)⟩

theorem run_ok {L : Lib → Prop} {n : Nat} (hL : ∀ lib, L lib → Layered n lib) (ha : Agree L) (w : World) (l : List Step)
    (hl : Only L l) (h : Ok L w) : Ok L (run n w l) := by
  induction l generalizing w with
  | nil => exact h
  | cons x l ih =>
    exact ih (step n w x) (fun lib disk m => hl lib disk (List.mem_cons_of_mem _ m))
      (step_ok hL ha w x (fun lib disk e => hl lib disk (by simp [e])) h)

theorem answer_ok {L : Lib → Prop} {n : Nat} (hL : ∀ lib, L lib → Layered n lib) (ha : Agree L) {w : World} (h : Ok L w) (c : Cls) :
    Right w.lib c (answer n w c) := by
  obtain ⟨h1, h2, h3⟩ := h
  obtain ⟨rank, hb, hr⟩ := hL _ h1
  exact (get_ok L w.lib w.disk rank hr (fun _ => ⟨h1, ha⟩) n c [] (hb c) (fun _ h => nomatch h) w.state h2 (fun _ => h3)).1

/-! ### C374: descriptions are those of the package that runs -/

/-- C374: whatever has happened on a computer before, the description of a class is that of the package that runs. -/
def C374_claim : Prop := ∀ (n : Nat) (lib : Lib) (disk : Bool) (l : List Step) (c : Cls), Layered n lib → Only (Layered n) l →
  Right (run n ⟨lib, disk, {}⟩ l).lib c (answer n (run n ⟨lib, disk, {}⟩ l) c)

/-- C374 (part): for a set of versions of the package this is so if and only if any two with the same fingerprint of a class say the
same of it and of all classes below it. -/
theorem C374_iff_partial (n : Nat) (L : Lib → Prop) (hL : ∀ lib, L lib → Layered n lib) :
    (∀ (lib : Lib) (disk : Bool) (l : List Step) (c : Cls), L lib → Only L l →
      Right (run n ⟨lib, disk, {}⟩ l).lib c (answer n (run n ⟨lib, disk, {}⟩ l) c)) ↔
    ∀ (a b : Lib) (c : Cls), L a → L b → a.pyd = b.pyd → ((a.fields c).map Field.part).Perm ((b.fields c).map Field.part) →
      ∀ p, a.at c p = b.at c p := by
  constructor
  · intro h a b c ha hb h1 h2 p
    obtain ⟨rank, hr, _⟩ := hL a ha
    obtain ⟨m, rfl⟩ : ∃ m, n = m + 1 := ⟨n - 1, by have := hr c; omega⟩
    have ra := h a true [] c ha (fun _ _ h => nomatch h) p
    have rb := h b true [] c hb (fun _ _ h => nomatch h) p
    have rab := h a true [.ask c, .start b true] c ha (by
      intro lib disk hm
      rcases List.mem_cons.1 hm with hm | hm
      · cases hm
      · rcases List.mem_cons.1 hm with hm | hm
        · cases hm; exact hb
        · cases hm) p
    have hk : sameKey (keyOf a c) (keyOf b c) = true := sameKey_iff.2 ⟨rfl, h1, h2⟩
    have e : answer (m + 1) (run (m + 1) ⟨a, true, {}⟩ [.ask c, .start b true]) c = answer (m + 1) ⟨a, true, {}⟩ c := by
      have hget : ∃ (t : Tree) (d : State), get true a (m + 1) {} c = ({ mem := (c, t) :: d.mem, disk := (keyOf a c, t) :: d.disk }, t) := by
        unfold get
        exact ⟨_, _, rfl⟩
      obtain ⟨t, d, hget⟩ := hget
      have e1 : answer (m + 1) ⟨a, true, {}⟩ c = t := by
        unfold answer
        simp only [hget]
      have e2 : run (m + 1) ⟨a, true, {}⟩ [.ask c, .start b true] = ⟨b, true, { mem := [], disk := (keyOf a c, t) :: d.disk }⟩ := by
        simp only [run, List.foldl, step, hget]
      rw [e1, e2]
      unfold answer get
      have hmem : lookup ([] : List (Cls × Tree)) c = none := rfl
      have hload : load ((keyOf a c, t) :: d.disk) (keyOf b c) = some t := by
        unfold load
        rw [List.find?_cons_of_pos (by simpa using hk)]
        rfl
      simp only [hmem, if_true, hload]
    rw [e] at rab
    exact ra.symm.trans rab
  · intro ha lib disk l c h1 hl
    exact answer_ok hL (fun a b c x y z => ha a b c x y z.1 z.2)
      (run_ok hL (fun a b c x y z => ha a b c x y z.1 z.2) _ l hl ⟨h1, memOk_nil, diskOk_nil⟩) c

/-- C374 (part): with one version of the package the descriptions are always right. -/
theorem C374_same_partial (n : Nat) (lib : Lib) (hl : Layered n lib) (disk : Bool) (l : List Step) (h : ∀ lib' disk', Step.start lib' disk' ∈ l → lib' = lib)
    (c : Cls) : Right lib c (answer n (run n ⟨lib, disk, {}⟩ l) c) := by
  have hw : Ok (· = lib) (run n ⟨lib, disk, {}⟩ l) :=
    run_ok (L := (· = lib)) (fun x hx => by rw [hx]; exact hl) (fun a b c ha hb _ p => by rw [ha, hb]) _ l h
      ⟨rfl, memOk_nil, diskOk_nil⟩
  have := answer_ok (fun x hx => by rw [hx]; exact hl) (fun a b c ha hb _ p => by rw [ha, hb]) hw c
  rw [hw.1] at this
  exact this

/-- C374 (part): a process that does not use the files gives right descriptions, whatever the files are. -/
theorem C374_off_partial (n : Nat) (lib : Lib) (hl : Layered n lib) (files : List (Key × Tree)) (l : List Step)
    (h : ∀ lib' disk', Step.start lib' disk' ∉ l) (c : Cls) : Right lib c (answer n (run n ⟨lib, false, { disk := files }⟩ l) c) := by
  obtain ⟨rank, hb, hr⟩ := hl
  have key : ∀ (l : List Step) (w : World), (∀ lib' disk', Step.start lib' disk' ∉ l) → w.lib = lib ∧ w.disk = false ∧ MemOk lib [] w.state →
      (run n w l).lib = lib ∧ (run n w l).disk = false ∧ MemOk lib [] (run n w l).state := by
    intro l
    induction l with
    | nil => intro w _ h; exact h
    | cons x l ih =>
      intro w hno ⟨h1, h2, h3⟩
      refine ih (step n w x) (fun lib' disk' hm => hno lib' disk' (List.mem_cons_of_mem _ hm)) ?_
      cases x with
      | ask e =>
        refine ⟨h1, h2, ?_⟩
        have := get_ok (fun _ => True) w.lib w.disk rank (by rw [h1]; exact hr) (fun x => by rw [h2] at x; cases x) n e [] (hb e)
          (fun _ h => nomatch h) w.state (by rw [h1]; exact h3) (fun x => by rw [h2] at x; cases x)
        rw [h1] at this
        show MemOk lib [] (get w.disk w.lib n w.state e).1
        rw [h1]
        exact this.2.1
      | clear => exact ⟨h1, h2, memOk_nil⟩
      | start lib' disk' => exact absurd (List.mem_cons_self) (hno lib' disk')
      | lose i => exact ⟨h1, h2, h3⟩
  obtain ⟨h1, h2, h3⟩ := key l ⟨lib, false, { disk := files }⟩ h ⟨rfl, rfl, memOk_nil⟩
  unfold answer
  rw [h1, h2]
  exact (get_ok (fun _ => True) lib false rank hr (fun x => by cases x) n c [] (hb c) (fun _ h => nomatch h) _ h3 (fun x => by cases x)).1

/-- A field of text. -/
def exText (n : String) (descr : String) : Field := ⟨⟨n.toList, none, .simple "str".toList, "None".toList, [], ⟩, descr.toList⟩
/-- A field of a class. -/
def exSub (n : String) (c : String) : Field := ⟨⟨n.toList, none, .model c.toList, "None".toList, []⟩, []⟩
/-- A station with a place that has a latitude. -/
def exOld : Lib := ⟨"2".toList, fun c => if c = "Station".toList then [exText "id" "name", exSub "location" "Location"]
  else if c = "Location".toList then [exText "latitude" "degrees"] else []⟩
/-- Later the place has a datum too. -/
def exNew : Lib := ⟨"2".toList, fun c => if c = "Station".toList then [exText "id" "name", exSub "location" "Location"]
  else if c = "Location".toList then [exText "latitude" "degrees", exText "datum" "name"] else []⟩

/-- Stations are above places. -/
def exRank (c : Cls) : Nat := if c = "Station".toList then 1 else 0

theorem exRank_lt (c : Cls) : exRank c < 2 := by
  unfold exRank
  split <;> omega

theorem ex_layered (x : List Field) (hx : ∀ f ∈ x, ∀ d, f.part.ann ≠ .model d) : Layered 2 ⟨"2".toList, fun c =>
    if c = "Station".toList then [exText "id" "name", exSub "location" "Location"] else if c = "Location".toList then x else []⟩ := by
  refine ⟨exRank, exRank_lt, ?_⟩
  intro c f d hf ha
  simp only at hf
  split at hf
  · next hc =>
    have h1 : exRank c = 1 := if_pos hc
    rcases List.mem_cons.1 hf with rfl | hf
    · cases ha
    · rcases List.mem_cons.1 hf with rfl | hf
      · cases ha
        rw [h1]
        decide +kernel
      · cases hf
  · split at hf
    · exact absurd ha (hx f hf d)
    · cases hf

/-- C374 is false: after another version was installed, the station has no datum. -/
theorem C374_refuted : ¬ C374_claim := by
  intro h
  have := h 2 exOld true [.ask "Station".toList, .start exNew true] "Station".toList
    (ex_layered [exText "latitude" "degrees"] (by
      intro f hf d
      rcases List.mem_cons.1 hf with rfl | hf
      · exact fun x => nomatch x
      · cases hf))
    (by
      intro lib disk hm
      rcases List.mem_cons.1 hm with hm | hm
      · cases hm
      · rcases List.mem_cons.1 hm with hm | hm
        · cases hm
          exact ex_layered [exText "latitude" "degrees", exText "datum" "name"] (by
            intro f hf d
            rcases List.mem_cons.1 hf with rfl | hf
            · exact fun x => nomatch x
            · rcases List.mem_cons.1 hf with rfl | hf
              · exact fun x => nomatch x
              · cases hf)
        · cases hm) ["location".toList, "datum".toList]
  revert this
  decide +kernel

/-! ### C375: descriptions do not depend on what was asked before -/

/-- C375: the description of a class does not depend on which were asked for before. -/
def C375_claim : Prop := ∀ (n : Nat) (lib : Lib) (disk : Bool) (classes l : List Cls) (c : Cls),
  (∀ c f d, f ∈ lib.fields c → f.part.ann = .model d → d ∈ classes) → classes.length < n → c ∈ classes →
  ∀ p, (answer n (run n ⟨lib, disk, {}⟩ (l.map .ask)) c).at p = (answer n ⟨lib, disk, {}⟩ c).at p

/-- C375 (part): so it is if no class is made of itself, also after other processes have been there. -/
theorem C375_order_partial (n : Nat) (lib : Lib) (hl : Layered n lib) (disk : Bool) (l : List Step)
    (h : ∀ lib' disk', Step.start lib' disk' ∈ l → lib' = lib) (c : Cls) (p : List Str) :
    (answer n (run n ⟨lib, disk, {}⟩ l) c).at p = (answer n ⟨lib, disk, {}⟩ c).at p := by
  rw [C374_same_partial n lib hl disk l h c p]
  exact (C374_same_partial n lib hl disk [] (fun _ _ h => nomatch h) c p).symm

/-- Two classes that have each other. -/
def exLoop : Lib := ⟨"2".toList, fun c => if c = "A".toList then [exText "x" "", exSub "b" "B"]
  else if c = "B".toList then [exText "y" "", exSub "a" "A"] else []⟩

/-- C375 is false for classes that have each other: asked for after the other, the second has nothing of the first. -/
theorem C375_refuted : ¬ C375_claim := by
  intro h
  have := h 3 exLoop false ["A".toList, "B".toList] ["A".toList] "B".toList (by
    intro c f d hf ha
    simp only [exLoop] at hf
    split at hf
    · rcases List.mem_cons.1 hf with rfl | hf
      · cases ha
      · rcases List.mem_cons.1 hf with rfl | hf
        · cases ha; simp
        · cases hf
    · split at hf
      · rcases List.mem_cons.1 hf with rfl | hf
        · cases ha
        · rcases List.mem_cons.1 hf with rfl | hf
          · cases ha; simp
          · cases hf
      · cases hf) (by decide) (by simp) ["a".toList, "x".toList]
  revert this
  decide +kernel

/-! ### C376: dotted names -/

/-- Names of a dictionary are distinct; names of attributes are not empty and have no dot. -/
inductive Good : Tree → Prop
  | leaf (f : Field) : Good (.leaf f)
  | node (fs : List (Str × Tree)) : (fs.map Prod.fst).Nodup → (∀ e ∈ fs, e.1 ≠ [] ∧ '.' ∉ e.1) → (∀ e ∈ fs, Good e.2) → Good (.node fs)

/-- A path of names of attributes. -/
def Names (p : List Str) : Prop := ∀ n ∈ p, n ≠ [] ∧ '.' ∉ n

theorem foldl_path (pre : Str) (h : pre ≠ []) (p : List Str) : p.foldl path pre = Text.join ['.'] (pre :: p) := by
  induction p generalizing pre with
  | nil => rfl
  | cons n p ih =>
    have e : path pre n = pre ++ '.' :: n := if_neg h
    rw [List.foldl_cons, e, ih _ (by simp)]
    cases p with
    | nil => simp [Text.join]
    | cons m p => simp [Text.join]

theorem foldl_path_nil {p : List Str} (h : Names p) : p.foldl path [] = Text.join ['.'] p := by
  cases p with
  | nil => rfl
  | cons n p =>
    rw [List.foldl_cons, show path [] n = n from if_pos rfl, foldl_path n (h n (by simp)).1]

theorem join_inj {p q : List Str} (hp : Names p) (hq : Names q) (h : Text.join ['.'] p = Text.join ['.'] q) : p = q := by
  have hne : ∀ {l : List Str}, Names l → l ≠ [] → Text.join ['.'] l ≠ [] := by
    intro l hl hn e
    have := Text.splitC_join (c := '.') hn (fun n m => (hl n m).2)
    rw [e, Text.splitC_nil] at this
    exact (hl [] (by rw [← this]; simp)).1 rfl
  by_cases h1 : p = []
  · subst h1
    by_cases h2 : q = []
    · exact h2.symm
    · exact absurd h.symm (hne hq h2)
  · by_cases h2 : q = []
    · subst h2
      exact absurd h (hne hp h1)
    · rw [← Text.splitC_join (c := '.') h1 (fun n m => (hp n m).2), h, Text.splitC_join h2 (fun n m => (hq n m).2)]

theorem mem_flattenAll {pre : Str} {fs : List (Str × Tree)} {x : Str × Field} :
    x ∈ flattenAll pre fs ↔ ∃ e ∈ fs, x ∈ flatten (path pre e.1) e.2 := by
  induction fs with
  | nil => simp [flattenAll]
  | cons e fs ih =>
    obtain ⟨n, t⟩ := e
    rw [flattenAll, List.mem_append, ih, flattenOne]
    simp

theorem lookup_mem {α : Type} {l : List (Str × α)} {n : Str} {x : α} (h : lookup l n = some x) : (n, x) ∈ l := by
  unfold lookup at h
  obtain ⟨q, hq, rfl⟩ := Option.map_eq_some_iff.1 h
  have := List.find?_some hq
  simp only [beq_iff_eq] at this
  subst this
  exact List.mem_of_find?_eq_some hq

theorem lookup_nodup {α : Type} {l : List (Str × α)} (hn : (l.map Prod.fst).Nodup) {n : Str} {x : α} (h : (n, x) ∈ l) : lookup l n = some x := by
  induction l with
  | nil => cases h
  | cons e l ih =>
    obtain ⟨m, y⟩ := e
    rw [List.map_cons, List.nodup_cons] at hn
    rw [lookup_cons]
    rcases List.mem_cons.1 h with h | h
    · cases h
      exact if_pos rfl
    · rw [if_neg (by
        intro c
        exact hn.1 (List.mem_map.2 ⟨_, h, c.symm⟩))]
      exact ih hn.2 h

theorem mem_flatten {t : Tree} (h : Good t) (pre : Str) (k : Str) (f : Field) :
    (k, f) ∈ flatten pre t ↔ ∃ p, Names p ∧ k = p.foldl path pre ∧ t.at p = some f := by
  induction h generalizing pre k f with
  | leaf g =>
    rw [flatten, List.mem_singleton]
    constructor
    · intro e
      cases e
      exact ⟨[], (fun _ h => nomatch h), rfl, rfl⟩
    · rintro ⟨p, -, rfl, e⟩
      cases p with
      | nil => cases e; rfl
      | cons n p => cases e
  | node fs hn hall _ ih =>
    rw [flatten, mem_flattenAll]
    constructor
    · rintro ⟨⟨n, t⟩, he, hx⟩
      obtain ⟨p, h1, h2, h3⟩ := (ih _ he _ _ _).1 hx
      refine ⟨n :: p, ?_, h2, ?_⟩
      · intro m hm
        rcases List.mem_cons.1 hm with rfl | hm
        · exact hall _ he
        · exact h1 m hm
      · unfold Tree.at
        rw [lookup_nodup hn he]
        exact h3
    · rintro ⟨p, h1, h2, h3⟩
      cases p with
      | nil => cases h3
      | cons n p =>
        unfold Tree.at at h3
        cases hl : lookup fs n with
        | none => rw [hl] at h3; cases h3
        | some t =>
          rw [hl] at h3
          exact ⟨(n, t), lookup_mem hl, (ih _ (lookup_mem hl) _ _ _).2 ⟨p, fun m hm => h1 m (List.mem_cons_of_mem _ hm), h2, h3⟩⟩

/-- C376: below the dotted name of a path there is the summary that the tree has there, or nothing. -/
theorem C376_dotted {t : Tree} (h : Good t) (p : List Str) (hp : Names p) : flatGet t (Text.join ['.'] p) = t.at p := by
  unfold flatGet
  cases hl : lookup (flatten [] t).reverse (Text.join ['.'] p) with
  | some f =>
    obtain ⟨q, h1, h2, h3⟩ := (mem_flatten h [] _ f).1 (List.mem_reverse.1 (lookup_mem hl))
    rw [foldl_path_nil h1] at h2
    rw [join_inj hp h1 h2]
    exact h3.symm
  | none =>
    cases ha : t.at p with
    | none => rfl
    | some f =>
      have hm := (mem_flatten h [] (Text.join ['.'] p) f).2 ⟨p, hp, (foldl_path_nil hp).symm, ha⟩
      unfold lookup at hl
      rw [Option.map_eq_none_iff, List.find?_eq_none] at hl
      exact absurd (beq_self_eq_true _) (hl _ (List.mem_reverse.2 hm))

/-- C376: there is nothing else. -/
theorem C376_only {t : Tree} (h : Good t) (k : Str) (f : Field) (hk : flatGet t k = some f) :
    ∃ p, Names p ∧ k = Text.join ['.'] p ∧ t.at p = some f := by
  obtain ⟨p, h1, h2, h3⟩ := (mem_flatten h [] k f).1 (List.mem_reverse.1 (lookup_mem hk))
  exact ⟨p, h1, by rw [h2, foldl_path_nil h1], h3⟩

/-- C376: nothing is written twice. -/
theorem C376_once {t : Tree} (h : Good t) (k : Str) (f g : Field) (hf : (k, f) ∈ flatten [] t) (hg : (k, g) ∈ flatten [] t) : f = g := by
  obtain ⟨p, h1, h2, h3⟩ := (mem_flatten h [] k f).1 hf
  obtain ⟨q, g1, g2, g3⟩ := (mem_flatten h [] k g).1 hg
  rw [foldl_path_nil h1] at h2
  rw [foldl_path_nil g1] at g2
  rw [join_inj h1 g1 (h2.symm.trans g2), g3] at h3
  exact (Option.some.inj h3).symm

example : flatGet (.node [("id".toList, .leaf (exText "id" "name")), ("location".toList, .node [("latitude".toList, .leaf (exText "latitude" "degrees"))])])
    "location.latitude".toList = some (exText "latitude" "degrees") := by decide +kernel

/-- Names of attributes of a class are distinct, not empty and have no dot. -/
def Plain (lib : Lib) : Prop := ∀ c, ((lib.fields c).map (fun f => f.part.name)).Nodup ∧ ∀ f ∈ lib.fields c, f.part.name ≠ [] ∧ '.' ∉ f.part.name

/-- All trees in memory and on disk are good. -/
def StateGood (s : State) : Prop := (∀ e ∈ s.mem, Good e.2) ∧ ∀ e ∈ s.disk, Good e.2

theorem good_nil : Good (.node []) := .node [] List.nodup_nil (fun _ h => nomatch h) (fun _ h => nomatch h)

theorem entries_good (g : State → Cls → State × Tree) (hg : ∀ s d, StateGood s → StateGood (g s d).1 ∧ Good (g s d).2) (fs : List Field) (s : State)
    (hs : StateGood s) : StateGood (entries g s fs).1 ∧ (∀ e ∈ (entries g s fs).2, Good e.2) ∧
      ((entries g s fs).2.map Prod.fst).Sublist (fs.map (fun f => f.part.name)) := by
  induction fs generalizing s with
  | nil => exact ⟨hs, (fun _ h => nomatch h), List.Sublist.refl _⟩
  | cons f fs ih =>
    unfold entries
    by_cases hd : f.part.deprecated.isSome = true
    · rw [if_pos hd]
      obtain ⟨a, b, c⟩ := ih s hs
      exact ⟨a, b, c.cons _⟩
    · rw [if_neg hd]
      cases f.part.ann with
      | simple r =>
        obtain ⟨a, b, c⟩ := ih s hs
        refine ⟨a, ?_, c.cons_cons _⟩
        intro e he
        rcases List.mem_cons.1 he with rfl | he
        · exact .leaf f
        · exact b e he
      | model d =>
        obtain ⟨a, b, c⟩ := ih (g s d).1 (hg s d hs).1
        refine ⟨a, ?_, c.cons_cons _⟩
        intro e he
        rcases List.mem_cons.1 he with rfl | he
        · exact (hg s d hs).2
        · exact b e he

theorem get_good (disk : Bool) (lib : Lib) (hp : Plain lib) (n : Nat) (s : State) (c : Cls) (hs : StateGood s) :
    StateGood (get disk lib n s c).1 ∧ Good (get disk lib n s c).2 := by
  induction n generalizing s c with
  | zero => exact ⟨hs, good_nil⟩
  | succ n ih =>
    unfold get
    cases hl : lookup s.mem c with
    | some t => exact ⟨hs, hs.1 _ (lookup_mem hl)⟩
    | none =>
      simp only
      cases hk : (if disk = true then load s.disk (keyOf lib c) else none) with
      | some t =>
        have ht : Good t := by
          split at hk
          · unfold load at hk
            obtain ⟨q, hq, rfl⟩ := Option.map_eq_some_iff.1 hk
            exact hs.2 _ (List.mem_of_find?_eq_some hq)
          · cases hk
        refine ⟨⟨?_, hs.2⟩, ht⟩
        intro e he
        rcases List.mem_cons.1 he with rfl | he
        · exact ht
        · exact hs.1 e he
      | none =>
        simp only
        obtain ⟨a, b, d⟩ := entries_good (get disk lib n) (fun s d h => ih s d h) (lib.fields c) { s with mem := (c, .node []) :: s.mem } (by
          refine ⟨?_, hs.2⟩
          intro e he
          rcases List.mem_cons.1 he with rfl | he
          · exact good_nil
          · exact hs.1 e he)
        have ht : Good (.node (entries (get disk lib n) { s with mem := (c, .node []) :: s.mem } (lib.fields c)).2) := by
          refine .node _ (d.nodup (hp c).1) ?_ b
          intro e he
          obtain ⟨f, hf, hn⟩ := List.mem_map.1 (d.subset (List.mem_map.2 ⟨e, he, rfl⟩))
          rw [← hn]
          exact (hp c).2 f hf
        refine ⟨⟨?_, ?_⟩, ht⟩
        · intro e he
          rcases List.mem_cons.1 he with rfl | he
          · exact ht
          · exact a.1 e he
        · intro e he
          simp only at he
          split at he
          · rcases List.mem_cons.1 he with rfl | he
            · exact ht
            · exact a.2 e he
          · exact a.2 e he

/-- C376: the dotted names of a class that is asked for are those of its attributes and of the attributes of its attributes. -/
theorem C376_class (n : Nat) (lib : Lib) (hl : Layered n lib) (hn : Plain lib) (disk : Bool) (c : Cls) (p : List Str)
    (hp : Names p) : flatGet (answer n ⟨lib, disk, {}⟩ c) (Text.join ['.'] p) = lib.at c p := by
  refine (C376_dotted (t := answer n ⟨lib, disk, {}⟩ c) (get_good disk lib hn n {} c ⟨(fun _ h => nomatch h), (fun _ h => nomatch h)⟩).2 p hp).trans ?_
  exact C374_same_partial n lib hl disk [] (fun _ _ h => nomatch h) c p

example : flatGet (answer 2 ⟨exNew, true, {}⟩ "Station".toList) "location.datum".toList = some (exText "datum" "name") ∧
    (answer 2 (run 2 ⟨exNew, true, {}⟩ [.ask "Location".toList, .start exNew true, .lose 0]) "Station".toList).at ["location".toList, "datum".toList] =
      some (exText "datum" "name") := by decide +kernel

end Verif.FieldCache
