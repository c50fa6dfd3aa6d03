import Verif.Model.EdiKept

/-! # C403-C405: data of an `EDI` object that reads several files -/

namespace Verif.EdiKept
variable {X Ar C R : Type}

/-- The first section of a file, and that it says what its data are. -/
def First (f : File X) (k : Kind) : Prop := ∃ a b, f.lines = a ++ .sect (some k) :: b ∧ ∀ j, Line.sect j ∉ a

/-- No section. -/
def NoSect (f : File X) : Prop := ∀ j, Line.sect j ∉ f.lines

theorem scan_none (a b : List (Line X)) (ha : ∀ j, Line.sect j ∉ a) (i : Nat) (s : Sect) :
    scan i false s (a ++ b) = scan (i + a.length) false s b := by
  induction a generalizing i with
  | nil => rfl
  | cons x a ih =>
    have h' : ∀ j, Line.sect j ∉ a := fun j h => ha j (List.mem_cons_of_mem _ h)
    cases x with
    | sect k => exact absurd List.mem_cons_self (ha k)
    | mark x =>
      rw [List.cons_append, scan, ih h', List.length_cons]
      congr 1
      omega
    | text x =>
      rw [List.cons_append, scan, ih h', List.length_cons]
      congr 1
      omega

theorem scan_nchan (ls : List (Line X)) (i : Nat) (b : Bool) (s : Sect) (n : Nat) :
    scan i b { s with nchan := n } ls = { scan i b s ls with nchan := n } ∧ (scan i b s ls).nchan = s.nchan := by
  induction ls generalizing i b s with
  | nil => exact ⟨rfl, rfl⟩
  | cons x ls ih =>
    cases x with
    | sect k => simpa only [scan] using ih (i + 1) true ⟨i, k.getD s.kind, s.nchan⟩
    | mark x =>
      cases b with
      | true => exact ⟨rfl, rfl⟩
      | false => exact ih (i + 1) false s
    | text x => simpa only [scan] using ih (i + 1) b s

/-- Where a section is named, what was there before does not matter. -/
theorem scan_named {f : File X} {k : Kind} (h : First f k) (s s' : Sect) :
    scan 0 false s f.lines = { scan 0 false s' f.lines with nchan := s.nchan } := by
  obtain ⟨a, b, hl, ha⟩ := h
  rw [hl, scan_none a _ ha, scan_none a _ ha, scan, scan]
  exact (scan_nchan b _ true ⟨0 + a.length, k, s'.nchan⟩ s.nchan).1

/-- One section alone. -/
theorem scan_one (a m r : List (Line X)) (k : Option Kind) (ha : ∀ j, Line.sect j ∉ a) (hm : ∀ x ∈ m, ∃ y, x = Line.text y)
    (s : Sect) (y : X) :
    scan 0 false s (a ++ .sect k :: m ++ .mark y :: r) = { s with start := a.length + 1 + m.length
                                                                  kind := k.getD s.kind } := by
  have h : ∀ (m : List (Line X)), (∀ x ∈ m, ∃ y, x = Line.text y) → ∀ (i : Nat) (s : Sect),
      scan i true s (m ++ .mark y :: r) = { s with start := i + m.length } := by
    intro m
    induction m with
    | nil => intro _ i s; rfl
    | cons x m ih =>
      intro hm i s
      obtain ⟨z, rfl⟩ := hm x List.mem_cons_self
      rw [List.cons_append, scan, ih (fun x hx => hm x (List.mem_cons_of_mem _ hx)), List.length_cons]
      congr 1
      omega
  rw [List.append_assoc, scan_none a _ ha, List.cons_append, scan, h m hm]
  simp

/-! ### C403: data of the last file -/

/-- C403: after a file was read an object has the data of this file alone. -/
def C403_claim : Prop := ∀ (X Ar C R : Type) (D : Reader X Ar C R) (l : List (File X)) (f : File X) (k : Kind),
  First f k → f.nchan ≠ none → (read D (readAll D {} l) f).2 = none →
  (read D (readAll D {} l) f).1.arrays = (read D {} f).1.arrays ∧ (read D (readAll D {} l) f).1.cov = (read D {} f).1.cov ∧
    (read D (readAll D {} l) f).1.rot = (read D {} f).1.rot

/-- What reading sees of an object: the section it gets. -/
theorem read_after (D : Reader X Ar C R) (o : Obj Ar C R) (f : File X) (hp : f.pre = none) (hb : f.bad = none) :
    read D o f = readData D { o with sect := { scan 0 false o.sect f.lines with nchan := f.nchan.getD (scan 0 false o.sect f.lines).nchan } } f.lines := by
  unfold read
  simp only [hp, hb]

/-- C403 (part): errors, and the section as read, do not depend on what was read before, if the section says what its data are and how many
channels there are. -/
theorem C403_error_partial (D : Reader X Ar C R) (o o' : Obj Ar C R) (f : File X) (k : Kind) (h : First f k) (hn : f.nchan ≠ none) :
    (read D o f).2 = (read D o' f).2 ∧ (f.pre = none → (read D o f).1.sect = (read D o' f).1.sect) := by
  obtain ⟨n, hn⟩ := Option.ne_none_iff_exists'.1 hn
  unfold read
  cases f.pre with
  | some e => exact ⟨rfl, nofun⟩
  | none =>
    have e := scan_named h o.sect o'.sect
    simp only [hn, Option.getD_some, e]
    cases f.bad with
    | some e => exact ⟨rfl, fun _ => rfl⟩
    | none =>
      simp only [readData]
      cases (scan 0 false o'.sect f.lines).kind with
      | z =>
        simp only
        cases (D.mt (List.drop (scan 0 false o'.sect f.lines).start f.lines)).2 <;> exact ⟨rfl, fun _ => rfl⟩
      | spectra =>
        simp only
        cases compList n <;> exact ⟨rfl, fun _ => rfl⟩

/-- C403 (part): each of the data is either that of the file, as a new object reads it, or, if a new object gets none of them, what it was. -/
theorem C403_partial (D : Reader X Ar C R) (o : Obj Ar C R) (f : File X) (k : Kind) (h : First f k) (hn : f.nchan ≠ none) :
    (read D o f).1.arrays = (read D {} f).1.arrays.or o.arrays ∧
    (read D o f).1.cov = (read D {} f).1.cov.or o.cov ∧
    (read D o f).1.rot = (read D {} f).1.rot.or o.rot := by
  obtain ⟨n, hn⟩ := Option.ne_none_iff_exists'.1 hn
  unfold read
  cases f.pre with
  | some e => exact ⟨rfl, rfl, rfl⟩
  | none =>
    have e := scan_named h o.sect ({} : Sect)
    simp only [hn, Option.getD_some, e]
    cases f.bad with
    | some e => exact ⟨rfl, rfl, rfl⟩
    | none =>
      simp only [readData]
      cases (scan 0 false ({} : Sect) f.lines).kind with
      | z =>
        simp only
        cases (D.mt (List.drop (scan 0 false ({} : Sect) f.lines).start f.lines)).2 <;> simp [keep]
      | spectra =>
        simp only
        cases compList n <;> simp [keep]

/-- C403 (part): files of impedances never change covariances, files of spectra never change angles. -/
theorem C403_kind_partial (D : Reader X Ar C R) (o : Obj Ar C R) (f : File X) :
    ((read D o f).1.sect.kind = .z → (read D o f).1.cov = o.cov) ∧ ((read D o f).1.sect.kind = .spectra → (read D o f).1.rot = o.rot) := by
  unfold read
  cases f.pre with
  | some e => exact ⟨fun _ => rfl, fun _ => rfl⟩
  | none =>
    cases f.bad with
    | some e => exact ⟨fun _ => rfl, fun _ => rfl⟩
    | none =>
      simp only [readData]
      cases hk : (scan 0 false o.sect f.lines).kind with
      | z =>
        simp only
        cases (D.mt (List.drop (scan 0 false o.sect f.lines).start f.lines)).2 <;> exact ⟨fun _ => rfl, fun h => by simp at h⟩
      | spectra =>
        simp only
        cases compList _ <;> exact ⟨fun h => by simp at h, fun _ => rfl⟩

/-- C403 (part): after any files, each with a section that says what its data are, covariances and angles are those of the last file that
gives any, and arrays too. -/
theorem C403_last_partial (D : Reader X Ar C R) (l : List (File X)) (h : ∀ f ∈ l, (∃ k, First f k) ∧ f.nchan ≠ none) :
    (readAll D {} l).arrays = l.reverse.findSome? (fun f => (read D {} f).1.arrays) ∧
    (readAll D {} l).cov = l.reverse.findSome? (fun f => (read D {} f).1.cov) ∧
    (readAll D {} l).rot = l.reverse.findSome? (fun f => (read D {} f).1.rot) := by
  have g : ∀ (l : List (File X)) (o : Obj Ar C R), (∀ f ∈ l, (∃ k, First f k) ∧ f.nchan ≠ none) →
      (readAll D o l).arrays = (l.reverse.findSome? (fun f => (read D {} f).1.arrays)).or o.arrays ∧
      (readAll D o l).cov = (l.reverse.findSome? (fun f => (read D {} f).1.cov)).or o.cov ∧
      (readAll D o l).rot = (l.reverse.findSome? (fun f => (read D {} f).1.rot)).or o.rot := by
    intro l
    induction l with
    | nil => intro o _; exact ⟨rfl, rfl, rfl⟩
    | cons f l ih =>
      intro o h
      obtain ⟨⟨k, hk⟩, hn⟩ := h f List.mem_cons_self
      obtain ⟨e1, e2, e3⟩ := C403_partial D o f k hk hn
      obtain ⟨i1, i2, i3⟩ := ih (read D o f).1 (fun f hf => h f (List.mem_cons_of_mem _ hf))
      have u : readAll D o (f :: l) = readAll D (read D o f).1 l := rfl
      rw [u, i1, i2, i3, e1, e2, e3]
      simp [List.findSome?_append, Option.or_assoc]
  obtain ⟨a, b, c⟩ := g l {} h
  exact ⟨a.trans (Option.or_none ..), b.trans (Option.or_none ..), c.trans (Option.or_none ..)⟩

/-- Numbers as lines; a reader that adds them. Spectra of five channels, impedances, an EMAP section, and no section. -/
def exD : Reader Nat Nat Nat Nat :=
  ⟨fun ls => (some ls.length, .ok 1), fun cs ls => (some (10 * ls.length, cs.length), none)⟩
def exS : File Nat := ⟨[.mark 0, .sect (some .spectra), .text 1, .mark 2, .text 3], some 5, none, none⟩
def exZ : File Nat := ⟨[.mark 0, .sect (some .z), .mark 2, .text 3, .text 4], some 5, none, none⟩
def exE : File Nat := ⟨[.sect none, .mark 2, .text 3], some 5, none, none⟩
def exN : File Nat := ⟨[.mark 2, .text 3, .text 4, .text 5], none, none, none⟩
def exB : File Nat := ⟨[.sect (some .spectra), .mark 2], some 3, none, none⟩

theorem exS_first : First exS .spectra := ⟨[.mark 0], _, rfl, by simp⟩
theorem exZ_first : First exZ .z := ⟨[.mark 0], _, rfl, by simp⟩

/-- C403 is false: covariances of spectra stay in an object that then reads impedances; so do angles the other way round. -/
theorem C403_refuted : ¬ C403_claim := by
  intro h
  have := (h Nat Nat Nat Nat exD [exS] exZ .z exZ_first nofun rfl).2.1
  exact absurd this (by decide)

example : (read exD (readAll exD {} [exS]) exZ).1.cov = some 5 ∧ (read exD {} exZ).1.cov = none ∧
    (read exD (readAll exD {} [exZ]) exS).1.rot = some 1 ∧ (read exD {} exS).1.rot = none := by decide
example : (readAll exD {} [exZ, exS, exZ]).arrays = some 3 ∧ (readAll exD {} [exZ, exS]).arrays = some 20 := by decide
example : (read exD (readAll exD {} [exS]) exB).2 = some .nameError ∧ (read exD (readAll exD {} [exS]) exB).1.arrays = some 20 := by decide

/-! ### C404: files without a section, or with another one -/

/-- C404: what an object reads from a file does not depend on files it read before. -/
def C404_claim : Prop := ∀ (X Ar C R : Type) (D : Reader X Ar C R) (l : List (File X)) (f : File X),
  (read D (readAll D {} l) f).2 = none → (read D {} f).2 = none → (read D (readAll D {} l) f).1.arrays = (read D {} f).1.arrays

/-- C404 (part): a file without a section is read from the line where the data of the file before began, as data of the same kind. -/
theorem C404_none_partial (D : Reader X Ar C R) (o : Obj Ar C R) (f : File X) (h : NoSect f) (hp : f.pre = none) (hb : f.bad = none) (hn : f.nchan = none) :
    read D o f = readData D o f.lines := by
  have e : scan 0 false o.sect f.lines = o.sect := by
    have := scan_none f.lines [] h 0 o.sect
    rwa [List.append_nil, scan] at this
  rw [read_after D o f hp hb, e, hn]
  rfl

/-- C404 (part): a file with one section is read from the next line with ">"; its kind, if the section does not say it, is that of the file before. -/
theorem C404_section_partial (D : Reader X Ar C R) (o : Obj Ar C R) (f : File X) (a m r : List (Line X)) (k : Option Kind) (y : X)
    (hl : f.lines = a ++ .sect k :: m ++ .mark y :: r) (ha : ∀ j, Line.sect j ∉ a) (hm : ∀ x ∈ m, ∃ y, x = Line.text y)
    (hp : f.pre = none) (hb : f.bad = none) :
    read D o f = readData D { o with sect := ⟨a.length + 1 + m.length, k.getD o.sect.kind, f.nchan.getD o.sect.nchan⟩ } f.lines ∧
      f.lines.drop (a.length + 1 + m.length) = .mark y :: r := by
  constructor
  · rw [read_after D o f hp hb, hl, scan_one a m r k ha hm]
  · rw [hl]
    refine List.drop_left' ?_
    simp only [List.length_append, List.length_cons]
    omega

/-- C404 (part): a section with no further line with ">": the data are read from the first line of the section itself. -/
theorem C404_open_partial (D : Reader X Ar C R) (o : Obj Ar C R) (f : File X) (a m : List (Line X)) (k : Option Kind)
    (hl : f.lines = a ++ .sect k :: m) (ha : ∀ j, Line.sect j ∉ a) (hm : ∀ x ∈ m, ∃ y, x = Line.text y)
    (hp : f.pre = none) (hb : f.bad = none) :
    read D o f = readData D { o with sect := ⟨a.length, k.getD o.sect.kind, f.nchan.getD o.sect.nchan⟩ } f.lines ∧
      f.lines.drop a.length = .sect k :: m := by
  have texts : ∀ (m : List (Line X)) (i : Nat) (s : Sect), (∀ x ∈ m, ∃ y, x = Line.text y) → scan i true s m = s := by
    intro m
    induction m with
    | nil => intro i s _; rfl
    | cons x m ih =>
      intro i s h
      obtain ⟨y, rfl⟩ := h x List.mem_cons_self
      exact ih (i + 1) s (fun z hz => h z (List.mem_cons_of_mem _ hz))
  constructor
  · rw [read_after D o f hp hb, hl, scan_none a (.sect k :: m) ha 0 o.sect]
    simp only [scan, texts m _ _ hm, Nat.zero_add]
  · rw [hl]
    exact List.drop_left' rfl

/-- C404 (part): files read before matter only as to the section; two objects with the same section read the same. -/
theorem C404_same_partial (D : Reader X Ar C R) (o o' : Obj Ar C R) (f : File X) (h : o.sect = o'.sect) :
    (read D o f).2 = (read D o' f).2 ∧ (read D o f).1.sect = (read D o' f).1.sect ∧
      ((read D o f).2 = none → (read D {sect := o.sect} f).1.arrays ≠ none → (read D o f).1.arrays = (read D o' f).1.arrays) := by
  unfold read
  cases f.pre with
  | some e => exact ⟨rfl, h, nofun⟩
  | none =>
    simp only [h]
    cases f.bad with
    | some e => exact ⟨rfl, rfl, nofun⟩
    | none =>
      simp only [readData]
      cases (scan 0 false o'.sect f.lines).kind with
      | z =>
        simp only
        cases (D.mt (List.drop (scan 0 false o'.sect f.lines).start f.lines)).2 with
        | error e => exact ⟨rfl, rfl, nofun⟩
        | ok a =>
          refine ⟨rfl, rfl, fun _ hne => ?_⟩
          simp only [keep] at hne ⊢
          cases hx : (D.mt (List.drop (scan 0 false o'.sect f.lines).start f.lines)).1 with
          | some a => rfl
          | none => exact absurd (by rw [hx]; rfl) hne
      | spectra =>
        simp only
        cases compList _ with
        | none => exact ⟨rfl, rfl, nofun⟩
        | some cs =>
          refine ⟨rfl, rfl, fun _ hne => ?_⟩
          simp only [keep] at hne ⊢
          cases hx : (D.spectra cs (List.drop (scan 0 false o'.sect f.lines).start f.lines)).1 with
          | some a => rfl
          | none => exact absurd (by rw [hx]; rfl) hne

/-- C404 is false: a file with an EMAP section is read as spectra after a file of spectra. -/
theorem C404_refuted : ¬ C404_claim := by
  intro h
  have := h Nat Nat Nat Nat exD [exS] exE rfl rfl
  exact absurd this (by decide)

example : (read exD {} exE).1.arrays = some 2 ∧ (read exD (readAll exD {} [exS]) exE).1.arrays = some 20 := by decide
/-- No section: the first lines are skipped. -/
example : NoSect exN ∧ (read exD {} exN).1.arrays = some 4 ∧ (read exD (readAll exD {} [exZ]) exN).1.arrays = some 2 := by
  refine ⟨?_, by decide, by decide⟩
  intro j h
  simp [exN] at h

/-! ### C405: columns of spectra -/

/-- The column of a component as the section gives it: identifiers of the section in their order, and the component of each. -/
def columnGiven {I : Type} (ids : List I) (comp : I → Str) (c : Str) : Option Nat := (ids.map comp).idxOf? c

/-- C405: a component of spectra is in the column where the list of identifiers of the section has its identifier. -/
def C405_claim : Prop := ∀ (I : Type) (ids : List I) (comp : I → Str) (c : Str), 4 ≤ ids.length → ids.length ≤ 7 → (ids.map comp).Nodup →
  c ∈ ids.map comp → columnUsed ids.length c = columnGiven ids comp c

theorem idxOf_mem {l : List Str} {c : Str} {i : Nat} (h : l.idxOf? c = some i) : l[i]? = some c := by
  rw [List.idxOf?, List.findIdx?_eq_some_iff_getElem] at h
  obtain ⟨h1, h2, _⟩ := h
  rw [List.getElem?_eq_getElem h1]
  simpa using h2

/-- C405 (part): the columns are right if and only if the identifiers are in the order of the fixed list for this number of channels. -/
theorem C405_partial {I : Type} (ids : List I) (comp : I → Str) (cs : List Str) (hc : compList ids.length = some cs) :
    (∀ c ∈ ids.map comp, columnUsed ids.length c = columnGiven ids comp c) ∧ (ids.map comp).Nodup ↔ ids.map comp = cs := by
  have hlen : cs.length = ids.length ∧ cs.Nodup := by
    unfold compList at hc
    split at hc
    · cases hc; exact ⟨by simp_all, by decide⟩
    · split at hc
      · cases hc; exact ⟨by simp_all, by decide⟩
      · split at hc
        · cases hc; exact ⟨by simp_all, by decide⟩
        · split at hc
          · cases hc; exact ⟨by simp_all, by decide⟩
          · cases hc
  constructor
  · rintro ⟨h, hn⟩
    refine List.ext_getElem? fun i => ?_
    by_cases hi : i < ids.length
    · have hi' : i < (ids.map comp).length := by simpa using hi
      have hm := List.getElem_mem hi'
      have e := h _ hm
      have g : (ids.map comp).idxOf? (ids.map comp)[i] = some i := by
        rw [List.idxOf?, List.findIdx?_eq_some_iff_getElem]
        refine ⟨hi', by simp, fun j hj => ?_⟩
        have := List.pairwise_iff_getElem.1 hn j i (by omega) hi' hj
        simpa using this
      rw [columnGiven, g, columnUsed, hc] at e
      rw [List.getElem?_eq_getElem hi']
      exact (idxOf_mem e).symm
    · rw [List.getElem?_eq_none (by simpa using hi), List.getElem?_eq_none (by omega)]
  · rintro rfl
    refine ⟨fun c _ => ?_, hlen.2⟩
    rw [columnUsed, hc]
    rfl

/-- C405 (part): other numbers of channels have no columns, and files of spectra with them cannot be read. -/
theorem C405_number_partial (D : Reader X Ar C R) (o : Obj Ar C R) (ls : List (Line X)) (hk : o.sect.kind = .spectra) :
    ((readData D o ls).2 = some .nameError ∧ (readData D o ls).1 = o ∨ ∃ cs, compList o.sect.nchan = some cs) ∧
      ((∃ cs, compList o.sect.nchan = some cs) ↔ 4 ≤ o.sect.nchan ∧ o.sect.nchan ≤ 7) := by
  constructor
  · unfold readData
    simp only [hk]
    cases compList o.sect.nchan with
    | none => exact .inl ⟨rfl, rfl⟩
    | some cs => exact .inr ⟨cs, rfl⟩
  · unfold compList
    constructor
    · rintro ⟨cs, h⟩
      split at h
      · omega
      · split at h
        · omega
        · split at h
          · omega
          · split at h
            · omega
            · cases h
    · intro h
      split
      · exact ⟨_, rfl⟩
      · split
        · exact ⟨_, rfl⟩
        · split
          · exact ⟨_, rfl⟩
          · split
            · exact ⟨_, rfl⟩
            · omega

/-- C405 is false: a section may list electric channels first. -/
theorem C405_refuted : ¬ C405_claim := by
  intro h
  have := h Str ["ex".toList, "ey".toList, "hx".toList, "hy".toList] id "ex".toList (by decide) (by decide) (by decide) (by decide)
  exact absurd this (by decide)

example : columnUsed 4 "ex".toList = some 2 ∧ columnGiven ["ex".toList, "ey".toList, "hx".toList, "hy".toList] id "ex".toList = some 0 := by decide
example : (∀ c ∈ ["hx".toList, "hy".toList, "ex".toList, "ey".toList], columnUsed 4 c = columnGiven ["hx".toList, "hy".toList, "ex".toList, "ey".toList] id c) := by decide

end Verif.EdiKept
