import Verif.Model.JUse
import Verif.Lemmas.OD

/-! # C394-C395: one `JFile` object for several files -/

namespace Verif.JUse
variable {K V B A S D : Type} [DecidableEq K]

/-- The entries of a file up to the first that raises. -/
def reached (f : File K V B A S D) : List (Entry K V B A) :=
  match f.head with
  | none => []
  | some (_, es) => es.takeWhile (fun e => match e with | .bad _ => false | _ => true)

/-- The parameters among entries. -/
def paramsOf (es : List (Entry K V B A)) : List (K × V) := es.filterMap (fun e => match e with | .param k v => some (k, v) | _ => none)
/-- The blocks among entries. -/
def blocksOf (es : List (Entry K V B A)) : List B := es.filterMap (fun e => match e with | .block b => some b | _ => none)
/-- The angles among entries. -/
def anglesOf (es : List (Entry K V B A)) : List A := es.filterMap (fun e => match e with | .angle a => some a | _ => none)

/-- The last value of a name. -/
def lastOf (l : List (K × V)) (k : K) : Option V := (l.reverse.find? (fun p => decide (p.1 = k))).map Prod.snd

theorem entries_eq (es : List (Entry K V B A)) (o : Obj K V B A S D) :
    (readEntries o es).1 = { o with
      params := (paramsOf (es.takeWhile (fun e => match e with | .bad _ => false | _ => true))).foldl (fun d p => OD.set d p.1 p.2) o.params
      blocks := o.blocks ++ blocksOf (es.takeWhile (fun e => match e with | .bad _ => false | _ => true))
      angles := o.angles ++ anglesOf (es.takeWhile (fun e => match e with | .bad _ => false | _ => true)) } := by
  induction es generalizing o with
  | nil => simp [readEntries, paramsOf, blocksOf, anglesOf]
  | cons x es ih =>
    cases x with
    | param k v =>
      rw [readEntries, ih]
      simp [paramsOf, blocksOf, anglesOf]
    | block b =>
      rw [readEntries, ih]
      simp [paramsOf, blocksOf, anglesOf]
    | angle a =>
      rw [readEntries, ih]
      simp [paramsOf, blocksOf, anglesOf]
    | bad e => simp [readEntries, paramsOf, blocksOf, anglesOf]

theorem info_keeps (l : List (Info K)) (o : Obj K V B A S D) : ∃ p, (readInfo o l).1 = { o with pos := p } := by
  induction l generalizing o with
  | nil => exact ⟨o.pos, rfl⟩
  | cons x l ih =>
    cases x with
    | zero k =>
      obtain ⟨p, hp⟩ := ih { o with pos := k :: o.pos }
      exact ⟨p, hp⟩
    | bad e => exact ⟨o.pos, rfl⟩

theorem header_eq (o : Obj K V B A S D) (f : File K V B A S D) : ∃ t, (t = o.title ∨ ∃ x, f.head = some x ∧ t = some x.1) ∧
    (readHeader o f).1 = { o with
      title := t
      params := (paramsOf (reached f)).foldl (fun d p => OD.set d p.1 p.2) o.params
      blocks := blocksOf (reached f)
      angles := anglesOf (reached f) } := by
  unfold readHeader reached
  cases h : f.head with
  | none => exact ⟨o.title, .inl rfl, rfl⟩
  | some x =>
    refine ⟨some x.1, .inr ⟨x, rfl, rfl⟩, ?_⟩
    refine (entries_eq x.2 _).trans ?_
    simp

/-- What an object is after `read`, whether it raises or not. -/
theorem read_eq (o : Obj K V B A S D) (f : File K V B A S D) : ∃ t p s d, (read o f).1 =
      { title := t
        params := (paramsOf (reached f)).foldl (fun d p => OD.set d p.1 p.2) o.params
        blocks := blocksOf (reached f)
        angles := anglesOf (reached f)
        pos := p
        station := s
        data := d } ∧
    (t = o.title ∨ ∃ x, f.head = some x ∧ t = some x.1) ∧
    (s = o.station ∧ d = o.data ∧ (read o f).2 ≠ none ∨
      (∃ e, f.data = .error e ∧ (read o f).2 = some e) ∧ s = f.station ∧ s ≠ none ∧ d = o.data ∨
      (∃ x, f.data = .ok x ∧ d = some x) ∧ s = f.station ∧ s ≠ none ∧ (read o f).2 = none) := by
  obtain ⟨t, ht, hh⟩ := header_eq o f
  unfold read
  cases h1 : readHeader o f with
  | mk o1 e1 =>
    rw [h1] at hh
    change o1 = _ at hh
    cases e1 with
    | some e =>
      subst hh
      exact ⟨t, _, _, _, rfl, ht, .inl ⟨rfl, rfl, nofun⟩⟩
    | none =>
      obtain ⟨p, hp⟩ := info_keeps f.info o1
      cases h2 : readInfo o1 f.info with
      | mk o2 e2 =>
        rw [h2] at hp
        change o2 = _ at hp
        subst hh
        cases e2 with
        | some e =>
          subst hp
          simp only [h2]
          exact ⟨t, p, _, _, rfl, ht, .inl ⟨rfl, rfl, nofun⟩⟩
        | none =>
          subst hp
          simp only [h2]
          cases f.station with
          | none => exact ⟨t, p, _, _, rfl, ht, .inl ⟨rfl, rfl, nofun⟩⟩
          | some s =>
            cases f.data with
            | error e => exact ⟨t, p, some s, _, rfl, ht, .inr (.inl ⟨⟨e, rfl, rfl⟩, rfl, nofun, rfl⟩)⟩
            | ok d => exact ⟨t, p, some s, some d, rfl, ht, .inr (.inr ⟨⟨d, rfl, rfl⟩, rfl, nofun, rfl⟩)⟩

theorem fold_get (l : List (K × V)) (d : OD K V) (k : K) : OD.get? (l.foldl (fun d p => OD.set d p.1 p.2) d) k = (lastOf l k).or (OD.get? d k) := by
  unfold lastOf
  induction l generalizing d with
  | nil => rfl
  | cons x l ih =>
    rw [List.foldl_cons, ih, List.reverse_cons, List.find?_append]
    cases l.reverse.find? (fun p => decide (p.1 = k)) with
    | some y => simp
    | none =>
      simp only [Option.map_none, Option.none_or]
      by_cases h : x.1 = k
      · rw [List.find?_cons_of_pos (by simpa using h), ← h, OD.get?_set_self]
        rfl
      · rw [List.find?_cons_of_neg (by simpa using h), OD.get?_set_ne _ _ (Ne.symm h)]
        rfl

/-! ### C394: parameters of files read one after another -/

/-- C394: after reading a file an object has the parameters of this file, whatever it has read before. -/
def C394_claim : Prop := ∀ (K V B A S D : Type) [DecidableEq K] (l : List (File K V B A S D)) (f : File K V B A S D),
  (read (readAll {} l) f).2 = none → ∀ k, OD.get? (read (readAll {} l) f).1.params k = OD.get? (read ({} : Obj K V B A S D) f).1.params k

theorem readAll_params (l : List (File K V B A S D)) (o : Obj K V B A S D) :
    (readAll o l).params = (paramsOf (l.flatMap reached)).foldl (fun d p => OD.set d p.1 p.2) o.params := by
  induction l generalizing o with
  | nil => rfl
  | cons f l ih =>
    obtain ⟨t, p, s, d, h, _⟩ := read_eq o f
    have e : (read o f).1.params = (paramsOf (reached f)).foldl (fun d p => OD.set d p.1 p.2) o.params := by rw [h]
    rw [List.flatMap_cons]
    unfold paramsOf at e ih ⊢
    rw [List.filterMap_append, List.foldl_append, ← e]
    exact ih (read o f).1

/-- C394 (part): a parameter is the last one given in any file read, also in files that could not be read to the end. -/
theorem C394_last_partial (l : List (File K V B A S D)) (k : K) :
    OD.get? (readAll ({} : Obj K V B A S D) l).params k = lastOf (paramsOf (l.flatMap reached)) k := by
  rw [readAll_params, fold_get]
  cases lastOf (paramsOf (l.flatMap reached)) k <;> rfl

/-- C394 (part): a parameter that the file gives is that of the file, after any history. -/
theorem C394_given_partial (l : List (File K V B A S D)) (f : File K V B A S D) (k : K) (v : V) (h : (k, v) ∈ paramsOf (reached f)) :
    OD.get? (read (readAll {} l) f).1.params k = OD.get? (read ({} : Obj K V B A S D) f).1.params k ∧
      ∃ w, (k, w) ∈ paramsOf (reached f) ∧ OD.get? (read (readAll ({} : Obj K V B A S D) l) f).1.params k = some w := by
  obtain ⟨t, p, s, d, e, _⟩ := read_eq (readAll ({} : Obj K V B A S D) l) f
  obtain ⟨t', p', s', d', e', _⟩ := read_eq ({} : Obj K V B A S D) f
  rw [e, e']
  simp only [fold_get]
  unfold lastOf
  cases hf : (paramsOf (reached f)).reverse.find? (fun p => decide (p.1 = k)) with
  | none =>
    rw [List.find?_eq_none] at hf
    exact absurd (decide_eq_true rfl) (hf (k, v) (List.mem_reverse.2 h))
  | some y =>
    refine ⟨rfl, y.2, ?_, rfl⟩
    have h1 := List.find?_some hf
    have h2 := List.mem_reverse.1 (List.mem_of_find?_eq_some hf)
    rw [decide_eq_true_eq] at h1
    rw [← h1]
    exact h2

/-- C394 (part): a parameter that the file does not give stays. -/
theorem C394_stays_partial (o : Obj K V B A S D) (f : File K V B A S D) (k : K) (h : ∀ v, (k, v) ∉ paramsOf (reached f)) :
    OD.get? (read o f).1.params k = OD.get? o.params k := by
  obtain ⟨t, p, s, d, e, _⟩ := read_eq o f
  rw [e]
  simp only [fold_get]
  unfold lastOf
  rw [List.find?_eq_none.2]
  · rfl
  · rintro ⟨k', v⟩ hx
    simp only [decide_eq_true_eq]
    rintro rfl
    exact h v (List.mem_reverse.1 hx)

/-- C394 (part): blocks and angles are those of the file alone. -/
theorem C394_blocks_partial (o : Obj K V B A S D) (f : File K V B A S D) :
    (read o f).1.blocks = blocksOf (reached f) ∧ (read o f).1.angles = anglesOf (reached f) := by
  obtain ⟨t, p, s, d, e, _⟩ := read_eq o f
  rw [e]
  exact ⟨rfl, rfl⟩

/-- A file with a time step, and one without; one whose data cannot be read. -/
def exStep : File Nat Nat Nat Nat Nat Nat := ⟨some (1, [.param 0 5, .block 7, .param 1 3]), [.zero 2], some 10, .ok 100⟩
def exNone : File Nat Nat Nat Nat Nat Nat := ⟨some (2, [.param 1 4, .block 8]), [.zero 2], some 20, .ok 200⟩
def exBroken : File Nat Nat Nat Nat Nat Nat := ⟨some (3, [.param 1 9, .angle 6]), [.zero 2], some 30, .error .valueError⟩

/-- C394 is false: the time step of a file before stays. -/
theorem C394_refuted : ¬ C394_claim := by
  intro h
  have := h Nat Nat Nat Nat Nat Nat [exStep] exNone rfl 0
  revert this
  decide

/-! ### C395: files that cannot be read -/

/-- C395: a file that cannot be read leaves the object as it was. -/
def C395_claim : Prop := ∀ (K V B A S D : Type) [DecidableEq K] (o : Obj K V B A S D) (f : File K V B A S D), (read o f).2 ≠ none → (read o f).1 = o

/-- C395 (part): the data stay. -/
theorem C395_data_partial (o : Obj K V B A S D) (f : File K V B A S D) (h : (read o f).2 ≠ none) : (read o f).1.data = o.data := by
  obtain ⟨t, p, s, d, e, _, hd⟩ := read_eq o f
  rw [e]
  rcases hd with ⟨_, hd, _⟩ | ⟨_, _, _, hd⟩ | ⟨_, _, _, hn⟩
  · exact hd
  · exact hd
  · exact absurd hn h

/-- The files of a history that were read to the end. -/
def goodFiles (o : Obj K V B A S D) : List (File K V B A S D) → List (File K V B A S D)
  | [] => []
  | f :: l => if (read o f).2.isNone then f :: goodFiles (read o f).1 l else goodFiles (read o f).1 l

/-- C395 (part): after any history the data are those of the last file that was read to the end. -/
theorem C395_history_partial (l : List (File K V B A S D)) (o : Obj K V B A S D) :
    (readAll o l).data = match (goodFiles o l).getLast? with | none => o.data | some f => f.data.toOption := by
  induction l generalizing o with
  | nil => rfl
  | cons f l ih =>
    have e : readAll o (f :: l) = readAll (read o f).1 l := rfl
    rw [e, ih]
    cases hr : (read o f).2 with
    | some x =>
      have hd : (read o f).1.data = o.data := C395_data_partial o f (by rw [hr]; nofun)
      have hg : goodFiles o (f :: l) = goodFiles (read o f).1 l := by
        rw [goodFiles, hr]
        rfl
      rw [hg, hd]
    | none =>
      have hg0 : goodFiles o (f :: l) = f :: goodFiles (read o f).1 l := by
        rw [goodFiles, hr]
        rfl
      rw [hg0]
      cases hg : goodFiles (read o f).1 l with
      | cons g gs =>
        rw [List.getLast?_cons_cons]
        have hne : (g :: gs).getLast? ≠ none := by simp
        cases hl : (g :: gs).getLast? with
        | none => exact absurd hl hne
        | some y => rfl
      | nil =>
        obtain ⟨t, p, s, d, e', _, hd⟩ := read_eq o f
        simp only [e', List.getLast?_nil, List.getLast?_singleton]
        rcases hd with ⟨_, _, hn⟩ | ⟨⟨x, _, hn⟩, _⟩ | ⟨⟨x, hx, hd⟩, _⟩
        · exact absurd hr hn
        · rw [hr] at hn
          cases hn
        · rw [hx, hd]
          rfl

/-- C395 (part): if a file fails in its data, the object has the station and the title of this file, and the data of another. -/
theorem C395_mixed_partial (o : Obj K V B A S D) (f : File K V B A S D) (t s : S) (es : List (Entry K V B A)) (e : PyErr)
    (hh : f.head = some (t, es)) (hb : ∀ x, Entry.bad x ∉ es) (hi : ∀ x, Info.bad x ∉ f.info) (hs : f.station = some s) (hd : f.data = .error e) :
    (read o f).2 = some e ∧ (read o f).1.station = some s ∧ (read o f).1.title = some t ∧ (read o f).1.data = o.data := by
  have h1 : ∀ (es : List (Entry K V B A)) (o : Obj K V B A S D), (∀ x, Entry.bad x ∉ es) → (readEntries o es).2 = none ∧ (readEntries o es).1.title = o.title ∧ (readEntries o es).1.data = o.data := by
    intro es
    induction es with
    | nil => exact fun o _ => ⟨rfl, rfl, rfl⟩
    | cons x es ih =>
      intro o h
      have h' : ∀ x, Entry.bad x ∉ es := fun y hy => h y (List.mem_cons_of_mem _ hy)
      cases x with
      | param k v => exact ih _ h'
      | block b => exact ih _ h'
      | angle a => exact ih _ h'
      | bad x => exact absurd List.mem_cons_self (h x)
  have h2 : ∀ (l : List (Info K)) (o : Obj K V B A S D), (∀ x, Info.bad x ∉ l) → (readInfo o l).2 = none := by
    intro l
    induction l with
    | nil => exact fun o _ => rfl
    | cons x l ih =>
      intro o h
      have h' : ∀ x, Info.bad x ∉ l := fun y hy => h y (List.mem_cons_of_mem _ hy)
      cases x with
      | zero k => exact ih _ h'
      | bad x => exact absurd List.mem_cons_self (h x)
  obtain ⟨a1, a2, a3⟩ := h1 es { o with blocks := [], angles := [], title := some t } hb
  unfold read readHeader
  rw [hh]
  simp only []
  generalize hq : readEntries { o with blocks := [], angles := [], title := some t } es = q at a1 a2 a3
  obtain ⟨o1, e1⟩ := q
  cases a1
  have b1 := h2 f.info o1 hi
  obtain ⟨p, hp⟩ := info_keeps f.info o1
  generalize hq2 : readInfo o1 f.info = q at b1 hp
  obtain ⟨o2, e2⟩ := q
  cases b1
  change o2 = _ at hp
  subst hp
  simp only [hq2, hs, hd]
  exact ⟨trivial, trivial, a2, a3⟩

/-- C395 is false: see `C395_mixed_partial`. -/
theorem C395_refuted : ¬ C395_claim := by
  intro h
  have := congrArg Obj.station (h Nat Nat Nat Nat Nat Nat (readAll {} [exStep]) exBroken (by decide))
  revert this
  decide

example : (readAll {} [exStep, exBroken]).station = some 30 ∧ (readAll {} [exStep, exBroken]).data = some 100 ∧
    goodFiles {} [exStep, exBroken, exNone, exBroken] = [exStep, exNone] := ⟨by decide, by decide, rfl⟩

/-- C395 (part): a file without comment lines takes the blocks and angles of the object and nothing else. -/
theorem C395_empty_partial (o : Obj K V B A S D) (f : File K V B A S D) (h : f.head = none) :
    (read o f).2 = some .indexError ∧ (read o f).1.blocks = [] ∧ (read o f).1.angles = [] ∧ (read o f).1.title = o.title ∧
      (read o f).1.params = o.params ∧ (read o f).1.pos = o.pos ∧ (read o f).1.station = o.station ∧ (read o f).1.data = o.data := by
  unfold read readHeader
  rw [h]
  exact ⟨rfl, rfl, rfl, rfl, rfl, rfl, rfl, rfl⟩

end Verif.JUse
