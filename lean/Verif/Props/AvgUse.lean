import Verif.Model.AvgUse
import Verif.Lemmas.OD
import Verif.Lemmas.Text

/-! # C391-C393: one `ZongeMTAvg` object for several files -/

namespace Verif.AvgUse
open Verif.Text
variable {B : Type}

theorem fold_get (bs : List (Comp × Block B)) (d : OD Comp (Block B)) (c : Comp) :
    OD.get? (bs.foldl (fun d p => OD.set d p.1 p.2) d) c = ((bs.reverse.find? (fun p => decide (p.1 = c))).map Prod.snd).or (OD.get? d c) := by
  induction bs generalizing d with
  | nil => rfl
  | cons x bs ih =>
    rw [List.foldl_cons, ih, List.reverse_cons, List.find?_append]
    cases bs.reverse.find? (fun p => decide (p.1 = c)) with
    | some y => simp
    | none =>
      simp only [Option.map_none, Option.none_or]
      by_cases h : x.1 = c
      · rw [List.find?_cons_of_pos (by simpa using h), ← h, OD.get?_set_self]
        rfl
      · rw [List.find?_cons_of_neg (by simpa using h), OD.get?_set_ne _ _ (Ne.symm h)]
        rfl

theorem readAll_comps (l : List (File B)) (o : Obj B) :
    (readAll o l).comps = (l.flatMap File.blocks).foldl (fun d p => OD.set d p.1 p.2) o.comps := by
  induction l generalizing o with
  | nil => rfl
  | cons f l ih =>
    rw [List.flatMap_cons, List.foldl_append]
    exact ih (read o f)

/-- The last block of a component in some files. -/
def lastBlock (l : List (File B)) (c : Comp) : Option (Block B) :=
  ((l.flatMap File.blocks).reverse.find? (fun p => decide (p.1 = c))).map Prod.snd

theorem readAll_get (l : List (File B)) (c : Comp) : OD.get? (readAll {} l).comps c = lastBlock l c := by
  rw [readAll_comps, fold_get]
  unfold lastBlock
  cases (List.find? _ _) <;> rfl

/-! ### C391: files read one after another -/

/-- C391: what the channels of a run and the instrument are taken from does not depend on the files read before. -/
def C391_claim : Prop := ∀ (B : Type) (l : List (File B)) (f : File B),
  mainBlock (read (readAll {} l) f) = mainBlock (read {} f) ∧ ∀ r, run (read {} f) = .ok r → run (read (readAll {} l) f) = .ok r

theorem read_append (l : List (File B)) (f : File B) : read (readAll {} l) f = readAll {} (l ++ [f]) := by
  unfold readAll
  rw [List.foldl_append]
  rfl

theorem lastBlock_of_mem (l : List (File B)) (f : File B) (c : Comp) (h : ∃ b, (c, b) ∈ f.blocks) : lastBlock (l ++ [f]) c = lastBlock [f] c := by
  unfold lastBlock
  rw [List.flatMap_append, List.reverse_append, List.find?_append]
  obtain ⟨b, hb⟩ := h
  cases e : ([f].flatMap File.blocks).reverse.find? (fun p => decide (p.1 = c)) with
  | some y => rfl
  | none =>
    rw [List.find?_eq_none] at e
    exact absurd (decide_eq_true rfl) (e (c, b) (by simpa using hb))

theorem lastBlock_of_not_mem (l : List (File B)) (f : File B) (c : Comp) (h : ∀ b, (c, b) ∉ f.blocks) : lastBlock (l ++ [f]) c = lastBlock l c := by
  unfold lastBlock
  rw [List.flatMap_append, List.reverse_append, List.find?_append]
  have : ([f].flatMap File.blocks).reverse.find? (fun p => decide (p.1 = c)) = none := by
    rw [List.find?_eq_none]
    rintro ⟨c', b⟩ hx
    simp only [decide_eq_true_eq]
    rintro rfl
    exact h b (by simpa using hx)
  rw [this]
  rfl

/-- C391 (part): so it is, errors as well, if the file has blocks for all components that files before had. -/
theorem C391_all_partial (l : List (File B)) (f : File B) (h : ∀ g ∈ l, ∀ c b, (c, b) ∈ g.blocks → ∃ b', (c, b') ∈ f.blocks) :
    mainBlock (read (readAll {} l) f) = mainBlock (read {} f) ∧ run (read (readAll {} l) f) = run (read {} f) := by
  have hg : ∀ c, OD.get? (read (readAll {} l) f).comps c = OD.get? (read ({} : Obj B) f).comps c := by
    intro c
    have e : read ({} : Obj B) f = readAll {} [f] := rfl
    rw [read_append, readAll_get, e, readAll_get]
    by_cases hc : ∃ b, (c, b) ∈ f.blocks
    · exact lastBlock_of_mem l f c hc
    · have hn : ∀ b, (c, b) ∉ f.blocks := fun b hb => hc ⟨b, hb⟩
      rw [lastBlock_of_not_mem l f c hn]
      unfold lastBlock
      rw [List.find?_eq_none.2, List.find?_eq_none.2]
      · rintro ⟨c', b⟩ hx
        simp only [decide_eq_true_eq]
        rintro rfl
        exact hn b (by simpa using hx)
      · rintro ⟨c', b⟩ hx
        simp only [decide_eq_true_eq]
        rintro rfl
        obtain ⟨g, hg, hm⟩ := List.mem_flatMap.1 (List.mem_reverse.1 hx)
        obtain ⟨b', hb'⟩ := h g hg c' b hm
        exact hn b' hb'
  have hh : ∀ c, hasChannel (read (readAll {} l) f) c = hasChannel (read ({} : Obj B) f) c := by
    intro c
    unfold hasChannel
    rw [hg]
  have hs : ∀ c, source (read (readAll {} l) f) c = source (read ({} : Obj B) f) c := by
    intro c
    unfold source
    rw [hh, hg]
  refine ⟨?_, ?_⟩
  · unfold mainBlock
    rw [hh, hg]
  · unfold run
    rw [show chans (read (readAll {} l) f) = chans (read ({} : Obj B) f) from rfl]
    simp only [hs]

/-- C391 (part): the instrument and the place are those of the last file that had a block zxx with `Ch.Cmp` in its last one. -/
theorem C391_main_partial (l : List (File B)) (b : B) : mainBlock (readAll {} l) = some b ↔ lastBlock l .zxx = some ⟨true, b⟩ := by
  unfold mainBlock hasChannel
  rw [readAll_get]
  cases lastBlock l .zxx with
  | none => simp
  | some x =>
    obtain ⟨c, r⟩ := x
    cases c <;> simp

/-- C391 (part): a file without zxx leaves the instrument as it was. -/
theorem C391_stays_partial (l : List (File B)) (f : File B) (h : ∀ b, (Comp.zxx, b) ∉ f.blocks) :
    mainBlock (read (readAll {} l) f) = mainBlock (readAll {} l) := by
  unfold mainBlock hasChannel
  rw [read_append, readAll_get, readAll_get, lastBlock_of_not_mem l f .zxx h]

/-- C391 (part): which channels there are depends on the data of the file alone. -/
theorem C391_which_partial (l : List (File B)) (f : File B) (c : Chan) : c ∈ chans (read (readAll {} l) f) ↔
    if c = .hz then Comp.tzx ∈ f.data ∨ Comp.rxxr ∈ f.data else Comp.zxy ∈ f.data ∨ Comp.zxxr ∈ f.data := by
  unfold chans read
  by_cases h1 : Comp.zxy ∈ f.data ∨ Comp.zxxr ∈ f.data <;> by_cases h2 : Comp.tzx ∈ f.data ∨ Comp.rxxr ∈ f.data <;>
    cases c <;> simp [h1, h2]

/-- A file with all components. -/
def exFull : File Nat := ⟨[(.zxx, ⟨true, 1⟩), (.zxy, ⟨true, 2⟩), (.zyx, ⟨true, 3⟩), (.zyy, ⟨true, 4⟩)], [.zxx, .zxy, .zyx, .zyy]⟩
/-- A file without zxx. -/
def exOff : File Nat := ⟨[(.zxy, ⟨true, 12⟩), (.zyx, ⟨true, 13⟩)], [.zxy, .zyx]⟩

/-- C391 is false: the instrument of the first file stays. -/
theorem C391_refuted : ¬ C391_claim := by
  intro h
  have := (h Nat [exFull] exOff).1
  revert this
  decide

example : run (read {} exOff) = .ok [(.ex, none), (.ey, none), (.hx, none), (.hy, none)] ∧
    run (read (readAll {} [exFull]) exOff) = .ok [(.ex, some 12), (.ey, some 13), (.hx, some 13), (.hy, some 12)] := by decide

/-! ### C392: the run of a file -/

/-- C392: there is a run for every file. -/
def C392_claim : Prop := ∀ (B : Type) (f : File B), ∃ r, run (read {} f) = .ok r

theorem mapM_ok {α β : Type} (g : α → Except PyErr β) (l : List α) : (∃ r, l.mapM g = .ok r) ↔ ∀ a ∈ l, ∃ b, g a = .ok b := by
  induction l with
  | nil => exact ⟨fun _ _ h => (nomatch h), fun _ => ⟨[], rfl⟩⟩
  | cons a l ih =>
    rw [List.mapM_cons, List.forall_mem_cons, ← ih]
    cases hg : g a with
    | error e =>
      constructor
      · rintro ⟨r, h⟩
        cases h
      · rintro ⟨⟨b, h⟩, _⟩
        cases h
    | ok b =>
      cases hl : l.mapM g with
      | error e =>
        constructor
        · rintro ⟨r, h⟩
          cases h
        · rintro ⟨_, ⟨r, h⟩⟩
          cases h
      | ok r => exact ⟨fun _ => ⟨⟨b, rfl⟩, ⟨r, rfl⟩⟩, fun _ => ⟨b :: r, rfl⟩⟩

theorem source_ok (o : Obj B) (c : Comp) : (∃ s, source o c = .ok s) ↔ hasChannel o c = false ∨ OD.get? o.comps c ≠ none := by
  unfold source
  cases hasChannel o c with
  | false => simp
  | true =>
    cases h : OD.get? o.comps c <;> simp

/-- C392 (part): over all histories there is a run if and only if the last block zxx has no `Ch.Cmp` (or there is none), or there are blocks
zxy, zyx for the horizontal channels and tzx for the vertical one, in any file read. -/
theorem C392_iff_partial (l : List (File B)) : (∃ r, run (readAll {} l) = .ok r) ↔
    (∀ b, lastBlock l .zxx ≠ some ⟨true, b⟩) ∨
      ((Chan.ex ∈ chans (readAll {} l) → lastBlock l .zxy ≠ none ∧ lastBlock l .zyx ≠ none) ∧
        (Chan.hz ∈ chans (readAll {} l) → lastBlock l .tzx ≠ none)) := by
  unfold run
  rw [mapM_ok]
  have hm : ∀ c : Chan, (∃ b, (source (readAll {} l) c.comp).map (fun s => (c, s)) = .ok b) ↔
      hasChannel (readAll {} l) c.comp = false ∨ lastBlock l c.comp ≠ none := by
    intro c
    rw [← readAll_get, ← source_ok]
    cases source (readAll {} l) c.comp with
    | error e =>
      constructor
      · rintro ⟨b, h⟩
        cases h
      · rintro ⟨b, h⟩
        cases h
    | ok s => exact ⟨fun _ => ⟨s, rfl⟩, fun _ => ⟨_, rfl⟩⟩
  have hh : ∀ c, hasChannel (readAll ({} : Obj B) l) c = false ↔ ∀ b, lastBlock l .zxx ≠ some ⟨true, b⟩ := by
    intro c
    unfold hasChannel
    rw [readAll_get]
    cases lastBlock l .zxx with
    | none => simp
    | some x =>
      obtain ⟨c, r⟩ := x
      cases c <;> simp
  simp only [hm, hh]
  by_cases hz : ∀ b, lastBlock l .zxx ≠ some ⟨true, b⟩
  · exact ⟨fun _ => .inl hz, fun _ _ _ => .inl hz⟩
  · constructor
    · intro h
      right
      have hc : ∀ c ∈ chans (readAll ({} : Obj B) l), lastBlock l c.comp ≠ none := fun c m => (h c m).resolve_left hz
      refine ⟨fun m => ⟨hc .ex m, hc .ey ?_⟩, fun m => hc .hz m⟩
      unfold chans at m ⊢
      rcases List.mem_append.1 m with m | m
      · split at m
        · rename_i h1
          simp [h1]
        · cases m
      · split at m <;> simp at m
    · rintro (h | ⟨h1, h2⟩)
      · exact absurd h hz
      · intro c m
        right
        have hex : c ≠ .hz → Chan.ex ∈ chans (readAll ({} : Obj B) l) := by
          intro hn
          unfold chans at m ⊢
          rcases List.mem_append.1 m with m | m
          · split at m
            · rename_i h1
              simp [h1]
            · cases m
          · split at m
            · simp at m
              exact absurd m hn
            · cases m
        cases c with
        | ex => exact (h1 (hex (by decide))).1
        | ey => exact (h1 (hex (by decide))).2
        | hx => exact (h1 (hex (by decide))).2
        | hy => exact (h1 (hex (by decide))).1
        | hz => exact h2 m

/-- A file with a row of the remote components. -/
def exRemote : File Nat := ⟨[(.zxx, ⟨true, 1⟩), (.rxxr, ⟨true, 2⟩)], [.zxx, .rxxr]⟩

/-- C392 is false: whether there are blocks of a component is not asked. -/
theorem C392_refuted : ¬ C392_claim := by
  intro h
  obtain ⟨r, hr⟩ := h Nat exRemote
  have e : run (read {} exRemote) = .error .keyError := by decide
  rw [e] at hr
  cases hr

/-! ### C393: values of magnetic channels -/

/-- C393: of a line with two values, `a,b`, the second is that of the magnetic channel, also of hz. -/
def C393_claim : Prop := ∀ a b : Str, ',' ∉ a → ',' ∉ b → strip a ≠ [] → strip b ≠ [] →
  second (held (a ++ ',' :: b)) = .ok (strip b) ∧ secondHz (held (a ++ ',' :: b)) = .ok (some (strip b))

theorem held_two (a b : Str) (ha : ',' ∉ a) (hb : ',' ∉ b) (na : strip a ≠ []) (nb : strip b ≠ []) :
    held (a ++ ',' :: b) = .list [strip a, strip b] := by
  unfold held
  rw [if_pos (by simp), splitC_append b ha, splitC_none hb]
  simp [na, nb]

/-- C393 (part): so it is with hx and hy. -/
theorem C393_horizontal_partial (a b : Str) (ha : ',' ∉ a) (hb : ',' ∉ b) (na : strip a ≠ []) (nb : strip b ≠ []) :
    second (held (a ++ ',' :: b)) = .ok (strip b) := by
  rw [held_two a b ha hb na nb]
  rfl

theorem strip_sub (s : Str) (c : Char) (h : c ∈ strip s) : c ∈ s := by
  unfold strip rstrip lstrip at h
  have h1 := List.mem_reverse.1 h
  have h2 := List.mem_reverse.1 ((List.dropWhile_sublist _).subset h1)
  exact (List.dropWhile_sublist _).subset h2

/-- C393 (part): hz is never given a value, whatever is in the line. -/
theorem C393_hz_partial (s : Str) : secondHz (held s) = .ok none := by
  unfold held
  split
  · have hp : ∀ t ∈ ((splitC ',' s).map strip).filter (fun t => decide (t ≠ [])), ',' ∉ t := by
      intro t ht hc
      obtain ⟨u, hu, rfl⟩ := List.mem_map.1 (List.mem_filter.1 ht).1
      exact splitC_pieces ',' s u hu (strip_sub u _ hc)
    split
    · rfl
    · rename_i t e
      rw [e] at hp
      exact if_neg (hp t (List.mem_singleton.2 rfl))
    · exact if_neg (fun hm => hp [','] hm (by simp))
  · rename_i h
    exact if_neg h

/-- C393 is false: hz has no azimuth from a file. -/
theorem C393_refuted : ¬ C393_claim := by
  intro h
  have h2 := (h ['0'] ['9'] (by decide) (by decide) (by decide) (by decide)).2
  rw [C393_hz_partial] at h2
  cases h2

/-- C393 (part): from a line with one value hx and hy are given its second character. -/
theorem C393_one_partial (x y : Char) (t : Str) (h : ',' ∉ x :: y :: t) : second (held (x :: y :: t)) = .ok [y] := by
  unfold held
  rw [if_neg h]
  rfl

example : second (held "13.5, 103.5".toList) = .ok "103.5".toList ∧ second (held "13.5".toList) = .ok "3".toList ∧
    secondHz (held "13.5, 103.5".toList) = .ok none := by decide

end Verif.AvgUse
