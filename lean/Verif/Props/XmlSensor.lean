import Verif.Model.XmlSensor
import Verif.Props.XmlText
import Verif.Lemmas.Words

/-!
C327-C331: the sensors of channels in StationXML.
-/

namespace Verif.XmlSensor
open Verif.Text Verif.XmlText

variable {F : Type}

/-- The class of a channel. -/
def kind : Chan F → Kind
  | .electric _ _ _ => .electric
  | .magnetic _ => .magnetic
  | .aux _ => .aux

/-- Write the sensor of a channel and read it into a new channel of the class. -/
def trip (w : World F) (c : Chan F) : Except PyErr (Chan F) :=
  (toSensor w c).bind fun e => (toMt w e (Chan.new w (kind c))).2

/-- Numbers are written as one word that is read as the same number. -/
def Exact (w : World F) : Prop := ∀ x, w.float (w.fmt x) = some x ∧ w.fmt x ≠ [] ∧ ∀ c ∈ w.fmt x, ws c = false

/-- Ids that C119 is about. -/
def Clean (s : Str) : Prop := strip s = s ∧ ':' ∉ s ∧ ',' ∉ s

/-! ## Types -/

theorem toMt_type (w : World F) (e : Equip) (c : Chan F) {t : Str} (h : deduce e = some t) (ht : t ≠ []) :
    (toMt w e c).2 = fill w { e with type := some t } t c := by
  obtain ⟨x, s, rfl⟩ : ∃ x s, t = x :: s := by
    cases t with
    | nil => exact absurd rfl ht
    | cons x s => exact ⟨x, s, rfl⟩
  unfold toMt
  simp only [h]

theorem toMt_none (w : World F) (e : Equip) (c : Chan F) (h : deduce e = none ∨ deduce e = some []) :
    (toMt w e c).2 = .ok c := by
  unfold toMt
  rcases h with h | h <;> simp only [h]

/-- The words the library knows for magnetometers. -/
def MagType (t : Str) : Prop :=
  lower t = "magnetometer".toList ∨ lower t = "induction coil".toList ∨ lower t = "coil".toList

/-- The words the library knows for electrodes. -/
def ElType (t : Str) : Prop := lower t = "dipole".toList ∨ lower t = "electrode".toList

theorem mem_mag {t : Str} : lower t ∈ magTypes ↔ MagType t := by
  simp only [magTypes, List.map_cons, List.map_nil, List.mem_cons, List.not_mem_nil, or_false, MagType]

theorem mem_el {t : Str} : lower t ∈ elTypes ↔ ElType t := by
  simp only [elTypes, List.map_cons, List.map_nil, List.mem_cons, List.not_mem_nil, or_false, ElType]

theorem mem_understood {t : Str} : lower t ∈ understood ↔ lower t = "logger".toList ∨ MagType t ∨ ElType t := by
  simp only [understood, List.map_cons, List.map_nil, List.mem_cons, List.not_mem_nil, or_false, MagType, ElType, or_assoc]

theorem not_el_of_mag {t : Str} (h : MagType t) : ¬ ElType t := by
  unfold ElType
  rcases h with h | h | h <;> rw [h] <;> decide

theorem ne_nil_of_mag {t : Str} (h : MagType t) : t ≠ [] := by
  rintro rfl
  revert h; unfold MagType; decide

theorem ne_nil_of_el {t : Str} (h : ElType t) : t ≠ [] := by
  rintro rfl
  revert h; unfold ElType; decide

theorem not_bart_of_mag {t : Str} (h : MagType t) : lower t ≠ "bartington".toList := by
  rcases h with h | h | h <;> rw [h] <;> decide

theorem not_bart_of_el {t : Str} (h : ElType t) : lower t ≠ "bartington".toList := by
  rcases h with h | h <;> rw [h] <;> decide

theorem deduce_some {e : Equip} {t : Str} (h : e.type = some t) (ht : t ≠ []) (hb : lower t ≠ "bartington".toList) :
    deduce e = some t := by
  unfold deduce
  simp only [h, Option.getD_some]
  rw [if_neg hb, if_pos ht, ite_self]

theorem deduce_bart {e : Equip} {t : Str} (h : e.type = some t) (hb : lower t = "bartington".toList) :
    deduce e = some "magnetometer".toList := by
  unfold deduce
  simp only [h, Option.getD_some]
  rw [if_neg (by rw [hb]; decide), if_pos hb]

/-- Descriptions that tell the type. -/
def TellsMag (d : Str) : Prop :=
  (hasSub "bf-4".toList (lower d) = true ∧ hasSub "schlumberger".toList (lower d) = true) ∨
  d = "Bartington 3-Axis Fluxgate Sensor".toList

/-- Descriptions that tell the type. -/
def TellsEl (d : Str) : Prop := hasSub "electric".toList (lower d) = true ∧ hasSub "dipole".toList (lower d) = true

theorem fromDescription_nil {d : Str} (h1 : ¬ TellsMag d) (h2 : ¬ TellsEl d) : fromDescription d = [] := by
  unfold fromDescription
  unfold TellsMag at h1
  unfold TellsEl at h2
  rw [if_neg, if_neg, if_neg]
  · exact fun h => h1 (.inr h)
  · rw [Bool.and_eq_true]; exact h2
  · rw [Bool.and_eq_true]; exact fun h => h1 (.inl h)

theorem deduce_none {e : Equip} (h : e.type = none ∨ e.type = some []) (hd : ∀ d, e.description = some d → ¬ TellsMag d ∧ ¬ TellsEl d) :
    deduce e = e.type := by
  have hn : fromDescription (e.description.getD []) = [] := by
    cases hdesc : e.description with
    | none => exact fromDescription_nil (by unfold TellsMag; decide) (by unfold TellsEl; decide)
    | some d => exact fromDescription_nil (hd d hdesc).1 (hd d hdesc).2
  have ht : e.type.getD [] = [] := by rcases h with h | h <;> rw [h] <;> rfl
  unfold deduce
  simp only [ht, hn]
  rw [if_neg (by decide), if_neg (by decide), if_neg (by simp), if_neg (by simp)]

theorem fill_mag (w : World F) (e : Equip) {t : Str} (i : Instr) (h : MagType t) :
    fill w e t (.magnetic i) = .ok (.magnetic (fillMag e t)) := by
  unfold fill
  rw [if_pos (mem_mag.2 h)]

theorem fill_mag_other (w : World F) (e : Equip) {t : Str} (i : Instr) (h : ¬ MagType t) :
    fill w e t (.magnetic i) = .error .valueError := by
  unfold fill
  rw [if_neg (fun h' => h (mem_mag.1 h'))]
  split <;> rfl

theorem fill_el (w : World F) (e : Equip) {t : Str} (len : F) (p n : Instr) (h : ElType t) :
    fill w e t (.electric len p n) = fillElectric w e p n := by
  unfold fill
  rw [if_neg (fun h' => not_el_of_mag (mem_mag.1 h') h), if_pos (mem_el.2 h)]

theorem fill_aux (w : World F) (e : Equip) {t : Str} (i : Instr) (h1 : ¬ MagType t) (h2 : ¬ ElType t) :
    fill w e t (.aux i) = .ok (.aux (fillAux e t i)) := by
  unfold fill
  rw [if_neg (fun h' => h1 (mem_mag.1 h')), if_neg (fun h' => h2 (mem_el.1 h'))]

theorem fill_aux_other (w : World F) (e : Equip) {t : Str} (i : Instr) (h : MagType t ∨ ElType t) :
    fill w e t (.aux i) = .error .valueError := by
  unfold fill
  rcases h with h | h
  · rw [if_pos (mem_mag.2 h)]
  · rw [if_pos (mem_el.2 h)]
    split <;> rfl

/-! ## C327: electrodes -/

/-- The claim: length and electrodes of a dipole survive, their ids being clean and their types `electrode`. -/
def C327_claim : Prop :=
  ∀ (F : Type) (w : World F) (len : F) (p n : Instr) (a b : Str), Exact w → p.id = some a → n.id = some b → Clean a → Clean b →
    p.type = some "electrode".toList → n.type = some "electrode".toList → p.name = none → n.name = none →
    trip w (.electric len p n) = .ok (.electric len p n)

theorem ofElectrodes_eq (p n : Option Str) : ofElectrodes p n = p.filter (fun s => !s.isEmpty) := by
  unfold ofElectrodes
  match p with
  | none => rfl
  | some [] => rfl
  | some (_ :: _) => rfl

/-- Exactly what is read: the length and the ids; both electrodes have the manufacturer and model of the positive one, and
none of those of the negative one, even if the positive one has none. -/
theorem C327_trip_partial (w : World F) (len : F) (p n : Instr) (a b : Str) (hw : Exact w) (hp : p.id = some a)
    (hn : n.id = some b) (ha : Clean a) (hb : Clean b) :
    trip w (.electric len p n) = .ok (.electric len
      ⟨some a, p.manufacturer.filter (fun s => !s.isEmpty), some "electrode".toList, p.model.filter (fun s => !s.isEmpty), none⟩
      ⟨some b, p.manufacturer.filter (fun s => !s.isEmpty), some "electrode".toList, p.model.filter (fun s => !s.isEmpty), none⟩) := by
  have hE : ElType "dipole".toList := by unfold ElType; decide
  unfold trip toSensor
  simp only [Except.bind]
  rw [toMt_type w _ _ (t := "dipole".toList) (deduce_some rfl (by decide) (by decide)) (by decide)]
  simp only [kind, Chan.new]
  rw [fill_el w _ _ _ _ hE]
  unfold fillElectric
  have hid : electrodeIds ⟨some "dipole".toList, some (w.fmt len ++ " meters".toList), ofElectrodes p.manufacturer n.manufacturer,
      ofElectrodes p.model n.model, some (electrodeText p.id n.id)⟩ .new .new =
      .ok ({ Instr.new with id := some a }, { Instr.new with id := some b }) := by
    have hx : ∃ c s, electrodeText p.id n.id = c :: s := ⟨'p', _, rfl⟩
    obtain ⟨c, s, hx⟩ := hx
    unfold electrodeIds
    simp only [hx]
    rw [← hx, hp, hn, C119_partial a b ha.1 hb.1 ha.2.1 ha.2.2 hb.2.1 hb.2.2]
    rfl
  rw [hid]
  simp only [Except.bind]
  have hlen : dipoleLength w (some (w.fmt len ++ " meters".toList)) = .ok len := by
    have := words_append (x := ' ') "meters".toList (hw len).2.2 (hw len).2.1 ws_space
    unfold dipoleLength
    simp only
    rw [show " meters".toList = ' ' :: "meters".toList from by decide, this]
    simp only [(hw len).1, Option.getD_some]
  rw [hlen]
  simp only [fillElectrode, ofElectrodes_eq, Instr.new]

/-- Texts as numbers. -/
def exW : World Str := ⟨id, some, "0.0".toList⟩

/-- The claim is false: the negative electrode is given the manufacturer of the positive one. -/
theorem C327_refuted : ¬ C327_claim := by
  intro h
  let w : World Unit := ⟨fun _ => "0.0".toList, fun _ => some (), ()⟩
  have hw : Exact w := by
    rintro ⟨⟩
    exact ⟨rfl, by decide, by decide⟩
  have hc : Clean "1".toList ∧ Clean "2".toList := by unfold Clean; decide
  have hf := h Unit w () ⟨some "1".toList, some "A".toList, some "electrode".toList, none, none⟩
    ⟨some "2".toList, some "B".toList, some "electrode".toList, none, none⟩ "1".toList "2".toList hw rfl rfl hc.1 hc.2 rfl rfl rfl rfl
  rw [C327_trip_partial w () _ _ "1".toList "2".toList hw rfl rfl hc.1 hc.2] at hf
  simp only [Except.ok.injEq, Chan.electric.injEq, Instr.mk.injEq] at hf
  exact absurd hf.2.2.2.1 (by decide)

/-- The claim holds exactly for electrodes of one manufacturer and one model. -/
theorem C327_iff_partial (w : World F) (len : F) (p n : Instr) (a b : Str) (hw : Exact w) (hp : p.id = some a)
    (hn : n.id = some b) (ha : Clean a) (hb : Clean b) (hpt : p.type = some "electrode".toList)
    (hnt : n.type = some "electrode".toList) (hpn : p.name = none) (hnn : n.name = none) :
    trip w (.electric len p n) = .ok (.electric len p n) ↔
      p.manufacturer ≠ some [] ∧ p.model ≠ some [] ∧ n.manufacturer = p.manufacturer ∧ n.model = p.model := by
  rw [C327_trip_partial w len p n a b hw hp hn ha hb]
  obtain ⟨pid, pm, pt, pmo, pn⟩ := p
  obtain ⟨nid, nm, nt, nmo, nn⟩ := n
  simp only at hp hn hpt hnt hpn hnn
  subst hp hn hpt hnt hpn hnn
  have key : ∀ o : Option Str, o.filter (fun s => !s.isEmpty) = o ↔ o ≠ some [] := by
    intro o
    match o with
    | none => simp
    | some [] => simp [Option.filter]
    | some (c :: s) => simp [Option.filter]
  simp only [Except.ok.injEq, Chan.electric.injEq, Instr.mk.injEq, true_and, and_true]
  constructor
  · rintro ⟨⟨h1, h2⟩, h3, h4⟩
    exact ⟨(key _).1 h1, (key _).1 h2, by rw [← h3, h1], by rw [← h4, h2]⟩
  · rintro ⟨h1, h2, h3, h4⟩
    rw [(key _).2 h1, (key _).2 h2]
    exact ⟨⟨rfl, rfl⟩, h3.symm, h4.symm⟩

/-! ## C328: magnetometers -/

/-- The claim: a magnetometer that has a type can be read again, with its id, manufacturer and type. -/
def C328_claim : Prop :=
  ∀ (F : Type) (w : World F) (s : Instr) (t : Str), s.type = some t → t ≠ [] → (∀ m, s.model = some m → words m ≠ []) →
    ∃ s', trip w (.magnetic s) = .ok (.magnetic s') ∧ s'.id = s.id ∧ s'.manufacturer = s.manufacturer ∧ s'.type = s.type

theorem firstWord_ok {m : Option Str} (h : ∀ x, m = some x → words x ≠ []) : ∃ m', firstWord m = .ok m' := by
  match m with
  | none => exact ⟨none, rfl⟩
  | some [] => exact ⟨none, rfl⟩
  | some (c :: s) =>
    cases hw : words (c :: s) with
    | nil => exact absurd hw (h _ rfl)
    | cons x l =>
      refine ⟨some x, ?_⟩
      unfold firstWord
      simp only [hw]

theorem trip_mag (w : World F) (s : Instr) (h : ∀ x, s.model = some x → words x ≠ []) :
    ∃ m, trip w (.magnetic s) = (toMt w ⟨s.type, s.name, s.manufacturer, m, s.id⟩ (.magnetic .new)).2 := by
  obtain ⟨m, hm⟩ := firstWord_ok h
  refine ⟨m, ?_⟩
  unfold trip toSensor
  simp only [hm]
  rfl

/-- The claim is false: a fluxgate is not understood and taken for an auxiliary sensor. -/
theorem C328_refuted : ¬ C328_claim := by
  intro h
  obtain ⟨s', h1, -⟩ := h Str exW ⟨some "1".toList, none, some "fluxgate".toList, none, none⟩ "fluxgate".toList rfl (by decide)
    (fun m hm => (by cases hm))
  revert h1
  rw [show trip exW (.magnetic ⟨some "1".toList, none, some "fluxgate".toList, none, none⟩) = .error .valueError from by decide +kernel]
  exact fun h => (by cases h)

/-- The claim, with the name, holds for the types the library knows; a Bartington becomes a magnetometer. -/
theorem C328_known_partial (w : World F) (s : Instr) (t : Str) (ht : s.type = some t)
    (hm : ∀ m, s.model = some m → words m ≠ []) :
    (MagType t → ∃ m, trip w (.magnetic s) = .ok (.magnetic { s with model := some m })) ∧
    (lower t = "bartington".toList →
      ∃ m, trip w (.magnetic s) = .ok (.magnetic { s with model := some m, type := some "magnetometer".toList })) := by
  obtain ⟨m, hmm⟩ := trip_mag w s hm
  rw [hmm]
  constructor
  · intro h
    rw [toMt_type w _ _ (t := t) (deduce_some ht (ne_nil_of_mag h) (not_bart_of_mag h)) (ne_nil_of_mag h), fill_mag w _ _ h]
    unfold fillMag
    rw [← ht]
    exact ⟨_, rfl⟩
  · intro h
    rw [toMt_type w _ _ (t := "magnetometer".toList) (deduce_bart ht h) (by decide), fill_mag w _ _ (.inl (by decide))]
    exact ⟨_, rfl⟩

/-- A model of blanks raises IndexError. -/
theorem C328_blank_partial (w : World F) (s : Instr) (m : Str) (hm : s.model = some m) (hne : m ≠ []) (hb : words m = []) :
    trip w (.magnetic s) = .error .indexError := by
  unfold trip toSensor
  cases m with
  | nil => exact absurd rfl hne
  | cons c m =>
    simp only [hm, firstWord, hb]
    rfl

/-- Any other type raises ValueError. -/
theorem C328_other_partial (w : World F) (s : Instr) (t : Str) (ht : s.type = some t) (hne : t ≠ [])
    (hm : ∀ m, s.model = some m → words m ≠ []) (h1 : ¬ MagType t) (h2 : lower t ≠ "bartington".toList) :
    trip w (.magnetic s) = .error .valueError := by
  obtain ⟨m, hmm⟩ := trip_mag w s hm
  rw [hmm, toMt_type w _ _ (t := t) (deduce_some ht hne h2) hne, fill_mag_other w _ _ h1]

/-- Without a type nothing of the sensor is read, unless the name tells the type. -/
theorem C328_none_partial (w : World F) (s : Instr) (ht : s.type = none ∨ s.type = some [])
    (hm : ∀ m, s.model = some m → words m ≠ []) (hd : ∀ d, s.name = some d → ¬ TellsMag d ∧ ¬ TellsEl d) :
    trip w (.magnetic s) = .ok (.magnetic .new) := by
  obtain ⟨m, hmm⟩ := trip_mag w s hm
  rw [hmm, toMt_none]
  rw [deduce_none ht hd]
  exact ht

/-! ## C329: other sensors -/

/-- The claim: the sensor of an auxiliary channel survives, if it has a type. -/
def C329_claim : Prop :=
  ∀ (F : Type) (w : World F) (s : Instr) (t : Str), s.type = some t → t ≠ [] → trip w (.aux s) = .ok (.aux s)

/-- The claim is false: the name is not read, it is appended to the model. -/
theorem C329_refuted : ¬ C329_claim := by
  intro h
  have := h Str exW ⟨some "1".toList, none, some "thermometer".toList, some "T".toList, some "box".toList⟩ "thermometer".toList rfl
    (by decide)
  revert this
  decide +kernel

/-- Exactly what is read: id, manufacturer and type as they were, no name, and a model with the name at its end. -/
theorem C329_trip_partial (w : World F) (s : Instr) (t : Str) (ht : s.type = some t) (hne : t ≠ [])
    (h1 : ¬ MagType t) (h2 : ¬ ElType t) (h3 : lower t ≠ "bartington".toList) :
    trip w (.aux s) = .ok (.aux { s with name := none, model := some (showOpt s.model ++ [' '] ++ showOpt s.name) }) := by
  unfold trip toSensor
  simp only [Except.bind, kind, Chan.new]
  rw [toMt_type w _ _ (t := t) (deduce_some ht hne h3) hne, fill_aux w _ _ h1 h2]
  unfold fillAux
  rw [← ht]
  rfl

/-- So the model grows by a word whenever the channel is written and read again. -/
theorem C329_grows_partial (w : World F) (s : Instr) (t : Str) (ht : s.type = some t) (hne : t ≠ [])
    (h1 : ¬ MagType t) (h2 : ¬ ElType t) (h3 : lower t ≠ "bartington".toList) :
    (trip w (.aux s)).bind (trip w) =
      .ok (.aux { s with name := none, model := some (showOpt s.model ++ [' '] ++ showOpt s.name ++ " None".toList) }) := by
  rw [C329_trip_partial w s t ht hne h1 h2 h3]
  simp only [Except.bind]
  rw [C329_trip_partial w ⟨s.id, s.manufacturer, s.type, _, none⟩ t ht hne h1 h2 h3]
  simp only [showOpt, List.append_assoc]
  rfl

/-- Sensors of the types of magnetometers and electrodes raise ValueError. -/
theorem C329_other_partial (w : World F) (s : Instr) (t : Str) (ht : s.type = some t)
    (h : MagType t ∨ ElType t ∨ lower t = "bartington".toList) : trip w (.aux s) = .error .valueError := by
  unfold trip toSensor
  simp only [Except.bind, kind, Chan.new]
  rcases h with h | h | h
  · rw [toMt_type w _ _ (t := t) (deduce_some ht (ne_nil_of_mag h) (not_bart_of_mag h)) (ne_nil_of_mag h),
      fill_aux_other w _ _ (.inl h)]
  · rw [toMt_type w _ _ (t := t) (deduce_some ht (ne_nil_of_el h) (not_bart_of_el h)) (ne_nil_of_el h),
      fill_aux_other w _ _ (.inr h)]
  · rw [toMt_type w _ _ (t := "magnetometer".toList) (deduce_bart ht h) (by decide),
      fill_aux_other w _ _ (.inl (.inl (by decide)))]

/-! ## C330: reading changes the inventory -/

theorem fromDescription_cases (d : Str) :
    fromDescription d = [] ∨ fromDescription d = "magnetometer".toList ∨ fromDescription d = "dipole".toList := by
  unfold fromDescription
  split
  · exact .inr (.inl rfl)
  · split
    · exact .inr (.inr rfl)
    · split
      · exact .inr (.inl rfl)
      · exact .inl rfl

theorem deduce_deduce (e : Equip) : deduce { e with type := deduce e } = deduce e := by
  have known : ∀ t : Str, t = "magnetometer".toList ∨ t = "dipole".toList → deduce { e with type := some t } = some t := by
    intro t ht
    refine deduce_some rfl ?_ ?_ <;> rcases ht with rfl | rfl <;> decide
  by_cases h1 : lower (e.type.getD []) ∈ understood
  · have hd : deduce e = some (e.type.getD []) := by unfold deduce; simp only [if_pos h1]
    rw [hd]
    unfold deduce
    simp only [Option.getD_some, if_pos h1]
  · by_cases h2 : lower (e.type.getD []) = "bartington".toList
    · have hd : deduce e = some "magnetometer".toList := by unfold deduce; simp only [if_neg h1, if_pos h2]
      rw [hd, known _ (.inl rfl)]
    · by_cases h3 : e.type.getD [] ≠ []
      · have hd : deduce e = some (e.type.getD []) := by unfold deduce; simp only [if_neg h1, if_neg h2, if_pos h3]
        rw [hd]
        exact deduce_some rfl h3 h2
      · by_cases h4 : fromDescription (e.description.getD []) ≠ []
        · have hd : deduce e = some (fromDescription (e.description.getD [])) := by
            unfold deduce; simp only [if_neg h1, if_neg h2, if_neg h3, if_pos h4]
          rw [hd]
          rcases fromDescription_cases (e.description.getD []) with h | h
          · exact absurd h h4
          · exact known _ h
        · have hd : deduce e = e.type := by
            unfold deduce; simp only [if_neg h1, if_neg h2, if_neg h3, if_neg h4]
          rw [hd]
          exact hd

/-- Reading a sensor may change its type in the inventory, but reading it again gives the same and changes nothing more. -/
theorem C330_again (w : World F) (e : Equip) (c : Chan F) : toMt w (toMt w e c).1 c = toMt w e c := by
  unfold toMt
  simp only [deduce_deduce]

/-- Only the type is changed. -/
theorem C330_only (w : World F) (e : Equip) (c : Chan F) :
    ∃ t, (toMt w e c).1 = { e with type := t } ∧
      (∀ u, e.type = some u → u ≠ [] → lower u ≠ "bartington".toList → t = e.type) := by
  refine ⟨deduce e, rfl, fun u h1 h2 h3 => ?_⟩
  rw [deduce_some h1 h2 h3, h1]

/-! ## C331: lengths of dipoles -/

/-- The claim: a dipole that has no ids can be read, whatever its description. -/
def C331_claim : Prop :=
  ∀ (F : Type) (w : World F) (e : Equip) (t : Str), e.type = some t → ElType t → e.serial = none →
    ∃ len p n, (toMt w e (.new w .electric)).2 = .ok (.electric len p n)

/-- The claim is false: without a description AttributeError is raised. -/
theorem C331_refuted : ¬ C331_claim := by
  intro h
  obtain ⟨len, p, n, h⟩ := h Str exW ⟨some "dipole".toList, none, none, none, none⟩ "dipole".toList rfl (.inl (by decide)) rfl
  revert h
  rw [show (toMt exW ⟨some "dipole".toList, none, none, none, none⟩ (.new exW .electric)).2 = .error .attributeError from by
    decide +kernel]
  exact fun h => (by cases h)

/-- Exactly what happens: no description raises AttributeError, one of blanks IndexError; else the first word is the length if
it is a number, and the length is zero if not. -/
theorem C331_length_partial (w : World F) (e : Equip) (t : Str) (ht : e.type = some t) (hE : ElType t) (hs : e.serial = none) :
    (e.description = none → (toMt w e (.new w .electric)).2 = .error .attributeError) ∧
    (∀ d, e.description = some d → words d = [] → (toMt w e (.new w .electric)).2 = .error .indexError) ∧
    (∀ d x l, e.description = some d → words d = x :: l →
      (toMt w e (.new w .electric)).2 = .ok (.electric ((w.float x).getD w.zero)
        ⟨some [], e.manufacturer, some "electrode".toList, e.model, none⟩
        ⟨some [], e.manufacturer, some "electrode".toList, e.model, none⟩)) := by
  rw [toMt_type w _ _ (t := t) (deduce_some ht (ne_nil_of_el hE) (not_bart_of_el hE)) (ne_nil_of_el hE)]
  simp only [Chan.new]
  rw [fill_el w _ _ _ _ hE]
  unfold fillElectric electrodeIds
  simp only [hs, Except.bind]
  refine ⟨fun hd => ?_, fun d hd hwd => ?_, fun d x l hd hwd => ?_⟩
  · simp only [hd, dipoleLength]
  · simp only [hd, dipoleLength, hwd]
  · simp only [hd, dipoleLength, hwd, fillElectrode, Instr.new]

/-! ## The hypotheses are met -/

example : Clean "101".toList ∧ MagType "Coil".toList ∧ ElType "Electrode".toList := by
  refine ⟨by unfold Clean; decide, by unfold MagType; decide, by unfold ElType; decide⟩

example : trip exW (.magnetic ⟨some "2284".toList, some "Phoenix".toList, some "Induction Coil".toList, some "MTC-50".toList, none⟩) =
    .ok (.magnetic ⟨some "2284".toList, some "Phoenix".toList, some "Induction Coil".toList, some "MTC-50 None".toList, none⟩) := by
  decide +kernel

example : deduce ⟨none, some "Electric Dipole, 100 m".toList, none, none, none⟩ = some "dipole".toList ∧
    deduce ⟨some "Bartington".toList, none, none, none, none⟩ = some "magnetometer".toList := by decide +kernel

end Verif.XmlSensor
