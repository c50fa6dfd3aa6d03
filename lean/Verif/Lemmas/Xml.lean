import Verif.Lemmas.OD
import Verif.Spec.Xml

/-! Helper lemmas for the XML round trip. -/

namespace Verif.Xml
open OD

theorem values_append (a b : List Elem) : values (a ++ b) = values a ++ values b := by
  induction a with
  | nil => simp [values]
  | cons e a ih => cases e; simp [values, ih]

/-- Distinct tags: every group is a singleton. -/
theorem group_distinct (l : List (String × J)) (d : OD String (List J))
    (h : (keys d ++ l.map Prod.fst).Nodup) :
    l.foldl addChild d = d ++ l.map (fun p => (p.1, [p.2])) := by
  induction l generalizing d with
  | nil => simp
  | cons p l ih =>
    have hp : p.1 ∉ keys d := by
      simp only [List.map_cons, List.nodup_append] at h
      intro hm; exact h.2.2 _ hm _ (by simp) rfl
    have hg : addChild d p = d ++ [(p.1, [p.2])] := by
      simp only [addChild, (get?_eq_none_iff d p.1).2 hp, set_of_not_mem _ hp]
    rw [List.foldl_cons, hg, ih]
    · simp
    · simpa using h

/-- All tags equal: one group with everything in order. -/
theorem group_items (t : String) (l : List J) (vs : List J) :
    (l.map (fun v => (t, v))).foldl addChild [(t, vs)] = [(t, vs ++ l)] := by
  induction l generalizing vs with
  | nil => simp
  | cons v l ih =>
    have : addChild [(t, vs)] (t, v) = [(t, vs ++ [v])] := by
      simp [addChild, get?_cons, OD.set]
    rw [List.map_cons, List.foldl_cons, this, ih]; simp

theorem values_fillKids (kids : List (String × J)) :
    values (fillKids kids) = kids.map (fun p => (p.1, value (fill p.1 p.2))) := by
  induction kids with
  | nil => simp [fillKids, values]
  | cons p kids ih =>
    obtain ⟨k, v⟩ := p
    cases v <;> simp [fillKids, fill, values, ih]

theorem values_fillItems (l : List J) :
    values (fillItems l) = l.map (fun v => ("item", value (fill "item" v))) := by
  induction l with
  | nil => simp [fillItems, values]
  | cons v l ih => cases v <;> simp [fillItems, fill, values, ih]

theorem normK_keys (kids : List (String × J)) : (normK kids).map Prod.fst = kids.map Prod.fst := by
  induction kids with
  | nil => rfl
  | cons p kids ih => obtain ⟨k, v⟩ := p; simp [normK, ih]

theorem normL_length (l : List J) : (normL l).length = l.length := by
  induction l with
  | nil => rfl
  | cons v l ih => simp [normL, ih]

theorem get?_eq_find? (d : OD String J) (k : String) :
    get? d k = (d.find? (fun p => p.1 = k)).map Prod.snd := by
  induction d with
  | nil => rfl
  | cons p d ih =>
    rw [get?_cons]
    by_cases h : p.1 = k
    · simp [h]
    · simp [h, ih]

mutual
theorem value_fill (tag : String) : ∀ j : J, Distinct j → value (fill tag j) = norm j
  | .null, _ => by simp [fill, value, norm]
  | .str s, _ => by cases s <;> simp [fill, value, norm]
  | .num s, _ => by cases s <;> simp [fill, value, norm]
  | .list l, h => by
    have hm := value_fillItems l h
    cases l with
    | nil => simp [fill, fillItems, value, norm, normL]
    | cons v l =>
      have hv := values_fillItems (v :: l)
      have hmap : (v :: l).map (fun v => ("item", value (fill "item" v))) =
          (normL (v :: l)).map (fun v => ("item", v)) := by
        rw [← hm]; simp
      rw [hmap] at hv
      simp only [fillItems] at hv
      simp only [fill, fillItems, value, norm]
      rw [hv]
      simp only [normL, List.map_cons, List.foldl_cons]
      have h1 : addChild [] ("item", norm v) = [("item", [norm v])] := by
        simp [addChild, OD.set]
      rw [h1, group_items]
      simp only [List.map_cons, List.map_nil, get?_cons, if_true]
      cases hl : normL l with
      | nil => simp [single]
      | cons w ws => simp [single]
  | .dict kids, h => by
    have hm := value_fillKids kids h.2
    cases kids with
    | nil => simp [fill, fillKids, value, norm, normK]
    | cons p kids =>
      obtain ⟨k, v⟩ := p
      have hv := values_fillKids ((k, v) :: kids)
      rw [hm] at hv
      simp only [fillKids] at hv
      simp only [fill, fillKids, value, norm]
      rw [hv, group_distinct _ [] (by simpa [normK_keys] using h.1)]
      have h2 : (([] : OD String (List J)) ++ (normK ((k, v) :: kids)).map
          (fun p => (p.1, [p.2]))).map (fun p => (p.1, single p.2)) = normK ((k, v) :: kids) := by
        simp [single, Function.comp_def]
      rw [h2, get?_eq_find?]
      simp only [normK]
      cases List.find? (fun p => decide (p.fst = "item")) ((k, norm v) :: normK kids) <;> simp
theorem value_fillItems : ∀ l : List J, DistinctL l →
    l.map (fun v => value (fill "item" v)) = normL l
  | [], _ => rfl
  | v :: l, h => by
    simp only [DistinctL] at h
    simp [normL, value_fill "item" v h.1, value_fillItems l h.2]
theorem value_fillKids : ∀ l : List (String × J), DistinctK l →
    l.map (fun p => (p.1, value (fill p.1 p.2))) = normK l
  | [], _ => rfl
  | (k, v) :: l, h => by
    simp only [DistinctK] at h
    simp [normK, value_fill k v h.1, value_fillKids l h.2]
end

mutual
theorem norm_stable : ∀ j : J, Stable j → norm j = j
  | .null, _ => rfl
  | .str s, h => by simp [Stable] at h; simp [norm, h]
  | .num s, h => by simp [Stable] at h
  | .list l, h => by
    simp only [Stable] at h
    rw [norm, normL_stable l h.2]
    match l, h.1 with
    | a :: b :: l, _ => rfl
  | .dict kids, h => by
    simp only [Stable] at h
    rw [norm, normK_stable kids h.2.2]
    match kids, h.1, h.2.1 with
    | p :: kids, _, hi =>
      have : (p :: kids).find? (fun p => decide (p.fst = "item")) = none := by
        rw [List.find?_eq_none]
        intro q hq hc
        have hc' : q.1 = "item" := by simpa using hc
        exact hi (hc' ▸ List.mem_map_of_mem (f := Prod.fst) hq)
      simp [this]
theorem normL_stable : ∀ l : List J, StableL l → normL l = l
  | [], _ => rfl
  | v :: l, h => by simp only [StableL] at h; simp [normL, norm_stable v h.1, normL_stable l h.2]
theorem normK_stable : ∀ l : List (String × J), StableK l → normK l = l
  | [], _ => rfl
  | (k, v) :: l, h => by
    simp only [StableK] at h; simp [normK, norm_stable v h.1, normK_stable l h.2]
end

mutual
/-- Number of nodes. -/
def size : J → Nat
  | .list l => 1 + sizeL l
  | .dict kids => 1 + sizeK kids
  | _ => 1
def sizeL : List J → Nat
  | [] => 0
  | v :: l => size v + sizeL l
def sizeK : List (String × J) → Nat
  | [] => 0
  | (_, v) :: l => size v + sizeK l
end

theorem size_pos (j : J) : 0 < size j := by cases j <;> simp [size] <;> omega

theorem size_find (ks : List (String × J)) (p : String × J)
    (h : ks.find? (fun p => decide (p.fst = "item")) = some p) : size p.2 ≤ sizeK ks := by
  induction ks with
  | nil => simp at h
  | cons q ks ih =>
    obtain ⟨k, v⟩ := q
    simp only [List.find?_cons] at h
    simp only [sizeK]
    split at h
    · simp only [Option.some.injEq] at h; subst h; simp
    · have := ih h; omega

mutual
theorem size_norm : ∀ j : J, size (norm j) ≤ size j
  | .null => by simp [norm]
  | .str s => by simp only [norm]; split <;> simp [size]
  | .num s => by simp only [norm]; split <;> simp [size]
  | .list l => by
    have h := size_normL l
    simp only [norm, size]
    split
    · simp [size]
    · next v hv => rw [hv] at h; simp [sizeL] at h; omega
    · next vs _ _ => simp [size]; omega
  | .dict kids => by
    have h := size_normK kids
    simp only [norm, size]
    split
    · simp [size]
    · split
      · next p hp => have := size_find _ _ hp; omega
      · simp [size]; omega
theorem size_normL : ∀ l : List J, sizeL (normL l) ≤ sizeL l
  | [] => by simp [normL]
  | v :: l => by
    have h1 := size_norm v
    have h2 := size_normL l
    simp only [normL, sizeL]; omega
theorem size_normK : ∀ l : List (String × J), sizeK (normK l) ≤ sizeK l
  | [] => by simp [normK]
  | (k, v) :: l => by
    have h1 := size_norm v
    have h2 := size_normK l
    simp only [normK, sizeK]; omega
end

mutual
theorem stable_of_norm : ∀ j : J, norm j = j → Stable j
  | .null, _ => trivial
  | .str s, h => by
    simp only [norm] at h
    split at h
    · simp at h
    · next hs => simp only [J.str.injEq] at h; exact ⟨hs, h⟩
  | .num s, h => by simp only [norm] at h; split at h <;> simp at h
  | .list l, h => by
    simp only [Stable]
    simp only [norm] at h
    split at h
    · simp at h
    · next v hv =>
      have h1 := size_normL l
      rw [hv, h] at h1
      simp only [sizeL, size] at h1
      omega
    · next vs h0 h1 =>
      simp only [J.list.injEq] at h
      refine ⟨?_, stableL_of_norm l h⟩
      rw [h] at h0 h1
      match l, h0, h1 with
      | [], h0, _ => exact absurd rfl h0
      | [v], _, h1 => exact absurd rfl (h1 v)
      | _ :: _ :: _, _, _ => simp
  | .dict kids, h => by
    simp only [Stable]
    simp only [norm] at h
    split at h
    · simp at h
    · next ks hks =>
      split at h
      · next p hp =>
        have h1 := size_find _ _ hp
        have h2 := size_normK kids
        rw [h] at h1
        simp [size] at h1
        omega
      · next hf =>
        simp only [J.dict.injEq] at h
        rw [h] at hf hks
        refine ⟨hks, ?_, stableK_of_norm kids h⟩
        intro hm
        obtain ⟨q, hq, e⟩ := List.mem_map.1 hm
        rw [List.find?_eq_none] at hf
        exact hf q hq (by simp [e])
theorem stableL_of_norm : ∀ l : List J, normL l = l → StableL l
  | [], _ => trivial
  | v :: l, h => by
    simp only [normL, List.cons.injEq] at h
    exact ⟨stable_of_norm v h.1, stableL_of_norm l h.2⟩
theorem stableK_of_norm : ∀ l : List (String × J), normK l = l → StableK l
  | [], _ => trivial
  | (k, v) :: l, h => by
    simp only [normK, List.cons.injEq, Prod.mk.injEq, true_and] at h
    exact ⟨stable_of_norm v h.1, stableK_of_norm l h.2⟩
end

end Verif.Xml
