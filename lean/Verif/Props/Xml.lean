import Verif.Lemmas.Xml

/-!
Property C14: dictionary → XML → dictionary (mt_metadata/base/helpers.py).
-/

namespace Verif.Xml

/-- C14, full statement: `element_to_dict(dict_to_xml({cls: kids})) == {cls: kids}`. -/
def C14_claim : Prop :=
  ∀ (cls : String) (kids : List (String × J)), Distinct (.dict kids) →
    elementToDict (dictToXml cls kids) = (cls, .dict kids)

/-- C14 is false of the code: a one-element list comes back as a scalar. -/
theorem C14_refuted : ¬ C14_claim := by
  intro hc
  have h := hc "run" [("channels", .list [.str "ex".toList])] (by simp [Distinct, DistinctK, DistinctL])
  have h2 : (elementToDict (dictToXml "run" [("channels", .list [.str "ex".toList])])).2 =
      norm (.dict [("channels", .list [.str "ex".toList])]) := by
    exact value_fill "run" (.dict [("channels", .list [.str "ex".toList])])
      (by simp [Distinct, DistinctK, DistinctL])
  rw [h] at h2
  simp [norm, normK, normL] at h2

/-- C14, exact behaviour for every tree: what comes back is the normal form. -/
theorem C14_normal_form (cls : String) (kids : List (String × J)) (h : Distinct (.dict kids)) :
    elementToDict (dictToXml cls kids) = (cls, norm (.dict kids)) := by
  have := value_fill cls (.dict kids) h
  simp only [fill] at this
  simp [elementToDict, dictToXml, this]

/-- C14, partial: the round trip is exact precisely for stable trees (lists of at least two,
stripped non-empty strings, non-empty dicts, no key "item", no numbers).
Missing: all other trees, where it is false. -/
theorem C14_xml_roundtrip_partial (cls : String) (kids : List (String × J))
    (h : Distinct (.dict kids)) :
    elementToDict (dictToXml cls kids) = (cls, .dict kids) ↔ Stable (.dict kids) := by
  rw [C14_normal_form cls kids h]
  simp only [Prod.mk.injEq, true_and]
  exact ⟨stable_of_norm _, norm_stable _⟩

example : Distinct (.dict [("id", .str "mt01".toList), ("runs", .list [.str "a".toList,
      .dict [("n", .null)]])]) ∧
    Stable (.dict [("id", .str "mt01".toList), ("runs", .list [.str "a".toList,
      .dict [("n", .null)]])]) := by
  simp [Distinct, DistinctK, DistinctL, Stable, StableK, StableL, strip, isSpace]

end Verif.Xml
