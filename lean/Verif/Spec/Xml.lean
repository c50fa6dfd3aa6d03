import Verif.Model.Xml

/-! Vocabulary for the XML round trip: distinct keys, the normal form, stable values. -/

namespace Verif.Xml

mutual
/-- Every dict has distinct keys (as Python dicts do). -/
def Distinct : J → Prop
  | .dict kids => (kids.map Prod.fst).Nodup ∧ DistinctK kids
  | .list l => DistinctL l
  | _ => True
def DistinctL : List J → Prop
  | [] => True
  | v :: l => Distinct v ∧ DistinctL l
def DistinctK : List (String × J) → Prop
  | [] => True
  | (_, v) :: l => Distinct v ∧ DistinctK l
end

mutual
/-- What a value looks like after one trip through XML: empty containers and empty strings become
`None`, numbers become strings, strings are stripped, one-element lists lose their list, and a
dict with a key "item" is replaced by that key's value. -/
def norm : J → J
  | .null => .null
  | .str s => if s = [] then .null else .str (strip s)
  | .num s => if s = [] then .null else .str (strip s)
  | .list l => match normL l with
    | [] => .null
    | [v] => v
    | vs => .list vs
  | .dict kids => match normK kids with
    | [] => .null
    | ks => match ks.find? (fun p => p.1 = "item") with
      | some p => p.2
      | none => .dict ks
def normL : List J → List J
  | [] => []
  | v :: l => norm v :: normL l
def normK : List (String × J) → List (String × J)
  | [] => []
  | (k, v) :: l => (k, norm v) :: normK l
end

mutual
/-- Values that survive the trip: no numbers, strings non-empty and already stripped, lists of
at least two entries, non-empty dicts without a key "item". -/
def Stable : J → Prop
  | .null => True
  | .str s => s ≠ [] ∧ strip s = s
  | .num _ => False
  | .list l => 2 ≤ l.length ∧ StableL l
  | .dict kids => kids ≠ [] ∧ "item" ∉ kids.map Prod.fst ∧ StableK kids
def StableL : List J → Prop
  | [] => True
  | v :: l => Stable v ∧ StableL l
def StableK : List (String × J) → Prop
  | [] => True
  | (_, v) :: l => Stable v ∧ StableK l
end

end Verif.Xml
