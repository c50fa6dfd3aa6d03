import Verif.Model.Dicts

/-!
Vocabulary for the nested/flat dictionary properties: the leaves of a nested dict with their
paths, walking a path, and joining a path into a dotted key. Uses only the data type.
-/

namespace Verif.Dicts
variable {β : Type}

mutual
/-- Leaves of a value, each with its path of keys. -/
def treePaths : Tree β → List (List Str × β)
  | .leaf v => [([], v)]
  | .node kids => kidsPaths kids
/-- Leaves of a dictionary in order, each with its path of keys. -/
def kidsPaths : List (Str × Tree β) → List (List Str × β)
  | [] => []
  | (k, t) :: rest => (treePaths t).map (fun p => (k :: p.1, p.2)) ++ kidsPaths rest
end

/-- `sep.join(path)` -/
def join (sep : Char) : List Str → Str
  | [] => []
  | [k] => k
  | k :: k' :: ks => k ++ sep :: join sep (k' :: ks)

/-- `d[k1][k2]...[kn]`: `none` when a key is missing or a non-dict is entered. -/
def walk : Tree β → List Str → Option (Tree β)
  | t, [] => some t
  | .leaf _, _ :: _ => none
  | .node kids, k :: ks =>
    match OD.get? kids k with
    | some t => walk t ks
    | none => none

mutual
/-- Every key satisfies `P`, keys are distinct at each level and inner dicts are non-empty. -/
def TreeGood (P : Str → Prop) : Tree β → Prop
  | .leaf _ => True
  | .node kids => kids ≠ [] ∧ Good P kids
/-- As `TreeGood`, for a dictionary (which may be empty at the top). -/
def Good (P : Str → Prop) : List (Str × Tree β) → Prop
  | [] => True
  | (k, t) :: rest => P k ∧ k ∉ rest.map Prod.fst ∧ TreeGood P t ∧ Good P rest
end

/-- A key usable with separator `sep`: non-empty and free of `sep`. -/
def Plain (sep : Char) (k : Str) : Prop := k ≠ [] ∧ sep ∉ k

/-- Neither path is a prefix of the other. -/
def Incomparable (p q : List Str) : Prop := ¬ p <+: q ∧ ¬ q <+: p

end Verif.Dicts
