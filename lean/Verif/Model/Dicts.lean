import Verif.Base.Py

/-!
Model of the nested/flat dictionary helpers of `mt_metadata/base/helpers.py`.

Simplifications: keys are strings (`Str`); separators are a single character (the code
uses "." everywhere and "/" is the other one in use); a value that is not a mapping is a `leaf`.
-/

namespace Verif.Dicts

/-- A nested dictionary value: a non-mapping or a dict. -/
inductive Tree (β : Type) where
  | leaf (v : β)
  | node (kids : List (Str × Tree β))

/-- A nested dictionary. -/
abbrev Dict (β : Type) := OD Str (Tree β)

variable {β : Type}

mutual
/-- One iteration of the loop of `flatten_dict` (helpers.py L559-567): a mapping is
flattened recursively (and passed through `dict(items)`), anything else is one item. -/
def flattenTree (sep : Char) (key : Str) : Tree β → List (Str × β)
  | .leaf v => [(key, v)]
  | .node kids => OD.ofPairs (flattenKids sep key kids)
/-- The `items` list of `flatten_dict` (helpers.py L558-567). A falsy `parent_key`
(`None` or the empty string) adds no prefix: both are `[]` here. -/
def flattenKids (sep : Char) (parent : Str) : List (Str × Tree β) → List (Str × β)
  | [] => []
  | (k, t) :: rest =>
    flattenTree sep (if parent = [] then k else parent ++ sep :: k) t ++ flattenKids sep parent rest
end

/-- `flatten_dict(meta_dict, parent_key, sep)` (helpers.py L545-568). -/
def flatten (sep : Char) (parent : Str) (d : Dict β) : OD Str β :=
  OD.ofPairs (flattenKids sep parent d)

/-- `key, *other = key.split(sep, 1)` for a one-character separator. -/
def splitOnce (sep : Char) : Str → Str × Option Str
  | [] => ([], none)
  | c :: cs =>
    if c = sep then ([], some cs)
    else let r := splitOnce sep cs; (c :: r.1, r.2)

theorem splitOnce_length (sep : Char) (s k r : Str) (h : splitOnce sep s = (k, some r)) :
    r.length < s.length := by
  induction s generalizing k with
  | nil => simp [splitOnce] at h
  | cons c cs ih =>
    unfold splitOnce at h
    split at h
    · simp only [Prod.mk.injEq, Option.some.injEq] at h; simp [← h.2]
    · simp only [Prod.mk.injEq] at h
      have := ih (splitOnce sep cs).1 (by rw [← h.2])
      simp only [List.length_cons]; omega

/-- `recursive_split_dict(key, value, remainder, sep)` (helpers.py L587-606), returning the
updated `remainder`. Note that the recursive call does not pass `sep` on, so below the first level
the separator is always ".". When the existing value under `key` is not a dict,
`remainder.setdefault` returns it and the next access raises: item assignment on it is a
TypeError, `.setdefault` an AttributeError. -/
def recSplit (sep : Char) (key : Str) (value : Tree β) (rem : Dict β) : Except PyErr (Dict β) :=
  match _h : splitOnce sep key with
  | (k, none) => .ok (OD.set rem k value)
  | (k, some r) =>
    match OD.get? rem k with
    | some (.leaf _) =>
      if (splitOnce '.' r).2.isSome then .error .attributeError else .error .typeError
    | some (.node d) => do
      let d' ← recSplit '.' r value d
      return OD.set rem k (.node d')
    | none => do
      let d' ← recSplit '.' r value []
      return OD.set rem k (.node d')
  termination_by key.length
  decreasing_by all_goals exact splitOnce_length sep key k r _h

/-- `structure_dict(meta_dict, sep)` (helpers.py L714-728). -/
def structureD (sep : Char) (flat : OD Str (Tree β)) : Except PyErr (Dict β) :=
  flat.foldlM (fun acc p => recSplit sep p.1 p.2 acc) []

end Verif.Dicts
