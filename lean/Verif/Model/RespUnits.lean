import Verif.Base.Py

/-! # Units of a channel response over assignments

`mt_metadata/timeseries/filters/channel_response.py` L142-L153 `validate_filters_list`, L155-L174
`update_units_and_normalization_frequency_from_filters_list`, L214-L232 `_check_consistency_of_units`.

Simplifications: filters are of supported types and have their units in and out; the pass band is left out (it is in `NormFreq`). The list and
its filters are objects: what is done to them in place does not go through the response. -/

namespace Verif.RespUnits

/-- A filter, as to its units. -/
structure Filt (U : Type) where
  uin : U
  uout : U
  deriving DecidableEq

/-- A response. -/
structure Resp (U : Type) where
  filters : List (Filt U)
  uin : U
  uout : U
  deriving DecidableEq

variable {U : Type} [DecidableEq U]

/-- L220-L230: the loop; `u` are the previous units. -/
def fits (u : U) : List (Filt U) → Bool
  | [] => true
  | f :: l => decide (f.uin = u) && fits f.uout l

/-- L214-L232 `_check_consistency_of_units` -/
def check : List (Filt U) → Bool
  | [] => true
  | f :: l => fits f.uout l

/-- L155-L174: after each assignment, of whatever field. -/
def refresh (r : Resp U) : Resp U :=
  match r.filters with
  | [] => r
  | f :: l => { r with
      uin := f.uin
      uout := ((f :: l).getLast (List.cons_ne_nil f l)).uout }

/-- What is done with a response: filters assigned, units assigned, another field assigned, the list or its filters changed in place. -/
inductive Op (U : Type) where
  | filters (l : List (Filt U))
  | units (uin uout : U)
  | other
  | edit (g : List (Filt U) → List (Filt U))

/-- The response afterwards, and the error, if any. Units are assigned one after the other. -/
def step (r : Resp U) : Op U → Resp U × Option PyErr
  | .filters l => if check l then (refresh { r with filters := l }, none) else (r, some .valueError)
  | .units u v => (refresh { refresh { r with uin := u } with uout := v }, none)
  | .other => (refresh r, none)
  | .edit g => ({ r with filters := g r.filters }, none)

/-- Several, one after another; errors are caught by the caller. -/
def steps (r : Resp U) (l : List (Op U)) : Resp U := l.foldl (fun r o => (step r o).1) r

end Verif.RespUnits
