import Verif.Base.Num

/-!
Model of `mt_metadata/utils/location_helpers.py`. Numbers are exact (see `Verif.Base.Num`).
-/

namespace Verif.Location

/-- L10-L50 `convert_position_float2str`, for a finite number: degrees, minutes and seconds as
printed. `int` truncates; the seconds are rounded to four decimals. -/
def dms (x : ℚ) : ℤ × ℕ × ℚ :=
  let deg := trunc x
  let sign : ℤ := if deg < 0 then -1 else 1
  let deg := deg.natAbs
  let minutes := (|x| - deg) * 60
  let sec := roundDec 4 ((minutes - trunc minutes) * 60)
  let minutes' := if 60 ≤ sec then minutes + 1 else minutes
  let sec' := if 60 ≤ sec then 0 else sec
  let deg' := if trunc minutes' = 60 then deg + 1 else deg
  let minutes'' := if trunc minutes' = 60 then 0 else minutes'
  (sign * deg', (trunc minutes'').natAbs, sec')

/-- L46: the position string. -/
def float2str (x : ℚ) : Str :=
  let p := dms x
  showInt p.1 ++ ':' :: (padZero 2 (showNat p.2.1) ++ ':' :: showFixed 6 p.2.2)

/-- L53-L102 `convert_position_str2float`. `_assert_minutes` and `_assert_seconds` (L105-L152) only
log and return their argument. -/
def str2float : Option Str → Except PyErr Fl
  | none => .ok (.fin 0)
  | some s =>
    if s = "None".toList then .ok (.fin 0)
    else
      match splitOn ':' s with
      | [a, b, c] =>
        match pyFloat a, pyFloat b, pyFloat c with
        | .ok deg, .ok minutes, .ok sec =>
          let v := (deg.abs.add (minutes.divPos 60)).add (sec.divPos 3600)
          .ok (if deg.isNeg then v.neg else v)
        | .error e, _, _ => .error e
        | _, .error e, _ => .error e
        | _, _, .error e => .error e
      | _ => .error .valueError

/-- What `validate_position` can be given. -/
inductive Value where
  | none
  | num (x : Fl)
  | str (s : Str)
  /-- Anything that `float` rejects with `TypeError`, such as a list. -/
  | other

/-- L177-L186: the conversion step of `validate_position`. -/
def convert : Value → Except PyErr Fl
  | .none => .ok (.fin 0)
  | .num x => .ok x
  | .str s =>
    if s = "None".toList then .ok (.fin 0)
    else if ':' ∈ s then str2float (some s)
    else pyFloat s
  | .other => .error .typeError

/-- L155-L194 `validate_position`. For `None` and `"None"` the code returns before the range test,
which `0.0` passes. -/
def validate (v : Value) (kind : Str) : Except PyErr Fl :=
  if ¬ (kind = "latitude".toList ∨ kind = "longitude".toList) then .error .valueError
  else
    match convert v with
    | .error e => .error e
    | .ok x =>
      if x.abs.leQ 90 = false ∧ kind = "latitude".toList then .error .valueError
      else if x.abs.leQ 180 = false ∧ kind = "longitude".toList then .error .valueError
      else .ok x

end Verif.Location
