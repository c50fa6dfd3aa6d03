import Verif.Base.Py
import Mathlib.Data.Rat.Floor
import Mathlib.Algebra.Order.Floor.Ring
import Mathlib.Tactic.Linarith
import Mathlib.Tactic.NormNum
import Mathlib.Tactic.FieldSimp
import Mathlib.Tactic.Ring

/-!
Python numbers and their decimal strings, shared by the model files. A float is a rational, an
infinity or NaN: rounding to 53 bits and the sign of zero are not modelled.
-/

namespace Verif

/-- A Python `float`: exact, see the header. -/
inductive Fl where
  | fin (q : ℚ)
  /-- `inf`, `-inf` (negative: `true`). -/
  | inf (neg : Bool)
  | nan
  deriving DecidableEq

namespace Fl

/-- `abs(x)`. -/
def abs : Fl → Fl
  | fin q => fin |q|
  | inf _ => inf false
  | nan => nan

/-- `-x`. -/
def neg : Fl → Fl
  | fin q => fin (-q)
  | inf b => inf (!b)
  | nan => nan

/-- `x + y`. -/
def add : Fl → Fl → Fl
  | nan, _ => nan
  | _, nan => nan
  | fin p, fin q => fin (p + q)
  | inf b, fin _ => inf b
  | fin _, inf b => inf b
  | inf b, inf c => if b = c then inf b else nan

/-- `x / d` for a positive number `d`. -/
def divPos (x : Fl) (d : ℚ) : Fl :=
  match x with
  | fin p => fin (p / d)
  | inf b => inf b
  | nan => nan

/-- `x < 0`. -/
def isNeg : Fl → Bool
  | fin q => decide (q < 0)
  | inf b => b
  | nan => false

/-- `x <= q` for a number `q`: false for NaN. -/
def leQ (x : Fl) (q : ℚ) : Bool :=
  match x with
  | fin p => decide (p ≤ q)
  | inf b => b
  | nan => false

end Fl

/-- Python's `int(q)`: truncation towards zero. -/
def trunc (q : ℚ) : ℤ := if q < 0 then -⌊-q⌋ else ⌊q⌋

/-- Rounding to the nearest integer, halves to even (`np.rint`, `round`). -/
def roundEven (q : ℚ) : ℤ :=
  if q - ⌊q⌋ < 1 / 2 then ⌊q⌋
  else if 1 / 2 < q - ⌊q⌋ then ⌊q⌋ + 1
  else if ⌊q⌋ % 2 = 0 then ⌊q⌋ else ⌊q⌋ + 1

/-- `np.round(q, k)`. -/
def roundDec (k : ℕ) (q : ℚ) : ℚ := (roundEven (q * 10 ^ k) : ℚ) / 10 ^ k

/-- `str(n)` for a natural number. -/
def showNat (n : ℕ) : Str := Nat.toDigits 10 n

/-- `str(n)`, also `f"{n}"`. -/
def showInt (n : ℤ) : Str := if n < 0 then '-' :: showNat n.natAbs else showNat n.natAbs

/-- Zeros on the left up to the width `k`. -/
def padZero (k : ℕ) (s : Str) : Str := List.replicate (k - s.length) '0' ++ s

/-- `n / 10^k` with `k` decimals. -/
def showFixedNat (k n : ℕ) : Str :=
  showNat (n / 10 ^ k) ++ '.' :: padZero k (showNat (n % 10 ^ k))

/-- `f"{q:.{k}f}"` for `k > 0`. -/
def showFixed (k : ℕ) (q : ℚ) : Str :=
  let n := roundEven (q * 10 ^ k)
  if n < 0 then '-' :: showFixedNat k n.natAbs else showFixedNat k n.natAbs

/-- `str.split(sep)` for a one-character separator. -/
def splitOn (sep : Char) : Str → List Str
  | [] => [[]]
  | c :: cs =>
    if c = sep then [] :: splitOn sep cs
    else
      match splitOn sep cs with
      | [] => [[c]]
      | w :: ws => (c :: w) :: ws

/-- `str.strip()`. -/
def stripWs (s : Str) : Str :=
  ((s.dropWhile Char.isWhitespace).reverse.dropWhile Char.isWhitespace).reverse

/-- The digits of a natural number. -/
def digitsVal (s : Str) : ℕ := Nat.ofDigitChars 10 s 0

/-- A nonempty string of digits. -/
def parseDigits (s : Str) : Option ℕ :=
  if s ≠ [] ∧ s.all Char.isDigit then some (digitsVal s) else none

/-- The exponent part of a float literal, possibly absent. -/
def parseExp : Str → Option ℤ
  | [] => some 0
  | c :: cs =>
    if c = 'e' ∨ c = 'E' then
      match cs with
      | '-' :: r => (parseDigits r).map (fun n => -(n : ℤ))
      | '+' :: r => (parseDigits r).map (fun n => (n : ℤ))
      | r => (parseDigits r).map (fun n => (n : ℤ))
    else none

/-- An unsigned float literal. -/
def parseUnsigned (s : Str) : Option ℚ :=
  let ip := s.takeWhile Char.isDigit
  match s.dropWhile Char.isDigit with
  | '.' :: r =>
    let fp := r.takeWhile Char.isDigit
    if ip = [] ∧ fp = [] then none
    else (parseExp (r.dropWhile Char.isDigit)).map
      (fun k => (digitsVal (ip ++ fp) : ℚ) / 10 ^ fp.length * (10 : ℚ) ^ k)
  | r => if ip = [] then none else (parseExp r).map (fun k => (digitsVal ip : ℚ) * (10 : ℚ) ^ k)

/-- A float literal, an infinity or NaN, without sign. -/
def parseAbs (s : Str) : Option Fl :=
  let l := s.map Char.toLower
  if l = "nan".toList then some .nan
  else if l = "inf".toList ∨ l = "infinity".toList then some (.inf false)
  else (parseUnsigned s).map .fin

/-- `float(s)` for a string; digits are ASCII and underscores between digits are not modelled. -/
def pyFloat (s : Str) : Except PyErr Fl :=
  match stripWs s with
  | '-' :: r => match parseAbs r with
    | some x => .ok x.neg
    | none => .error .valueError
  | '+' :: r => match parseAbs r with
    | some x => .ok x
    | none => .error .valueError
  | r => match parseAbs r with
    | some x => .ok x
    | none => .error .valueError

/-! ### Facts -/

theorem roundEven_near (q : ℚ) : |(roundEven q : ℚ) - q| ≤ 1 / 2 := by
  have h1 := Int.floor_le q
  have h2 := Int.lt_floor_add_one q
  unfold roundEven
  rw [abs_le]
  split_ifs <;> push_cast <;> constructor <;> linarith

theorem roundEven_int (n : ℤ) : roundEven (n : ℚ) = n := by
  unfold roundEven
  rw [Int.floor_intCast]
  norm_num

theorem roundEven_nonneg {q : ℚ} (h : 0 ≤ q) : 0 ≤ roundEven q := by
  have hf : 0 ≤ ⌊q⌋ := Int.floor_nonneg.2 h
  unfold roundEven
  split_ifs <;> omega

theorem roundEven_le {q : ℚ} {n : ℤ} (h : q ≤ n) : roundEven q ≤ n := by
  have h1 := roundEven_near q
  rw [abs_le] at h1
  by_contra hc
  have hc : n + 1 ≤ roundEven q := by omega
  have : ((n + 1 : ℤ) : ℚ) ≤ (roundEven q : ℚ) := Int.cast_le.2 hc
  push_cast at this
  linarith [h1.2]

theorem digit_of_mem_showNat {n : ℕ} {c : Char} (h : c ∈ showNat n) : c.isDigit = true :=
  Nat.isDigit_of_mem_toDigits (by omega) (by omega) h

theorem showNat_ne_nil (n : ℕ) : showNat n ≠ [] := Nat.toDigits_ne_nil

theorem digitsVal_showNat (n : ℕ) : digitsVal (showNat n) = n := Nat.ofDigitChars_ten_toDigits

theorem digitsVal_padZero (k : ℕ) (s : Str) : digitsVal (padZero k s) = digitsVal s := by
  unfold digitsVal padZero
  rw [Nat.ofDigitChars_append, Nat.ofDigitChars_replicate_zero, Nat.mul_zero]

theorem digit_of_mem_padZero {k : ℕ} {s : Str} {c : Char} (hs : ∀ c ∈ s, c.isDigit = true)
    (h : c ∈ padZero k s) : c.isDigit = true := by
  unfold padZero at h
  rcases List.mem_append.1 h with h | h
  · rw [(List.mem_replicate.1 h).2]; rfl
  · exact hs c h

theorem length_padZero {k : ℕ} {s : Str} (h : s.length ≤ k) : (padZero k s).length = k := by
  unfold padZero
  rw [List.length_append, List.length_replicate]
  omega

theorem length_showNat_le {n k : ℕ} (h : n < 10 ^ k) (hk : 0 < k) : (showNat n).length ≤ k :=
  (Nat.length_toDigits_le_iff (by omega) hk).2 h

theorem takeWhile_all {p : Char → Bool} {s : Str} (h : ∀ c ∈ s, p c = true) (t : Str) :
    (s ++ t).takeWhile p = s ++ t.takeWhile p := by
  induction s with
  | nil => rfl
  | cons a s ih =>
    rw [List.cons_append, List.takeWhile_cons_of_pos (h a (by simp)),
      ih (fun c hc => h c (by simp [hc]))]
    rfl

theorem dropWhile_all {p : Char → Bool} {s : Str} (h : ∀ c ∈ s, p c = true) (t : Str) :
    (s ++ t).dropWhile p = t.dropWhile p := by
  induction s with
  | nil => rfl
  | cons a s ih =>
    rw [List.cons_append, List.dropWhile_cons_of_pos (h a (by simp)),
      ih (fun c hc => h c (by simp [hc]))]

theorem parseUnsigned_digits {s : Str} (h0 : s ≠ []) (h : ∀ c ∈ s, c.isDigit = true) :
    parseUnsigned s = some (digitsVal s : ℚ) := by
  have h1 : s.takeWhile Char.isDigit = s := by simpa using takeWhile_all h []
  have h2 : s.dropWhile Char.isDigit = [] := by simpa using dropWhile_all h []
  unfold parseUnsigned
  simp only [h1, h2]
  rw [if_neg h0]
  simp [parseExp]

theorem parseUnsigned_fixed {s t : Str} (h0 : s ≠ []) (h : ∀ c ∈ s, c.isDigit = true)
    (ht : ∀ c ∈ t, c.isDigit = true) :
    parseUnsigned (s ++ '.' :: t) = some ((digitsVal (s ++ t) : ℚ) / 10 ^ t.length) := by
  have h1 : (s ++ '.' :: t).takeWhile Char.isDigit = s := by
    rw [takeWhile_all h, List.takeWhile_cons_of_neg (by decide)]; simp
  have h2 : (s ++ '.' :: t).dropWhile Char.isDigit = '.' :: t := by
    rw [dropWhile_all h, List.dropWhile_cons_of_neg (by decide)]
  have h3 : t.takeWhile Char.isDigit = t := by simpa using takeWhile_all ht []
  have h4 : t.dropWhile Char.isDigit = [] := by simpa using dropWhile_all ht []
  unfold parseUnsigned
  simp only [h1, h2, h3, h4]
  rw [if_neg (fun hh => h0 hh.1)]
  simp [parseExp]

/-- Strings that begin with a digit and consist of digits and points. -/
def Numeric (s : Str) : Prop :=
  (∃ c cs, s = c :: cs ∧ c.isDigit = true) ∧ ∀ c ∈ s, c.isDigit = true ∨ c = '.'

theorem numeric_digits {s : Str} (h0 : s ≠ []) (h : ∀ c ∈ s, c.isDigit = true) : Numeric s := by
  refine ⟨?_, fun c hc => Or.inl (h c hc)⟩
  cases s with
  | nil => exact absurd rfl h0
  | cons c cs => exact ⟨c, cs, rfl, h c (by simp)⟩

theorem numeric_fixed {s t : Str} (h0 : s ≠ []) (h : ∀ c ∈ s, c.isDigit = true)
    (ht : ∀ c ∈ t, c.isDigit = true) : Numeric (s ++ '.' :: t) := by
  constructor
  · cases s with
    | nil => exact absurd rfl h0
    | cons c cs => exact ⟨c, cs ++ '.' :: t, rfl, h c (by simp)⟩
  · intro c hc
    rcases List.mem_append.1 hc with hc | hc
    · exact Or.inl (h c hc)
    · rcases List.mem_cons.1 hc with hc | hc
      · exact Or.inr hc
      · exact Or.inl (ht c hc)

theorem not_space_of_numeric {c : Char} (h : c.isDigit = true ∨ c = '.') :
    c.isWhitespace = false := by
  cases hw : c.isWhitespace with
  | false => rfl
  | true =>
    simp only [Char.isWhitespace, Bool.or_eq_true, decide_eq_true_eq] at hw
    rcases hw with ((rfl | rfl) | rfl) | rfl <;> exact absurd h (by decide)

theorem dropWhile_space_none {s : Str} (h : ∀ c ∈ s, c.isWhitespace = false) :
    s.dropWhile Char.isWhitespace = s := by
  cases s with
  | nil => rfl
  | cons a s => rw [List.dropWhile_cons_of_neg]; rw [h a (by simp)]; simp

theorem stripWs_of_none {s : Str} (h : ∀ c ∈ s, c.isWhitespace = false) : stripWs s = s := by
  unfold stripWs
  rw [dropWhile_space_none h, dropWhile_space_none (by simpa using h), List.reverse_reverse]

theorem Numeric.parseAbs {s : Str} (h : Numeric s) : parseAbs s = (parseUnsigned s).map .fin := by
  obtain ⟨⟨c, cs, rfl, hc⟩, _⟩ := h
  have key : ∀ (d : Char) (ds : Str), d.isDigit = false → (c :: cs).map Char.toLower ≠ d :: ds := by
    intro d ds hd he
    simp only [List.map_cons, List.cons.injEq] at he
    have : c.toLower = c := by
      unfold Char.toLower
      rw [dif_neg]
      rintro ⟨h1, h2⟩
      simp only [Char.isDigit, Bool.and_eq_true, decide_eq_true_eq] at hc
      have a1 : (65 : UInt32).toNat ≤ c.val.toNat := h1
      have a2 : c.val.toNat ≤ (57 : UInt32).toNat := hc.2
      have : (65 : UInt32).toNat = 65 := rfl
      have : (57 : UInt32).toNat = 57 := rfl
      omega
    rw [this] at he
    rw [he.1, hd] at hc
    cases hc
  unfold Verif.parseAbs
  simp only
  have k1 : (c :: cs).map Char.toLower ≠ "nan".toList := key 'n' ['a', 'n'] rfl
  have k2 : (c :: cs).map Char.toLower ≠ "inf".toList := key 'i' ['n', 'f'] rfl
  have k3 : (c :: cs).map Char.toLower ≠ "infinity".toList :=
    key 'i' ['n', 'f', 'i', 'n', 'i', 't', 'y'] rfl
  rw [if_neg k1, if_neg (not_or.2 ⟨k2, k3⟩)]

theorem Numeric.pyFloat {s : Str} {q : ℚ} (h : Numeric s) (hq : parseUnsigned s = some q) :
    pyFloat s = .ok (.fin q) := by
  have hs : stripWs s = s := stripWs_of_none (fun c hc => not_space_of_numeric (h.2 c hc))
  have hp : Verif.parseAbs s = some (.fin q) := by rw [h.parseAbs, hq]; rfl
  unfold Verif.pyFloat
  rw [hs]
  obtain ⟨⟨c, cs, rfl, hc⟩, _⟩ := h
  split
  · next r he => cases he; exact absurd hc (by decide)
  · next r he => cases he; exact absurd hc (by decide)
  · rw [hp]

theorem Numeric.pyFloat_neg {s : Str} {q : ℚ} (h : Numeric s) (hq : parseUnsigned s = some q) :
    Verif.pyFloat ('-' :: s) = .ok (.fin (-q)) := by
  have hs : stripWs ('-' :: s) = '-' :: s := stripWs_of_none (by
    intro c hc
    rcases List.mem_cons.1 hc with rfl | hc
    · rfl
    · exact not_space_of_numeric (h.2 c hc))
  have hp : Verif.parseAbs s = some (.fin q) := by rw [h.parseAbs, hq]; rfl
  unfold Verif.pyFloat
  rw [hs]
  simp only [hp]
  rfl

theorem cast_of_neg {n : ℤ} (h : n < 0) : (n : ℚ) = -(n.natAbs : ℚ) := by
  obtain ⟨m, rfl⟩ : ∃ m : ℕ, n = -(m : ℤ) := ⟨n.natAbs, by omega⟩
  simp [Int.natAbs_neg]

theorem cast_of_nonneg {n : ℤ} (h : 0 ≤ n) : (n : ℚ) = (n.natAbs : ℚ) := by
  obtain ⟨m, rfl⟩ : ∃ m : ℕ, n = (m : ℤ) := ⟨n.natAbs, by omega⟩
  simp

/-- `float(str(n))` is `n`. -/
theorem pyFloat_showInt (n : ℤ) : pyFloat (showInt n) = .ok (.fin n) := by
  have hn : Numeric (showNat n.natAbs) :=
    numeric_digits (showNat_ne_nil _) (fun c hc => digit_of_mem_showNat hc)
  have hp : parseUnsigned (showNat n.natAbs) = some (n.natAbs : ℚ) := by
    rw [parseUnsigned_digits (showNat_ne_nil _) (fun c hc => digit_of_mem_showNat hc),
      digitsVal_showNat]
  unfold showInt
  split_ifs with h
  · rw [hn.pyFloat_neg hp, cast_of_neg h]
  · rw [hn.pyFloat hp, cast_of_nonneg (by omega)]

/-- `float` of a zero-padded natural number. -/
theorem pyFloat_padZero (k n : ℕ) : pyFloat (padZero k (showNat n)) = .ok (.fin n) := by
  have hd : ∀ c ∈ padZero k (showNat n), c.isDigit = true := fun c hc =>
    digit_of_mem_padZero (fun c hc => digit_of_mem_showNat hc) hc
  have h0 : padZero k (showNat n) ≠ [] := by
    unfold padZero
    intro h
    exact showNat_ne_nil n (List.append_eq_nil_iff.1 h).2
  rw [(numeric_digits h0 hd).pyFloat (parseUnsigned_digits h0 hd), digitsVal_padZero,
    digitsVal_showNat]

theorem parseUnsigned_showFixedNat {k : ℕ} (hk : 0 < k) (n : ℕ) :
    Numeric (showFixedNat k n) ∧ parseUnsigned (showFixedNat k n) = some ((n : ℚ) / 10 ^ k) := by
  have h1 : ∀ c ∈ showNat (n / 10 ^ k), c.isDigit = true := fun c hc => digit_of_mem_showNat hc
  have h2 : ∀ c ∈ padZero k (showNat (n % 10 ^ k)), c.isDigit = true := fun c hc =>
    digit_of_mem_padZero (fun c hc => digit_of_mem_showNat hc) hc
  have hl : (padZero k (showNat (n % 10 ^ k))).length = k :=
    length_padZero (length_showNat_le (Nat.mod_lt _ (Nat.pow_pos (by omega))) hk)
  refine ⟨numeric_fixed (showNat_ne_nil _) h1 h2, ?_⟩
  unfold showFixedNat
  rw [parseUnsigned_fixed (showNat_ne_nil _) h1 h2, hl]
  have e : digitsVal (showNat (n / 10 ^ k) ++ padZero k (showNat (n % 10 ^ k))) = n := by
    unfold digitsVal
    rw [Nat.ofDigitChars_append, Nat.ofDigitChars_eq_ofDigitChars_zero, hl]
    have a := digitsVal_showNat (n / 10 ^ k)
    have b := digitsVal_padZero k (showNat (n % 10 ^ k))
    rw [digitsVal_showNat] at b
    unfold digitsVal at a b
    rw [a, b]
    exact Nat.div_add_mod _ _
  rw [e]

/-- `float(f"{n / 10**k:.{k}f}")` is `n / 10**k` for an integer `n`. -/
theorem pyFloat_showFixed {k : ℕ} (hk : 0 < k) (n : ℤ) (q : ℚ) (hq : q * 10 ^ k = n) :
    pyFloat (showFixed k q) = .ok (.fin q) := by
  have hq' : q = (n : ℚ) / 10 ^ k := by
    rw [eq_div_iff (by positivity)]; exact hq
  unfold showFixed
  simp only
  rw [hq, roundEven_int]
  obtain ⟨h1, h2⟩ := parseUnsigned_showFixedNat hk n.natAbs
  split_ifs with h
  · rw [h1.pyFloat_neg h2, hq', cast_of_neg h, neg_div]
  · rw [h1.pyFloat h2, hq', cast_of_nonneg (by omega)]

theorem splitOn_append {sep : Char} {s : Str} (h : sep ∉ s) (t : Str) :
    splitOn sep (s ++ sep :: t) = s :: splitOn sep t := by
  induction s with
  | nil => simp [splitOn]
  | cons a s ih =>
    rw [List.cons_append, splitOn, if_neg (fun e => h (by simp [e])), ih (fun hh => h (by simp [hh]))]

theorem splitOn_none {sep : Char} {s : Str} (h : sep ∉ s) : splitOn sep s = [s] := by
  induction s with
  | nil => rfl
  | cons a s ih =>
    rw [splitOn, if_neg (fun e => h (by simp [e])), ih (fun hh => h (by simp [hh]))]

end Verif
