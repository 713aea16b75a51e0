import Mathlib.Data.Rat.Floor
import Mathlib.Data.Nat.Digits.Lemmas
import Verif.Spec.Decimal

/-!
# Python number primitives: `round`, `int`, `repr`/`str` of numbers

Models CPython behaviour that the code of `/repo` relies on.  Values are exact rationals.
-/

namespace CQ

/-- Round to the nearest integer, ties to even: the rounding rule of Python's `round`. -/
def roundHalfEven (q : ℚ) : ℤ :=
  if q - ⌊q⌋ < 1 / 2 then ⌊q⌋
  else if 1 / 2 < q - ⌊q⌋ then ⌊q⌋ + 1
  else if ⌊q⌋ % 2 = 0 then ⌊q⌋
  else ⌊q⌋ + 1

/-- `round(q, p)` in units of `10^-p` (used at src/cq_cam/address.py:133).  CPython rounds the exact
value of the double half-to-even in decimal, which is `roundHalfEven (q * 10^p)`. -/
def pyRound (q : ℚ) (p : ℕ) : ℤ := roundHalfEven (q * 10 ^ p)

/-- Character of a digit. -/
def digChar (d : ℕ) : Char := Char.ofNat (48 + d)

/-- Decimal digits of a natural number, most significant first; `0` has no digits. -/
def natDigs (n : ℕ) : List ℕ := (Nat.digits 10 n).reverse

/-- `str` of a non-negative Python `int`. -/
def natText (n : ℕ) : Text := if n = 0 then ['0'] else (natDigs n).map digChar

/-- `str` of a Python `int`. -/
def intText (n : ℤ) : Text := if n < 0 then '-' :: natText n.natAbs else natText n.natAbs

/-- A finite Python `float`, given by its shortest round-trip decimal digits, as CPython's
`_Py_dg_dtoa(mode 0)` returns them: the value is `± 0.d₁d₂…dₙ × 10^decpt`.
`digs = []` is zero. -/
structure DecFloat where
  neg : Bool
  digs : List ℕ
  decpt : ℤ
deriving DecidableEq, Repr

/-- Canonical digit strings: digits below ten, no leading and no trailing zero. -/
def DecFloat.WF (d : DecFloat) : Prop :=
  (∀ x ∈ d.digs, x < 10) ∧ d.digs.head? ≠ some 0 ∧ d.digs.getLast? ≠ some 0

/-- The rational value of a float. -/
def DecFloat.value (d : DecFloat) : ℚ :=
  let m : ℚ := (Nat.ofDigits 10 d.digs.reverse : ℕ) * (10 : ℚ) ^ (d.decpt - d.digs.length)
  if d.neg then -m else m

/-- Positional part of `repr(float)` when no exponent is used (CPython `format_float_short`). -/
def fixedText (ds : List ℕ) (decpt : ℤ) : Text :=
  if decpt ≤ 0 then
    '0' :: '.' :: (List.replicate (-decpt).toNat '0' ++ ds.map digChar)
  else if (ds.length : ℤ) ≤ decpt then
    ds.map digChar ++ List.replicate (decpt - ds.length).toNat '0' ++ ['.', '0']
  else
    (ds.take decpt.toNat).map digChar ++ '.' :: (ds.drop decpt.toNat).map digChar

/-- Exponent form of `repr(float)`: one digit, optional fraction, `e`, sign, at least two digits. -/
def expText (ds : List ℕ) (decpt : ℤ) : Text :=
  let e := decpt - 1
  let et := natText e.natAbs
  (ds.take 1).map digChar
    ++ (if ds.length ≤ 1 then [] else '.' :: (ds.drop 1).map digChar)
    ++ ['e', if e < 0 then '-' else '+'] ++ (if et.length < 2 then '0' :: et else et)

/-- `repr(float)`: exponent form iff `decpt <= -4 or decpt > 16` (CPython `format_float_short`,
format code `r`). -/
def DecFloat.repr (d : DecFloat) : Text :=
  (if d.neg then ['-'] else []) ++
    (if d.digs = [] then ['0', '.', '0']
     else if -4 < d.decpt ∧ d.decpt ≤ 16 then fixedText d.digs d.decpt
     else expText d.digs d.decpt)

/-- A Python number: `int` or `float`. -/
inductive PyNum where
  | int (n : ℤ)
  | flt (d : DecFloat)
deriving DecidableEq, Repr

/-- Numeric value. -/
def PyNum.value : PyNum → ℚ
  | .int n => n
  | .flt d => d.value

/-- `str(x)` of a Python number. -/
def PyNum.str : PyNum → Text
  | .int n => intText n
  | .flt d => d.repr

/-- Truncation toward zero: Python's `int(v)` on a float. -/
def pyInt (q : ℚ) : ℤ := if q < 0 then -⌊-q⌋ else ⌊q⌋

/-- The float whose value is `k / 10^p`, i.e. the float `round(x, p)` returns when
`k = pyRound x p`.  Simplification: the digits of `k / 10^p` are taken to be the shortest
round-trip digits of the nearest double; `C99_repr_digits` proves this for at most 15 significant digits.
A result of zero keeps no sign (`optimize_float` prints `0` for `-0.0` as well). -/
def decOf (k : ℤ) (p : ℕ) : DecFloat :=
  { neg := decide (k < 0)
    digs := ((Nat.digits 10 k.natAbs).dropWhile (· == 0)).reverse
    decpt := if k = 0 then 1 else ((Nat.digits 10 k.natAbs).length : ℤ) - p }

end CQ
