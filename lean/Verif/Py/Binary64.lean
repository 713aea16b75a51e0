import Mathlib.Data.Int.Log
import Verif.Py.Float

/-!
# Python floats: IEEE 754 binary64

A float is its rational value.  `b64` rounds to the nearest double, ties to the even mantissa, with gradual underflow; the result
of `a op b` on floats is `b64` of the exact result.  Simplifications: no overflow to infinities (exponents are unbounded above), no
NaN, and -0.0 is 0.
-/

namespace CQ

/-- The exponent of the last place of the doubles around `x`: the mantissa has 53 bits, the smallest exponent is -1074. -/
def b64Exp (x : ℚ) : ℤ := max (Int.log 2 |x|) (-1022) - 52

/-- The double nearest to `x`. -/
def b64 (x : ℚ) : ℚ := roundHalfEven (x / 2 ^ b64Exp x) * 2 ^ b64Exp x

/-- Python's `float(text)` of a decimal literal is the double nearest to its value. -/
example : b64 (1 / 10) = 3602879701896397 / 2 ^ 55 := by decide +kernel

/-- `d` are the digits that `repr` gives for the double `y` (CPython's `_Py_dg_dtoa`, mode 0): of all decimals that are read as `y`,
the shortest, and of these the one nearest to `y`. -/
structure ReprDigits (d : DecFloat) (y : ℚ) : Prop where
  wf : d.WF
  reads : b64 d.value = y
  shortest : ∀ d' : DecFloat, d'.WF → b64 d'.value = y → d.digs.length ≤ d'.digs.length
  nearest : ∀ d' : DecFloat, d'.WF → b64 d'.value = y → d'.digs.length = d.digs.length → |d.value - y| ≤ |d'.value - y|

end CQ
