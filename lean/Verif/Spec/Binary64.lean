import Mathlib.Algebra.Order.Field.Rat
import Mathlib.Tactic.NormNum

/-!
# Specification: doubles, and stepping down with errors of rounding

Independent of the model.
-/

namespace CQ

/-- The finite values of IEEE 754 binary64, without the bound from above: integers below `2^53` in absolute value times a power of
two that is at least `2^-1074`. -/
def IsDouble (y : ℚ) : Prop := ∃ (m : ℤ) (e : ℤ), |m| < 2 ^ 53 ∧ -1074 ≤ e ∧ y = m * 2 ^ e

/-- `b` follows `a` in passes with stepdown `s`, up to `tol`: not above it and not deeper than a stepdown below it. -/
def NextPassUpTo (tol s a b : ℚ) : Prop := b ≤ a + tol ∧ a - b ≤ s + tol

/-- The distance from `a` down to `b` is at least `γ` away from every multiple of `s`. -/
def OffMultiples (γ s a b : ℚ) : Prop := ∀ k : ℕ, γ ≤ |a - b - k * s|

end CQ
