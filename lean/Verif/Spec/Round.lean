import Mathlib.Data.Rat.Floor
import Mathlib.Algebra.Order.Field.Rat

/-!
# Specification: rounding to a decimal grid

`IsRounded p q v` says that `v` is the multiple of `10^-p` nearest to `q`, the one with even last
digit if two are equally near.  `rnd p q` computes it.  Independent of the model.
-/

namespace CQ

/-- `v` is `q` rounded to `p` decimals, ties to even. -/
def IsRounded (p : ℕ) (q v : ℚ) : Prop :=
  ∃ k : ℤ, v = k / 10 ^ p ∧ (∀ j : ℤ, |v - q| ≤ |(j : ℚ) / 10 ^ p - q|) ∧
    (∀ j : ℤ, j ≠ k → |(j : ℚ) / 10 ^ p - q| = |v - q| → Even k)

/-- `q` rounded to `p` decimals, ties to even. -/
def rnd (p : ℕ) (q : ℚ) : ℚ :=
  let k := ⌊q * 10 ^ p + 1 / 2⌋
  if (k : ℚ) = q * 10 ^ p + 1 / 2 ∧ ¬ Even k then ((k : ℚ) - 1) / 10 ^ p else (k : ℚ) / 10 ^ p

end CQ
