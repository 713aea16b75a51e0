import Verif.Spec.Decimal
import Verif.Spec.Round

/-! # Specification vocabulary for the words of a block (C01-C04) -/

namespace CQ

/-- Values a double can take: a non-integral double is below `2^53`. -/
def DoubleLike (q : ℚ) : Prop := |q| < 2 ^ 53 ∨ ∃ n : ℤ, q = n

/-- Plain decimal with at most `p` fractional digits, nothing superfluous: the shape of C02. -/
def PlainDecimal (p : ℕ) (t : Text) : Prop :=
  ∃ sign ip frac : Text, t = sign ++ ip ++ frac ∧ (sign = [] ∨ sign = ['-']) ∧
    ip ≠ [] ∧ (∀ c ∈ ip, isDig c = true) ∧ (ip.head? = some '0' → ip = ['0']) ∧
    (frac = [] ∨ ∃ fp : Text, frac = '.' :: fp ∧ 1 ≤ fp.length ∧ fp.length ≤ p ∧
      (∀ c ∈ fp, isDig c = true) ∧ fp.getLast? ≠ some '0') ∧
    t ≠ ['-', '0']

/-- The axis words a reader should find: one per known axis, in order. -/
def expectedAxes (p : ℕ) (a b c : Char) (x y z : Option ℚ) : List (Char × ℚ) :=
  (x.map (fun q => (a, rnd p q))).toList ++ (y.map (fun q => (b, rnd p q))).toList
    ++ (z.map (fun q => (c, rnd p q))).toList

end CQ
