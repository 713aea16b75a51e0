import Verif.Spec.Drill

/-! # Specification: drilling in floating point -/

namespace CQ

/-- `sq` squares numbers with an error of at most one unit in the last place (`pow(x, 2.0)` of a C library). -/
def SquaresUpToUlp (sq : ℚ → ℚ) : Prop := ∀ x, |sq x - x * x| ≤ 2 ^ (-52 : ℤ) * (x * x) + 2 ^ (-1074 : ℤ)

/-- Each point is followed by one that is nearest to it among those that are left, but for a factor that differs from one by less than
`2^-48` (for the squares of the distances), and a difference of less than `2^-1070`. -/
def NearestOrderUpTo (ps : List Pt) : Prop :=
  ∀ pre a b post, ps = pre ++ a :: b :: post → ∀ q ∈ b :: post,
    sqDist a b ≤ (1 + 2 ^ (-48 : ℤ)) * sqDist a q + 2 ^ (-1070 : ℤ)

/-- The squares of the distances from each point of `ps` to two others are equal or differ by a factor of more than `1 + 2^-48`
and the smaller one of different squares is not tiny. -/
def WellSeparated (ps : List Pt) : Prop :=
  ∀ a ∈ ps, ∀ b ∈ ps, ∀ c ∈ ps, sqDist a b < sqDist a c → (1 + 2 ^ (-48 : ℤ)) * sqDist a b + 2 ^ (-1070 : ℤ) < sqDist a c

end CQ
