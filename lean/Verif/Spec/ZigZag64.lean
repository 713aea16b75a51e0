import Verif.Spec.ZigZag
import Verif.Spec.Contour64

/-! # Specification: zigzag paths along a boundary in floating point -/

namespace CQ

/-- The square of the distance from the segment is at most `d2`. -/
def NearWithin (d2 : ℚ) (seg : Pt × Pt) (p : Pt) : Prop := ∃ q, OnSegment seg.1 seg.2 q ∧ sqDist p q ≤ d2

/-- In order of the distance from `a` up to rounding: the squares of the distances are in order up to a relative error of `2^-48` and
underflow. -/
def SortedUpTo (a : Pt) (ps : List Pt) : Prop :=
  ps.Pairwise (fun p q => sqDist a p ≤ (1 + 2 ^ (-48 : ℤ)) * sqDist a q + 2 ^ (-1070 : ℤ))

/-- A boundary of doubles with coordinates up to `M`, given by different vertices, where neighbours do not coincide up to underflow. -/
structure BoundaryOK64 (M : ℚ) (b : List Pt) : Prop where
  nodup : b.Nodup
  double : ∀ p ∈ b, (IsDouble p.x ∧ IsDouble p.y) ∧ |p.x| ≤ M ∧ |p.y| ≤ M
  apart : ∀ s ∈ segments b, 2 ^ (-500 : ℤ) ≤ |s.1.x - s.2.x| ∨ 2 ^ (-500 : ℤ) ≤ |s.1.y - s.2.y|

end CQ
