import Verif.Spec.Contour
import Verif.Spec.Binary64
import Verif.Spec.Drill64

/-! # Specification: pocket contours in floating point -/

namespace CQ

/-- The points differ by at most `tol` in X and in Y. -/
def PtNear (tol : ℚ) (p q : Pt) : Prop := |p.x - q.x| ≤ tol ∧ |p.y - q.y| ≤ tol

/-- The point lies on the segment up to `tol`. -/
def OnSegmentUpTo (tol : ℚ) (a b q : Pt) : Prop := ∃ s, OnSegment a b s ∧ PtNear tol q s

/-- The point lies on the polyline up to `tol`. -/
def OnPathUpTo (tol : ℚ) (path : List Pt) (q : Pt) : Prop := ∃ s, OnPath path s ∧ PtNear tol q s

/-- What `pow(x, 2.0)` of a C library guarantees: an error of at most one unit in the last place, no sign, and no negative results. -/
structure SquaresWell (sq : ℚ → ℚ) : Prop where
  err : SquaresUpToUlp sq
  even : ∀ x, sq (-x) = sq x
  nonneg : ∀ x, 0 ≤ sq x

/-- A contour of doubles that can be routed: as `FaceOK`, with coordinates up to `M`, where neighbours do not coincide up to underflow. -/
structure FaceOK64 (j : Job) (M : ℚ) (f : PathFace) : Prop where
  closed : IsClosedPath f.outer
  double : ∀ p ∈ f.outer, IsDouble p.x ∧ IsDouble p.y
  bound : ∀ p ∈ f.outer, |p.x| ≤ M ∧ |p.y| ≤ M
  apart : ∀ s ∈ segments f.outer, 2 ^ (-500 : ℤ) ≤ |s.1.x - s.2.x| ∨ 2 ^ (-500 : ℤ) ≤ |s.1.y - s.2.y|
  below : f.depth < j.opSafeHeight

/-- As `CutsContour`, where the place at which the contour is entered lies on it up to `tol`. -/
def CutsContourUpTo (tol d : ℚ) (feed : PyNum) (path : List Pt) (cs : List Motion) : Prop :=
  (∃ p rest, path = p :: rest ∧ CutsAlong d feed p rest cs) ∨
    ∃ (k : ℕ) (a b c : Pt), (segments path)[k]? = some (a, b) ∧ OnSegmentUpTo tol a b c ∧
      CutsAlong d feed c (around path k c) cs

/-- A straight cut at a depth along (part of) one segment of the contour, up to `tol`. -/
def CutsOnContourUpTo (tol : ℚ) (f : PathFace) (c : Motion) : Prop :=
  c.kind = .cut ∧ ∃ s ∈ segments f.outer, ∃ a b : Pt, OnSegmentUpTo tol s.1 s.2 a ∧ OnSegmentUpTo tol s.1 s.2 b ∧
    c.start = a.at f.depth ∧ c.fin = b.at f.depth

/-- `n` is the point of the contour that is nearest to `e`, up to rounding of coordinates of size `M`: it lies on the contour up to
`2^-49 * M`, and the square of its distance exceeds that of no point of the contour by more than `2^-40 * M^2`. -/
def NearestUpTo (M : ℚ) (path : List Pt) (e n : Pt) : Prop :=
  OnPathUpTo (2 ^ (-49 : ℤ) * M) path n ∧ ∀ q, OnPath path q → sqDist e n ≤ sqDist e q + 2 ^ (-40 : ℤ) * (M * M)

/-- A straight cut from the place `p` on contour `g` to the nearest point of contour `f`, not longer than the square root of `l2`, all up to
rounding. -/
def LinksUpTo (M : ℚ) (g : PathFace) (p : Pt) (f : PathFace) (l2 : ℚ) (c : Motion) : Prop :=
  c.kind = .cut ∧ OnPathUpTo (2 ^ (-49 : ℤ) * M) g.outer p ∧ ∃ n, NearestUpTo M f.outer p n ∧ c.start = p.at g.depth ∧ c.fin = n.at f.depth ∧
    sqDist p n ≤ (1 + 2 ^ (-48 : ℤ)) * l2 + 2 ^ (-1070 : ℤ)

/-- The closing cut of a contour that is too far from the end `p` of the one before (or touches it): from the last point of the contour across
to its point nearest to `p`. -/
def ClosesUpTo (M : ℚ) (stepover : Option ℚ) (p : Pt) (f : PathFace) (c : Motion) : Prop :=
  ∃ n, NearestUpTo M f.outer p n ∧
    (∀ s, stepover = some s → s = 0 ∨ sqDist p n ≤ 2 ^ (-1070 : ℤ) ∨
      ∀ q, OnPath f.outer q → s ≤ sqDist p q + 2 ^ (-39 : ℤ) * (M * M)) ∧
    ∃ l, f.outer.getLast? = some l ∧ c.kind = .cut ∧ c.start = l.at f.depth ∧ c.fin = n.at f.depth

/-- The feed moves of one contour; `prev` is the contour before and the place where it was left. -/
def FeedsUpTo (M : ℚ) (stepover : Option ℚ) (prev : Option (PathFace × Pt)) (f : PathFace) (c : Motion) : Prop :=
  IsPlunge c ∨ CutsOnContourUpTo (2 ^ (-49 : ℤ) * M) f c ∨
    (∃ g p s, prev = some (g, p) ∧ stepover = some s ∧ LinksUpTo M g p f s c) ∨
    ∃ g p, prev = some (g, p) ∧ ClosesUpTo M stepover p f c

end CQ
