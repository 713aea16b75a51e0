import Verif.Spec.Toolpath
import Verif.Model.Routers

/-!
# Specification: cutting contours
-/

namespace CQ

/-- A contour that can be routed: closed, without repeated points, below the safe height. -/
structure FaceOK (j : Job) (f : PathFace) : Prop where
  closed : IsClosedPath f.outer
  distinct : ∀ s ∈ segments f.outer, s.1 ≠ s.2
  below : f.depth < j.opSafeHeight

/-- The cuts go once along the whole contour: from its first point to its last, or, for a closed contour, from a
point `c` of one of its segments once around back to `c`. -/
def CutsContour (d : ℚ) (feed : PyNum) (path : List Pt) (cs : List Motion) : Prop :=
  (∃ p rest, path = p :: rest ∧ CutsAlong d feed p rest cs) ∨
    ∃ (k : ℕ) (a b c : Pt), (segments path)[k]? = some (a, b) ∧ OnSegment a b c ∧
      CutsAlong d feed c (around path k c) cs

/-- The point lies on the polyline. -/
def OnPath (path : List Pt) (q : Pt) : Prop := q ∈ path ∨ ∃ s ∈ segments path, OnSegment s.1 s.2 q

/-- A straight cut at a depth along (part of) one segment of the contour. -/
def CutsOnContour (f : PathFace) (c : Motion) : Prop :=
  c.kind = .cut ∧ ∃ s ∈ segments f.outer, ∃ a b : Pt, OnSegment s.1 s.2 a ∧ OnSegment s.1 s.2 b ∧
    c.start = a.at f.depth ∧ c.fin = b.at f.depth

/-- A straight cut from a point of contour `g` to a point of contour `f`, not longer than the square root of `l2`. -/
def Links (g f : PathFace) (l2 : ℚ) (c : Motion) : Prop :=
  c.kind = .cut ∧ ∃ p q : Pt, OnPath g.outer p ∧ OnPath f.outer q ∧ c.start = p.at g.depth ∧ c.fin = q.at f.depth ∧
    sqDist p q ≤ l2

/-- A vertical feed move. -/
def IsPlunge (c : Motion) : Prop := c.kind = .plungeCut ∧ ¬ Lateral c

end CQ
