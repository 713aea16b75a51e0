import Mathlib.Data.Rat.Defs
import Mathlib.Algebra.Order.Field.Rat

/-!
# Specification: plane geometry over exact rationals

Points, straight segments and polylines.
-/

namespace CQ

/-- A point of the plane. -/
@[ext] structure Pt where
  x : ℚ
  y : ℚ
deriving DecidableEq, Repr

/-- The point at fraction `t` of the way from `a` to `b`. -/
def Pt.lerp (a b : Pt) (t : ℚ) : Pt := ⟨a.x + t * (b.x - a.x), a.y + t * (b.y - a.y)⟩

/-- Squared Euclidean distance. -/
def sqDist (a b : Pt) : ℚ := (a.x - b.x) * (a.x - b.x) + (a.y - b.y) * (a.y - b.y)

/-- `p` lies on the straight segment from `a` to `b`. -/
def OnSegment (a b p : Pt) : Prop := ∃ t, 0 ≤ t ∧ t ≤ 1 ∧ p = a.lerp b t

/-- The segments of a polyline. -/
def segments : List Pt → List (Pt × Pt)
  | a :: b :: rest => (a, b) :: segments (b :: rest)
  | _ => []

/-- The polyline ends where it starts. -/
def IsClosedPath (path : List Pt) : Prop := path ≠ [] ∧ path.head? = path.getLast?

/-- Signed area (times two) of the triangle `a b c`; positive when `a b c` turn counterclockwise. -/
def orient (a b c : Pt) : ℚ := (b.x - a.x) * (c.y - a.y) - (b.y - a.y) * (c.x - a.x)

/-- The points passed when starting at `c`, a point of segment `k` of the closed polyline, and going once around
back to `c` (without the starting point itself). -/
def around (path : List Pt) (k : ℕ) (c : Pt) : List Pt := path.drop (k + 1) ++ path.tail.take k ++ [c]

end CQ
