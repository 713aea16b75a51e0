import Verif.Py.Err
import Verif.Spec.Plane
import Verif.Model.Address
import Mathlib.Data.Rat.Sqrt

/-!
# Model of the plane-geometry helpers

src/cq_cam/utils/utils.py (points, arcs, segments) and src/cq_cam/utils/geometry_op.py (paths).
-/

namespace CQ

/-- src/cq_cam/utils/utils.py:275-276 `dist2`; also src/cq_cam/utils/geometry_op.py:260-261
`segment_length_squared` with swapped arguments. -/
def dist2 (v w : Pt) : ℚ := (v.x - w.x) ^ 2 + (v.y - w.y) ^ 2

/-- src/cq_cam/utils/geometry_op.py:260-261 `segment_length_squared`. -/
def segmentLengthSquared (s1 s2 : Pt) : ℚ := (s2.x - s1.x) ^ 2 + (s2.y - s1.y) ^ 2

/-- src/cq_cam/utils/utils.py:284-295 `dist_to_segment_squared`: squared distance and closest point. -/
def distToSegmentSquared (p v w : Pt) : Except Err (ℚ × Pt) :=
  let l2 := dist2 v w
  if l2 = 0 then .error .zeroDivision
  else
    let t := ((p.x - v.x) * (w.x - v.x) + (p.y - v.y) * (w.y - v.y)) / l2
    let t := max 0 (min 1 t)
    let c : Pt := ⟨v.x + t * (w.x - v.x), v.y + t * (w.y - v.y)⟩
    .ok (dist2 p c, c)

/-- The result of `distance_to_path`: distance, closest point, segment index and parameter. -/
structure Nearest where
  dist : ℚ
  point : Pt
  index : ℕ
  param : ℚ
deriving DecidableEq, Repr

/-- The loop of src/cq_cam/utils/geometry_op.py:267-283 from segment `i` on.  `sqrt` is taken on rationals: the
argument is the square of a rational, on which `Rat.sqrt` is exact. -/
def distanceToPathFrom (p : Pt) : ℕ → Option Nearest → List Pt → Except Err (Option Nearest)
  | i, best, a :: b :: rest =>
      match distToSegmentSquared p a b with
      | .error e => .error e
      | .ok (d, c) =>
          let new : Nearest := ⟨d, c, i, Rat.sqrt (segmentLengthSquared a c / segmentLengthSquared a b)⟩
          let best' := match best with
            | none => some new
            | some n => if d < n.dist then some new else some n
          distanceToPathFrom p (i + 1) best' (b :: rest)
  | _, best, _ => .ok best

/-- src/cq_cam/utils/geometry_op.py:264-283 `distance_to_path`; `none` is `(None, None, None)`. -/
def distanceToPath (p : Pt) (path : List Pt) : Except Err (Option Nearest) := distanceToPathFrom p 0 none path

/-- src/cq_cam/routers.py:320-323 `shift_polygon`. -/
def shiftPolygon (polygon : List Pt) (i : ℕ) : List Pt :=
  let polygon := polygon.dropLast
  polygon.drop i ++ polygon.take (i + 1)

/-- src/cq_cam/utils/geometry_op.py:174-177 `close_path` (`IndexError` on an empty path). -/
def closePath (path : List Pt) : Except Err (List Pt) :=
  match path.head?, path.getLast? with
  | some a, some b => .ok (if a ≠ b then path ++ [a] else path)
  | _, _ => .error .indexError

/-- The offset argument: src/cq_cam/utils/geometry_op.py:20-22 `OffsetInput`. -/
inductive OffsetInput where
  | mult (m : ℚ)
  | multDist (m d : ℚ)
deriving DecidableEq, Repr

/-- src/cq_cam/utils/geometry_op.py:59-68 `calculate_offset`.  `default` is only ever a number; `default or 0`. -/
def calculateOffset (toolRadius : ℚ) (offset : Option OffsetInput) (default : Option ℚ := none) : ℚ :=
  match offset with
  | none => toolRadius * default.getD 0
  | some (.multDist m d) => toolRadius * m + d
  | some (.mult m) => toolRadius * m

/-- src/cq_cam/utils/utils.py:100-117 `is_arc_clockwise`. -/
def isArcClockwise (s m e : Vec) : Except Err Bool :=
  if s.z ≠ m.z then .error .notImplemented
  else
    let se : Pt := ⟨e.x - s.x, e.y - s.y⟩
    let sm : Pt := ⟨m.x - s.x, m.y - s.y⟩
    let cp := se.x * sm.y - se.y * sm.x
    .ok (decide (0 < cp))

/-- src/cq_cam/utils/utils.py:120-127 `is_arc_clockwise2`, on the two facts it asks of the edge: its normal and its
orientation. -/
def isArcClockwise2 (normal : Vec) (reversed : Bool) : Except Err Bool :=
  if normal.z = 0 then .error .runtimeError
  else if reversed then .ok (decide (0 < normal.z))
  else .ok (decide (normal.z < 0))

/-- src/cq_cam/utils/utils.py:150-166 `cut_clockwise`. -/
def cutClockwise (positiveOffset spindleClockwise climb : Bool) : Bool :=
  decide ((positiveOffset.toNat + spindleClockwise.toNat + climb.toNat) % 2 ≠ 0)

end CQ
