import Verif.Model.Drill64
import Verif.Model.Routers

/-! # Routing of pocket contours in floating point -/

namespace CQ

/-- The two functions of the C library: `pow(x, 2.0)` and `sqrt(x)`. -/
structure MathLib where
  sq : ℚ → ℚ
  root : ℚ → ℚ

/-- src/cq_cam/utils/geometry_op.py:260-261 `segment_length_squared` on floats. -/
def segmentLengthSquared64 (sq : ℚ → ℚ) (s1 s2 : Pt) : ℚ := b64 (sq (b64 (s2.x - s1.x)) + sq (b64 (s2.y - s1.y)))

/-- src/cq_cam/utils/utils.py:292 on floats: the parameter before it is limited to the segment. -/
def segmentParam64 (l2 : ℚ) (p v w : Pt) : ℚ :=
  b64 (b64 (b64 (b64 (p.x - v.x) * b64 (w.x - v.x)) + b64 (b64 (p.y - v.y) * b64 (w.y - v.y))) / l2)

/-- src/cq_cam/utils/utils.py:294 on floats, one coordinate of the closest point. -/
def lerp64 (t a b : ℚ) : ℚ := b64 (a + b64 (t * b64 (b - a)))

/-- src/cq_cam/utils/utils.py:284-295 `dist_to_segment_squared` on floats. -/
def distToSegmentSquared64 (sq : ℚ → ℚ) (p v w : Pt) : Except Err (ℚ × Pt) :=
  let l2 := dist2F sq v w
  if l2 = 0 then .error .zeroDivision
  else
    let t := max 0 (min 1 (segmentParam64 l2 p v w))
    let c : Pt := ⟨lerp64 t v.x w.x, lerp64 t v.y w.y⟩
    .ok (dist2F sq p c, c)

/-- src/cq_cam/utils/geometry_op.py:272: `distance is None or s_distance < distance`. -/
def nearerThan (d : ℚ) : Option Nearest → Bool
  | none => true
  | some n => decide (d < n.dist)

/-- The loop of src/cq_cam/utils/geometry_op.py:267-283 from segment `i` on, on floats. -/
def distanceToPathFrom64 (lib : MathLib) (p : Pt) : ℕ → Option Nearest → List Pt → Except Err (Option Nearest)
  | i, best, a :: b :: rest =>
      match distToSegmentSquared64 lib.sq p a b with
      | .error e => .error e
      | .ok (d, c) =>
          if nearerThan d best then
            let segmentLength := segmentLengthSquared64 lib.sq a b
            let pointLength := segmentLengthSquared64 lib.sq a c
            if segmentLength = 0 then .error .zeroDivision
            else if b64 (pointLength / segmentLength) < 0 then .error .valueError
            else distanceToPathFrom64 lib p (i + 1) (some ⟨d, c, i, lib.root (b64 (pointLength / segmentLength))⟩) (b :: rest)
          else distanceToPathFrom64 lib p (i + 1) best (b :: rest)
  | _, best, _ => .ok best

/-- src/cq_cam/utils/geometry_op.py:264-283 `distance_to_path` on floats. -/
def distanceToPath64 (lib : MathLib) (p : Pt) (path : List Pt) : Except Err (Option Nearest) := distanceToPathFrom64 lib p 0 none path

/-- src/cq_cam/routers.py:344-349, as `nearestTo`, with any way `near` to find the nearest point of a contour. -/
def nearestWith (near : Pt → List Pt → Except Err (Option Nearest)) (pwe : Option Pt) (path : List Pt) : Except Err (Option Nearest) :=
  match pwe with
  | none => .ok none
  | some e => near e path

/-- One round of the loop src/cq_cam/routers.py:338-387, as `routeFace`, with any way `near` to find the nearest point of a contour. -/
def routeFaceWith (near : Pt → List Pt → Except Err (Option Nearest)) (j : Job) (stepover : Option ℚ) (pwe : Option Pt) (pos : AddrVec)
    (f : PathFace) : Except Err (List Motion × Option Pt) :=
  match f.outer with
  | [] => .error .indexError
  | p0 :: _ =>
      match nearestWith near pwe f.outer with
      | .error e => .error e
      | .ok nearest =>
          let poly := match shortLink stepover nearest with
            | some n => shiftPolygon f.outer n.index
            | none => f.outer
          let approach := match shortLink stepover nearest with
            | some n => [cutTo j f.depth pos n.point]
            | none => rapidTo pos ⟨p0.x, p0.y, f.depth⟩ j.rapidHeight (some j.opSafeHeight) (some j.plungeFeed)
          let cuts := cutsTo j f.depth (lastFin pos approach) poly.tail
          let pos2 := lastFin pos (approach ++ cuts)
          match nearest with
          | some n => .ok (approach ++ cuts ++ [cutTo j f.depth pos2 n.point], some n.point)
          | none => .ok (approach ++ cuts, poly.getLast?)

/-- The loop of src/cq_cam/routers.py:338-389, as `routeFaces`. -/
def routeFacesWith (near : Pt → List Pt → Except Err (Option Nearest)) (j : Job) (stepover : Option ℚ) :
    Option Pt → AddrVec → List PathFace → Except Err (List Motion)
  | _, _, [] => .ok []
  | pwe, pos, f :: fs =>
      match routeFaceWith near j stepover pwe pos f with
      | .error e => .error e
      | .ok (cs, pwe') =>
          match routeFacesWith near j stepover pwe' (lastFin pos cs) fs with
          | .error e => .error e
          | .ok rest => .ok (cs ++ rest)

/-- src/cq_cam/routers.py:326-389 `route_polyface_outers` on floats.  Apart from the nearest point it computes nothing: the commands take
the coordinates as they are. -/
def routePolyfaceOuters64 (lib : MathLib) (j : Job) (faces : List PathFace) (stepover : Option ℚ := none)
    (previousPos : Option AddrVec := none) : Except Err (List Motion) :=
  routeFacesWith (distanceToPath64 lib) j stepover none (previousPos.getD {}) faces

end CQ
