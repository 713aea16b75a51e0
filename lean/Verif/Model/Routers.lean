import Verif.Model.Geometry
import Verif.Model.Fluent

/-!
# Model of `src/cq_cam/routers.py`: approaches and contours

(The routing of CAD wires and edges is in `Verif/Model/WireRouter.lean`.)
-/

namespace CQ

/-- src/cq_cam/routers.py:64-90 `rapid_to`. -/
def rapidTo (start : AddrVec) (e : Vec) (rapidHeight : ℚ) (safePlungeHeight : Option ℚ) (plungeFeed : Option PyNum) :
    List Motion :=
  let c1 := verticalAbs .retract (some rapidHeight) (some start)
  let start := c1.fin
  let c2 := if start.x ≠ some e.x ∨ start.y ≠ some e.y then
      [rapidAbs { x := some e.x, y := some e.y } (some start)] else []
  let start := match c2 with | [c] => c.fin | _ => start
  let c3 := match safePlungeHeight with
    | none => [verticalAbs .plungeCut (some e.z) (some start) plungeFeed]
    | some h =>
        let d := verticalAbs .plungeRapid (some h) (some start)
        if h > e.z then [d, verticalAbs .plungeCut (some e.z) (some d.fin) plungeFeed] else [d]
  [c1] ++ c2 ++ c3

/-- src/cq_cam/utils/geometry_op.py:33-37 `PathFace`. -/
structure PathFace where
  outer : List Pt
  inners : List (List Pt)
  depth : ℚ
deriving DecidableEq, Repr

/-- `commands[-1].end` (src/cq_cam/routers.py:372, 377, 387), the list being non-empty. -/
def lastFin (d : AddrVec) (cs : List Motion) : AddrVec := match cs.getLast? with | some c => c.fin | none => d

/-- A cut to a point at a depth: `Cut.abs(x, y, depth, start, feed=job.feed)`. -/
def cutTo (j : Job) (depth : ℚ) (pos : AddrVec) (p : Pt) : Motion :=
  cutAbs ⟨some p.x, some p.y, some depth⟩ (some pos) (some j.feed)

/-- src/cq_cam/routers.py:373-377: cuts along the points of a contour. -/
def cutsTo (j : Job) (depth : ℚ) : AddrVec → List Pt → List Motion
  | _, [] => []
  | pos, p :: ps => cutTo j depth pos p :: cutsTo j depth (cutTo j depth pos p).fin ps

/-- src/cq_cam/routers.py:352: `stepover and distance and distance <= stepover` (0 is falsy). -/
def shortLink (stepover : Option ℚ) (n : Option Nearest) : Option Nearest :=
  match stepover, n with
  | some s, some n => if s ≠ 0 ∧ n.dist ≠ 0 ∧ n.dist ≤ s then some n else none
  | _, _ => none

/-- src/cq_cam/routers.py:344-349: the nearest point of the contour to the end of the previous one, if there was
one. -/
def nearestTo (pwe : Option Pt) (path : List Pt) : Except Err (Option Nearest) :=
  match pwe with
  | none => .ok none
  | some e => distanceToPath e path

/-- One round of the loop src/cq_cam/routers.py:338-387: the commands for one contour and the new
`previous_wire_end`.  `pwe` is `previous_wire_end`, `pos` is `previous_pos`. -/
def routeFace (j : Job) (stepover : Option ℚ) (pwe : Option Pt) (pos : AddrVec) (f : PathFace) :
    Except Err (List Motion × Option Pt) :=
  match f.outer with
  | [] => .error .indexError
  | p0 :: _ =>
      match nearestTo pwe f.outer with
      | .error e => .error e
      | .ok nearest =>
          let poly := match shortLink stepover nearest with
            | some n => shiftPolygon f.outer n.index
            | none => f.outer
          let approach := match shortLink stepover nearest with
            | some n => [cutTo j f.depth pos n.point]
            | none => rapidTo pos ⟨p0.x, p0.y, f.depth⟩ j.rapidHeight (some j.opSafeHeight) (some j.plungeFeed)
          let cuts := cutsTo j f.depth (lastFin pos approach) poly.tail
          let pos2 := lastFin pos (approach ++ cuts)
          match nearest with
          | some n => .ok (approach ++ cuts ++ [cutTo j f.depth pos2 n.point], some n.point)
          | none => .ok (approach ++ cuts, poly.getLast?)

/-- The loop of src/cq_cam/routers.py:338-389. -/
def routeFaces (j : Job) (stepover : Option ℚ) : Option Pt → AddrVec → List PathFace → Except Err (List Motion)
  | _, _, [] => .ok []
  | pwe, pos, f :: fs =>
      match routeFace j stepover pwe pos f with
      | .error e => .error e
      | .ok (cs, pwe') =>
          match routeFaces j stepover pwe' (lastFin pos cs) fs with
          | .error e => .error e
          | .ok rest => .ok (cs ++ rest)

/-- src/cq_cam/routers.py:326-389 `route_polyface_outers`. -/
def routePolyfaceOuters (j : Job) (faces : List PathFace) (stepover : Option ℚ := none)
    (previousPos : Option AddrVec := none) : Except Err (List Motion) :=
  routeFaces j stepover none (previousPos.getD {}) faces

end CQ
