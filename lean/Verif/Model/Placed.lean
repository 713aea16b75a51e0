import Verif.Model.Pocket
import Verif.Model.Profile

/-! # Model of `src/cq_cam/operations/pocket.py:56-57`: the faces as they are given, in world coordinates -/

namespace CQ

/-- A planar face in world coordinates, given by the ordered edges of its wires. -/
structure WorldFace where
  outerWire : List Edge
  innerWires : List (List Edge)

/-- src/cq_cam/operations/pocket.py:56-57 `face.transformShape(job.top.fG)`; `box` is the vertical extent
(`BoundingBox()`) the kernel finds for the transformed face. -/
def WorldFace.toJob (box : List Edge → List (List Edge) → ℚ × ℚ) (top : Frame) (f : WorldFace) : CqFace :=
  let outer := f.outerWire.map (Edge.toLocal top)
  let inners := f.innerWires.map (List.map (Edge.toLocal top))
  { outerWire := outer, innerWires := inners, zmin := (box outer inners).1, zmax := (box outer inners).2 }

/-- src/cq_cam/operations/pocket.py:30-84 `pocket` with `engine="clipper"`, on faces in world coordinates. -/
def pocketPlaced (eng : Clipper) (veq : Vec → Vec → Bool) (box : List Edge → List (List Edge) → ℚ × ℚ) (fuel : ℕ)
    (opAreas avoidAreas : List WorldFace) (a : PocketArgs) (j : Job) : Except Err (List Motion) :=
  pocket eng veq fuel (opAreas.map (WorldFace.toJob box j.top)) (avoidAreas.map (WorldFace.toJob box j.top)) a j

/-- src/cq_cam/fluent.py:212-246 `Job.pocket`, as a fluent call on faces in world coordinates. -/
def pocketPlacedRequest (eng : Clipper) (veq : Vec → Vec → Bool) (box : List Edge → List (List Edge) → ℚ × ℚ) (fuel : ℕ)
    (opAreas avoidAreas : List WorldFace) (a : PocketArgs) (tool : Option Tool := none) : Request :=
  { opName := "Pocket".toList, tool, gen := pocketPlaced eng veq box fuel opAreas avoidAreas a }

end CQ
