import Verif.Model.Binary64
import Verif.Model.Routers64

/-!
# Pockets in floating point

The functions of `Model/Pocket` that compute with floats, with the arithmetic of doubles.  The others (polygonising, offsetting, the regions,
filling) only pass coordinates on to the geometry libraries and back; scaling to and from pyclipper's integers is exact (`Model/Scaling`).
-/

namespace CQ

/-- src/cq_cam/fluent.py:336-337 `tool_radius` on floats. -/
def Job.toolRadius64 (j : Job) : Option ℚ := j.toolRadius.map b64

/-- src/cq_cam/utils/geometry_op.py:59-68 `calculate_offset` on floats. -/
def calculateOffset64 (toolRadius : ℚ) (offset : Option OffsetInput) (default : Option ℚ := none) : ℚ :=
  match offset with
  | none => b64 (toolRadius * default.getD 0)
  | some (.multDist m d) => b64 (b64 (toolRadius * m) + d)
  | some (.mult m) => b64 (toolRadius * m)

/-- The loop src/cq_cam/operations/pocket.py:256-265 on floats. -/
def allSequences64 (eng : Clipper) (fuel : ℕ) (stepover : ℚ) (stepdown : Option ℚ) (precision : ℕ) :
    List PathFace → List PathFace → Except Err (List (List PathFace))
  | _, [] => .ok []
  | shallower, op :: ops => do
      let s ← opSequences64 eng fuel stepover stepdown precision shallower op
      let rest ← allSequences64 eng fuel stepover stepdown precision (shallower ++ [op]) ops
      .ok (s ++ rest)

/-- The loop src/cq_cam/operations/pocket.py:270-275 on floats; `commands` are those collected so far. -/
def routeSequences64 (lib : MathLib) (j : Job) (stepover : ℚ) :
    List Motion → AddrVec → List (List PathFace) → Except Err (List Motion)
  | commands, _, [] => .ok commands
  | commands, pos, s :: ss => do
      let cs ← routePolyfaceOuters64 lib j s (some stepover) (some pos)
      match (commands ++ cs).getLast? with
      | none => .error .indexError
      | some cmd => routeSequences64 lib j stepover (commands ++ cs) cmd.fin ss

/-- src/cq_cam/operations/pocket.py:227-278 `pocket_clipper` on floats. -/
def pocketClipper64 (lib : MathLib) (eng : Clipper) (fuel : ℕ) (j : Job) (opAreas avoidAreas : List PathFace)
    (outerOffset innerOffset avoidOuterOffset avoidInnerOffset stepover : ℚ) (stepdown : Option ℚ) :
    Except Err (List Motion) := do
  let ops ← mapE (fun f => offsetPolyface eng f outerOffset innerOffset j.precision) opAreas
  let avoids ← mapE (fun f => offsetPolyface eng f avoidOuterOffset avoidInnerOffset j.precision) avoidAreas
  let pocketOps ← buildPocketOps eng ops.flatten avoids.flatten
  let sequences ← allSequences64 eng fuel stepover stepdown j.precision [] pocketOps
  routeSequences64 lib j stepover [] {} sequences

/-- src/cq_cam/operations/pocket.py:30-84 `pocket` on floats, otherwise as in `pocket`. -/
def pocket64 (lib : MathLib) (eng : Clipper) (veq : Vec → Vec → Bool) (fuel : ℕ) (opAreas avoidAreas : List CqFace) (a : PocketArgs)
    (j : Job) : Except Err (List Motion) :=
  match j.toolRadius64 with
  | none => .error .typeError
  | some r => do
      let outer := if avoidAreas ≠ [] ∧ a.outerOffset = none then some (.mult 0) else a.outerOffset
      let ops ← mapE (fun f => PathFace.fromCqFace veq f j.precision) opAreas
      let avoids ← mapE (fun f => PathFace.fromCqFace veq f j.precision) avoidAreas
      pocketClipper64 lib eng fuel j ops avoids (calculateOffset64 r outer (some (-1)))
        (calculateOffset64 r a.innerOffset (some 1)) (calculateOffset64 r a.avoidOuterOffset (some 1))
        (calculateOffset64 r a.avoidInnerOffset (some (-1))) (calculateOffset64 r a.stepover (some (1 / 2))) a.stepdown

/-- src/cq_cam/fluent.py:212-246 `Job.pocket`, as a fluent call, on floats. -/
def pocketRequest64 (lib : MathLib) (eng : Clipper) (veq : Vec → Vec → Bool) (fuel : ℕ) (opAreas avoidAreas : List CqFace)
    (a : PocketArgs) (tool : Option Tool := none) : Request :=
  { opName := "Pocket".toList, tool, gen := pocket64 lib eng veq fuel opAreas avoidAreas a }

end CQ
