import Verif.Model.Binary64
import Verif.Model.Drill

/-! # Drilling in floating point -/

namespace CQ

/-- src/cq_cam/utils/utils.py:275-276 `dist2` on floats.  `x ** 2` is `pow(x, 2.0)` of the C library, which need not round to the nearest
double: it is the parameter `sq`. -/
def dist2F (sq : ℚ → ℚ) (v w : Pt) : ℚ := b64 (sq (b64 (v.x - w.x)) + sq (b64 (v.y - w.y)))

/-- The loop src/cq_cam/operations/strategy.py:26-29 on floats, as `pickNearestFrom`. -/
def pickNearestFrom64 (sq : ℚ → ℚ) (p : Pt) : ℚ → Pt → List Pt → Pt
  | _, best, [] => best
  | d, best, o :: os =>
      if dist2F sq p o < d then pickNearestFrom64 sq p (dist2F sq p o) o os else pickNearestFrom64 sq p d best os

/-- src/cq_cam/operations/strategy.py:22-30 `Strategy._pick_nearest` on floats. -/
def pickNearest64 (sq : ℚ → ℚ) (p : Pt) : List Pt → Except Err Pt
  | [] => .error .indexError
  | o :: os => .ok (pickNearestFrom64 sq p (dist2F sq p o) o os)

/-- src/cq_cam/operations/drill.py:64-66 on floats: the next hole. -/
def nextHole64 (sq : ℚ → ℚ) : Option Pt → List Pt → Except Err Pt
  | some last, ps => pickNearest64 sq last ps
  | none, [] => .error .indexError
  | none, p :: _ => .ok p

/-- The loop src/cq_cam/operations/drill.py:63-69 on floats, with `n` rounds granted. -/
def orderHoles64 (sq : ℚ → ℚ) : ℕ → Option Pt → List Pt → Except Err (List Pt)
  | _, _, [] => .ok []
  | 0, _, _ :: _ => .error .outOfFuel
  | n + 1, last, p :: ps => do
      let next ← nextHole64 sq last (p :: ps)
      let rest ← orderHoles64 sq n (some next) ((p :: ps).erase next)
      .ok (next :: rest)

/-- One round of the loop src/cq_cam/operations/drill.py:36-54 as `drillVectors`; `world` is what the kernel makes of `toWorldCoords`, with
its rounding. -/
def drillVectors64 (center : List Edge → Except Err Vec) (world : Vec → Vec) : DrillObj → Except Err (List Vec)
  | .vector v => .ok [world v]
  | .wire w => do
      let c ← center w
      .ok [world c]
  | .face outer inners =>
      if inners ≠ [] then
        mapE (fun w => do
          let c ← center w
          .ok (world c)) inners
      else do
        let c ← center outer
        .ok [world c]
  | .other => .error .operationError

/-- src/cq_cam/operations/drill.py:24-85 `Drill.__post_init__` on floats, as `drill`.  The commands take the coordinates as they are; `-abs(depth)` is
exact. -/
def drill64 (sq : ℚ → ℚ) (world : Vec → Vec) (center : List Edge → Except Err Vec) (o : Option (List DrillObj)) (depth : Option ℚ)
    (j : Job) : Except Err (List Motion) :=
  match o, depth with
  | none, _ => .error .operationError
  | some _, none => .error .operationError
  | some objs, some d => do
      let vs ← mapE (drillVectors64 center world) objs
      let points := vs.flatten.map (fun v => (⟨v.x, v.y⟩ : Pt))
      if points = [] then .error .operationError
      else do
        let ordered ← orderHoles64 sq points.length none points
        .ok (drillHoles j (-|d|) {} ordered)

/-- src/cq_cam/fluent.py:248-253 `Job.drill`, as a fluent call, on floats; `world` may depend on the top plane of the job. -/
def drillRequest64 (sq : ℚ → ℚ) (world : Frame → Vec → Vec) (center : List Edge → Except Err Vec) (o : Option (List DrillObj))
    (depth : Option ℚ) (tool : Option Tool) : Request where
  opName := "Drill".toList
  tool := tool
  gen := fun j => drill64 sq (world j.top) center o depth j

end CQ
