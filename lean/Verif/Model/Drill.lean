import Verif.Model.Profile
import Verif.Model.Geometry

/-!
# Model of `src/cq_cam/operations/drill.py` and of `Strategy._pick_nearest`
-/

namespace CQ

/-- The loop src/cq_cam/operations/strategy.py:26-29; `best` is `nearest[1]` and `d` is `nearest[0]`. -/
def pickNearestFrom (p : Pt) : ℚ → Pt → List Pt → Pt
  | _, best, [] => best
  | d, best, o :: os => if dist2 p o < d then pickNearestFrom p (dist2 p o) o os else pickNearestFrom p d best os

/-- src/cq_cam/operations/strategy.py:22-30 `Strategy._pick_nearest` (`cached_dist2` is `dist2` with a cache). -/
def pickNearest (p : Pt) : List Pt → Except Err Pt
  | [] => .error .indexError
  | o :: os => .ok (pickNearestFrom p (dist2 p o) o os)

/-- The objects `Drill` is given.  A wire is given by its edges. -/
inductive DrillObj
  | vector (v : Vec)
  | wire (w : List Edge)
  | face (outer : List Edge) (inners : List (List Edge))
  | other

/-- One round of the loop src/cq_cam/operations/drill.py:36-54; `center w` is `cq.Face.makeFromWires(w).Center()`.
`toWorldCoords` is the transformation chosen at line 27. -/
def drillVectors (center : List Edge → Except Err Vec) (top : Frame) : DrillObj → Except Err (List Vec)
  | .vector v => .ok [top.toWorld v]
  | .wire w => do
      let c ← center w
      .ok [top.toWorld c]
  | .face outer inners =>
      if inners ≠ [] then
        mapE (fun w => do
          let c ← center w
          .ok (top.toWorld c)) inners
      else do
        let c ← center outer
        .ok [top.toWorld c]
  | .other => .error .operationError

/-- src/cq_cam/operations/drill.py:64-66: the next hole. -/
def nextHole : Option Pt → List Pt → Except Err Pt
  | some last, ps => pickNearest last ps
  | none, [] => .error .indexError
  | none, p :: _ => .ok p

/-- The loop src/cq_cam/operations/drill.py:63-69 with `n` rounds granted. -/
def orderHoles : ℕ → Option Pt → List Pt → Except Err (List Pt)
  | _, _, [] => .ok []
  | 0, _, _ :: _ => .error .outOfFuel
  | n + 1, last, p :: ps => do
      let next ← nextHole last (p :: ps)
      let rest ← orderHoles n (some next) ((p :: ps).erase next)
      .ok (next :: rest)

/-- One round of the loop src/cq_cam/operations/drill.py:73-83; `pos` is `previous_pos`. -/
def drillHole (j : Job) (depth : ℚ) (pos : AddrVec) (p : Pt) : List Motion :=
  let up := rapidAbs { z := some j.opSafeHeight } (some pos)
  let side := rapidAbs { x := some p.x, y := some p.y } (some up.fin)
  let down := rapidAbs { z := some 0 } (some side.fin)
  [up, side, down, verticalAbs .plungeCut (some depth) (some down.fin) (some j.feed)]

/-- The loop src/cq_cam/operations/drill.py:73-84. -/
def drillHoles (j : Job) (depth : ℚ) : AddrVec → List Pt → List Motion
  | _, [] => []
  | pos, p :: ps => drillHole j depth pos p ++ drillHoles j depth (lastFin pos (drillHole j depth pos p)) ps

/-- src/cq_cam/operations/drill.py:24-85 `Drill.__post_init__`; `o` is the list of objects
(src/cq_cam/operations/base_operation.py:85-91 `_o_objects`). -/
def drill (center : List Edge → Except Err Vec) (o : Option (List DrillObj)) (depth : Option ℚ) (j : Job) :
    Except Err (List Motion) :=
  match o, depth with
  | none, _ => .error .operationError
  | some _, none => .error .operationError
  | some objs, some d => do
      let vs ← mapE (drillVectors center j.top) objs
      let points := vs.flatten.map (fun v => (⟨v.x, v.y⟩ : Pt))
      if points = [] then .error .operationError
      else do
        let ordered ← orderHoles points.length none points
        .ok (drillHoles j (-|d|) {} ordered)

/-- src/cq_cam/fluent.py:248-253 `Job.drill`, as a fluent call. -/
def drillRequest (center : List Edge → Except Err Vec) (o : Option (List DrillObj)) (depth : Option ℚ)
    (tool : Option Tool) : Request where
  opName := "Drill".toList
  tool := tool
  gen := drill center o depth

end CQ
