import Verif.Model.Op3d

/-!
# Model of the front end of `Surface3D`: the selection, its projection and the offsets
(`src/cq_cam/operations/base_operation.py`, `src/cq_cam/operations/op3d.py`, `project_face` in `src/cq_cam/utils/utils.py`)

Faces of the CAD kernel are the elements of a type `F`.
-/

namespace CQ

/-- An object of the selection: a face, a wire (its ordered edges), anything else (also `None`). -/
inductive Selected (F : Type) where
  | face (f : F)
  | wire (w : List Edge)
  | other

/-- The loop src/cq_cam/operations/base_operation.py:151-159; `make` is `cq.Face.makeFromWires`. -/
def selectionFaces {F : Type} (make : List Edge → List (List Edge) → Except Err F) : List (Selected F) → Except Err (List F)
  | [] => .ok []
  | .face f :: os => do
      let fs ← selectionFaces make os
      .ok (f :: fs)
  | .wire w :: os => do
      let f ← make w []
      let fs ← selectionFaces make os
      .ok (f :: fs)
  | .other :: _ => .error .operationError

/-- src/cq_cam/operations/base_operation.py:149-166 `_wp_to_faces`, on the objects of the selection (`_o_objects`, lines 85-91). -/
def wpToFaces {F : Type} (make : List Edge → List (List Edge) → Except Err F) (os : List (Selected F)) :
    Except Err (List F) := do
  let fs ← selectionFaces make os
  if fs = [] then .error .operationError else .ok fs

/-- The answers of the CAD kernel and of opencamlib to one call. -/
structure SurfaceCad (F : Type) where
  /-- `cq.Face.makeFromWires(outer, inners)` -/
  make : List Edge → List (List Edge) → Except Err F
  /-- `cq.Face.makeFromWires(wire).Area()` -/
  area : List Edge → Except Err ℚ
  /-- `face.transformShape(job.top.fG)` -/
  toJob : F → F
  /-- the wires of the visible edges of a face, src/cq_cam/utils/utils.py:303-337 -/
  visible : F → Except Err (List (List Edge))
  /-- src/cq_cam/operations/op3d.py:47-51: the faces the projected faces combine to -/
  boundaries : List F → Except Err (List BoundaryFace)
  /-- the engine for the combined faces (their triangulation and bounding box), src/cq_cam/operations/op3d.py:43-44 -/
  engine : List F → SurfaceEngine

/-- src/cq_cam/utils/utils.py:339-345: the wires by decreasing area (Python's sort is stable). -/
def wiresByArea (area : List Edge → Except Err ℚ) (ws : List (List Edge)) : Except Err (List (List Edge)) := do
  let as ← mapE (fun w => (area w).map (fun a => (a, w))) ws
  .ok ((as.insertionSort (fun x y => y.1 ≤ x.1)).map Prod.snd)

/-- src/cq_cam/utils/utils.py:298-347 `project_face`. -/
def projectFace {F : Type} (c : SurfaceCad F) (f : F) : Except Err F := do
  let visible ← c.visible f
  let wires ← wiresByArea c.area visible
  match wires with
  | [] => .error .indexError
  | o :: hs => c.make o hs

/-- src/cq_cam/operations/base_operation.py:138-142: an offset as a pair; a single number has no constant part. -/
def offsetPair : OffsetInput → ℚ × ℚ
  | .mult m => (m, 0)
  | .multDist m d => (m, d)

/-- src/cq_cam/operations/op3d.py:30-162 `Surface3D.__post_init__`, from the selection on. -/
def surface3dCall {F : Type} (c : SurfaceCad F) (k : FaceKernel) (args : SurfaceArgs) (outerOffset : OffsetInput)
    (innerOffset : Option OffsetInput) (selection : List (Selected F)) (j : Job) : Except Err (List Motion) := do
  let faces ← wpToFaces c.make selection
  let projected ← mapE (projectFace c) (faces.map c.toJob)
  let boundaries ← c.boundaries projected
  surface3d (c.engine (faces.map c.toJob)) k args (offsetPair outerOffset) (innerOffset.map offsetPair) boundaries j

end CQ
