import Verif.Model.Mesh
import Verif.Model.Op3d64

/-!
# 3D surfacing over the triangles of the shape, in floating point

The exact versions are in `Model/Mesh`.  Reading the triangles (`shapeToTriangles`) copies numbers but does not calculate.
-/

namespace CQ

/-- src/cq_cam/operations/op3d.py:61-162 on floats, for one boundary with the triangulation of the shape; `bottom` is `bb.zmin`. -/
def surfaceBoundaryMesh64 (sq : ℚ → ℚ) (m : SurfaceLibs) (shape : CadShape) (bottom : ℚ) (args : SurfaceArgs) (j : Job)
    (polygon : List Pt) : Except Err (List Motion) := do
  let paths ← zigzag64 sq m.scan [polygon] args.toolDiameter args.stepover
  let sequences ← mapE (interpolateSequence64 (m.engine bottom []) args.interpolationStep) paths
  let tris ← shapeToTriangles shape
  let merged ← mergeHeights sequences (m.drop tris bottom sequences.flatten)
  let depths ← surfaceDepths64 args.stepdown args.topHeight bottom
  .ok (passesMoves j depths merged 0 {} depths)

/-- src/cq_cam/operations/op3d.py:43-162 on floats, with the triangulation of the shape. -/
def surface3dMesh64 (sq : ℚ → ℚ) (m : SurfaceLibs) (k : FaceKernel) (shape : CadShape) (bottom : ℚ) (args : SurfaceArgs)
    (outerOffset : ℚ × ℚ) (innerOffset : Option (ℚ × ℚ)) (boundaries : List BoundaryFace) (j : Job) : Except Err (List Motion) := do
  let faces ← mapE (offsetBoundary64 k args.toolDiameter outerOffset innerOffset) boundaries
  let css ← mapE (fun f : List Edge × List (List Edge) => do
    let polygon ← wirePolygon64 f.1
    surfaceBoundaryMesh64 sq m shape bottom args j polygon) faces.flatten
  .ok css.flatten

/-- src/cq_cam/fluent.py:255-259 `Job.surface3d` on floats, as a fluent call, with the triangulation of the shape. -/
def surface3dMeshRequest64 (sq : ℚ → ℚ) (m : SurfaceLibs) (k : FaceKernel) (shape : CadShape) (bottom : ℚ) (args : SurfaceArgs)
    (outerOffset : ℚ × ℚ) (innerOffset : Option (ℚ × ℚ)) (boundaries : List BoundaryFace) : Request where
  opName := "Surface 3D".toList
  tool := none
  gen := surface3dMesh64 sq m k shape bottom args outerOffset innerOffset boundaries

end CQ
