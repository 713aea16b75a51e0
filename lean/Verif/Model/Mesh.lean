import Verif.Model.Op3d

/-!
# Model of `shape_to_triangles` and of its use in `Surface3D` (`src/cq_cam/operations/op3d.py`)

The meshes that OpenCASCADE leaves on faces and the drop cutter of opencamlib are external: they are data and parameters.
-/

namespace CQ

/-- A triangle, by its corners. -/
structure Tri where
  a : Vec
  b : Vec
  c : Vec
deriving DecidableEq, Repr

/-- A triangulation of OpenCASCADE (`Poly_Triangulation`): nodes, and triangles as node numbers counted from 1. -/
structure Triangulation where
  nodes : List Vec
  triangles : List (ℕ × ℕ × ℕ)

/-- A face as its mesh is read at src/cq_cam/operations/op3d.py:197: `mesh` is the triangulation that
`BRepMesh_IncrementalMesh` left on it (a null handle, that is `None`, if it failed), in the coordinates of the geometry that the
face is made of; `place` is the location of the face (`TopLoc_Location`), which puts this geometry in its place.  Both are
answers of `BRep_Tool.Triangulation_s`: the first is returned, the second stored in its argument. -/
structure MeshedFace where
  mesh : Option Triangulation
  place : Vec → Vec

/-- The shape the faces of an operation combine to: a face, a compound (by the faces that an explorer finds in it, each with
its complete location), or another shape with its faces. -/
inductive CadShape where
  | face (f : MeshedFace)
  | compound (fs : List MeshedFace)
  | other (fs : List MeshedFace)

/-- src/cq_cam/operations/base_operation.py:81-83 `transform_shapes_to_global`, for one face: `transformShape` with a rigid motion
changes the location of the face and leaves its geometry (and mesh) alone. -/
def MeshedFace.moved (motion : Vec → Vec) (f : MeshedFace) : MeshedFace := { f with place := fun v => motion (f.place v) }

/-- src/cq_cam/operations/op3d.py:43 `cq.Workplane().add(faces).combine().objects[0]`: one face is taken as it is (its cleaning
is taken to change nothing), several are fused by the kernel. -/
def combineShape (fuse : List MeshedFace → CadShape) : List MeshedFace → CadShape
  | [f] => .face f
  | fs => fuse fs

/-- `triangulation.Node(number)` (counted from 1; OpenCASCADE raises `Standard_OutOfRange` for others). -/
def Triangulation.node (t : Triangulation) (number : ℕ) : Except Err Vec :=
  if number = 0 then .error .stdFail
  else
    match t.nodes[number - 1]? with
    | some v => .ok v
    | none => .error .stdFail

/-- src/cq_cam/operations/op3d.py:199-202: one triangle; `point_to_tuple` (lines 228-229) is the identity here. -/
def nodeTriangle (t : Triangulation) (numbers : ℕ × ℕ × ℕ) : Except Err Tri := do
  let a ← t.node numbers.1
  let b ← t.node numbers.2.1
  let c ← t.node numbers.2.2
  .ok ⟨a, b, c⟩

/-- src/cq_cam/operations/op3d.py:186-207 for a face, in which the explorer finds one face: itself.  `location` is not used
after line 197.  `None` has no `NbTriangles` (line 198). -/
def faceTriangles (f : MeshedFace) : Except Err (List Tri) :=
  match f.mesh with
  | none => .error .attributeError
  | some t => mapE (nodeTriangle t) t.triangles

/-- src/cq_cam/operations/op3d.py:172-207 `Surface3D.shape_to_triangles`.  The triangulation is asked of the shape (line 197), so
for shapes other than faces and compounds the call has an argument of the wrong type, as soon as there is a face in them. -/
def shapeToTriangles : CadShape → Except Err (List Tri)
  | .face f => faceTriangles f
  | .compound fs => do
      let results ← mapE faceTriangles fs
      .ok results.flatten
  | .other [] => .ok []
  | .other (_ :: _) => .error .typeError

/-- The external libraries, with the drop cutter as a function of the triangles, of the height at which the points begin, and of
the points. -/
structure SurfaceLibs where
  scan : ScanClipper
  norm : Pt → ℚ
  strict : Bool
  drop : List Tri → ℚ → List Pt → List ℚ

/-- The libraries' answers for given triangles. -/
def SurfaceLibs.engine (m : SurfaceLibs) (bottom : ℚ) (tris : List Tri) : SurfaceEngine where
  scan := m.scan
  norm := m.norm
  strict := m.strict
  bottom := bottom
  drop := m.drop tris bottom

/-- src/cq_cam/operations/op3d.py:61-162 for one boundary with the triangulation of the shape; `bottom` is `bb.zmin`. -/
def surfaceBoundaryMesh (m : SurfaceLibs) (shape : CadShape) (bottom : ℚ) (args : SurfaceArgs) (j : Job) (polygon : List Pt) :
    Except Err (List Motion) := do
  let paths ← zigzag m.scan [polygon] (args.toolDiameter * args.stepover)
  let sequences ← mapE (interpolateSequence (m.engine bottom []) args.interpolationStep) paths
  let tris ← shapeToTriangles shape
  let merged ← mergeHeights sequences (m.drop tris bottom sequences.flatten)
  let depths ← surfaceDepths args.stepdown args.topHeight bottom
  .ok (passesMoves j depths merged 0 {} depths)

/-- src/cq_cam/operations/op3d.py:43-162 with the triangulation of the shape. -/
def surface3dMesh (m : SurfaceLibs) (k : FaceKernel) (shape : CadShape) (bottom : ℚ) (args : SurfaceArgs) (outerOffset : ℚ × ℚ)
    (innerOffset : Option (ℚ × ℚ)) (boundaries : List BoundaryFace) (j : Job) : Except Err (List Motion) := do
  let faces ← mapE (offsetBoundary k args.toolDiameter outerOffset innerOffset) boundaries
  let css ← mapE (fun f : List Edge × List (List Edge) => do
    let polygon ← wirePolygon f.1 true
    surfaceBoundaryMesh m shape bottom args j polygon) faces.flatten
  .ok css.flatten

/-- src/cq_cam/fluent.py:255-259 `Job.surface3d`, as a fluent call, with the triangulation of the shape. -/
def surface3dMeshRequest (m : SurfaceLibs) (k : FaceKernel) (shape : CadShape) (bottom : ℚ) (args : SurfaceArgs)
    (outerOffset : ℚ × ℚ) (innerOffset : Option (ℚ × ℚ)) (boundaries : List BoundaryFace) : Request where
  opName := "Surface 3D".toList
  tool := none
  gen := surface3dMesh m k shape bottom args outerOffset innerOffset boundaries

end CQ
