import Verif.Model.ZigZag64

/-!
# 3D surfacing in floating point

The exact versions are in `Model/Op3d`.  The loops over the passes (`passesMoves`) compare and copy numbers but do not calculate.
-/

namespace CQ

/-- src/cq_cam/operations/op3d.py:61-162 on floats: the moves for one boundary, given as the polygon its outer wire is flattened to. -/
def surfaceBoundary64 (sq : ℚ → ℚ) (eng : SurfaceEngine) (args : SurfaceArgs) (j : Job) (polygon : List Pt) :
    Except Err (List Motion) := do
  let paths ← zigzag64 sq eng.scan [polygon] args.toolDiameter args.stepover
  let sequences ← mapE (interpolateSequence64 eng args.interpolationStep) paths
  let merged ← mergeHeights sequences (eng.drop sequences.flatten)
  let depths ← surfaceDepths64 args.stepdown args.topHeight eng.bottom
  .ok (passesMoves j depths merged 0 {} depths)

/-- src/cq_cam/utils/utils.py:70-72 `position_space` on floats: numpy's `linspace` multiplies by the rounded step and sets the last
position to 1. -/
def positionSpace64 (e : Edge) : List ℚ :=
  let n := ⌈b64 (e.length / b64 (1 / 10))⌉.toNat
  if n = 1 then [0]
  else (List.range n).map (fun i : ℕ => if i + 1 = n then 1 else b64 (i * b64 (1 / (n - 1 : ℚ))))

/-- The loop src/cq_cam/utils/utils.py:75-93 `flatten_edges` on floats; `positions` are by length. -/
def flattenEdges64 : List Edge → Except Err (List Vec)
  | [] => .ok []
  | e :: es => do
      let vs ←
        if e.geom = .line then .ok [edgeEndPoint e]
        else if e.geom = .arc ∨ e.geom = .circle ∨ e.geom = .offset then .ok ((positionSpace64 e).tail.map e.posLen)
        else .error .valueError
      let rest ← flattenEdges64 es
      .ok (vs ++ rest)

/-- src/cq_cam/utils/utils.py:187-193 `_add_wire` on floats: the polygon it returns for a closed wire given by its ordered edges. -/
def wirePolygon64 (edges : List Edge) : Except Err (List Pt) := do
  let vs ← flattenEdges64 edges
  .ok (vs.map (fun v => (⟨v.x, v.y⟩ : Pt)))

/-- src/cq_cam/operations/base_operation.py:176-210 `offset_boundary` on floats. -/
def offsetBoundary64 (k : FaceKernel) (toolDiameter : ℚ) (outerOffset : ℚ × ℚ) (innerOffset : Option (ℚ × ℚ))
    (b : BoundaryFace) : Except Err (List (List Edge × List (List Edge))) :=
  if !b.flat then .error .assertionError
  else
    match innerOffset with
    | none => .error .typeError
    | some io => do
        let outers ← k.offset2D b.outer (b64 (b64 (toolDiameter * outerOffset.1) + outerOffset.2))
        let inners ← mapE (fun w => k.offset2D w (b64 (b64 (toolDiameter * io.1) + io.2))) b.inners
        let _ ← mapE (fun w => k.makeFace w []) outers
        let _ ← mapE (fun w => k.makeFace w []) inners.flatten
        assembleFaces k inners.flatten outers

/-- src/cq_cam/operations/op3d.py:53-162 on floats: the moves for the boundaries the faces combine to. -/
def surface3d64 (sq : ℚ → ℚ) (eng : SurfaceEngine) (k : FaceKernel) (args : SurfaceArgs) (outerOffset : ℚ × ℚ)
    (innerOffset : Option (ℚ × ℚ)) (boundaries : List BoundaryFace) (j : Job) : Except Err (List Motion) := do
  let faces ← mapE (offsetBoundary64 k args.toolDiameter outerOffset innerOffset) boundaries
  let css ← mapE (fun f : List Edge × List (List Edge) => do
    let polygon ← wirePolygon64 f.1
    surfaceBoundary64 sq eng args j polygon) faces.flatten
  .ok css.flatten

/-- src/cq_cam/fluent.py:255-259 `Job.surface3d` on floats, as a fluent call: no tool is passed on. -/
def surface3dRequest64 (sq : ℚ → ℚ) (eng : SurfaceEngine) (k : FaceKernel) (args : SurfaceArgs) (outerOffset : ℚ × ℚ)
    (innerOffset : Option (ℚ × ℚ)) (boundaries : List BoundaryFace) : Request where
  opName := "Surface 3D".toList
  tool := none
  gen := surface3d64 sq eng k args outerOffset innerOffset boundaries

end CQ
