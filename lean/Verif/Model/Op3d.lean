import Verif.Model.ZigZag
import Verif.Model.Edge
import Verif.Model.Routers

/-!
# Model of `src/cq_cam/operations/op3d.py` and of `offset_boundary`

opencamlib, the triangulation of the shape and the CAD kernel are external: their answers are parameters.
-/

namespace CQ

/-- The answers of the external libraries to one 3D operation.  `norm` is the length of a plane vector as a float; `strict`
says whether the kernel refuses to normalise the zero vector (OpenCASCADE can be built either way); `bottom` is the lowest
height of the shape; `drop ps` are the heights `BatchDropCutter` reports for the points `ps`. -/
structure SurfaceEngine where
  scan : ScanClipper
  norm : Pt → ℚ
  strict : Bool
  bottom : ℚ
  drop : List Pt → List ℚ

/-- The arguments of `Surface3D` used here (src/cq_cam/operations/op3d.py:23-28,
src/cq_cam/operations/base_operation.py:32-34, 111-114, 134-136). -/
structure SurfaceArgs where
  toolDiameter : ℚ := 3175 / 1000
  interpolationStep : ℚ := 1 / 2
  topHeight : ℚ := 0
  stepover : ℚ := 8 / 10
  stepdown : Option ℚ := none
deriving DecidableEq, Repr

/-- The loop src/cq_cam/operations/op3d.py:66-75 (numpy refuses a step of 0). -/
def interpolateFrom (eng : SurfaceEngine) (step : ℚ) : Pt → List Pt → Except Err (List Pt)
  | _, [] => .ok []
  | v1, p2 :: ps =>
      let v : Pt := ⟨p2.x - v1.x, p2.y - v1.y⟩
      if eng.strict && decide (v = ⟨0, 0⟩) then .error .stdFail
      else if step = 0 then .error .zeroDivision
      else do
        let l := eng.norm v
        let u : Pt := ⟨v.x / l, v.y / l⟩
        let rest ← interpolateFrom eng step p2 ps
        .ok ((arange 0 l step).map (fun s => (⟨v1.x + u.x * s, v1.y + u.y * s⟩ : Pt)) ++ p2 :: rest)

/-- src/cq_cam/operations/op3d.py:63-76 `interpolate_cut_sequence`. -/
def interpolateSequence (eng : SurfaceEngine) (step : ℚ) : List Pt → Except Err (List Pt)
  | [] => .error .indexError
  | p :: ps => do
      let rest ← interpolateFrom eng step p ps
      .ok (p :: rest)

/-- One round of the loop src/cq_cam/operations/op3d.py:110-112: the sequence with its heights, and the heights left. -/
def mergeSequence : List Pt → List ℚ → Except Err (List Vec × List ℚ)
  | [], zs => .ok ([], zs)
  | _ :: _, [] => .error .indexError
  | p :: ps, z :: zs => do
      let (vs, rest) ← mergeSequence ps zs
      .ok (⟨p.x, p.y, z⟩ :: vs, rest)

/-- The loop src/cq_cam/operations/op3d.py:109-112. -/
def mergeHeights : List (List Pt) → List ℚ → Except Err (List (List Vec))
  | [], _ => .ok []
  | s :: ss, zs => do
      let (vs, rest) ← mergeSequence s zs
      let vss ← mergeHeights ss rest
      .ok (vs :: vss)

/-- src/cq_cam/operations/op3d.py:114-124: the depths of the passes. -/
def surfaceDepths (stepdown : Option ℚ) (top bottom : ℚ) : Except Err (List ℚ) :=
  match stepdown with
  | none => .ok [bottom]
  | some s =>
      if s = 0 then .ok [bottom]
      else
        match (arange (top + s) bottom s).getLast? with
        | none => .error .indexError
        | some last =>
            if last ≠ bottom then .ok (arange (top + s) bottom s ++ [bottom])
            else .ok (arange (top + s) bottom s)

/-- src/cq_cam/operations/op3d.py:129 `last_last_depth`. -/
def passLimit (depths : List ℚ) (i : ℕ) : ℚ := if 1 < i then depths.getD (i - 2) 0 else 0

/-- The loop src/cq_cam/operations/op3d.py:215-224 over one sequence; `cur` is `new_sequence`. -/
def chopFrom (limit : ℚ) : List Vec → List Vec → List (List Vec)
  | cur, [] => if cur = [] then [] else [cur]
  | cur, p :: ps =>
      if p.z > limit then (if cur = [] then chopFrom limit [] ps else cur :: chopFrom limit [] ps)
      else chopFrom limit (cur ++ [p]) ps

/-- src/cq_cam/operations/op3d.py:209-225 `_chop_sequences_by_depth`. -/
def chopSequences (sequences : List (List Vec)) (limit : ℚ) : List (List Vec) := sequences.flatMap (chopFrom limit [])

/-- The loop src/cq_cam/operations/op3d.py:153-162 (no feed is given); `pos` is `previous_pos`. -/
def surfaceCuts (depth : ℚ) : AddrVec → List Vec → List Motion
  | _, [] => []
  | pos, p :: ps =>
      let c := cutAbs { x := some p.x, y := some p.y, z := some (max depth p.z) } (some pos) none
      c :: surfaceCuts depth c.fin ps

/-- src/cq_cam/operations/op3d.py:137-162: the moves for one piece. -/
def pieceMoves (j : Job) (depth : ℚ) (pos : AddrVec) : List Vec → List Motion
  | [] => []
  | p :: ps =>
      let up := rapidAbs { z := some j.rapidHeight } (some pos)
      let side := rapidAbs { x := some p.x, y := some p.y } (some up.fin)
      let down := rapidAbs { z := some j.opSafeHeight } (some side.fin)
      [up, side, down] ++ surfaceCuts depth down.fin ps

/-- The loop src/cq_cam/operations/op3d.py:136-162. -/
def piecesMoves (j : Job) (depth : ℚ) : AddrVec → List (List Vec) → List Motion
  | _, [] => []
  | pos, s :: ss => pieceMoves j depth pos s ++ piecesMoves j depth (lastFin pos (pieceMoves j depth pos s)) ss

/-- The loop src/cq_cam/operations/op3d.py:126-162 from pass `i` on. -/
def passesMoves (j : Job) (depths : List ℚ) (sequences : List (List Vec)) : ℕ → AddrVec → List ℚ → List Motion
  | _, _, [] => []
  | i, pos, depth :: rest =>
      let cs := piecesMoves j depth pos (chopSequences sequences (passLimit depths i))
      cs ++ passesMoves j depths sequences (i + 1) (lastFin pos cs) rest

/-- src/cq_cam/operations/op3d.py:61-162: the moves for one boundary, given as the polygon its outer wire is flattened to. -/
def surfaceBoundary (eng : SurfaceEngine) (args : SurfaceArgs) (j : Job) (polygon : List Pt) :
    Except Err (List Motion) := do
  let paths ← zigzag eng.scan [polygon] (args.toolDiameter * args.stepover)
  let sequences ← mapE (interpolateSequence eng args.interpolationStep) paths
  let merged ← mergeHeights sequences (eng.drop sequences.flatten)
  let depths ← surfaceDepths args.stepdown args.topHeight eng.bottom
  .ok (passesMoves j depths merged 0 {} depths)

/-- src/cq_cam/utils/utils.py:70-72 `position_space` (numpy gives one position, 0, for a count of 1). -/
def positionSpace (e : Edge) : List ℚ :=
  let n := ⌈e.length / (1 / 10)⌉.toNat
  if n = 1 then [0] else linspace 0 1 n

/-- The loop src/cq_cam/utils/utils.py:75-93 `flatten_edges`; `positions` are by length. -/
def flattenEdges : List Edge → Except Err (List Vec)
  | [] => .ok []
  | e :: es => do
      let vs ←
        if e.geom = .line then .ok [edgeEndPoint e]
        else if e.geom = .arc ∨ e.geom = .circle ∨ e.geom = .offset then .ok ((positionSpace e).tail.map e.posLen)
        else .error .valueError
      let rest ← flattenEdges es
      .ok (vs ++ rest)

/-- src/cq_cam/utils/utils.py:187-193 `_add_wire`: the polygon it returns, for a wire given by its ordered edges
(src/cq_cam/utils/utils.py:96-97 `flatten_wire`). -/
def wirePolygon (edges : List Edge) (closed : Bool) : Except Err (List Pt) := do
  let vs ← flattenEdges edges
  let polygon := vs.map (fun v => (⟨v.x, v.y⟩ : Pt))
  if closed then .ok polygon
  else
    match polygon with
    | [] => .error .indexError
    | p :: _ => .ok (polygon ++ [p])

/-- A face as `offset_boundary` sees it: whether its geometry is a plane or circle, and its outer and inner wires, each a list
of ordered edges. -/
structure BoundaryFace where
  flat : Bool
  outer : List Edge
  inners : List (List Edge)

/-- The CAD kernel's part: offset of a wire, faces from wires (which can fail), and whether a face lies inside another.  The
outer wire of a face made from a wire is taken to be that wire. -/
structure FaceKernel where
  offset2D : List Edge → ℚ → Except Err (List (List Edge))
  makeFace : List Edge → List (List Edge) → Except Err Unit
  inside : List Edge → List Edge → Bool

/-- The loops src/cq_cam/operations/base_operation.py:200-208: the outer wires of the resulting faces, each with its inner
wires; `inner` are the inner faces not used yet. -/
def assembleFaces (k : FaceKernel) : List (List Edge) → List (List Edge) → Except Err (List (List Edge × List (List Edge)))
  | _, [] => .ok []
  | inner, o :: os => do
      let mine := inner.filter (fun i => k.inside i o)
      k.makeFace o mine
      let rest ← assembleFaces k (inner.filter (fun i => !k.inside i o)) os
      .ok ((o, mine) :: rest)

/-- src/cq_cam/operations/base_operation.py:176-210 `offset_boundary`.  An offset is a pair of a multiple of the tool diameter
and a constant; subscripting a missing inner offset is a `TypeError` (line 184). -/
def offsetBoundary (k : FaceKernel) (toolDiameter : ℚ) (outerOffset : ℚ × ℚ) (innerOffset : Option (ℚ × ℚ))
    (b : BoundaryFace) : Except Err (List (List Edge × List (List Edge))) :=
  if !b.flat then .error .assertionError
  else
    match innerOffset with
    | none => .error .typeError
    | some io => do
        let outers ← k.offset2D b.outer (toolDiameter * outerOffset.1 + outerOffset.2)
        let inners ← mapE (fun w => k.offset2D w (toolDiameter * io.1 + io.2)) b.inners
        let _ ← mapE (fun w => k.makeFace w []) outers
        let _ ← mapE (fun w => k.makeFace w []) inners.flatten
        assembleFaces k inners.flatten outers

/-- src/cq_cam/operations/op3d.py:53-162: the moves for the boundaries the faces combine to. -/
def surface3d (eng : SurfaceEngine) (k : FaceKernel) (args : SurfaceArgs) (outerOffset : ℚ × ℚ)
    (innerOffset : Option (ℚ × ℚ)) (boundaries : List BoundaryFace) (j : Job) : Except Err (List Motion) := do
  let faces ← mapE (offsetBoundary k args.toolDiameter outerOffset innerOffset) boundaries
  let css ← mapE (fun f : List Edge × List (List Edge) => do
    let polygon ← wirePolygon f.1 true
    surfaceBoundary eng args j polygon) faces.flatten
  .ok css.flatten

/-- src/cq_cam/fluent.py:255-259 `Job.surface3d`, as a fluent call: no tool is passed on. -/
def surface3dRequest (eng : SurfaceEngine) (k : FaceKernel) (args : SurfaceArgs) (outerOffset : ℚ × ℚ)
    (innerOffset : Option (ℚ × ℚ)) (boundaries : List BoundaryFace) : Request where
  opName := "Surface 3D".toList
  tool := none
  gen := surface3d eng k args outerOffset innerOffset boundaries

end CQ
