import Verif.Model.Pocket
import Verif.Model.Profile

/-!
# Model of `src/cq_cam/operations/pocket_cq.py`, of `offset_face` (`src/cq_cam/utils/geometry_op.py`) and of the choice of
the engine in `src/cq_cam/operations/pocket.py`

This is the branch `engine="cq"` of the function `pocket`; `Job.pocket` never selects it.  Faces of the CAD kernel are the
elements of a type `F`; the kernel's answers are the fields of `FaceKernelCq`.
-/

namespace CQ

/-- The answers of the CAD kernel about faces. -/
structure FaceKernelCq (F : Type) where
  /-- the answers about wires -/
  cad : Cad
  /-- `face.outerWire()` (its ordered edges) -/
  outerWire : F → List Edge
  /-- `face.innerWires()` -/
  innerWires : F → List (List Edge)
  /-- `face.BoundingBox().zmax` -/
  zmax : F → ℚ
  /-- `face.translate(vector)` -/
  translate : Vec → F → F
  /-- src/cq_cam/operations/pocket_cq.py:38-51 `combine_faces`: the faces of `cq.Workplane().add(faces).combine()` -/
  combine : List F → Except Err (List F)
  /-- `break_compound_to_faces(face.cut(*faces))` -/
  cut : F → List F → Except Err (List F)
  /-- `cq.Face.makeFromWires(outer, inners)` -/
  make : List Edge → List (List Edge) → Except Err F

/-- src/cq_cam/utils/geometry_op.py:157-167 `offset_face`. -/
def offsetFace {F : Type} (k : FaceKernelCq F) (outerOffset innerOffset : ℚ) (f : F) : Except Err (List F) := do
  let outers ← offsetWire k.cad (k.outerWire f) outerOffset
  let inners ← mapE (fun w => offsetWire k.cad w innerOffset) (k.innerWires f)
  mapE (fun o => k.make o inners.flatten) outers

/-- A `defaultdict(list)` from depths to faces, in order of insertion (src/cq_cam/operations/pocket_cq.py:23). -/
abbrev FaceMap (F : Type) := List (ℚ × List F)

/-- src/cq_cam/operations/pocket_cq.py:30 `depth_map[bbox.zmax].append(face)`. -/
def FaceMap.add {F : Type} (z : ℚ) (f : F) : FaceMap F → FaceMap F
  | [] => [(z, [f])]
  | (d, fs) :: m => if d = z then (d, fs ++ [f]) :: m else (d, fs) :: FaceMap.add z f m

/-- `depth_map[d]`. -/
def FaceMap.get {F : Type} (d : ℚ) : FaceMap F → List F
  | [] => []
  | (e, fs) :: m => if e = d then fs else FaceMap.get d m

/-- The loop src/cq_cam/operations/pocket_cq.py:25-30. -/
def faceMapFrom {F : Type} (k : FaceKernelCq F) : FaceMap F → List F → Except Err (FaceMap F)
  | m, [] => .ok m
  | m, f :: fs => if k.zmax f > 0 then .error .valueError else faceMapFrom k (m.add (k.zmax f) f) fs

/-- src/cq_cam/operations/pocket_cq.py:22-35 `generate_depth_map`. -/
def generateFaceMap {F : Type} (k : FaceKernelCq F) (faces : List F) : Except Err (FaceMap F × List ℚ) := do
  let m ← faceMapFrom k [] faces
  .ok (m, (m.map Prod.fst).insertionSort (fun a b => b ≤ a))

/-- src/cq_cam/operations/pocket_cq.py:67-70 and 81-84: the faces at depth `e`, moved to depth `depth` **along the world
direction** `job.top.zDir`. -/
def movedFaces {F : Type} (k : FaceKernelCq F) (zDir : Vec) (m : FaceMap F) (depth e : ℚ) : List F :=
  (m.get e).map (k.translate (Vec.smul (depth - e) zDir))

/-- The body of the loop src/cq_cam/operations/pocket_cq.py:63-94 for one depth; `deeper` is `depths[i + 1:]`.
(`depth_faces += …` extends the list stored in `depth_map`, which is not looked at again.) -/
def cqDepthOps {F : Type} (k : FaceKernelCq F) (zDir : Vec) (dm am : FaceMap F) (avoidDepths : List ℚ) (depth : ℚ)
    (deeper : List ℚ) : Except Err (List F) := do
  let ops ← k.combine (dm.get depth ++ (deeper.map (movedFaces k zDir dm depth)).flatten)
  if avoidDepths ≠ [] then
    let avoidFaces := ((avoidDepths.filter (fun a => decide (depth ≤ a))).map (movedFaces k zDir am depth)).flatten
    let cuts ← mapE (fun op => k.cut op avoidFaces) ops
    .ok cuts.flatten
  else .ok ops

/-- The loop src/cq_cam/operations/pocket_cq.py:63-94. -/
def cqDepthsOps {F : Type} (k : FaceKernelCq F) (zDir : Vec) (dm am : FaceMap F) (avoidDepths : List ℚ) :
    List ℚ → Except Err (List F)
  | [] => .ok []
  | d :: deeper => do
      let ops ← cqDepthOps k zDir dm am avoidDepths d deeper
      let rest ← cqDepthsOps k zDir dm am avoidDepths deeper
      .ok (ops ++ rest)

/-- src/cq_cam/operations/pocket_cq.py:54-96 `build_pocket_ops`. -/
def cqBuildPocketOps {F : Type} (k : FaceKernelCq F) (zDir : Vec) (opAreas avoidAreas : List F) : Except Err (List F) := do
  let (dm, depths) ← generateFaceMap k opAreas
  let (am, avoidDepths) ← generateFaceMap k avoidAreas
  cqDepthsOps k zDir dm am avoidDepths depths

/-- src/cq_cam/operations/pocket_cq.py:115-123: what is left of one candidate; a candidate of which no face can be made
(`StdFail_NotDone`) is skipped. -/
def cqRemains {F : Type} (k : FaceKernelCq F) (holes : List F) (w : List Edge) : Except Err (List (List Edge)) :=
  match k.make w [] with
  | .error .stdFail => .ok []
  | .error e => .error e
  | .ok f => do
      let fs ← k.cut f holes
      .ok (fs.map k.outerWire)

/-- src/cq_cam/operations/pocket_cq.py:112-125: the wires that follow a wire. -/
def cqNextOuters {F : Type} (k : FaceKernelCq F) (holes : List F) (step : ℚ) (w : List Edge) :
    Except Err (List (List Edge)) := do
  let cands ← offsetWire k.cad w (-step)
  if holes ≠ [] then
    let rs ← mapE (cqRemains k holes) cands
    .ok rs.flatten
  else .ok cands

/-- src/cq_cam/utils/tree.py:60-75 `Tree.sequences` for objects that are equal only if they are the same object (shapes
compare with `isEqual`): computed on the identities. -/
def CTree.idSequences {α : Type} (t : CTree (ℕ × α)) : List (List α) :=
  (CTree.sequences (t.map (fun n => ({ obj := n.obj.1, parent := n.parent, locked := n.locked } : TNode ℕ)))).map
    (List.filterMap (fun i => (t[i]?).map (fun n => n.obj.2)))

/-- src/cq_cam/operations/pocket_cq.py:103-137 `fill_pocket_contour_shrink`, within `fuel` rounds. -/
def cqFillPocket {F : Type} (k : FaceKernelCq F) (fuel : ℕ) (step : ℚ) (pocket : F) : Except Err (List (List (List Edge))) := do
  let holes ← mapE (fun w => k.make w []) (k.innerWires pocket)
  let t ← fillLoop (cqNextOuters k holes step) fuel (CTree.init (0, k.outerWire pocket))
  .ok t.idSequences

/-- The loop src/cq_cam/operations/pocket_cq.py:171-176; `commands` are those collected so far. -/
def cqRouteSequences (cad : Cad) (j : Job) (stepover : ℚ) :
    List Motion → AddrVec → List (List (List Edge)) → Except Err (List Motion)
  | commands, _, [] => .ok commands
  | commands, pos, s :: ss => do
      let cs ← routeWires cad.veq cad.search j s (some stepover) (some pos)
      match (commands ++ cs).getLast? with
      | none => .error .indexError
      | some cmd => cqRouteSequences cad j stepover (commands ++ cs) cmd.fin ss

/-- src/cq_cam/operations/pocket_cq.py:140-178 `pocket_cq`. -/
def pocketCq {F : Type} (k : FaceKernelCq F) (fuel : ℕ) (j : Job) (opAreas avoidAreas : List F)
    (outerOffset innerOffset avoidOuterOffset avoidInnerOffset stepover : ℚ) : Except Err (List Motion) := do
  let ops ← mapE (offsetFace k outerOffset innerOffset) opAreas
  let avoids ← mapE (offsetFace k avoidOuterOffset avoidInnerOffset) avoidAreas
  let pocketOps ← cqBuildPocketOps k j.top.zDir ops.flatten avoids.flatten
  let sequences ← mapE (cqFillPocket k fuel stepover) pocketOps
  cqRouteSequences k.cad j stepover [] {} sequences.flatten

/-- src/cq_cam/operations/pocket.py:30-84 `pocket` with its argument `engine`, on faces already in job coordinates (lines
56-57).  `view` is what the other engine sees of a face. -/
def pocketWith {F : Type} (eng : Clipper) (k : FaceKernelCq F) (view : F → CqFace) (fuel : ℕ) (opAreas avoidAreas : List F)
    (a : PocketArgs) (engine : Text) (j : Job) : Except Err (List Motion) :=
  match j.toolRadius with
  | none => .error .typeError
  | some r =>
      let outer := if avoidAreas ≠ [] ∧ a.outerOffset = none then some (.mult 0) else a.outerOffset
      if engine = "clipper".toList then pocket eng k.cad.veq fuel (opAreas.map view) (avoidAreas.map view) a j
      else if engine = "cq".toList then
        pocketCq k fuel j opAreas avoidAreas (calculateOffset r outer (some (-1)))
          (calculateOffset r a.innerOffset (some 1)) (calculateOffset r a.avoidOuterOffset (some 1))
          (calculateOffset r a.avoidInnerOffset (some (-1))) (calculateOffset r a.stepover (some (1 / 2)))
      else .error .valueError

end CQ
