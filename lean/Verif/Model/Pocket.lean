import Verif.Model.Routers
import Verif.Model.Edge
import Verif.Model.Tree

/-!
# Model of `src/cq_cam/operations/pocket.py` and of the path helpers it uses (`src/cq_cam/utils/geometry_op.py`)

pyclipper and shapely are not part of `/repo`; their answers are the fields of `Clipper`.  Scaling to and from
pyclipper's integers is in `Model/Scaling.lean`, which builds a `Clipper` from an engine on integers.  `pocket_cq` (the `engine="cq"` branch, which `Job.pocket` never
selects) is in `Model/PocketCq.lean`.
-/

namespace CQ

/-- A node of pyclipper's result tree (`PyPolyNode`): its contour and its children. -/
inductive PolyNode where
  | node (contour : List Pt) (childs : List PolyNode)

def PolyNode.contour : PolyNode → List Pt
  | .node c _ => c

def PolyNode.childs : PolyNode → List PolyNode
  | .node _ cs => cs

/-- The answers of the geometry libraries.  All but `contains` may raise (`ClipperException`). -/
structure Clipper where
  /-- `CleanPolygons(PyclipperOffset(...).Execute(offset))` in src/cq_cam/utils/geometry_op.py:123-134: path,
  offset, precision -/
  offset : List Pt → ℚ → ℕ → Except Err (List (List Pt))
  /-- `Execute2(CT_UNION)` on subjects and clips: the children of the tree's root -/
  union : List (List Pt) → List (List Pt) → Except Err (List PolyNode)
  /-- `Execute2(CT_DIFFERENCE)` -/
  difference : List (List Pt) → List (List Pt) → Except Err (List PolyNode)
  /-- shapely: `a.polygon.contains(b.polygon)` -/
  contains : PathFace → PathFace → Bool

/-- A planar face as the code sees it: the ordered edges of its wires and its vertical extent. -/
structure CqFace where
  outerWire : List Edge
  innerWires : List (List Edge)
  zmin : ℚ
  zmax : ℚ

/-- src/cq_cam/utils/geometry_op.py:39-49 `PathFace.from_cq_face`.  `veq` is cadquery's tolerant `==` on vectors. -/
def PathFace.fromCqFace (veq : Vec → Vec → Bool) (face : CqFace) (precision : ℕ) : Except Err PathFace :=
  if pyRound face.zmin 3 ≠ pyRound face.zmax 3 then .error .valueError
  else do
    let outer ← wireToPath veq face.outerWire precision
    let inners ← mapE (fun w => wireToPath veq w precision) face.innerWires
    .ok ⟨outer, inners, face.zmax⟩

/-- src/cq_cam/utils/geometry_op.py:51-52 `clone_to_depth`. -/
def PathFace.cloneToDepth (f : PathFace) (depth : ℚ) : PathFace := ⟨f.outer, f.inners, depth⟩

/-- src/cq_cam/utils/geometry_op.py:102-135 `offset_path`. -/
def offsetPath (eng : Clipper) (path : List Pt) (offset : ℚ) (precision : ℕ) : Except Err (List (List Pt)) := do
  let ps ← eng.offset path offset precision
  mapE closePath (ps.filter (fun p => decide (p ≠ [])))

/-- One round of the loop src/cq_cam/utils/geometry_op.py:182-190 (the warning for deep faces is not modelled;
`tuplify_path` changes the Python type of the points only). -/
def nodeToPolyFace (depth : ℚ) (n : PolyNode) : Except Err PathFace := do
  let outer ← closePath n.contour
  let inners ← mapE (fun c : PolyNode => closePath c.contour) n.childs
  .ok ⟨outer, inners, depth⟩

/-- src/cq_cam/utils/geometry_op.py:180-191 `poly_tree_to_poly_faces`. -/
def polyTreeToPolyFaces (tree : List PolyNode) (depth : ℚ) : Except Err (List PathFace) :=
  mapE (nodeToPolyFace depth) tree

/-- src/cq_cam/utils/geometry_op.py:244-249 `union_poly_tree`. -/
def unionPolyTree (eng : Clipper) (subjects clips : List (List Pt)) (depth : ℚ) : Except Err (List PathFace) := do
  let tree ← eng.union subjects clips
  polyTreeToPolyFaces tree depth

/-- src/cq_cam/utils/geometry_op.py:252-257 `difference_poly_tree`. -/
def differencePolyTree (eng : Clipper) (subjects clips : List (List Pt)) (depth : ℚ) : Except Err (List PathFace) := do
  let tree ← eng.difference subjects clips
  polyTreeToPolyFaces tree depth

/-- src/cq_cam/utils/geometry_op.py:194-197 `make_polyfaces`. -/
def makePolyfaces (eng : Clipper) (outers inners : List (List Pt)) (depth : ℚ) : Except Err (List PathFace) :=
  differencePolyTree eng outers inners depth

/-- src/cq_cam/utils/geometry_op.py:200-210 `offset_polyface`. -/
def offsetPolyface (eng : Clipper) (f : PathFace) (outerOffset innerOffset : ℚ) (precision : ℕ) :
    Except Err (List PathFace) := do
  let outers ← offsetPath eng f.outer outerOffset precision
  if f.inners ≠ [] then
    let inners ← mapE (fun i => offsetPath eng i innerOffset precision) f.inners
    makePolyfaces eng outers inners.flatten f.depth
  else
    .ok (outers.map (fun o => ⟨o, [], f.depth⟩))

/-- A `defaultdict(list)` from depths to faces, in order of insertion (src/cq_cam/operations/pocket.py:88). -/
abbrev DepthMap := List (ℚ × List PathFace)

/-- src/cq_cam/operations/pocket.py:94 `depth_map[face.depth].append(face)`. -/
def DepthMap.add (f : PathFace) : DepthMap → DepthMap
  | [] => [(f.depth, [f])]
  | (d, fs) :: m => if d = f.depth then (d, fs ++ [f]) :: m else (d, fs) :: DepthMap.add f m

/-- `depth_map[d]`. -/
def DepthMap.get (d : ℚ) : DepthMap → List PathFace
  | [] => []
  | (e, fs) :: m => if e = d then fs else DepthMap.get d m

/-- The loop src/cq_cam/operations/pocket.py:90-94. -/
def depthMapFrom : DepthMap → List PathFace → Except Err DepthMap
  | m, [] => .ok m
  | m, f :: fs => if f.depth > 0 then .error .valueError else depthMapFrom (m.add f) fs

/-- src/cq_cam/operations/pocket.py:87-99 `generate_depth_map`. -/
def generateDepthMap (faces : List PathFace) : Except Err (DepthMap × List ℚ) := do
  let m ← depthMapFrom [] faces
  .ok (m, (m.map Prod.fst).insertionSort (fun a b => b ≤ a))

/-- src/cq_cam/operations/pocket.py:110-112 `combine_outers`. -/
def combineOuters (eng : Clipper) (faces : List PathFace) (depth : ℚ) : Except Err (List (List Pt)) := do
  let us ← unionPolyTree eng (faces.map PathFace.outer) [] depth
  .ok (us.map PathFace.outer)

/-- src/cq_cam/operations/pocket.py:102-107 `combine_poly_faces` (not called anywhere). -/
def combinePolyFaces (eng : Clipper) (faces : List PathFace) (depth : ℚ) : Except Err (List PathFace) := do
  let us ← unionPolyTree eng (faces.map PathFace.outer) [] depth
  differencePolyTree eng (us.map PathFace.outer) (faces.map PathFace.inners).flatten depth

/-- src/cq_cam/operations/pocket.py:115-127 `determine_stepdown_start_depth`. -/
def determineStepdownStartDepth (eng : Clipper) (op : PathFace) (shallower : List PathFace) : Option ℚ :=
  (((shallower.filter (fun o => eng.contains o op)).map PathFace.depth).insertionSort (· ≤ ·)).head?

/-- `np.arange(start, stop, step)` in exact arithmetic (`step ≠ 0`). -/
def arange (start stop step : ℚ) : List ℚ :=
  (List.range ⌈(stop - start) / step⌉.toNat).map (fun i : ℕ => start + i * step)

/-- src/cq_cam/operations/pocket.py:130-148 `apply_stepdown`. -/
def applyStepdown (sequences : List (List PathFace)) (startDepth : Option ℚ) (stepdown : ℚ) :
    Except Err (List (List PathFace)) :=
  let start := match startDepth with | none => -stepdown | some d => d - stepdown
  match (sequences.flatten.map PathFace.depth).dedup with
  | [endDepth] =>
      .ok ((arange start endDepth (-stepdown)).flatMap (fun d =>
        sequences.map (fun s => s.map (fun f => f.cloneToDepth d))))
  | _ => .error .runtimeError

/-- The body of the loop src/cq_cam/operations/pocket.py:160-186 for one depth; `deeper` is `depths[i + 1:]`.
(`depth_faces += …` extends the list stored in `depth_map`, which is not looked at again.) -/
def depthOps (eng : Clipper) (dm am : DepthMap) (avoidDepths : List ℚ) (depth : ℚ) (deeper : List ℚ) :
    Except Err (List PathFace) := do
  let faces := dm.get depth ++ (deeper.map (fun d => dm.get d)).flatten
  let ops ← combineOuters eng faces depth
  let inners := (faces.map PathFace.inners).flatten
  if avoidDepths ≠ [] then
    let active := avoidDepths.filter (fun a => decide (depth ≤ a))
    let avoidFaces := (active.map (fun a => am.get a)).flatten
    differencePolyTree eng ops (inners ++ avoidFaces.map PathFace.outer) depth
  else
    differencePolyTree eng ops inners depth

/-- The loop src/cq_cam/operations/pocket.py:160-186. -/
def depthsOps (eng : Clipper) (dm am : DepthMap) (avoidDepths : List ℚ) : List ℚ → Except Err (List PathFace)
  | [] => .ok []
  | d :: deeper => do
      let ops ← depthOps eng dm am avoidDepths d deeper
      let rest ← depthsOps eng dm am avoidDepths deeper
      .ok (ops ++ rest)

/-- src/cq_cam/operations/pocket.py:151-188 `build_pocket_ops`. -/
def buildPocketOps (eng : Clipper) (opAreas avoidAreas : List PathFace) : Except Err (List PathFace) := do
  let (dm, depths) ← generateDepthMap opAreas
  let (am, avoidDepths) ← generateDepthMap avoidAreas
  depthsOps eng dm am avoidDepths depths

/-- src/cq_cam/operations/pocket.py:201-210: the contours that follow a contour. -/
def nextOuters (eng : Clipper) (pocket : PathFace) (step : ℚ) (precision : ℕ) (outer : List Pt) :
    Except Err (List (List Pt)) := do
  let cands ← offsetPath eng outer (-step) precision
  if cands ≠ [] ∧ pocket.inners ≠ [] then
    let faces ← differencePolyTree eng cands pocket.inners 0
    .ok (faces.map PathFace.outer)
  else .ok cands

/-- src/cq_cam/operations/pocket.py:201-215: the objects `PathFace(outer, [], pocket.depth)` that follow the object of a
node. -/
def nextFaces (eng : Clipper) (pocket : PathFace) (step : ℚ) (precision : ℕ) (f : PathFace) : Except Err (List PathFace) := do
  let os ← nextOuters eng pocket step precision f.outer
  .ok (os.map (fun o => ⟨o, [], pocket.depth⟩))

/-- New objects, with their identity.  The objects in the trees (`PathFace` at src/cq_cam/operations/pocket.py:214,
`cq.Wire` at src/cq_cam/operations/pocket_cq.py:128) are told apart by identity, which is modelled by a number: the
position of the node that holds the object. -/
def tagged {α : Type} (n : ℕ) : List α → List (ℕ × α)
  | [] => []
  | o :: os => (n, o) :: tagged (n + 1) os

/-- The loop src/cq_cam/operations/pocket.py:199-219 (and src/cq_cam/operations/pocket_cq.py:110-132), for a function
that gives the objects that follow an object; the first number limits the number of rounds. -/
def fillLoop {α : Type} (next : α → Except Err (List α)) :
    ℕ → CTree (ℕ × α) → Except Err (CTree (ℕ × α))
  | 0, _ => .error .outOfFuel
  | n + 1, t =>
      match t.nextUnlocked with
      | none => .ok t
      | some i =>
          match t[i]? with
          | none => .error .indexError
          | some nd => do
              let os ← next nd.obj.2
              fillLoop next n (if os ≠ [] then t.branch i (tagged t.length os) else t.lock i)

/-- src/cq_cam/operations/pocket.py:191-224 `fill_pocket_contour_shrink`, within `fuel` rounds. -/
def fillPocket (eng : Clipper) (fuel : ℕ) (pocket : PathFace) (step : ℚ) (precision : ℕ) :
    Except Err (List (List PathFace)) := do
  let t ← fillLoop (nextFaces eng pocket step precision) fuel
    (CTree.init (0, ⟨pocket.outer, [], pocket.depth⟩))
  .ok (t.sequences.map (fun s => s.map Prod.snd))

/-- One round of the loop src/cq_cam/operations/pocket.py:256-265: the sequences of one pocket region. -/
def opSequences (eng : Clipper) (fuel : ℕ) (stepover : ℚ) (stepdown : Option ℚ) (precision : ℕ)
    (shallower : List PathFace) (op : PathFace) : Except Err (List (List PathFace)) := do
  let fill ← fillPocket eng fuel op stepover precision
  match stepdown with
  | none => .ok fill
  | some s =>
      if s = 0 then .ok fill
      else
        let stepped ← applyStepdown fill (determineStepdownStartDepth eng op shallower) s
        .ok (stepped ++ fill)

/-- The loop src/cq_cam/operations/pocket.py:256-265. -/
def allSequences (eng : Clipper) (fuel : ℕ) (stepover : ℚ) (stepdown : Option ℚ) (precision : ℕ) :
    List PathFace → List PathFace → Except Err (List (List PathFace))
  | _, [] => .ok []
  | shallower, op :: ops => do
      let s ← opSequences eng fuel stepover stepdown precision shallower op
      let rest ← allSequences eng fuel stepover stepdown precision (shallower ++ [op]) ops
      .ok (s ++ rest)

/-- The loop src/cq_cam/operations/pocket.py:270-275; `commands` are those collected so far. -/
def routeSequences (j : Job) (stepover : ℚ) : List Motion → AddrVec → List (List PathFace) → Except Err (List Motion)
  | commands, _, [] => .ok commands
  | commands, pos, s :: ss => do
      let cs ← routePolyfaceOuters j s (some stepover) (some pos)
      match (commands ++ cs).getLast? with
      | none => .error .indexError
      | some cmd => routeSequences j stepover (commands ++ cs) cmd.fin ss

/-- src/cq_cam/operations/pocket.py:227-278 `pocket_clipper`. -/
def pocketClipper (eng : Clipper) (fuel : ℕ) (j : Job) (opAreas avoidAreas : List PathFace)
    (outerOffset innerOffset avoidOuterOffset avoidInnerOffset stepover : ℚ) (stepdown : Option ℚ) :
    Except Err (List Motion) := do
  let ops ← mapE (fun f => offsetPolyface eng f outerOffset innerOffset j.precision) opAreas
  let avoids ← mapE (fun f => offsetPolyface eng f avoidOuterOffset avoidInnerOffset j.precision) avoidAreas
  let pocketOps ← buildPocketOps eng ops.flatten avoids.flatten
  let sequences ← allSequences eng fuel stepover stepdown j.precision [] pocketOps
  routeSequences j stepover [] {} sequences

/-- The offset arguments of `pocket`. -/
structure PocketArgs where
  outerOffset : Option OffsetInput := none
  innerOffset : Option OffsetInput := none
  avoidOuterOffset : Option OffsetInput := none
  avoidInnerOffset : Option OffsetInput := none
  stepover : Option OffsetInput := none
  stepdown : Option ℚ := none

/-- src/cq_cam/operations/pocket.py:30-84 `pocket`, with `engine="clipper"`, on faces already in job coordinates
(lines 56-57, `transformShape`).  `avoid_areas=None` is the empty list.  Without a tool radius (`None`) the first
multiplication in `calculate_offset` raises `TypeError`. -/
def pocket (eng : Clipper) (veq : Vec → Vec → Bool) (fuel : ℕ) (opAreas avoidAreas : List CqFace) (a : PocketArgs)
    (j : Job) : Except Err (List Motion) :=
  match j.toolRadius with
  | none => .error .typeError
  | some r => do
      let outer := if avoidAreas ≠ [] ∧ a.outerOffset = none then some (.mult 0) else a.outerOffset
      let ops ← mapE (fun f => PathFace.fromCqFace veq f j.precision) opAreas
      let avoids ← mapE (fun f => PathFace.fromCqFace veq f j.precision) avoidAreas
      pocketClipper eng fuel j ops avoids (calculateOffset r outer (some (-1)))
        (calculateOffset r a.innerOffset (some 1)) (calculateOffset r a.avoidOuterOffset (some 1))
        (calculateOffset r a.avoidInnerOffset (some (-1))) (calculateOffset r a.stepover (some (1 / 2))) a.stepdown

/-- src/cq_cam/fluent.py:212-246 `Job.pocket`, as a fluent call. -/
def pocketRequest (eng : Clipper) (veq : Vec → Vec → Bool) (fuel : ℕ) (opAreas avoidAreas : List CqFace)
    (a : PocketArgs) (tool : Option Tool := none) : Request :=
  { opName := "Pocket".toList, tool, gen := pocket eng veq fuel opAreas avoidAreas a }

end CQ
