import Verif.Model.Op3d
import Verif.Model.Drill
import Verif.Model.ContourStrategy
import Verif.Model.Visualize

/-!
# Model of the values kept for the life of the process

`cached_dist2` (`src/cq_cam/utils/utils.py`) keeps every distance it was asked for, `cached_occ_color`
(`src/cq_cam/visualize.py`) every colour.  The functions that use the first are modelled here once more, with the dictionary
passed through them; those of the other files leave the cache out.
-/

namespace CQ

/-- The dictionary `functools.cache` keeps for `cached_dist2`, latest entry first. -/
abbrev DistCache := List ((Pt × Pt) × ℚ)

/-- Code that reads and fills the dictionary and may raise; entries stay when it raises. -/
def Cached (α : Type) := DistCache → Except Err α × DistCache

/-- Code that raises. -/
def Cached.raise {α : Type} (e : Err) : Cached α := fun c => (.error e, c)

instance : Monad Cached where
  pure a := fun c => (.ok a, c)
  bind m f := fun c =>
    match m c with
    | (.error e, c') => (.error e, c')
    | (.ok a, c') => f a c'

/-- Code that does not use the dictionary. -/
def Cached.lift {α : Type} (x : Except Err α) : Cached α := fun c => (x, c)

/-- src/cq_cam/utils/utils.py:279-281 `cached_dist2`. -/
def cachedDist2 (p q : Pt) : Cached ℚ := fun c =>
  match c.lookup (p, q) with
  | some d => (.ok d, c)
  | none => (.ok (dist2 p q), ((p, q), dist2 p q) :: c)

/-- A loop whose results are collected. -/
def mapC {α β : Type} (f : α → Cached β) : List α → Cached (List β)
  | [] => pure []
  | a :: as => do
      let b ← f a
      let bs ← mapC f as
      pure (b :: bs)

/-- A loop with a variable. -/
def foldC {α β : Type} (f : β → α → Cached β) : β → List α → Cached β
  | b, [] => pure b
  | b, a :: as => do
      let b' ← f b a
      foldC f b' as

/-- The loop src/cq_cam/operations/strategy.py:26-29. -/
def pickNearestFromC (p : Pt) : ℚ → Pt → List Pt → Cached Pt
  | _, best, [] => pure best
  | d, best, o :: os => do
      let e ← cachedDist2 p o
      if e < d then pickNearestFromC p e o os else pickNearestFromC p d best os

/-- src/cq_cam/operations/strategy.py:22-30 `Strategy._pick_nearest`. -/
def pickNearestC (p : Pt) : List Pt → Cached Pt
  | [] => .raise .indexError
  | o :: os => do
      let d ← cachedDist2 p o
      pickNearestFromC p d o os

/-! ### Drilling -/

/-- src/cq_cam/operations/drill.py:64-66: the next hole. -/
def nextHoleC : Option Pt → List Pt → Cached Pt
  | some last, ps => pickNearestC last ps
  | none, [] => .raise .indexError
  | none, p :: _ => pure p

/-- The loop src/cq_cam/operations/drill.py:63-69 with `n` rounds granted. -/
def orderHolesC : ℕ → Option Pt → List Pt → Cached (List Pt)
  | _, _, [] => pure []
  | 0, _, _ :: _ => .raise .outOfFuel
  | n + 1, last, p :: ps => do
      let next ← nextHoleC last (p :: ps)
      let rest ← orderHolesC n (some next) ((p :: ps).erase next)
      pure (next :: rest)

/-- src/cq_cam/operations/drill.py:24-85 `Drill.__post_init__`. -/
def drillC (center : List Edge → Except Err Vec) (o : Option (List DrillObj)) (depth : Option ℚ) (j : Job) :
    Cached (List Motion) :=
  match o, depth with
  | none, _ => .raise .operationError
  | some _, none => .raise .operationError
  | some objs, some d => do
      let vs ← Cached.lift (mapE (drillVectors center j.top) objs)
      let points := vs.flatten.map (fun v => (⟨v.x, v.y⟩ : Pt))
      if points = [] then .raise .operationError
      else do
        let ordered ← orderHolesC points.length none points
        pure (drillHoles j (-|d|) {} ordered)

/-! ### Sorting of contours -/

/-- src/cq_cam/operations/strategy.py:45-47. -/
def rotateNearestC (point : Pt) (path : List Pt) : Cached (List Pt) := do
  let nearest ← pickNearestC point path
  let i ← Cached.lift (pyIndex path nearest)
  pure (path.drop i ++ path.take i)

/-- One round of the loop src/cq_cam/operations/strategy.py:38-51. -/
def sortPathC (point : Pt) (path : List Pt) : Cached (List Pt) :=
  match path with
  | [] => .raise .indexError
  | p :: ps =>
      if (p :: ps).getLast? = some p then do
        let r ← rotateNearestC point (p :: ps).dropLast
        Cached.lift (closeLoop r)
      else rotateNearestC point (p :: ps)

/-- src/cq_cam/operations/strategy.py:33-52 `_sort_clipper_output`. -/
def sortOutputC : List (List Pt) → Cached (List (List Pt))
  | [] => .raise .indexError
  | first :: rest =>
      match first.getLast? with
      | none => .raise .indexError
      | some point => do
          let sorted ← mapC (sortPathC point) rest
          pure (first :: sorted)

/-- src/cq_cam/operations/strategy.py:203-230 `ContourStrategy.process` with `n` rounds granted for each outer boundary. -/
def contourStrategyC {W : Type} (eng : PathEngine) (k : WireKernel W) (toolDiameter stepover : ℚ) (n : ℕ)
    (outers inners : List W) : Cached (List (List Pt)) := do
  let c ← Cached.lift (foldE (addClipWire eng k) {} outers)
  let c ← Cached.lift (foldE (addClipWire eng k) c inners)
  let c ← Cached.lift (foldE (fun c o => contourLoop eng k (-|toolDiameter * stepover|) n [o] c) c outers)
  let paths ← Cached.lift (c.execute eng)
  sortOutputC paths

/-! ### Zigzag and 3D surfacing -/

/-- src/cq_cam/utils/linked_polygon.py:27-32: the place of `point` in the range sorted by the distance to `segStart`. -/
def placeInRangeC (range : List Pt) (point segStart : Pt) : Cached ℕ := do
  let keyed ← mapC (fun p => do
    let d ← cachedDist2 p segStart
    pure (d, p)) range
  let sorted := (keyed.insertionSort (fun a b => a.1 ≤ b.1)).map Prod.snd
  Cached.lift (pyIndex sorted point)

/-- src/cq_cam/utils/linked_polygon.py:12-34 `link_point`. -/
def LinkedPolygon.linkPointC (lp : LinkedPolygon) (point segStart segEnd : Pt) : Cached LinkedPolygon :=
  if point ∈ lp.linked then .raise .assertionError
  else do
    let i ← Cached.lift (pyIndex lp.polygon segStart)
    let j ← Cached.lift (pyIndex lp.polygon segEnd)
    if i + 1 = j then pure { lp with polygon := pyInsert lp.polygon (i + 1) point, linked := lp.linked ++ [point] }
    else do
      let k ← placeInRangeC ((lp.polygon.drop (i + 1)).take (j - (i + 1)) ++ [point]) point segStart
      pure { lp with polygon := pyInsert lp.polygon (i + 1 + k) point, linked := lp.linked ++ [point] }

/-- The loops src/cq_cam/utils/linked_polygon.py:71-75 and 81-86; `total` and `sequence` are the variables of the loop. -/
def searchLinkedC (avail : List Pt) (dist : Pt → Cached ℚ) : ℚ → List Pt → List Pt → Cached (ℚ × List Pt)
  | total, sequence, [] => pure (total, sequence)
  | total, sequence, q :: qs => do
      let d ← dist q
      if q ∈ avail then pure (total + d, sequence ++ [q])
      else searchLinkedC avail dist (total + d) (sequence ++ [q]) qs

/-- src/cq_cam/utils/linked_polygon.py:51-93 `nearest_linked`. -/
def LinkedPolygon.nearestLinkedC (lp : LinkedPolygon) (point : Pt) : Cached (Option (List Pt) × LinkedPolygon) := do
  let avail ← Cached.lift (pyRemove lp.avail point)
  if avail = [] then pure (none, { lp with avail })
  else do
    let i ← Cached.lift (pyIndex lp.polygon point)
    let search := lp.polygon.drop (i + 1) ++ lp.polygon.take i
    let forward ← searchLinkedC avail (fun q => cachedDist2 point q) 0 [] search
    let reverse ← searchLinkedC avail (fun q => cachedDist2 q point) 0 [] search.reverse
    Cached.lift (takeLink lp avail (chooseLink forward reverse))

/-- src/cq_cam/operations/strategy.py:140-145. -/
def linkStepC (k : ℕ) (p1 p2 : Pt) (s : LinkState) (q : Pt) : Cached LinkState := do
  let d ← Cached.lift (distToSegmentSquared q p1 p2)
  if d.1 < 1 / 10000000 then do
    let remaining ← Cached.lift (pyRemove s.remaining q)
    let lp ← s.lp.linkPointC q p1 p2
    pure ⟨remaining, lp, (q, k) :: s.owner⟩
  else pure s

/-- src/cq_cam/operations/strategy.py:138-145. -/
def linkSegmentC (k : ℕ) (s : LinkState) (seg : Pt × Pt) : Cached LinkState :=
  foldC (linkStepC k seg.1 seg.2) s s.remaining

/-- src/cq_cam/operations/strategy.py:136-145. -/
def linkBoundaryC (k : ℕ) (remaining : List Pt) (owner : List (Pt × ℕ)) (polygon : List Pt) : Cached LinkState :=
  foldC (linkSegmentC k) ⟨remaining, { polygon := polygon }, owner⟩ (segments polygon)

/-- The loop src/cq_cam/operations/strategy.py:135-147 from boundary number `k` on. -/
def linkBoundariesC : ℕ → List Pt → List (Pt × ℕ) → List (List Pt) → Cached (List LinkedPolygon × List (Pt × ℕ))
  | _, remaining, owner, [] => if remaining ≠ [] then .raise .assertionError else pure ([], owner)
  | k, remaining, owner, b :: bs => do
      let s ← linkBoundaryC k remaining owner b
      let (lps, owner') ← linkBoundariesC (k + 1) s.remaining s.owner bs
      pure (s.lp :: lps, owner')

/-- One round of the loop src/cq_cam/operations/strategy.py:176-191. -/
def routeRoundC (owner : List (Pt × ℕ)) (lineMap : List (Pt × (Pt × Pt))) (s : RouteState) : Cached RouteState := do
  let k ← Cached.lift (getKey owner s.cutPos)
  let lp ← Cached.lift (getPolygon s.lps k)
  let r ← lp.nearestLinkedC s.cutPos
  Cached.lift (match r.1 with
    | none => s.restart (s.lps.set k r.2)
    | some path => s.follow lineMap (s.lps.set k r.2) path)

/-- The loop src/cq_cam/operations/strategy.py:176-194 with `n` rounds granted. -/
def routeLoopC (owner : List (Pt × ℕ)) (lineMap : List (Pt × (Pt × Pt))) : ℕ → RouteState → Cached (List (List Pt))
  | n, s =>
      if s.scanlines = [] then pure (s.seqs ++ [s.seq])
      else
        match n with
        | 0 => .raise .outOfFuel
        | n + 1 => do
            let s' ← routeRoundC owner lineMap s
            routeLoopC owner lineMap n s'

/-- src/cq_cam/operations/strategy.py:151-194 `_route_zig_zag`. -/
def routeZigZagC (lps : List LinkedPolygon) (scanlines : List (Pt × Pt)) (owner : List (Pt × ℕ))
    (lineMap : List (Pt × (Pt × Pt))) : Cached (List (List Pt)) :=
  match scanlines with
  | [] => .raise .indexError
  | s :: rest => do
      let k ← Cached.lift (getKey owner (orientLine s).1)
      let lp ← Cached.lift (getPolygon (lps.map LinkedPolygon.reset) k)
      let lp ← Cached.lift (lp.drop (orientLine s).1)
      routeLoopC owner lineMap rest.length
        ⟨(lps.map LinkedPolygon.reset).set k lp, rest, (orientLine s).2, [(orientLine s).1, (orientLine s).2], []⟩

/-- src/cq_cam/operations/strategy.py:57-114 `ZigZagStrategy.process` on polygons. -/
def zigzagC (eng : ScanClipper) (boundaries : List (List Pt)) (step : ℚ) : Cached (List (List Pt)) := do
  let templates ← Cached.lift (scanTemplates eng boundaries step)
  let scanlines ← Cached.lift (eng.clip boundaries templates)
  let (lps, owner) ← linkBoundariesC 0 (scanpoints scanlines) [] boundaries
  routeZigZagC lps scanlines owner (scanlineMap scanlines)

/-- src/cq_cam/operations/op3d.py:61-162: the moves for one boundary. -/
def surfaceBoundaryC (eng : SurfaceEngine) (args : SurfaceArgs) (j : Job) (polygon : List Pt) : Cached (List Motion) := do
  let paths ← zigzagC eng.scan [polygon] (args.toolDiameter * args.stepover)
  Cached.lift (do
    let sequences ← mapE (interpolateSequence eng args.interpolationStep) paths
    let merged ← mergeHeights sequences (eng.drop sequences.flatten)
    let depths ← surfaceDepths args.stepdown args.topHeight eng.bottom
    .ok (passesMoves j depths merged 0 {} depths))

/-- src/cq_cam/operations/op3d.py:53-162: the moves for the boundaries the faces combine to. -/
def surface3dC (eng : SurfaceEngine) (k : FaceKernel) (args : SurfaceArgs) (outerOffset : ℚ × ℚ)
    (innerOffset : Option (ℚ × ℚ)) (boundaries : List BoundaryFace) (j : Job) : Cached (List Motion) := do
  let faces ← Cached.lift (mapE (offsetBoundary k args.toolDiameter outerOffset innerOffset) boundaries)
  let css ← mapC (fun f : List Edge × List (List Edge) => do
    let polygon ← Cached.lift (wirePolygon f.1 true)
    surfaceBoundaryC eng args j polygon) faces.flatten
  pure css.flatten

/-! ### A process -/

/-- A call that uses the dictionary, with what the CAD kernel and the clipping library answer to it. -/
inductive ProcessCall
  | drill (center : List Edge → Except Err Vec) (o : Option (List DrillObj)) (depth : Option ℚ) (j : Job)
  | surface3d (eng : SurfaceEngine) (k : FaceKernel) (args : SurfaceArgs) (outerOffset : ℚ × ℚ)
      (innerOffset : Option (ℚ × ℚ)) (boundaries : List BoundaryFace) (j : Job)
  | zigzag (eng : ScanClipper) (boundaries : List (List Pt)) (step : ℚ)
  | sort (paths : List (List Pt))

/-- What a call returns: commands or paths. -/
inductive CallResult
  | moves (cs : List Motion)
  | paths (ps : List (List Pt))
deriving DecidableEq

/-- One call. -/
def ProcessCall.run : ProcessCall → Cached CallResult
  | .drill center o depth j => do
      let cs ← drillC center o depth j
      pure (.moves cs)
  | .surface3d eng k args oo io bs j => do
      let cs ← surface3dC eng k args oo io bs j
      pure (.moves cs)
  | .zigzag eng bs step => do
      let ps ← zigzagC eng bs step
      pure (.paths ps)
  | .sort paths => do
      let ps ← sortOutputC paths
      pure (.paths ps)

/-- The calls of a process one after the other, each with its result or exception (which the caller catches). -/
def runProcess : List ProcessCall → DistCache → List (Except Err CallResult)
  | [], _ => []
  | t :: ts, c => (t.run c).1 :: runProcess ts (t.run c).2

/-! ### Colours -/

/-- src/cq_cam/visualize.py:9-19 `cached_occ_color`, at the `n`-th call; `create n name` is what `cq_editor` makes of the name
then (an object of its own at every call, which is made even if the name is known).  The dictionary is `_occ_color_cache`. -/
def cachedColor {C : Type} (create : ℕ → String → Except Err C) (n : ℕ) (name : String) (d : List (String × C)) :
    Except Err (C × List (String × C)) := do
  let made ← create n name
  match d.lookup name with
  | some c => .ok (c, d)
  | none => .ok (made, (name, made) :: d)

/-- The colours for a list of names, from the `n`-th call on. -/
def cachedColors {C : Type} (create : ℕ → String → Except Err C) :
    ℕ → List String → List (String × C) → Except Err (List C × List (String × C))
  | _, [], d => .ok ([], d)
  | n, name :: names, d => do
      let r ← cachedColor create n name d
      let rs ← cachedColors create (n + 1) names r.2
      .ok (r.1 :: rs.1, rs.2)

end CQ
