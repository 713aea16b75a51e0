import Verif.Model.Scan64
import Verif.Model.Routers64

/-!
# The zigzag strategy in floating point

The exact versions are in `Model/LinkedPolygon` and `Model/ZigZag`.  `sq` is the C library's `pow(x, 2.0)`.
-/

namespace CQ

/-- src/cq_cam/utils/linked_polygon.py:12-34 `link_point` on floats: the distances by which the points are sorted are rounded. -/
def LinkedPolygon.linkPoint64 (sq : ℚ → ℚ) (lp : LinkedPolygon) (point segStart segEnd : Pt) : Except Err LinkedPolygon :=
  if point ∈ lp.linked then .error .assertionError
  else do
    let i ← pyIndex lp.polygon segStart
    let j ← pyIndex lp.polygon segEnd
    if i + 1 = j then .ok { lp with polygon := pyInsert lp.polygon (i + 1) point, linked := lp.linked ++ [point] }
    else do
      let range := (lp.polygon.drop (i + 1)).take (j - (i + 1)) ++ [point]
      let sorted := range.insertionSort (fun a b => dist2F sq a segStart ≤ dist2F sq b segStart)
      let k ← pyIndex sorted point
      .ok { lp with polygon := pyInsert lp.polygon (i + 1 + k) point, linked := lp.linked ++ [point] }

/-- The loops src/cq_cam/utils/linked_polygon.py:71-75 and 81-86 on floats; `acc` is the distance summed up so far. -/
def searchLinked64 (avail : List Pt) (dist : Pt → ℚ) : ℚ → List Pt → ℚ × List Pt
  | acc, [] => (acc, [])
  | acc, q :: qs =>
      if q ∈ avail then (b64 (acc + dist q), [q])
      else ((searchLinked64 avail dist (b64 (acc + dist q)) qs).1, q :: (searchLinked64 avail dist (b64 (acc + dist q)) qs).2)

/-- src/cq_cam/utils/linked_polygon.py:51-93 `nearest_linked` on floats: the result and the polygon afterwards. -/
def LinkedPolygon.nearestLinked64 (sq : ℚ → ℚ) (lp : LinkedPolygon) (point : Pt) :
    Except Err (Option (List Pt) × LinkedPolygon) := do
  let avail ← pyRemove lp.avail point
  if avail = [] then .ok (none, { lp with avail })
  else do
    let i ← pyIndex lp.polygon point
    let search := lp.polygon.drop (i + 1) ++ lp.polygon.take i
    takeLink lp avail (chooseLink (searchLinked64 avail (fun q => dist2F sq point q) 0 search)
      (searchLinked64 avail (fun q => dist2F sq q point) 0 search.reverse))

/-- src/cq_cam/operations/strategy.py:140-145 on floats. -/
def linkStep64 (sq : ℚ → ℚ) (k : ℕ) (p1 p2 : Pt) (s : LinkState) (q : Pt) : Except Err LinkState := do
  let d ← distToSegmentSquared64 sq q p1 p2
  if d.1 < b64 (1 / 10000000) then do
    let remaining ← pyRemove s.remaining q
    let lp ← s.lp.linkPoint64 sq q p1 p2
    .ok ⟨remaining, lp, (q, k) :: s.owner⟩
  else .ok s

/-- src/cq_cam/operations/strategy.py:138-145 on floats: one segment; the loop runs over a copy of the remaining points. -/
def linkSegment64 (sq : ℚ → ℚ) (k : ℕ) (s : LinkState) (seg : Pt × Pt) : Except Err LinkState :=
  foldE (linkStep64 sq k seg.1 seg.2) s s.remaining

/-- src/cq_cam/operations/strategy.py:136-145 on floats: one boundary. -/
def linkBoundary64 (sq : ℚ → ℚ) (k : ℕ) (remaining : List Pt) (owner : List (Pt × ℕ)) (polygon : List Pt) : Except Err LinkState :=
  foldE (linkSegment64 sq k) ⟨remaining, { polygon := polygon }, owner⟩ (segments polygon)

/-- The loop src/cq_cam/operations/strategy.py:135-147 on floats from boundary number `k` on. -/
def linkBoundaries64 (sq : ℚ → ℚ) : ℕ → List Pt → List (Pt × ℕ) → List (List Pt) → Except Err (List LinkedPolygon × List (Pt × ℕ))
  | _, remaining, owner, [] => if remaining ≠ [] then .error .assertionError else .ok ([], owner)
  | k, remaining, owner, b :: bs => do
      let s ← linkBoundary64 sq k remaining owner b
      let (lps, owner') ← linkBoundaries64 sq (k + 1) s.remaining s.owner bs
      .ok (s.lp :: lps, owner')

/-- src/cq_cam/operations/strategy.py:129-148 `_link_scanpoints_to_boundaries` on floats. -/
def linkScanpoints64 (sq : ℚ → ℚ) (points : List Pt) (boundaries : List (List Pt)) :
    Except Err (List LinkedPolygon × List (Pt × ℕ)) :=
  linkBoundaries64 sq 0 points [] boundaries

/-- One round of the loop src/cq_cam/operations/strategy.py:176-191 on floats. -/
def routeRound64 (sq : ℚ → ℚ) (owner : List (Pt × ℕ)) (lineMap : List (Pt × (Pt × Pt))) (s : RouteState) : Except Err RouteState := do
  let k ← getKey owner s.cutPos
  let lp ← getPolygon s.lps k
  let r ← lp.nearestLinked64 sq s.cutPos
  match r.1 with
  | none => s.restart (s.lps.set k r.2)
  | some path => s.follow lineMap (s.lps.set k r.2) path

/-- The loop src/cq_cam/operations/strategy.py:176-194 on floats with `n` rounds granted. -/
def routeLoop64 (sq : ℚ → ℚ) (owner : List (Pt × ℕ)) (lineMap : List (Pt × (Pt × Pt))) : ℕ → RouteState → Except Err (List (List Pt))
  | n, s =>
      if s.scanlines = [] then .ok (s.seqs ++ [s.seq])
      else
        match n with
        | 0 => .error .outOfFuel
        | n + 1 => do
            let s' ← routeRound64 sq owner lineMap s
            routeLoop64 sq owner lineMap n s'

/-- src/cq_cam/operations/strategy.py:151-194 `_route_zig_zag` on floats. -/
def routeZigZag64 (sq : ℚ → ℚ) (lps : List LinkedPolygon) (scanlines : List (Pt × Pt)) (owner : List (Pt × ℕ))
    (lineMap : List (Pt × (Pt × Pt))) : Except Err (List (List Pt)) :=
  match scanlines with
  | [] => .error .indexError
  | s :: rest => do
      let (start, cut) := orientLine s
      let k ← getKey owner start
      let lp ← getPolygon (lps.map LinkedPolygon.reset) k
      let lp ← lp.drop start
      routeLoop64 sq owner lineMap rest.length
        ⟨(lps.map LinkedPolygon.reset).set k lp, rest, cut, [start, cut], []⟩

/-- src/cq_cam/operations/strategy.py:57-114 `ZigZagStrategy.process` on polygons, on floats. -/
def zigzag64 (sq : ℚ → ℚ) (eng : ScanClipper) (boundaries : List (List Pt)) (toolDiameter stepover : ℚ) :
    Except Err (List (List Pt)) := do
  let templates ← scanTemplates64 eng boundaries toolDiameter stepover
  let scanlines ← eng.clip boundaries templates
  let (lps, owner) ← linkScanpoints64 sq (scanpoints scanlines) boundaries
  routeZigZag64 sq lps scanlines owner (scanlineMap scanlines)

end CQ
