import Verif.Model.LinkedPolygon
import Verif.Model.Pocket

/-!
# Model of the zigzag strategy of `src/cq_cam/operations/strategy.py`

Scanlines are pairs of points: clipping a straight line gives straight pieces.
-/

namespace CQ

/-- A loop whose body may raise. -/
def foldE {α β : Type} (f : β → α → Except Err β) : β → List α → Except Err β
  | b, [] => .ok b
  | b, a :: as => do
      let b' ← f b a
      foldE f b' as

/-- src/cq_cam/operations/strategy.py:117-126 `_scanline_end_map`: the dictionary, latest entry first. -/
def scanlineMap : List (Pt × Pt) → List (Pt × (Pt × Pt))
  | [] => []
  | s :: ss => scanlineMap ss ++ [(s.2, s), (s.1, s)]

/-- src/cq_cam/operations/strategy.py:117-126 `_scanline_end_map`: the list of points. -/
def scanpoints (ss : List (Pt × Pt)) : List Pt := ss.flatMap (fun s => [s.1, s.2])

/-- The variables of the loop src/cq_cam/operations/strategy.py:135-145; `owner` is `scanpoint_to_linked_polygon` with
polygons given by their number, latest entry first. -/
structure LinkState where
  remaining : List Pt
  lp : LinkedPolygon
  owner : List (Pt × ℕ)
deriving DecidableEq, Repr

/-- src/cq_cam/operations/strategy.py:140-145. -/
def linkStep (k : ℕ) (p1 p2 : Pt) (s : LinkState) (q : Pt) : Except Err LinkState := do
  let d ← distToSegmentSquared q p1 p2
  if d.1 < 1 / 10000000 then do
    let remaining ← pyRemove s.remaining q
    let lp ← s.lp.linkPoint q p1 p2
    .ok ⟨remaining, lp, (q, k) :: s.owner⟩
  else .ok s

/-- src/cq_cam/operations/strategy.py:138-145: one segment; the loop runs over a copy of the remaining points. -/
def linkSegment (k : ℕ) (s : LinkState) (seg : Pt × Pt) : Except Err LinkState :=
  foldE (linkStep k seg.1 seg.2) s s.remaining

/-- src/cq_cam/operations/strategy.py:136-145: one boundary. -/
def linkBoundary (k : ℕ) (remaining : List Pt) (owner : List (Pt × ℕ)) (polygon : List Pt) : Except Err LinkState :=
  foldE (linkSegment k) ⟨remaining, { polygon := polygon }, owner⟩ (segments polygon)

/-- The loop src/cq_cam/operations/strategy.py:135-147 from boundary number `k` on. -/
def linkBoundaries : ℕ → List Pt → List (Pt × ℕ) → List (List Pt) → Except Err (List LinkedPolygon × List (Pt × ℕ))
  | _, remaining, owner, [] => if remaining ≠ [] then .error .assertionError else .ok ([], owner)
  | k, remaining, owner, b :: bs => do
      let s ← linkBoundary k remaining owner b
      let (lps, owner') ← linkBoundaries (k + 1) s.remaining s.owner bs
      .ok (s.lp :: lps, owner')

/-- src/cq_cam/operations/strategy.py:129-148 `_link_scanpoints_to_boundaries`. -/
def linkScanpoints (points : List Pt) (boundaries : List (List Pt)) :
    Except Err (List LinkedPolygon × List (Pt × ℕ)) :=
  linkBoundaries 0 points [] boundaries

/-- Looking up a key, src/cq_cam/operations/strategy.py:171, 177, 188. -/
def getKey {β : Type} (d : List (Pt × β)) (p : Pt) : Except Err β :=
  match d.lookup p with
  | some b => .ok b
  | none => .error .keyError

/-- The polygon with the given number. -/
def getPolygon (lps : List LinkedPolygon) (k : ℕ) : Except Err LinkedPolygon :=
  match lps[k]? with
  | some lp => .ok lp
  | none => .error .indexError

/-- `scanlines.remove(scanline)`, src/cq_cam/operations/strategy.py:191. -/
def removeLine (ss : List (Pt × Pt)) (s : Pt × Pt) : Except Err (List (Pt × Pt)) :=
  if s ∈ ss then .ok (ss.erase s) else .error .valueError

/-- The variables of the loop src/cq_cam/operations/strategy.py:176-191. -/
structure RouteState where
  lps : List LinkedPolygon
  scanlines : List (Pt × Pt)
  cutPos : Pt
  seq : List Pt
  seqs : List (List Pt)
deriving DecidableEq, Repr

/-- src/cq_cam/operations/strategy.py:180-185: start again with the next scanline. -/
def RouteState.restart (s : RouteState) (lps : List LinkedPolygon) : Except Err RouteState :=
  match s.scanlines with
  | [] => .error .indexError
  | (a, b) :: rest => .ok { lps, scanlines := rest, cutPos := b, seq := [a, b], seqs := s.seqs ++ [s.seq] }

/-- src/cq_cam/operations/strategy.py:187-191: follow the link and cut the scanline found there. -/
def RouteState.follow (lineMap : List (Pt × (Pt × Pt))) (s : RouteState) (lps : List LinkedPolygon) (path : List Pt) :
    Except Err RouteState :=
  match path.getLast? with
  | none => .error .indexError
  | some q => do
      let line ← getKey lineMap q
      let next := if line.1 = q then line.2 else line.1
      let scanlines ← removeLine s.scanlines line
      .ok { s with lps, scanlines, cutPos := next, seq := s.seq ++ path ++ [next] }

/-- One round of the loop src/cq_cam/operations/strategy.py:176-191. -/
def routeRound (owner : List (Pt × ℕ)) (lineMap : List (Pt × (Pt × Pt))) (s : RouteState) : Except Err RouteState := do
  let k ← getKey owner s.cutPos
  let lp ← getPolygon s.lps k
  let r ← lp.nearestLinked s.cutPos
  match r.1 with
  | none => s.restart (s.lps.set k r.2)
  | some path => s.follow lineMap (s.lps.set k r.2) path

/-- The loop src/cq_cam/operations/strategy.py:176-194 with `n` rounds granted. -/
def routeLoop (owner : List (Pt × ℕ)) (lineMap : List (Pt × (Pt × Pt))) : ℕ → RouteState → Except Err (List (List Pt))
  | n, s =>
      if s.scanlines = [] then .ok (s.seqs ++ [s.seq])
      else
        match n with
        | 0 => .error .outOfFuel
        | n + 1 => do
            let s' ← routeRound owner lineMap s
            routeLoop owner lineMap n s'

/-- src/cq_cam/operations/strategy.py:167-169: the first scanline from left to right. -/
def orientLine (s : Pt × Pt) : Pt × Pt := if s.1.x > s.2.x then (s.2, s.1) else s

/-- src/cq_cam/operations/strategy.py:151-194 `_route_zig_zag`. -/
def routeZigZag (lps : List LinkedPolygon) (scanlines : List (Pt × Pt)) (owner : List (Pt × ℕ))
    (lineMap : List (Pt × (Pt × Pt))) : Except Err (List (List Pt)) :=
  match scanlines with
  | [] => .error .indexError
  | s :: rest => do
      let (start, cut) := orientLine s
      let k ← getKey owner start
      let lp ← getPolygon (lps.map LinkedPolygon.reset) k
      let lp ← lp.drop start
      routeLoop owner lineMap rest.length
        ⟨(lps.map LinkedPolygon.reset).set k lp, rest, cut, [start, cut], []⟩

/-- The answers of pyclipper: the rectangle around the boundaries (left, top, right, bottom, `top` being the smaller Y), the
length of its diagonal, and the pieces of straight lines inside the boundaries. -/
structure ScanClipper where
  bounds : List (List Pt) → ℚ × ℚ × ℚ × ℚ
  diagonal : ℚ × ℚ × ℚ × ℚ → ℚ
  clip : List (List Pt) → List (Pt × Pt) → Except Err (List (Pt × Pt))

/-- src/cq_cam/utils/utils.py:229-241 `max_bounds`: left, top, right, bottom. -/
def maxBounds (b : ℚ × ℚ × ℚ × ℚ) (diagonal : ℚ) : ℚ × ℚ × ℚ × ℚ :=
  let half := diagonal / 2
  let xc := (b.1 + b.2.2.1) / 2
  let yc := (b.2.1 + b.2.2.2) / 2
  ((⌊xc - half⌋ : ℤ), (⌈yc + half⌉ : ℤ), (⌈xc + half⌉ : ℤ), (⌊yc - half⌋ : ℤ))

/-- src/cq_cam/operations/strategy.py:80-92: the lines to clip, `step` apart (numpy refuses step 0). -/
def scanTemplates (eng : ScanClipper) (boundaries : List (List Pt)) (step : ℚ) : Except Err (List (Pt × Pt)) :=
  let b := eng.bounds boundaries
  let m := maxBounds b (eng.diagonal b)
  if step = 0 then .error .zeroDivision
  else .ok ((arange m.2.2.2 m.2.1 step).map (fun y => (⟨m.1, y⟩, ⟨m.2.2.1, y⟩)))

/-- src/cq_cam/operations/strategy.py:57-114 `ZigZagStrategy.process` on polygons. -/
def zigzag (eng : ScanClipper) (boundaries : List (List Pt)) (step : ℚ) : Except Err (List (List Pt)) := do
  let templates ← scanTemplates eng boundaries step
  let scanlines ← eng.clip boundaries templates
  let (lps, owner) ← linkScanpoints (scanpoints scanlines) boundaries
  routeZigZag lps scanlines owner (scanlineMap scanlines)

end CQ
