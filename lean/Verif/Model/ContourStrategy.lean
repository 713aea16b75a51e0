import Verif.Model.Op3d
import Verif.Model.Drill
import Verif.Model.Scaling

/-!
# Model of `WireClipper` (`src/cq_cam/utils/utils.py`) and of the contour strategy of `src/cq_cam/operations/strategy.py`

pyclipper and the CAD kernel are external: their answers are parameters.
-/

namespace CQ

/-- `pyclipper.PT_SUBJECT`, `pyclipper.PT_CLIP`. -/
inductive PolyType
  | subject
  | clip
deriving DecidableEq, Repr

/-- The arguments of `AddPath`. -/
structure ClipPath where
  path : List IPt
  type : PolyType
  closed : Bool
deriving DecidableEq, Repr

/-- src/cq_cam/utils/utils.py:173-176 `WireClipper`: the paths pyclipper has been given, and `_pt_clip_cache`. -/
structure WireClipper where
  paths : List ClipPath := []
  cache : List ClipPath := []
deriving DecidableEq, Repr

/-- pyclipper: whether `AddPath` takes a path (it raises otherwise), and the open and the closed paths of the result of
`Execute2(CT_INTERSECTION)`. -/
structure PathEngine where
  accepts : ClipPath → Bool
  intersect : List ClipPath → Except Err (List (List IPt) × List (List IPt))

/-- `self._clipper.AddPath`. -/
def WireClipper.give (eng : PathEngine) (c : WireClipper) (p : ClipPath) : Except Err WireClipper :=
  if eng.accepts p then .ok { c with paths := c.paths ++ [p] } else .error .runtimeError

/-- src/cq_cam/utils/utils.py:210-213 `_add_path`. -/
def WireClipper.addPath (eng : PathEngine) (c : WireClipper) (path : List IPt) (type : PolyType) (closed cache : Bool) :
    Except Err WireClipper :=
  if type = .clip ∧ cache = true then ({ c with cache := c.cache ++ [⟨path, type, closed⟩] } : WireClipper).give eng ⟨path, type, closed⟩
  else c.give eng ⟨path, type, closed⟩

/-- src/cq_cam/utils/utils.py:205-208 `_add_polygon`. -/
def WireClipper.addPolygon (eng : PathEngine) (c : WireClipper) (polygon : List Pt) (type : PolyType) (closed cache : Bool) :
    Except Err WireClipper :=
  c.addPath eng (polygon.map scalePt) type closed cache

/-- src/cq_cam/utils/utils.py:187-193 `_add_wire` of a wire given by its ordered edges. -/
def WireClipper.addWire (eng : PathEngine) (c : WireClipper) (edges : List Edge) (type : PolyType) (cache closed : Bool) :
    Except Err WireClipper := do
  let polygon ← wirePolygon edges closed
  c.addPath eng (polygon.map scalePt) type closed cache

/-- src/cq_cam/utils/utils.py:215-218 `reset`. -/
def WireClipper.reset (eng : PathEngine) (c : WireClipper) : Except Err WireClipper :=
  foldE (WireClipper.give eng) { c with paths := [] } c.cache

/-- src/cq_cam/utils/utils.py:261-262: a closed path ends where it begins. -/
def closeLoop : List Pt → Except Err (List Pt)
  | [] => .error .indexError
  | p :: ps => .ok (p :: ps ++ [p])

/-- src/cq_cam/utils/utils.py:250-267 `execute`: the closed paths, then the open ones. -/
def WireClipper.execute (eng : PathEngine) (c : WireClipper) : Except Err (List (List Pt)) := do
  let r ← eng.intersect c.paths
  let closed ← mapE closeLoop (r.2.map (fun p => p.map unscalePt))
  .ok (closed ++ r.1.map (fun p => p.map unscalePt))

/-- The calls of a `WireClipper`: src/cq_cam/utils/utils.py:178-185 `add_clip_wire`, `add_subject_wire` (with the wire's
`IsClosed()`), 195-203 `add_clip_polygon`, `add_subject_polygon`, and 215-218 `reset`. -/
inductive ClipCall
  | clipWire (edges : List Edge) (isClosed cache : Bool)
  | subjectWire (edges : List Edge) (isClosed : Bool)
  | clipPolygon (polygon : List Pt) (closed cache : Bool)
  | subjectPolygon (polygon : List Pt) (closed : Bool)
  | reset

/-- One call. -/
def ClipCall.run (eng : PathEngine) (c : WireClipper) : ClipCall → Except Err WireClipper
  | .clipWire edges isClosed cache => c.addWire eng edges .clip cache isClosed
  | .subjectWire edges isClosed => c.addWire eng edges .subject false isClosed
  | .clipPolygon polygon closed cache => c.addPolygon eng polygon .clip closed cache
  | .subjectPolygon polygon closed => c.addPolygon eng polygon .subject closed false
  | .reset => c.reset eng

/-- src/cq_cam/operations/strategy.py:45-47: `path` from the vertex nearest to `point` on, then what comes before it. -/
def rotateNearest (point : Pt) (path : List Pt) : Except Err (List Pt) := do
  let nearest ← pickNearest point path
  let i ← pyIndex path nearest
  .ok (path.drop i ++ path.take i)

/-- One round of the loop src/cq_cam/operations/strategy.py:38-51.  (The assertion at line 51 compares a path with itself.) -/
def sortPath (point : Pt) (path : List Pt) : Except Err (List Pt) :=
  match path with
  | [] => .error .indexError
  | p :: ps =>
      if (p :: ps).getLast? = some p then do
        let r ← rotateNearest point (p :: ps).dropLast
        closeLoop r
      else rotateNearest point (p :: ps)

/-- src/cq_cam/operations/strategy.py:33-52 `_sort_clipper_output`. -/
def sortOutput : List (List Pt) → Except Err (List (List Pt))
  | [] => .error .indexError
  | first :: rest =>
      match first.getLast? with
      | none => .error .indexError
      | some point => do
          let sorted ← mapE (sortPath point) rest
          .ok (first :: sorted)

/-- A wire of the CAD kernel: its ordered edges, `IsClosed()` and its offsets (`offset2D`, which may raise). -/
structure WireKernel (W : Type) where
  edges : W → List Edge
  isClosed : W → Bool
  offset2D : W → ℚ → Except Err (List W)

/-- `clipper.add_clip_wire(wire)`, src/cq_cam/operations/strategy.py:211-214. -/
def addClipWire {W : Type} (eng : PathEngine) (k : WireKernel W) (c : WireClipper) (w : W) : Except Err WireClipper :=
  c.addWire eng (k.edges w) .clip true (k.isClosed w)

/-- `clipper.add_subject_wire(wire)`, src/cq_cam/operations/strategy.py:226. -/
def addSubjectWire {W : Type} (eng : PathEngine) (k : WireKernel W) (c : WireClipper) (w : W) : Except Err WireClipper :=
  c.addWire eng (k.edges w) .subject false (k.isClosed w)

/-- The loop src/cq_cam/operations/strategy.py:218-227 with `n` rounds granted. -/
def contourLoop {W : Type} (eng : PathEngine) (k : WireKernel W) (step : ℚ) : ℕ → List W → WireClipper → Except Err WireClipper
  | _, [], c => .ok c
  | 0, _ :: _, _ => .error .outOfFuel
  | n + 1, w :: queue, c =>
      match k.offset2D w step with
      | .error .valueError => contourLoop eng k step n queue c
      | .error e => .error e
      | .ok ws => do
          let c' ← foldE (addSubjectWire eng k) c ws
          contourLoop eng k step n (queue ++ ws) c'

/-- src/cq_cam/operations/strategy.py:203-230 `ContourStrategy.process` with `n` rounds granted for each outer boundary. -/
def contourStrategy {W : Type} (eng : PathEngine) (k : WireKernel W) (toolDiameter stepover : ℚ) (n : ℕ)
    (outers inners : List W) : Except Err (List (List Pt)) := do
  let c ← foldE (addClipWire eng k) {} outers
  let c ← foldE (addClipWire eng k) c inners
  let c ← foldE (fun c o => contourLoop eng k (-|toolDiameter * stepover|) n [o] c) c outers
  let paths ← c.execute eng
  sortOutput paths

end CQ
