import Verif.Model.Tabs
import Verif.Model.WireRouter

/-!
# Model of `src/cq_cam/operations/profile.py`, of `offset_wire` and `extract_wires`, and of the profile calls of
`src/cq_cam/fluent.py`

cadquery and OpenCASCADE are not part of `/repo`; their answers are the fields of `Cad`.  A wire is given by its ordered
edges.
-/

namespace CQ

/-- The answers of the CAD kernel. -/
structure Cad where
  /-- cadquery's tolerant `==` on vectors -/
  veq : Vec → Vec → Bool
  /-- `distance_to_wire` -/
  search : Vec → List Edge → Option WireHit
  /-- `wire.offset2D(offset, "arc")` -/
  offset2D : List Edge → ℚ → Except Err (List (List Edge))
  /-- `cq.Face.makeFromWires(wire).Area()` -/
  area : List Edge → Except Err ℚ
  /-- `target.wrapped.Location(source.wrapped.Location().Inverted())`: source, target -/
  relocate : List Edge → List Edge → List Edge
  /-- `wire.BoundingBox().zmin` -/
  zmin : List Edge → ℚ
  /-- `wire.Length()` -/
  wireLength : List Edge → ℚ
  /-- `edge.Center().z` -/
  centerZ : Edge → ℚ
  /-- the edges of `wire.cut(job.top_plane_face)`, where the face is the plane of the frame **in world coordinates** -/
  cutPlane : Frame → List Edge → List Edge
  /-- the ordered edges of `cq.Wire.assembleEdges(edges)` -/
  assemble : List Edge → Except Err (List Edge)

def Vec.up (dz : ℚ) (v : Vec) : Vec := ⟨v.x, v.y, v.z + dz⟩

def Vec.atZ (z : ℚ) (v : Vec) : Vec := ⟨v.x, v.y, z⟩

/-- `moved(cq.Location(Vector(0, 0, dz)))`, used at src/cq_cam/operations/profile.py:65. -/
def Edge.up (dz : ℚ) (e : Edge) : Edge :=
  { e with
    startPoint := e.startPoint.up dz
    endPoint := e.endPoint.up dz
    posParam := fun p => (e.posParam p).up dz
    posLen := fun d => (e.posLen d).up dz
    center := e.center.up dz }

/-- A direction in local coordinates. -/
def Frame.toLocalDir (f : Frame) (d : Vec) : Vec := ⟨d.dot f.xDir, d.dot f.yDir, d.dot f.zDir⟩

/-- `transformShape(job.top.fG)`, used at src/cq_cam/operations/profile.py:48. -/
def Edge.toLocal (f : Frame) (e : Edge) : Edge :=
  { e with
    startPoint := f.toLocal e.startPoint
    endPoint := f.toLocal e.endPoint
    posParam := fun p => f.toLocal (e.posParam p)
    posLen := fun d => f.toLocal (e.posLen d)
    center := f.toLocal e.center
    normal := f.toLocalDir e.normal }

/-- src/cq_cam/utils/circle_bug_workaround.py:4-18. -/
def circleBugWorkaround (cad : Cad) (source : List Edge) (targets : List (List Edge)) : List (List Edge) :=
  match source with
  | [e] => if cad.veq e.startPoint e.endPoint then targets.map (cad.relocate source) else targets
  | _ => targets

/-- src/cq_cam/utils/geometry_op.py:74-84: the first attempt, and a second one with a slightly larger offset after a
`ValueError`. -/
def tryOffset (cad : Cad) (wire : List Edge) (offset : ℚ) : Except Err (List (List Edge)) :=
  match cad.offset2D wire offset with
  | .error .valueError =>
      match cad.offset2D wire (offset + 1 / 1000000) with
      | .error .valueError => .ok []
      | r => r
  | r => r

/-- src/cq_cam/utils/geometry_op.py:87-97: whether a wire passes the loop. -/
def offsetValid (cad : Cad) (w : List Edge) : Bool :=
  match cad.area w with
  | .ok a => decide (a > 1 / 10)
  | .error _ => false

/-- src/cq_cam/utils/geometry_op.py:71-100 `offset_wire`.  After the loop the name `wire` is the last offset wire.  (When
both attempts fail the function returns before the workaround, which has nothing to do then.) -/
def offsetWire (cad : Cad) (wire : List Edge) (offset : ℚ) : Except Err (List (List Edge)) := do
  let ws ← tryOffset cad wire offset
  .ok (circleBugWorkaround cad (ws.getLast?.getD wire) (ws.filter (offsetValid cad)))

/-- The part of an edge between the fractions `a < b` of its curve (OpenCASCADE refuses `a = b` and turns the part round
if `b < a`; the theorems about tabs assume increasing fractions): src/cq_cam/operations/profile.py:152-160 (`MakeEdge`
on the curve between the parameters of the two fractions, with the edge's orientation and location). -/
def sliceEdge (e : Edge) (a b : ℚ) : Edge :=
  { e with
    startPoint := e.posLen a
    endPoint := e.posLen b
    posLen := fun d => e.posLen (a + d * (b - a))
    paramAt := fun d => e.paramAt (a + d * (b - a))
    closed := e.closed && decide (a = 0) && decide (b = 1)
    length := e.length * (b - a) }

/-- src/cq_cam/operations/profile.py:124-139: the part of the edge between two fractions, projected vertically to the
height `z`.  Simplifications: the edge is horizontal, so that the projection keeps lengths and the kind of curve; and
the edge's own location, which the code does not apply here, is a vertical translation. -/
def projectEdge (z : ℚ) (e : Edge) (a b : ℚ) : Edge :=
  { sliceEdge e a b with
    startPoint := (e.posLen a).atZ z
    endPoint := (e.posLen b).atZ z
    posParam := fun p => (e.posParam p).atZ z
    posLen := fun d => (e.posLen (a + d * (b - a))).atZ z
    center := e.center.atZ z }

/-- `cq.Edge.makeLine(p, q)`, src/cq_cam/operations/profile.py:144-146 and 163-165.  OpenCASCADE refuses coinciding
points.  The two points always have the same x and y here, so the length is the difference of the heights.  (A straight
edge is never asked for its centre.) -/
def makeLine (p q : Vec) : Except Err Edge :=
  if p = q then .error .stdFail
  else
    .ok { id := 0, geom := .line, startPoint := p, endPoint := q
          posParam := fun u => p.add (Vec.smul (u / |q.z - p.z|) (q.sub p))
          posLen := fun u => p.add (Vec.smul u (q.sub p))
          paramAt := fun u => u * |q.z - p.z|
          center := p
          length := |q.z - p.z| }

/-- The loop src/cq_cam/operations/profile.py:115-169; `prev` is `previous_edge`. -/
def tabSegments (tabZ : ℚ) (e : Edge) : Option Edge → List (ℚ × Transition) → Except Err (List Edge)
  | prev, t1 :: t2 :: ts => do
      let (a, b, _) := edgeOrientedParam e t1.1 t2.1
      let piece := if t1.2 = .tab then projectEdge tabZ e a b else sliceEdge e a b
      let connector ← match prev with
        | none => .ok []
        | some p => do
            let c ← makeLine (edgeEndPoint p) (edgeStartPoint piece)
            .ok [c]
      let rest ← tabSegments tabZ e (some piece) (t2 :: ts)
      .ok (connector ++ piece :: rest)
  | _, _ => .ok []

/-- One round of the loop src/cq_cam/operations/profile.py:110-169. -/
def tabEdge (tabZ : ℚ) (e : Edge) (ts : List (ℚ × Transition)) : Except Err (List Edge) :=
  if ts.all (fun t => decide (t.2 = .normal)) then .ok [e] else tabSegments tabZ e none ts

/-- The loop src/cq_cam/operations/profile.py:109-169. -/
def tabEdges (tabZ : ℚ) : List Edge → List (List (ℚ × Transition)) → Except Err (List Edge)
  | e :: es, ts :: tss => do
      let ps ← tabEdge tabZ e ts
      let rest ← tabEdges tabZ es tss
      .ok (ps ++ rest)
  | _, _ => .ok []

/-- src/cq_cam/operations/profile.py:94-177 `apply_tabs` (the global list `TAB_ERRORS` and the log are not modelled).  Any
exception of `assembleEdges` is caught, and the wire is returned without tabs. -/
def applyTabs (cad : Cad) (tabZ : ℚ) (tabs : Tabs) (wire : List Edge) : Except Err (List Edge) :=
  if tabZ ≤ cad.zmin wire then .ok wire
  else do
    let tss ← tabs.transitions (cad.wireLength wire) wire
    let new ← tabEdges tabZ wire tss
    match cad.assemble new with
    | .ok w => .ok w
    | .error _ => .ok wire

/-- src/cq_cam/operations/profile.py:71-73: the edges below the surface that are left after cutting with the top plane.
`cq.Wire.combine` gives at least one wire for at least one edge. -/
def leftBelow (cad : Cad) (top : Frame) (wire : List Edge) : Bool :=
  ((cad.cutPlane top wire).filter (fun e => decide (cad.centerZ e < 0))) ≠ []

/-- The loop src/cq_cam/operations/profile.py:61-79 from round `i` on, with `n` rounds left before `max_stepdown_count` is
exceeded: the layers it appends. -/
def stepLayers (cad : Cad) (top : Frame) (base : List Edge) (stepdown : ℚ) : ℕ → ℕ → Except Err (List (List Edge))
  | 0, _ => .error .runtimeError
  | n + 1, i =>
      let op := base.map (Edge.up (stepdown * (i + 1)))
      if -1 / 1000 ≤ cad.zmin op then .ok []
      else if leftBelow cad top op then do
        let rest ← stepLayers cad top base stepdown n (i + 1)
        .ok (op :: rest)
      else .ok []

/-- src/cq_cam/operations/profile.py:55-81: the layers of one base wire, in cutting order. -/
def profileLayers (cad : Cad) (top : Frame) (base : List Edge) (stepdown : Option ℚ) : Except Err (List (List Edge)) :=
  match stepdown with
  | none => .ok [base]
  | some s =>
      if s = 0 then .ok [base]
      else do
        let ls ← stepLayers cad top base s 101 0
        .ok (base :: ls).reverse

/-- The body of the loop src/cq_cam/operations/profile.py:54-85 for one base wire. -/
def profileFeature (cad : Cad) (top : Frame) (stepdown : Option ℚ) (tabs : Option Tabs) (base : List Edge) :
    Except Err (List (List Edge)) := do
  let layers ← profileLayers cad top base stepdown
  match tabs with
  | none => .ok layers
  | some t => mapE (applyTabs cad (cad.zmin base + t.height) t) layers

/-- src/cq_cam/operations/profile.py:48-85: all the wires to cut, in order. -/
def profileWires (cad : Cad) (j : Job) (wire : List Edge) (offset : ℚ) (stepdown : Option ℚ) (tabs : Option Tabs) :
    Except Err (List (List Edge)) :=
  match j.toolRadius with
  | none => .error .typeError
  | some r => do
      let base ← offsetWire cad (wire.map (Edge.toLocal j.top)) (offset * r)
      let ls ← mapE (profileFeature cad j.top stepdown tabs) base
      .ok ls.flatten

/-- src/cq_cam/operations/profile.py:30-88 `profile`. -/
def profile (cad : Cad) (j : Job) (wire : List Edge) (offset : ℚ) (stepdown : Option ℚ) (tabs : Option Tabs) :
    Except Err (List Motion) := do
  let ws ← profileWires cad j wire offset stepdown tabs
  routeWires cad.veq cad.search j ws

/-- A shape given to `Job.profile`: a wire, a face, or something else. -/
inductive Shape
  | wire (w : List Edge)
  | face (outer : List Edge) (inners : List (List Edge))
  | other

/-- src/cq_cam/utils/utils.py:350-373 `extract_wires` on a list of shapes (a single shape is the list `[shape]`, a workplane
the list of its objects): outer wires, inner wires. -/
def extractWires : List Shape → Except Err (List (List Edge) × List (List Edge))
  | [] => .ok ([], [])
  | .wire w :: ss => do
      let (os, is) ← extractWires ss
      .ok (w :: os, is)
  | .face o i :: ss => do
      let (os, is) ← extractWires ss
      .ok (o :: os, i ++ is)
  | .other :: _ => .error .valueError

/-- The loops src/cq_cam/fluent.py:167-175 and 202-209: profiles one after the other. -/
def profiles (cad : Cad) (j : Job) (offset : ℚ) (stepdown : Option ℚ) (tabs : Option Tabs) (wires : List (List Edge)) :
    Except Err (List Motion) := do
  let cs ← mapE (fun w => profile cad j w offset stepdown tabs) wires
  .ok cs.flatten

/-- The loops src/cq_cam/fluent.py:167-185, skipped for an offset `None`. -/
def profilesOpt (cad : Cad) (j : Job) (offset : Option ℚ) (stepdown : Option ℚ) (tabs : Option Tabs)
    (wires : List (List Edge)) : Except Err (List Motion) :=
  match offset with
  | none => .ok []
  | some o => profiles cad j o stepdown tabs wires

/-- src/cq_cam/fluent.py:148-187 `Job.profile`, as a fluent call: the checks come before `update_tool`. -/
def profileRequest (cad : Cad) (shapes : List Shape) (outerOffset innerOffset : Option ℚ) (stepdown : Option ℚ)
    (tabs : Option Tabs) (tool : Option Tool) : Request where
  opName := "Profile".toList
  tool := tool
  pre := fun j =>
    if j.toolDiameter = none then .error .valueError
    else if outerOffset = none ∧ innerOffset = none then .error .valueError
    else do
      let _ ← extractWires shapes
      .ok ()
  gen := fun j => do
    let (outers, inners) ← extractWires shapes
    let a ← profilesOpt cad j innerOffset stepdown tabs inners
    let b ← profilesOpt cad j outerOffset stepdown tabs outers
    .ok (a ++ b)

/-- src/cq_cam/fluent.py:189-210 `Job.wire_profile`, as a fluent call. -/
def wireProfileRequest (cad : Cad) (wires : List (List Edge)) (offset : ℚ) (stepdown : Option ℚ) (tabs : Option Tabs)
    (tool : Option Tool) : Request where
  opName := "Wire Profile".toList
  tool := tool
  gen := fun j => profiles cad j offset stepdown tabs wires

end CQ
