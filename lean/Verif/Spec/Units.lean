import Verif.Spec.Program
import Verif.Model.Drill

/-! # Specification: the same work in other units -/

namespace CQ

/-- A change of units: a length of 1 becomes `c`, feeds become `feed`, and the job is told its unit and its precision. -/
structure Units where
  c : ℚ
  pos : 0 < c
  feed : PyNum → PyNum
  unit : JUnit
  precision : ℕ

/-- A point in the new units. -/
def Pt.conv (κ : Units) (p : Pt) : Pt := ⟨κ.c * p.x, κ.c * p.y⟩

/-- A position in the new units. -/
def Vec.conv (κ : Units) (v : Vec) : Vec := ⟨κ.c * v.x, κ.c * v.y, κ.c * v.z⟩

/-- The coordinates of a command in the new units; coordinates that are left out stay left out. -/
def AddrVec.conv (κ : Units) (a : AddrVec) : AddrVec := { x := a.x.map (κ.c * ·), y := a.y.map (κ.c * ·), z := a.z.map (κ.c * ·) }

/-- The command in the new units. -/
def Motion.conv (κ : Units) (m : Motion) : Motion :=
  { m with
    start := m.start.conv κ
    fin := m.fin.conv κ
    feed := m.feed.map κ.feed
    center := m.center.conv κ
    mid := m.mid.conv κ }

/-- A command of a program in the new units: tool numbers, speeds and coolants have none. -/
def Command.conv (κ : Units) : Command → Command
  | .motion m => .motion (m.conv κ)
  | c => c

/-- An operation in the new units. -/
def Operation.conv (κ : Units) (o : Operation) : Operation := { o with commands := o.commands.map (Command.conv κ) }

/-- A plane in the new units. -/
def Frame.conv (κ : Units) (f : Frame) : Frame := { f with origin := f.origin.conv κ }

/-- A tool in the new units. -/
def Tool.conv (κ : Units) (t : Tool) : Tool := { t with toolDiameter := t.toolDiameter.map (κ.c * ·), feed := t.feed.map κ.feed }

/-- A job in the new units. -/
def Job.conv (κ : Units) (j : Job) : Job :=
  { j with
    top := j.top.conv κ
    feed := κ.feed j.feed
    toolDiameter := j.toolDiameter.map (κ.c * ·)
    plungeFeed := κ.feed j.plungeFeed
    rapidHeight := κ.c * j.rapidHeight
    opSafeHeight := κ.c * j.opSafeHeight
    precision := κ.precision
    unit := κ.unit
    operations := j.operations.map (Operation.conv κ) }

/-- The factor between parameters of the curve of an edge: those of a line are lengths, those of an arc are angles. -/
def Edge.paramUnit (κ : Units) (e : Edge) : ℚ := if e.geom = .line then κ.c else 1

/-- An edge in the new units. -/
def Edge.conv (κ : Units) (e : Edge) : Edge :=
  { e with
    startPoint := e.startPoint.conv κ
    endPoint := e.endPoint.conv κ
    posParam := fun p => (e.posParam (p / e.paramUnit κ)).conv κ
    posLen := fun d => (e.posLen d).conv κ
    paramAt := fun d => e.paramUnit κ * e.paramAt d
    center := e.center.conv κ
    length := κ.c * e.length }

/-- A shape in the new units. -/
def Shape.conv (κ : Units) : Shape → Shape
  | .wire w => .wire (w.map (Edge.conv κ))
  | .face o is => .face (o.map (Edge.conv κ)) (is.map (List.map (Edge.conv κ)))
  | .other => .other

/-- An object to drill, in the new units. -/
def DrillObj.conv (κ : Units) : DrillObj → DrillObj
  | .vector v => .vector (v.conv κ)
  | .wire w => .wire (w.map (Edge.conv κ))
  | .face o is => .face (o.map (Edge.conv κ)) (is.map (List.map (Edge.conv κ)))
  | .other => .other

/-- Tabs in the new units. -/
def Tabs.conv (κ : Units) : Tabs → Tabs
  | .none => .none
  | .edge t => .edge { t with spacing := κ.c * t.spacing, width := κ.c * t.width, height := κ.c * t.height }
  | .wire t => .wire { t with width := κ.c * t.width, height := κ.c * t.height }

/-- An answer of the wire search in the new units. -/
def WireHit.conv (κ : Units) : WireHit → WireHit
  | .vertex d v => .vertex (κ.c * d) (v.conv κ)
  | .edge d e p => .edge (κ.c * d) (e.conv κ) (e.paramUnit κ * p)

/-- `r'` does for the job in the new units what `r` does for `j`: it is accepted or refused alike, and the motions it generates
are those of `r` in the new units. -/
structure UnitWork (κ : Units) (j : Job) (r r' : Request) : Prop where
  name : r'.opName = r.opName
  tool : r'.tool = r.tool.map (Tool.conv κ)
  pre : r'.pre (j.conv κ) = r.pre j
  gen : r'.gen ((j.updateTool r.tool).2.conv κ) = (r.gen (j.updateTool r.tool).2).map (List.map (Motion.conv κ))

/-- Every call of `rs'` does in the new units what the call of `rs` does, for the job it finds. -/
inductive UnitChain (κ : Units) : Job → List Request → List Request → Prop
  | nil (j) : UnitChain κ j [] []
  | cons {j r r' rs rs'} : UnitWork κ j r r' → (∀ j', (j.call r).2 = .ok j' → UnitChain κ j' rs rs') →
      UnitChain κ j (r :: rs) (r' :: rs')

/-! ### On the machine -/

/-- An axis goes to the place of the other machine in units that are `c` times as many, up to the rounding of both places to
three digits; or neither axis moves. -/
def AxisScaled (c : ℚ) (before after before' after' : Option ℚ) : Prop :=
  (∃ v v', after = some v ∧ after' = some v' ∧ |v' - c * v| ≤ (1 + c) / 2000) ∨ (after = before ∧ after' = before')

/-- The centre of an arc relative to its start, in the other units up to rounding; or neither move is an arc. -/
def CentreScaled (c : ℚ) (p p' : Pos) : Prop :=
  (p = {} ∧ p' = {}) ∨ ∃ x y z x' y' z', p = ⟨some x, some y, some z⟩ ∧ p' = ⟨some x', some y', some z'⟩ ∧
    |x' - c * x| ≤ (1 + c) / 2000 ∧ |y' - c * y| ≤ (1 + c) / 2000 ∧ |z' - c * z| ≤ (1 + c) / 2000

/-- The machine makes in `e'` the same move as in `e`, in the other units. -/
def MovesScaled (c : ℚ) (e e' : Event) : Prop :=
  ∃ kind tgt tgt' ctr ctr', e.act = .move kind tgt ctr ∧ e'.act = .move kind tgt' ctr' ∧
    AxisScaled c e.st.pos.x tgt.x e'.st.pos.x tgt'.x ∧ AxisScaled c e.st.pos.y tgt.y e'.st.pos.y tgt'.y ∧
    AxisScaled c e.st.pos.z tgt.z e'.st.pos.z tgt'.z ∧ CentreScaled c ctr ctr'

/-! ### CAD kernels that do not know about units -/

/-- The answers of the CAD kernel in the new units are its answers, in the new units. -/
structure CadUnits (κ : Units) (cad : Cad) : Prop where
  veq : ∀ a b, cad.veq (a.conv κ) (b.conv κ) = cad.veq a b
  search : ∀ v w, cad.search (v.conv κ) (w.map (Edge.conv κ)) = (cad.search v w).map (WireHit.conv κ)
  offset2D : ∀ w o, cad.offset2D (w.map (Edge.conv κ)) (κ.c * o) = (cad.offset2D w o).map (List.map (List.map (Edge.conv κ)))
  area : ∀ w, cad.area (w.map (Edge.conv κ)) = (cad.area w).map (κ.c ^ 2 * ·)
  relocate : ∀ v w, cad.relocate (v.map (Edge.conv κ)) (w.map (Edge.conv κ)) = (cad.relocate v w).map (Edge.conv κ)
  zmin : ∀ w, cad.zmin (w.map (Edge.conv κ)) = κ.c * cad.zmin w
  wireLength : ∀ w, cad.wireLength (w.map (Edge.conv κ)) = κ.c * cad.wireLength w
  assemble : ∀ es, cad.assemble (es.map (Edge.conv κ)) = (cad.assemble es).map (List.map (Edge.conv κ))

/-- Whether something of a wire is left below the surface after cutting it with the plane `top` does not depend on the units. -/
def CutUnits (κ : Units) (top : Frame) (cad : Cad) : Prop :=
  ∀ w, (∃ e ∈ cad.cutPlane (top.conv κ) (w.map (Edge.conv κ)), cad.centerZ e < 0) ↔ (∃ e ∈ cad.cutPlane top w, cad.centerZ e < 0)

/-- An edge that is not sampled: not a spline or an offset curve. -/
def Edge.Plain (e : Edge) : Prop := e.geom ≠ .bspline ∧ e.geom ≠ .spline ∧ e.geom ≠ .offset

/-- A wire of edges that are not sampled. -/
def PlainWire (w : List Edge) : Prop := ∀ e ∈ w, e.Plain

/-- The kernel makes no splines and offset curves of wires without any. -/
structure KeepsPlain (cad : Cad) : Prop where
  offset2D : ∀ w o ws, PlainWire w → cad.offset2D w o = .ok ws → ∀ v ∈ ws, PlainWire v
  relocate : ∀ v w, PlainWire w → PlainWire (cad.relocate v w)
  assemble : ∀ es w, PlainWire es → cad.assemble es = .ok w → PlainWire w

/-- The nearest point of a wire, if it is not a corner, is on an edge of the kind of the wire's first edge (whose parameters the
code takes it for). -/
def HitsAlike (cad : Cad) : Prop :=
  ∀ v e es d e' p, cad.search v (e :: es) = some (.edge d e' p) → (e'.geom = .line ↔ e.geom = .line)

/-- The outer wires of shapes. -/
def outersOf (ss : List Shape) : List (List Edge) :=
  ss.flatMap (fun | .wire w => [w] | .face o _ => [o] | .other => [])

/-- The inner wires of shapes. -/
def innersOf (ss : List Shape) : List (List Edge) :=
  ss.flatMap (fun | .wire _ => [] | .face _ is => is | .other => [])

/-- The fixed tolerances of the code do not tell the old units from the new ones, for a profile of the wire `w` (in job
coordinates) at distance `o` with these passes: offsetting succeeds at once (0.000001 is not added to the distance), no contour
has an area between 0.1 in the one and 0.1 in the other units, and no pass ends between 0.001 in the one and 0.001 in the other
units below the surface. -/
structure ToleranceFree (κ : Units) (cad : Cad) (w : List Edge) (o : ℚ) (stepdown : Option ℚ) : Prop where
  first : cad.offset2D w o ≠ .error .valueError
  area : ∀ ws, cad.offset2D w o = .ok ws → ∀ v ∈ ws, ∀ a, cad.area v = .ok a → (a > 1 / 10 ↔ κ.c ^ 2 * a > 1 / 10)
  thin : ∀ ws, cad.offset2D w o = .ok ws → ∀ v ∈ ws, ∀ b, b = v ∨ (∃ u, b = cad.relocate u v) → ∀ d, stepdown = some d →
    ∀ i : ℕ, (-1 / 1000 ≤ cad.zmin (b.map (Edge.up (d * (i + 1)))) ↔ -1 / 1000 ≤ κ.c * cad.zmin (b.map (Edge.up (d * (i + 1)))))

/-- The centre of a wire in the new units is its centre, in the new units. -/
def CentreUnits (κ : Units) (center : List Edge → Except Err Vec) : Prop :=
  ∀ w, center (w.map (Edge.conv κ)) = (center w).map (Vec.conv κ)

end CQ
