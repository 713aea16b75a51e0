import Verif.Spec.Placement
import Verif.Spec.Program
import Verif.Spec.Shift

/-! # Specification: turning the part about the vertical axis of the job, or mirroring it -/

namespace CQ

/-- A rotation or a reflection of the plane: the point `(x, y)` goes to `(a x + b y, c x + d y)`. -/
structure Turn where
  a : ℚ
  b : ℚ
  c : ℚ
  d : ℚ
  unitX : a * a + c * c = 1
  unitY : b * b + d * d = 1
  perp : a * b + c * d = 0

/-- The determinant: `1` for a rotation, `-1` for a reflection. -/
def Turn.det (s : Turn) : ℚ := s.a * s.d - s.b * s.c

/-- The turned point. -/
def Pt.turn (s : Turn) (p : Pt) : Pt := ⟨s.a * p.x + s.b * p.y, s.c * p.x + s.d * p.y⟩

/-- The turned position, at the same height. -/
def Vec.turn (s : Turn) (v : Vec) : Vec := ⟨s.a * v.x + s.b * v.y, s.c * v.x + s.d * v.y, v.z⟩

/-- The coordinates of a command, turned.  Coordinates that are left out stay left out (commands give both X and Y, or neither). -/
def AddrVec.turn (s : Turn) (v : AddrVec) : AddrVec :=
  match v.x, v.y with
  | some x, some y => { x := some (s.a * x + s.b * y), y := some (s.c * x + s.d * y), z := v.z }
  | _, _ => v

/-- The kind of a turned command: a reflection exchanges clockwise and counterclockwise arcs. -/
def Turn.kind (s : Turn) : MKind → MKind
  | .cw => if s.det < 0 then .ccw else .cw
  | .ccw => if s.det < 0 then .cw else .ccw
  | k => k

/-- The turned command: all its points turned, at the same feed. -/
def Motion.turn (s : Turn) (c : Motion) : Motion :=
  { c with kind := s.kind c.kind, start := c.start.turn s, fin := c.fin.turn s, center := c.center.turn s, mid := c.mid.turn s }

/-- A command of a program, turned: only motions have a place. -/
def Command.turn (s : Turn) : Command → Command
  | .motion c => .motion (c.turn s)
  | c => c

/-- An operation with all its motions turned. -/
def Operation.turn (s : Turn) (o : Operation) : Operation := { o with commands := o.commands.map (Command.turn s) }

/-- A job with all the motions of its operations turned. -/
def Job.turn (s : Turn) (j : Job) : Job := { j with operations := j.operations.map (Operation.turn s) }

/-- An edge in job coordinates, turned.  The normal of an arc tells the direction it is run through, so that a reflection
reverses it; a straight edge has none. -/
def Edge.turn (s : Turn) (e : Edge) : Edge :=
  { e with
    startPoint := e.startPoint.turn s
    endPoint := e.endPoint.turn s
    posParam := fun p => (e.posParam p).turn s
    posLen := fun d => (e.posLen d).turn s
    center := e.center.turn s
    normal := if e.geom = .line then e.normal else Vec.smul s.det (e.normal.turn s) }

/-- A boundary of a 3D operation in job coordinates, turned. -/
def BoundaryFace.turn (s : Turn) (b : BoundaryFace) : BoundaryFace :=
  { b with outer := b.outer.map (Edge.turn s), inners := b.inners.map (List.map (Edge.turn s)) }

/-! ### The part in space -/

/-- The three directions of the plane have length 1 and are perpendicular to each other. -/
structure Frame.Cube (f : Frame) : Prop extends f.Square where
  unitZ : f.zDir.dot f.zDir = 1

/-- A point of the part, turned about the vertical axis of the plane. -/
def Frame.turnPoint (f : Frame) (s : Turn) (v : Vec) : Vec := f.toWorld ((f.toLocal v).turn s)

/-- A direction, turned about the vertical axis of the plane. -/
def Frame.turnDir (f : Frame) (s : Turn) (v : Vec) : Vec :=
  let l := (f.toLocalDir v).turn s
  (Vec.smul l.x f.xDir).add ((Vec.smul l.y f.yDir).add (Vec.smul l.z f.zDir))

/-- An edge of the part, turned about the vertical axis of the plane. -/
def Frame.turnEdge (f : Frame) (s : Turn) (e : Edge) : Edge :=
  { e with
    startPoint := f.turnPoint s e.startPoint
    endPoint := f.turnPoint s e.endPoint
    posParam := fun p => f.turnPoint s (e.posParam p)
    posLen := fun d => f.turnPoint s (e.posLen d)
    center := f.turnPoint s e.center
    normal := if e.geom = .line then e.normal else Vec.smul s.det (f.turnDir s e.normal) }

/-- A shape, turned. -/
def Frame.turnShape (f : Frame) (s : Turn) : Shape → Shape
  | .wire w => .wire (w.map (f.turnEdge s))
  | .face o is => .face (o.map (f.turnEdge s)) (is.map (List.map (f.turnEdge s)))
  | .other => .other

/-- A face, turned. -/
def Frame.turnFace (f : Frame) (s : Turn) (g : WorldFace) : WorldFace :=
  ⟨g.outerWire.map (f.turnEdge s), g.innerWires.map (List.map (f.turnEdge s))⟩

/-- An object to drill, turned. -/
def Frame.turnDrill (f : Frame) (s : Turn) : DrillObj → DrillObj
  | .vector v => .vector (f.turnPoint s v)
  | .wire w => .wire (w.map (f.turnEdge s))
  | .face o is => .face (o.map (f.turnEdge s)) (is.map (List.map (f.turnEdge s)))
  | .other => .other

/-- `r'` does for a job with work plane `f` what `r` does, turned by `s`: it is accepted or refused alike, and the motions it
generates are those of `r`, turned. -/
structure TurnWork (s : Turn) (f : Frame) (r r' : Request) : Prop where
  name : r'.opName = r.opName
  tool : r'.tool = r.tool
  pre : ∀ j, j.top = f → r'.pre (j.turn s) = r.pre j
  gen : ∀ j, j.top = f → r'.gen (j.turn s) = (r.gen j).map (List.map (Motion.turn s))

/-! ### Libraries whose answers turn with their arguments -/

/-- An answer of the wire search, turned. -/
def WireHit.turn (s : Turn) : WireHit → WireHit
  | .vertex d v => .vertex d (v.turn s)
  | .edge d e p => .edge d (e.turn s) p

/-- A face of the pocket, turned. -/
def PathFace.turn (s : Turn) (f : PathFace) : PathFace := ⟨f.outer.map (Pt.turn s), f.inners.map (List.map (Pt.turn s)), f.depth⟩

mutual
/-- A node of the result of a boolean operation, turned. -/
def PolyNode.turn (s : Turn) : PolyNode → PolyNode
  | .node c cs => .node (c.map (Pt.turn s)) (turnNodes s cs)
/-- The same for a list of nodes. -/
def turnNodes (s : Turn) : List PolyNode → List PolyNode
  | [] => []
  | n :: ns => n.turn s :: turnNodes s ns
end

/-- The answers of the CAD kernel turn with the wire: distances, areas, lengths, heights and coincidence of points do not depend
on how the part lies on the table. -/
structure CadTurn (s : Turn) (cad : Cad) : Prop where
  veq : ∀ a b, cad.veq (a.turn s) (b.turn s) = cad.veq a b
  search : ∀ v w, cad.search (v.turn s) (w.map (Edge.turn s)) = (cad.search v w).map (WireHit.turn s)
  offset2D : ∀ w o, cad.offset2D (w.map (Edge.turn s)) o = (cad.offset2D w o).map (List.map (List.map (Edge.turn s)))
  area : ∀ w, cad.area (w.map (Edge.turn s)) = cad.area w
  relocate : ∀ v w, cad.relocate (v.map (Edge.turn s)) (w.map (Edge.turn s)) = (cad.relocate v w).map (Edge.turn s)
  zmin : ∀ w, cad.zmin (w.map (Edge.turn s)) = cad.zmin w
  wireLength : ∀ w, cad.wireLength (w.map (Edge.turn s)) = cad.wireLength w
  assemble : ∀ es, cad.assemble (es.map (Edge.turn s)) = (cad.assemble es).map (List.map (Edge.turn s))

/-- What is left of a wire below the surface after cutting it with the plane `top` does not depend on how it lies on the table. -/
def CutTurn (s : Turn) (top : Frame) (cad : Cad) : Prop :=
  ∀ w, (∃ e ∈ cad.cutPlane top (w.map (Edge.turn s)), cad.centerZ e < 0) ↔ (∃ e ∈ cad.cutPlane top w, cad.centerZ e < 0)

/-- The answers of the polygon library turn with the polygons. -/
structure ClipperTurn (s : Turn) (eng : Clipper) : Prop where
  offset : ∀ p o n, eng.offset (p.map (Pt.turn s)) o n = (eng.offset p o n).map (List.map (List.map (Pt.turn s)))
  union : ∀ a b, eng.union (a.map (List.map (Pt.turn s))) (b.map (List.map (Pt.turn s))) = (eng.union a b).map (turnNodes s)
  difference : ∀ a b, eng.difference (a.map (List.map (Pt.turn s))) (b.map (List.map (Pt.turn s))) =
    (eng.difference a b).map (turnNodes s)
  contains : ∀ f g, eng.contains (f.turn s) (g.turn s) = eng.contains f g

/-! ### Drilling -/

/-- The centre of a wire turns with it. -/
def CentreTurns (f : Frame) (s : Turn) (center : List Edge → Except Err Vec) : Prop :=
  ∀ w, center (w.map (f.turnEdge s)) = (center w).map (f.turnPoint s)

/-- The plane has the directions of the world, and its origin is above or below that of the world. -/
structure Frame.Level (f : Frame) : Prop where
  x : f.xDir = ⟨1, 0, 0⟩
  y : f.yDir = ⟨0, 1, 0⟩
  z : f.zDir = ⟨0, 0, 1⟩
  ox : f.origin.x = 0
  oy : f.origin.y = 0

/-! ### On the machine -/

/-- The kind of a turned move of the machine. -/
def Turn.mot (s : Turn) : Mot → Mot
  | .cw => if s.det < 0 then .ccw else .cw
  | .ccw => if s.det < 0 then .cw else .ccw
  | k => k

/-- Two numbers turned, to within 0.0015. -/
def TurnedTo (s : Turn) (x y x' y' : ℚ) : Prop :=
  |x' - (s.a * x + s.b * y)| ≤ 3 / 2000 ∧ |y' - (s.c * x + s.d * y)| ≤ 3 / 2000

/-- The machine makes in `e'` the same move as in `e`, turned (to within 0.0015, since coordinates are printed with three
digits): to the same height, around a turned centre, and in the other direction on arcs if `s` is a reflection. -/
def MovesTurned (s : Turn) (e e' : Event) : Prop :=
  ∃ kind tgt tgt' ctr ctr', e.act = .move kind tgt ctr ∧ e'.act = .move (s.mot kind) tgt' ctr' ∧
    ((∃ x y x' y', tgt.x = some x ∧ tgt.y = some y ∧ tgt'.x = some x' ∧ tgt'.y = some y' ∧ TurnedTo s x y x' y') ∨
      (tgt.x = e.st.pos.x ∧ tgt.y = e.st.pos.y ∧ tgt'.x = e'.st.pos.x ∧ tgt'.y = e'.st.pos.y)) ∧
    ((∃ z, tgt.z = some z ∧ tgt'.z = some z) ∨ (tgt.z = e.st.pos.z ∧ tgt'.z = e'.st.pos.z)) ∧
    ((ctr = {} ∧ ctr' = {} ∧ kind ≠ .cw ∧ kind ≠ .ccw) ∨
      ∃ x y x' y', ctr.x = some x ∧ ctr.y = some y ∧ ctr'.x = some x' ∧ ctr'.y = some y' ∧ TurnedTo s x y x' y' ∧ ctr'.z = ctr.z)

/-- The command gives both X and Y, or neither; an arc gives both, of its start and of its centre too. -/
structure Motion.Planar (c : Motion) : Prop where
  fin : c.fin.x.isSome = c.fin.y.isSome
  start : c.kind.isArc = true → c.start.x.isSome = true ∧ c.start.y.isSome = true
  center : c.kind.isArc = true → c.center.x.isSome = true ∧ c.center.y.isSome = true

end CQ
