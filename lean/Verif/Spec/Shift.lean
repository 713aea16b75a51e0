import Verif.Spec.Placement
import Verif.Spec.Program
import Verif.Model.Op3d

/-! # Specification: moving the part sideways, within its work plane -/

namespace CQ

/-- A point moved by `s`. -/
def Pt.side (s p : Pt) : Pt := ⟨p.x + s.x, p.y + s.y⟩

/-- A position moved by `s`, at the same height. -/
def Vec.side (s : Pt) (v : Vec) : Vec := ⟨v.x + s.x, v.y + s.y, v.z⟩

/-- The coordinates of a command, moved by `s`; coordinates that are left out stay left out. -/
def AddrVec.side (s : Pt) (a : AddrVec) : AddrVec := { x := a.x.map (· + s.x), y := a.y.map (· + s.y), z := a.z }

/-- The command moved by `s`: the same kind of motion at the same feed, all its points moved. -/
def Motion.side (s : Pt) (c : Motion) : Motion :=
  { c with start := c.start.side s, fin := c.fin.side s, center := c.center.side s, mid := c.mid.side s }

/-- A command of a program, moved by `s`: only motions have a place. -/
def Command.side (s : Pt) : Command → Command
  | .motion c => .motion (c.side s)
  | c => c

/-- An operation with all its motions moved by `s`. -/
def Operation.side (s : Pt) (o : Operation) : Operation := { o with commands := o.commands.map (Command.side s) }

/-- A job with all the motions of its operations moved by `s`. -/
def Job.side (s : Pt) (j : Job) : Job := { j with operations := j.operations.map (Operation.side s) }

/-- An edge in job coordinates, moved by `s`. -/
def Edge.side (s : Pt) (e : Edge) : Edge :=
  { e with
    startPoint := e.startPoint.side s
    endPoint := e.endPoint.side s
    posParam := fun p => (e.posParam p).side s
    posLen := fun d => (e.posLen d).side s
    center := e.center.side s }

/-- The motion of the part in space that moves it by `s` within the plane `f`. -/
def Frame.along (f : Frame) (s : Pt) : Vec := (Vec.smul s.x f.xDir).add (Vec.smul s.y f.yDir)

/-- The directions of the plane have length 1 and are perpendicular to each other. -/
structure Frame.Square (f : Frame) : Prop where
  unitX : f.xDir.dot f.xDir = 1
  unitY : f.yDir.dot f.yDir = 1
  perpXY : f.xDir.dot f.yDir = 0
  perpXZ : f.xDir.dot f.zDir = 0
  perpYZ : f.yDir.dot f.zDir = 0

/-- The part moved by `s` within the plane `f`. -/
def Frame.slide (f : Frame) (s : Pt) : Rigid := Rigid.translation (f.along s)

/-- An object to drill, moved in space. -/
def Rigid.drillObj (g : Rigid) : DrillObj → DrillObj
  | .vector v => .vector (g.point v)
  | .wire w => .wire (w.map g.edge)
  | .face o is => .face (o.map g.edge) (is.map (List.map g.edge))
  | .other => .other

/-- `r'` does for a job with work plane `f` what `r` does, moved by `s`: it is accepted or refused alike, and the motions it
generates are those of `r` moved by `s`. -/
structure SideWork (s : Pt) (f : Frame) (r r' : Request) : Prop where
  name : r'.opName = r.opName
  tool : r'.tool = r.tool
  pre : ∀ j, j.top = f → r'.pre (j.side s) = r.pre j
  gen : ∀ j, j.top = f → r'.gen (j.side s) = (r.gen j).map (List.map (Motion.side s))

/-- An axis goes to the place of the other machine moved by `d`, to within 0.001; or neither axis moves. -/
def AxisBeside (d : ℚ) (before after before' after' : Option ℚ) : Prop :=
  (∃ v v', after = some v ∧ after' = some v' ∧ |v' - (v + d)| ≤ 1 / 1000) ∨ (after = before ∧ after' = before')

/-- The machine makes in `e'` the same move as in `e`, moved by `s` (to within 0.001): to the same height, and on arcs around a
centre in the same place relative to the start. -/
def MovesBeside (s : Pt) (e e' : Event) : Prop :=
  ∃ kind tgt tgt' ctr, e.act = .move kind tgt ctr ∧ e'.act = .move kind tgt' ctr ∧
    AxisBeside s.x e.st.pos.x tgt.x e'.st.pos.x tgt'.x ∧ AxisBeside s.y e.st.pos.y tgt.y e'.st.pos.y tgt'.y ∧
    ((∃ z, tgt.z = some z ∧ tgt'.z = some z) ∨ (tgt.z = e.st.pos.z ∧ tgt'.z = e'.st.pos.z))

/-! ### Libraries whose answers move with their arguments -/

/-- An answer of the wire search, moved. -/
def WireHit.side (s : Pt) : WireHit → WireHit
  | .vertex d v => .vertex d (v.side s)
  | .edge d e p => .edge d (e.side s) p

/-- A face of the pocket, moved. -/
def PathFace.side (s : Pt) (f : PathFace) : PathFace := ⟨f.outer.map (Pt.side s), f.inners.map (List.map (Pt.side s)), f.depth⟩

mutual
/-- A node of the result of a boolean operation, moved. -/
def PolyNode.side (s : Pt) : PolyNode → PolyNode
  | .node c cs => .node (c.map (Pt.side s)) (sideNodes s cs)
/-- The same for a list of nodes. -/
def sideNodes (s : Pt) : List PolyNode → List PolyNode
  | [] => []
  | n :: ns => n.side s :: sideNodes s ns
end

/-- The answers of the CAD kernel move with the wire: distances, areas, lengths, heights and coincidence of points do not depend
on where a wire is. -/
structure CadSide (s : Pt) (cad : Cad) : Prop where
  veq : ∀ a b, cad.veq (a.side s) (b.side s) = cad.veq a b
  search : ∀ v w, cad.search (v.side s) (w.map (Edge.side s)) = (cad.search v w).map (WireHit.side s)
  offset2D : ∀ w o, cad.offset2D (w.map (Edge.side s)) o = (cad.offset2D w o).map (List.map (List.map (Edge.side s)))
  area : ∀ w, cad.area (w.map (Edge.side s)) = cad.area w
  relocate : ∀ v w, cad.relocate (v.map (Edge.side s)) (w.map (Edge.side s)) = (cad.relocate v w).map (Edge.side s)
  zmin : ∀ w, cad.zmin (w.map (Edge.side s)) = cad.zmin w
  wireLength : ∀ w, cad.wireLength (w.map (Edge.side s)) = cad.wireLength w
  assemble : ∀ es, cad.assemble (es.map (Edge.side s)) = (cad.assemble es).map (List.map (Edge.side s))

/-- What is left of a wire below the surface after cutting it with the plane `top` does not depend on where it is. -/
def CutSide (s : Pt) (top : Frame) (cad : Cad) : Prop :=
  ∀ w, (∃ e ∈ cad.cutPlane top (w.map (Edge.side s)), cad.centerZ e < 0) ↔ (∃ e ∈ cad.cutPlane top w, cad.centerZ e < 0)

/-- The answers of the polygon library move with the polygons. -/
structure ClipperSide (s : Pt) (eng : Clipper) : Prop where
  offset : ∀ p o n, eng.offset (p.map (Pt.side s)) o n = (eng.offset p o n).map (List.map (List.map (Pt.side s)))
  union : ∀ a b, eng.union (a.map (List.map (Pt.side s))) (b.map (List.map (Pt.side s))) = (eng.union a b).map (sideNodes s)
  difference : ∀ a b, eng.difference (a.map (List.map (Pt.side s))) (b.map (List.map (Pt.side s))) =
    (eng.difference a b).map (sideNodes s)
  contains : ∀ f g, eng.contains (f.side s) (g.side s) = eng.contains f g

/-- A boundary of a 3D operation in job coordinates, moved. -/
def BoundaryFace.side (s : Pt) (b : BoundaryFace) : BoundaryFace :=
  { b with outer := b.outer.map (Edge.side s), inners := b.inners.map (List.map (Edge.side s)) }

/-- The answers of the CAD kernel move with the boundary. -/
structure FaceKernelSide (s : Pt) (k : FaceKernel) : Prop where
  offset2D : ∀ w o, k.offset2D (w.map (Edge.side s)) o = (k.offset2D w o).map (List.map (List.map (Edge.side s)))
  makeFace : ∀ o is, k.makeFace (o.map (Edge.side s)) (is.map (List.map (Edge.side s))) = k.makeFace o is
  inside : ∀ i o, k.inside (i.map (Edge.side s)) (o.map (Edge.side s)) = k.inside i o

/-- `eng'` answers for the moved part what `eng` answers for the part: the same heights at the moved points, and what is left of
moved lines within moved boundaries is what was left of the lines, moved; boundaries without points leave the same of all lines. -/
structure SurfaceSide (s : Pt) (eng eng' : SurfaceEngine) : Prop where
  norm : eng'.norm = eng.norm
  strict : eng'.strict = eng.strict
  bottom : eng'.bottom = eng.bottom
  drop : ∀ ps, eng'.drop (ps.map (Pt.side s)) = eng.drop ps
  bounds : ∀ bs, bs.flatten ≠ [] → eng'.scan.bounds (bs.map (List.map (Pt.side s))) =
    ((eng.scan.bounds bs).1 + s.x, (eng.scan.bounds bs).2.1 + s.y, (eng.scan.bounds bs).2.2.1 + s.x, (eng.scan.bounds bs).2.2.2 + s.y)
  diagonal : ∀ l t r b, eng'.scan.diagonal (l + s.x, t + s.y, r + s.x, b + s.y) = eng.scan.diagonal (l, t, r, b)
  clip : ∀ bs ls, eng'.scan.clip (bs.map (List.map (Pt.side s))) (ls.map (fun l => (Pt.side s l.1, Pt.side s l.2))) =
    (eng.scan.clip bs ls).map (List.map (fun l => (Pt.side s l.1, Pt.side s l.2)))
  empty : ∀ bs ls ls', bs.flatten = [] → eng'.scan.clip (bs.map (List.map (Pt.side s))) ls' =
    (eng.scan.clip bs ls).map (List.map (fun l => (Pt.side s l.1, Pt.side s l.2)))

/-! ### Drilling -/

/-- The centre of a wire moves with it. -/
def CentreMoves (g : Rigid) (center : List Edge → Except Err Vec) : Prop :=
  ∀ w, center (w.map g.edge) = (center w).map g.point

/-- Moving the part by `s` in the plane `f`, and reading its positions as the operation does (in the plane, as if they were
coordinates of the plane), moves them by `s`. -/
def DrillsAlong (f : Frame) (s : Pt) : Prop :=
  (f.along ⟨(f.along s).x, (f.along s).y⟩).x + (f.along s).z * f.zDir.x = s.x ∧
  (f.along ⟨(f.along s).x, (f.along s).y⟩).y + (f.along s).z * f.zDir.y = s.y

end CQ
