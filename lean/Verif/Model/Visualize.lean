import Verif.Model.Fluent

/-!
# Model of `src/cq_cam/visualize.py`, the `to_ais_shape` methods and `Job.show` / `Job.to_shapes`

cadquery and OCCT are a parameter (`DrawKernel`).  An edge or an interactive object is represented by the points it is made of.
-/

namespace CQ

/-- What is drawn for a command: `cq.Edge.makeLine(a, b)` / `AIS_Line`, or `cq.Edge.makeThreePointArc(a, m, b)`. -/
inductive Drawn where
  | line (a b : Vec)
  | arc (a m b : Vec)
deriving DecidableEq, Repr

/-- The shape moved by a point map (`Shape.transformShape`, `SetLocalTransformation`). -/
def Drawn.map (f : Vec → Vec) : Drawn → Drawn
  | .line a b => .line (f a) (f b)
  | .arc a m b => .arc (f a) (f m) (f b)

/-- The parts of cadquery the drawing code depends on: tolerant `Vector.__eq__`; whether `makeLine` and `makeThreePointArc`
succeed; and what becomes of an `AddressVector` given where cadquery expects a vector (`none`: an exception).  cadquery's own
`Vector(...)` raises `TypeError` for every class it does not know, so for cadquery `asVector` is `none` throughout. -/
structure DrawKernel where
  eq : Vec → Vec → Bool
  line : Vec → Vec → Bool
  arc : Vec → Vec → Vec → Bool
  asVector : AddrVec → Option Vec

/-- `x = self.start.x if self.start.x is not None else 0` and so on: src/cq_cam/command.py:172-176, 270-274. -/
def AddrVec.orZero (a : AddrVec) : Vec := ⟨a.x.getD 0, a.y.getD 0, a.z.getD 0⟩

/-- src/cq_cam/address.py:80-84 `to_vector(origin)` where the origin is itself an `AddressVector`: an axis unknown in both is
`None`, and `cq.Vector(None, …)` raises `TypeError` (`none` here). -/
def AddrVec.toVecFrom (a o : AddrVec) : Option Vec :=
  match a.x.or o.x, a.y.or o.y, a.z.or o.z with
  | some x, some y, some z => some ⟨x, y, z⟩
  | _, _, _ => none

/-- src/cq_cam/command.py:171-195 `RapidCommand.to_ais_shape` and 269-293 `Cut.to_ais_shape` (the same code); `asEdges` is the
argument `as_edges`.  An `AIS_Line` is made from two points without a check, an edge by `makeLine`, which may fail. -/
def Motion.drawStraight (k : DrawKernel) (asEdges : Bool) (c : Motion) : Except Err (Option Drawn) :=
  let start := c.start.orZero
  let fin := c.fin.toVecAbs start
  if k.eq start fin then .ok none
  else if asEdges then (if k.line start fin then .ok (some (.line start fin)) else .error .stdFail)
  else .ok (some (.line start fin))

/-- src/cq_cam/command.py:337-364 `Circular.to_ais_shape`.  The two conversions are outside the `try`; `self.start` is given to
cadquery as the `AddressVector` it is. -/
def Motion.drawArc (k : DrawKernel) (c : Motion) : Except Err (Option Drawn) :=
  match c.fin.toVecFrom c.start, c.mid.toVecFrom c.start with
  | some fin, some mid =>
      match k.asVector c.start with
      | none => .ok none
      | some start =>
          if k.arc start mid fin then .ok (some (.arc start mid fin))
          else if k.line start fin then .ok (some (.line start fin))
          else .ok none
  | _, _ => .error .typeError

/-- `command.to_ais_shape(…)`; only motion commands have this method. -/
def Command.draw (k : DrawKernel) (asEdges : Bool) : Command → Except Err (Option Drawn)
  | .motion c =>
      match c.kind with
      | .cw | .ccw => c.drawArc k
      | _ => c.drawStraight k asEdges
  | _ => .error .attributeError

/-- src/cq_cam/visualize.py:71-88 `visualize_job_as_edges`; `job_plane.rG` is `Frame.toWorld`. -/
def visualizeEdges (k : DrawKernel) (top : Frame) : List Command → Except Err (List Drawn)
  | [] => .ok []
  | c :: cs => do
      let shape ← c.draw k true
      let rest ← visualizeEdges k top cs
      return match shape with
        | none => rest
        | some s => s.map top.toWorld :: rest

/-- `ais_color` / `ais_alt_color`: src/cq_cam/command.py:134-135, 208, 212, 227, 297.  Only `alt_color = False` differs between
the classes. -/
def Motion.color (c : Motion) (alt : Bool) : String :=
  if alt then "darkred"
  else match c.kind with
    | .rapid => "green"
    | .plungeRapid | .plungeCut => "yellow"
    | .retract => "blue"
    | _ => "red"

/-- The commands of `visualize_job` from index `i` on, each with `alt_color = i % 2`. -/
def drawColored (k : DrawKernel) (i : ℕ) : List Command → Except Err (List (Drawn × String))
  | [] => .ok []
  | c :: cs => do
      let shape ← c.draw k false
      let rest ← drawColored k (i + 1) cs
      return match shape, c with
        | some s, .motion m => (s, m.color (i % 2 = 1)) :: rest
        | _, _ => rest

/-- src/cq_cam/visualize.py:22-46 `visualize_job_plane`: the three axes of the job plane with their colours. -/
def visualizePlane (top : Frame) (length : ℚ := 1) : List (Drawn × String) :=
  [(.line top.origin (top.origin.add (Vec.smul length top.xDir)), "red"),
   (.line top.origin (top.origin.add (Vec.smul length top.yDir)), "green"),
   (.line top.origin (top.origin.add (Vec.smul length top.zDir)), "blue")]

/-- src/cq_cam/visualize.py:48-67 `visualize_job`: what the group shows, i.e. the command shapes placed by the group's
transformation, and the axes of the plane. -/
def visualizeGroup (k : DrawKernel) (top : Frame) (cs : List Command) : Except Err (List (Drawn × String)) := do
  let shapes ← drawColored k 0 cs
  return shapes.map (fun s => (s.1.map top.toWorld, s.2)) ++ visualizePlane top

/-- src/cq_cam/fluent.py:317-328 `Job.to_shapes(as_edges=True)` with src/cq_cam/utils/utils.py:169-170 `flatten_list`. -/
def Job.toEdges (k : DrawKernel) (j : Job) : Except Err (List Drawn) := do
  let lists ← mapE (fun o : Operation => visualizeEdges k j.top (o.commands.drop 1)) j.operations
  return lists.flatten

/-- src/cq_cam/fluent.py:325-328 `Job.to_shapes()`. -/
def Job.toGroups (k : DrawKernel) (j : Job) : Except Err (List (List (Drawn × String))) :=
  mapE (fun o : Operation => visualizeGroup k j.top (o.commands.drop 1)) j.operations

end CQ
