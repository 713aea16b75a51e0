import Verif.Model.Placed
import Verif.Model.Drill

/-! # Specification: moving a part together with its work plane -/

namespace CQ

/-- A rigid motion of space: a point with coordinates `x, y, z` goes to `shift + x ex + y ey + z ez`, the three directions
being perpendicular to each other and of length 1. -/
structure Rigid where
  shift : Vec
  ex : Vec
  ey : Vec
  ez : Vec
  unitX : ex.dot ex = 1
  unitY : ey.dot ey = 1
  unitZ : ez.dot ez = 1
  perpXY : ex.dot ey = 0
  perpXZ : ex.dot ez = 0
  perpYZ : ey.dot ez = 0

/-- Where a direction goes. -/
def Rigid.dir (g : Rigid) (d : Vec) : Vec := (Vec.smul d.x g.ex).add ((Vec.smul d.y g.ey).add (Vec.smul d.z g.ez))

/-- Where a point goes. -/
def Rigid.point (g : Rigid) (p : Vec) : Vec := g.shift.add (g.dir p)

/-- The plane moved by `g`. -/
def Rigid.frame (g : Rigid) (f : Frame) : Frame := ⟨g.point f.origin, g.dir f.xDir, g.dir f.yDir, g.dir f.zDir⟩

/-- The edge moved by `g`. -/
def Rigid.edge (g : Rigid) (e : Edge) : Edge :=
  { e with
    startPoint := g.point e.startPoint
    endPoint := g.point e.endPoint
    posParam := fun p => g.point (e.posParam p)
    posLen := fun d => g.point (e.posLen d)
    center := g.point e.center
    normal := g.dir e.normal }

/-- The shape moved by `g`. -/
def Rigid.shape (g : Rigid) : Shape → Shape
  | .wire w => .wire (w.map g.edge)
  | .face o is => .face (o.map g.edge) (is.map (List.map g.edge))
  | .other => .other

/-- The face moved by `g`. -/
def Rigid.face (g : Rigid) (f : WorldFace) : WorldFace := ⟨f.outerWire.map g.edge, f.innerWires.map (List.map g.edge)⟩

/-- The job with its work plane moved by `g`. -/
def Rigid.job (g : Rigid) (j : Job) : Job := { j with top := g.frame j.top }

/-- `r'` does on the moved job what `r` does on the job, if the work plane of the job is `f`: it is accepted or refused
alike and generates the same commands. -/
structure SameWork (g : Rigid) (f : Frame) (r r' : Request) : Prop where
  name : r'.opName = r.opName
  tool : r'.tool = r.tool
  pre : ∀ j, j.top = f → r'.pre (g.job j) = r.pre j
  gen : ∀ j, j.top = f → r'.gen (g.job j) = r.gen j

/-- Shifting by a vector. -/
def Rigid.translation (v : Vec) : Rigid where
  shift := v
  ex := ⟨1, 0, 0⟩
  ey := ⟨0, 1, 0⟩
  ez := ⟨0, 0, 1⟩
  unitX := by simp [Vec.dot]
  unitY := by simp [Vec.dot]
  unitZ := by simp [Vec.dot]
  perpXY := by simp [Vec.dot]
  perpXZ := by simp [Vec.dot]
  perpYZ := by simp [Vec.dot]

end CQ
