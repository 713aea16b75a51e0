import Verif.Model.Address

/-!
# Vectors and job planes

The parts of `cadquery.Vector` and `cadquery.Plane` the package uses, over exact rationals.  cadquery itself is not
part of `/repo`; this is a model of its documented behaviour.
-/

namespace CQ

def Vec.add (a b : Vec) : Vec := ⟨a.x + b.x, a.y + b.y, a.z + b.z⟩
def Vec.sub (a b : Vec) : Vec := ⟨a.x - b.x, a.y - b.y, a.z - b.z⟩
def Vec.smul (k : ℚ) (a : Vec) : Vec := ⟨k * a.x, k * a.y, k * a.z⟩
def Vec.dot (a b : Vec) : ℚ := a.x * b.x + a.y * b.y + a.z * b.z
def Vec.zero : Vec := ⟨0, 0, 0⟩

/-- A job plane (`cq.Plane`): origin and three axis directions. -/
structure Frame where
  origin : Vec
  xDir : Vec
  yDir : Vec
  zDir : Vec
deriving DecidableEq, Repr

/-- `Plane.rG` / `Plane.toWorldCoords`: local to world. -/
def Frame.toWorld (f : Frame) (p : Vec) : Vec :=
  (f.origin.add (Vec.smul p.x f.xDir)).add ((Vec.smul p.y f.yDir).add (Vec.smul p.z f.zDir))

/-- `Plane.fG` / `Plane.toLocalCoords`: world to local (for orthonormal directions). -/
def Frame.toLocal (f : Frame) (p : Vec) : Vec :=
  ⟨(p.sub f.origin).dot f.xDir, (p.sub f.origin).dot f.yDir, (p.sub f.origin).dot f.zDir⟩

/-- The world XY plane. -/
def Frame.xy : Frame := ⟨⟨0, 0, 0⟩, ⟨1, 0, 0⟩, ⟨0, 1, 0⟩, ⟨0, 0, 1⟩⟩

end CQ
