import Verif.Spec.Pocket
import Verif.Model.Scaling

/-! # Specification: the grid of pyclipper -/

namespace CQ

/-- A number on the grid. -/
def OnGrid (q : ℚ) : Prop := ∃ n : ℤ, q = n / 2147483648

/-- A path whose points are all on the grid. -/
def GridPath (path : List Pt) : Prop := ∀ p ∈ path, OnGrid p.x ∧ OnGrid p.y

/-- The point of the plane (in mm) that an integer point stands for. -/
def IPt.mm (p : IPt) : Pt := ⟨p.x / 2147483648, p.y / 2147483648⟩

mutual
/-- A result tree in mm. -/
def INode.mm : INode → PolyNode
  | .node c cs => .node (c.map IPt.mm) (INode.mms cs)
def INode.mms : List INode → List PolyNode
  | [] => []
  | n :: ns => n.mm :: INode.mms ns
end

/-- The contract of the engine on integers: read in mm, its boolean operations are right up to `δ`. -/
structure IntClipperNear (δ : ℚ) (e : IntClipper) : Prop where
  nonneg : 0 ≤ δ
  union : ∀ subjects clips tree, e.union subjects clips = .ok tree →
    ∀ r, 0 ≤ r → ∀ p, (∀ s ∈ subjects ++ clips, FarFrom (r + δ) (s.map IPt.mm) p) →
      RightNear r (INode.mms tree) p (insideCount (subjects.map (fun s => s.map IPt.mm)) p % 2 = 1 ∨
        insideCount (clips.map (fun s => s.map IPt.mm)) p % 2 = 1)
  difference : ∀ subjects clips tree, e.difference subjects clips = .ok tree →
    ∀ r, 0 ≤ r → ∀ p, (∀ s ∈ subjects ++ clips, FarFrom (r + δ) (s.map IPt.mm) p) →
      RightNear r (INode.mms tree) p (insideCount (subjects.map (fun s => s.map IPt.mm)) p % 2 = 1 ∧
        ¬ insideCount (clips.map (fun s => s.map IPt.mm)) p % 2 = 1)

end CQ
