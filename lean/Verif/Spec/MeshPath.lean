import Verif.Spec.Mesh
import Verif.Spec.EndToEnd

/-!
# Specification: the tool on its way past the part
-/

namespace CQ

/-- On the whole straight way from `a` to `b` the tool, raised by `g`, has none of the points in it. -/
def SweepsClear (c : Cutter) (points : Vec → Prop) (g : ℚ) (a b : Vec) : Prop :=
  ∀ t : ℚ, 0 ≤ t → t ≤ 1 → ClearAt c points ((⟨a.x, a.y⟩ : Pt).lerp ⟨b.x, b.y⟩ t) (a.z + t * (b.z - a.z) + g)

/-- The machine rises straight to the height `R`, or travels rapidly at it, or moves straight with the tool, raised by `g`, clear of
the points on the whole way. -/
def MovesClear (c : Cutter) (points : Vec → Prop) (g R : ℚ) (e : Event) : Prop :=
  ∃ k tgt ctr, e.act = .move k tgt ctr ∧
    ((k = .rapid ∧ tgt = ⟨e.st.pos.x, e.st.pos.y, some R⟩) ∨ (k = .rapid ∧ e.st.pos.z = some R ∧ tgt.z = some R) ∨
      ((k = .rapid ∨ k = .linear) ∧ ∃ a b : Vec, e.st.pos = a.pos ∧ tgt = b.pos ∧ SweepsClear c points g a b))

/-- The heights a drop cutter finds over the shape, for points that begin at `z`, change by at most `K` per unit of length. -/
def SteepUpTo (K : ℚ) (drop : List Tri → ℚ → List Pt → List ℚ) (s : CadShape) (z : ℚ) : Prop :=
  ∀ tris h, shapeToTriangles s = .ok tris → (∀ ps, drop tris z ps = ps.map h) → SlopeUpTo K h

end CQ
