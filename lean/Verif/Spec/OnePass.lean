import Verif.Model.Placed

/-! # Specification for C125: work no deeper than the stepdown -/

namespace CQ

/-- No face given to a pocket lies more than `s` below the job's surface. -/
def FacesWithin (box : List Edge → List (List Edge) → ℚ × ℚ) (top : Frame) (s : ℚ) (fs : List WorldFace) : Prop :=
  ∀ f ∈ fs, -s ≤ (box (f.outerWire.map (Edge.toLocal top)) (f.innerWires.map (List.map (Edge.toLocal top)))).2

/-- No contour that is profiled reaches more than `s` (and a thousandth) below the job's surface. -/
def ContoursWithin (cad : Cad) (j : Job) (offset s : ℚ) (wire : List Edge) : Prop :=
  ∀ r bases, j.toolRadius = some r → offsetWire cad (wire.map (Edge.toLocal j.top)) (offset * r) = .ok bases →
    ∀ b ∈ bases, b ≠ [] ∧ -s - 1 / 1000 ≤ cad.zmin b

end CQ
