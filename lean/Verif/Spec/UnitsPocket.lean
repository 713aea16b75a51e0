import Verif.Spec.Units
import Verif.Spec.Pocket
import Verif.Spec.PocketAreas
import Verif.Spec.Contour
import Verif.Model.Placed

/-! # Specification: pockets in other units -/

namespace CQ

/-- A face made of polygons, in the new units. -/
def PathFace.conv (κ : Units) (f : PathFace) : PathFace :=
  ⟨f.outer.map (Pt.conv κ), f.inners.map (List.map (Pt.conv κ)), κ.c * f.depth⟩

/-- A face in job coordinates, in the new units. -/
def CqFace.conv (κ : Units) (f : CqFace) : CqFace :=
  ⟨f.outerWire.map (Edge.conv κ), f.innerWires.map (List.map (Edge.conv κ)), κ.c * f.zmin, κ.c * f.zmax⟩

/-- A face in world coordinates, in the new units. -/
def WorldFace.conv (κ : Units) (f : WorldFace) : WorldFace :=
  ⟨f.outerWire.map (Edge.conv κ), f.innerWires.map (List.map (Edge.conv κ))⟩

/-- An offset argument in the new units: multiples of the tool radius stay, distances are converted. -/
def OffsetInput.conv (κ : Units) : OffsetInput → OffsetInput
  | .mult m => .mult m
  | .multDist m d => .multDist m (κ.c * d)

/-- The arguments of a pocket in the new units. -/
def PocketArgs.conv (κ : Units) (a : PocketArgs) : PocketArgs where
  outerOffset := a.outerOffset.map (OffsetInput.conv κ)
  innerOffset := a.innerOffset.map (OffsetInput.conv κ)
  avoidOuterOffset := a.avoidOuterOffset.map (OffsetInput.conv κ)
  avoidInnerOffset := a.avoidInnerOffset.map (OffsetInput.conv κ)
  stepover := a.stepover.map (OffsetInput.conv κ)
  stepdown := a.stepdown.map (κ.c * ·)

mutual
/-- A node of the result of a boolean operation, in the new units. -/
def PolyNode.conv (κ : Units) : PolyNode → PolyNode
  | .node c cs => .node (c.map (Pt.conv κ)) (convNodes κ cs)
/-- The same for a list of nodes. -/
def convNodes (κ : Units) : List PolyNode → List PolyNode
  | [] => []
  | n :: ns => n.conv κ :: convNodes κ ns
end

/-- The answers of the polygon library in the new units (and the new precision, in place of `n`) are its answers, in the new
units. -/
structure ClipperUnits (κ : Units) (n : ℕ) (eng : Clipper) : Prop where
  offset : ∀ p o, eng.offset (p.map (Pt.conv κ)) (κ.c * o) κ.precision = (eng.offset p o n).map (List.map (List.map (Pt.conv κ)))
  union : ∀ a b, eng.union (a.map (List.map (Pt.conv κ))) (b.map (List.map (Pt.conv κ))) = (eng.union a b).map (convNodes κ)
  difference : ∀ a b, eng.difference (a.map (List.map (Pt.conv κ))) (b.map (List.map (Pt.conv κ))) =
    (eng.difference a b).map (convNodes κ)
  contains : ∀ f g, eng.contains (f.conv κ) (g.conv κ) = eng.contains f g

/-- The edge becomes as many points in either units: it is straight, or its length times the number of points per unit gives the
same number. -/
def SampledAlike (κ : Units) (n : ℕ) (e : Edge) : Prop :=
  e.geom = .line ∨ max (pyInt (κ.c * e.length * 10 ^ κ.precision)) 2 = max (pyInt (e.length * 10 ^ n)) 2

/-- The fixed tolerances of the code do not tell the units apart for this face: it is flat to three digits in both or in none, and
its edges become as many points. -/
structure FaceAlike (κ : Units) (n : ℕ) (f : CqFace) : Prop where
  flat : pyRound (κ.c * f.zmin) 3 = pyRound (κ.c * f.zmax) 3 ↔ pyRound f.zmin 3 = pyRound f.zmax 3
  outer : ∀ e ∈ f.outerWire, SampledAlike κ n e
  inner : ∀ w ∈ f.innerWires, ∀ e ∈ w, SampledAlike κ n e

/-- `x` is a point of the path nearest to `e`. -/
def NearestOn (path : List Pt) (e x : Pt) : Prop :=
  (∃ s ∈ segments path, OnSegment s.1 s.2 x) ∧ ∀ s ∈ segments path, ∀ y, OnSegment s.1 s.2 y → sqDist e x ≤ sqDist e y

/-- A way from the path `a` to the nearest point of the path `b` is short in both units or in none, the code comparing the square
of a distance with a distance. -/
def LinksAlike (κ : Units) (step : ℚ) (a b : List Pt) : Prop :=
  ∀ e x, OnPath a e → NearestOn b e x → (sqDist e x ≤ step ↔ κ.c * sqDist e x ≤ step)

end CQ
