import Verif.Spec.Profile64
import Verif.Spec.EndToEnd
import Verif.Spec.ProfileStep
import Verif.Model.Profile64

/-! # Specification: profiles in floating point on the machine -/

namespace CQ

/-- A flat contour below the safe height, whose bounding box the kernel finds up to `τ`, also when it is raised by at most `H`. -/
structure PlainContour64 (cad : Cad) (j : Job) (τ H : ℚ) (b : List Edge) : Prop where
  ok : WireOK b
  chained : Chained b
  vertex : ∀ dz, NearestIsVertex cad (b.map (Edge.up dz))
  box : BoxMovesWithin τ H cad b
  level : ∃ z, |cad.zmin b - z| ≤ τ ∧ z ≤ j.opSafeHeight ∧ ∀ e ∈ b, EdgeAt (· = z) e

/-- All contours at the given distance (of the tool's radius, rounded) from the wire satisfy `P`. -/
def EachContour64 (cad : Cad) (j : Job) (offset : ℚ) (wire : List Edge) (P : List Edge → Prop) : Prop :=
  ∀ r bases, j.toolRadius = some r → offsetWire64 cad (wire.map (Edge.toLocal j.top)) (b64 (offset * r)) = .ok bases →
    ∀ b ∈ bases, P b

/-- The passes of a contour: those of the stepdown up to rounding, or only the contour itself without one (or with stepdown 0). -/
def NearPassesOf (cad : Cad) (ε tol : ℚ) (stepdown : Option ℚ) (base : List Edge) (layers : List (List Edge)) : Prop :=
  (stepdown.getD 0 = 0 ∧ layers = [base]) ∨ ∃ s, stepdown = some s ∧ 0 < s ∧ NearPasses cad ε tol s base layers

/-- The moves of the machine for the profile of one wire: for each contour at the given distance (of the tool's radius, rounded) its
passes, one after the other. -/
def RunsProfile64 (cad : Cad) (top : Frame) (F r offset ε tol : ℚ) (stepdown : Option ℚ) (wire : List Edge) (evs : List Event) : Prop :=
  ∃ bases, offsetWire64 cad (wire.map (Edge.toLocal top)) (b64 (offset * r)) = .ok bases ∧
    ∃ blocks : List (List (List Event)), evs = blocks.flatten.flatten ∧
      List.Forall₂ (fun base block => ∃ layers, NearPassesOf cad ε tol stepdown base layers ∧
        List.Forall₂ (RunsWire cad.veq F) layers block) bases blocks

/-- The moves of the machine for the profiles of several wires; none if no offset is given. -/
def RunsProfiles64 (cad : Cad) (top : Frame) (F r ε tol : ℚ) (offset : Option ℚ) (stepdown : Option ℚ) (wires : List (List Edge))
    (evss : List (List Event)) : Prop :=
  match offset with
  | none => evss = []
  | some o => List.Forall₂ (RunsProfile64 cad top F r o ε tol stepdown) wires evss

end CQ
