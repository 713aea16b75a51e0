import Verif.Spec.TabRun64
import Verif.Spec.TabStep

/-! # Specification: how much a profile with tabs computed in floating point takes at once -/

namespace CQ

/-- The kernel measures the edges of the contour alike at all heights. -/
def EdgesAlike (len : Edge → ℚ) (b : List Edge) : Prop := ∀ e ∈ b, ∀ dz, len (e.up dz) = len e

/-- The kernel measures the contour alike at all heights. -/
def WireAlike (cad : Cad) (total : List Edge → ℚ) (b : List Edge) : Prop :=
  ∀ dz, cad.wireLength (b.map (Edge.up dz)) = cad.wireLength b ∧ total (b.map (Edge.up dz)) = total b

/-- The moves of the machine for the profile of one wire with tabs and stepdown `s`: for each contour its passes, up to rounding, one after
the other, which are raised to the top of the tabs (right up to `ε`) where `marks` says so; none of them takes more than `s + 2 tol` at
once. -/
def RunsStepwise64 (cad : Cad) (top : Frame) (F r offset ε tol s height : ℚ)
    (marks : List Edge → List Edge → List (List (ℚ × Transition)) → Prop) (wire : List Edge) (evs : List Event) : Prop :=
  ∃ bases, offsetWire64 cad (wire.map (Edge.toLocal top)) (b64 (offset * r)) = .ok bases ∧
    ∃ blocks : List (List (List Event)), evs = blocks.flatten.flatten ∧
      List.Forall₂ (fun base block => ∃ z layers passes, |z - (cad.zmin base + height)| ≤ ε ∧ NearPasses cad ε tol s base layers ∧
        List.Forall₂ (TabbedPass cad z (marks base)) layers passes ∧ List.Forall₂ (RunsWire cad.veq F) passes block ∧
        PassesDown (-1 / 1000) (s + 2 * tol) passes) bases blocks

/-- The same for several wires; nothing if no offset is given. -/
def RunAllStepwise64 (cad : Cad) (top : Frame) (F r ε tol : ℚ) (offset : Option ℚ) (s height : ℚ)
    (marks : List Edge → List Edge → List (List (ℚ × Transition)) → Prop) (wires : List (List Edge)) (evss : List (List Event)) : Prop :=
  match offset with
  | none => evss = []
  | some o => List.Forall₂ (RunsStepwise64 cad top F r o ε tol s height marks) wires evss

end CQ
