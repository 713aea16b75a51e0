import Verif.Spec.EndToEnd
import Verif.Spec.ProfileClear

/-! # Specification: how much a profile with tabs takes at once -/

namespace CQ

/-- Every point of each of the wires, cut in this order, is at most `s` below the height `top`, or at most `s` below a point of a wire cut
before it. -/
def PassesDown (top s : ℚ) (ws : List (List Edge)) : Prop :=
  ∀ pre w post, ws = pre ++ w :: post → ∀ e ∈ w, ∀ u, 0 ≤ u → u ≤ 1 →
    top ≤ (e.travel u).z + s ∨
    ∃ w' ∈ pre, ∃ e' ∈ w', ∃ v, 0 ≤ v ∧ v ≤ 1 ∧ (e'.travel v).xy = (e.travel u).xy ∧ (e'.travel v).z ≤ (e.travel u).z + s

/-- The moves of the machine for the profile of one wire with tabs and stepdown `s`: for each contour its passes, one after the other,
which are raised to the top of the tabs where `marks` says so; none of them takes more than `s` at once. -/
def RunsStepwise (cad : Cad) (top : Frame) (F r offset s height : ℚ)
    (marks : List Edge → List Edge → List (List (ℚ × Transition)) → Prop) (wire : List Edge) (evs : List Event) : Prop :=
  ∃ bases, offsetWire cad (wire.map (Edge.toLocal top)) (offset * r) = .ok bases ∧
    ∃ blocks : List (List (List Event)), evs = blocks.flatten.flatten ∧
      List.Forall₂ (fun base block => ∃ layers passes, Passes cad s base layers ∧
        List.Forall₂ (TabbedPass cad (cad.zmin base + height) (marks base)) layers passes ∧
        List.Forall₂ (RunsWire cad.veq F) passes block ∧ PassesDown (-1 / 1000) s passes) bases blocks

/-- The same for several wires; nothing if no offset is given. -/
def RunAllStepwise (cad : Cad) (top : Frame) (F r : ℚ) (offset : Option ℚ) (s height : ℚ)
    (marks : List Edge → List Edge → List (List (ℚ × Transition)) → Prop) (wires : List (List Edge)) (evss : List (List Event)) : Prop :=
  match offset with
  | none => evss = []
  | some o => List.Forall₂ (RunsStepwise cad top F r o s height marks) wires evss

end CQ
