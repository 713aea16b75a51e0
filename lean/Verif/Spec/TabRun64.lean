import Verif.Spec.ProfileRun64
import Verif.Spec.EdgeTabs64

/-! # Specification: profiles with tabs in floating point on the machine -/

namespace CQ

/-- A flat contour at one height, which the kernel finds up to `τ`, also when the contour is raised by at most `H`; it and the tabs are below
the safe height, and every pass that the kernel finds below the top of the tabs is more than the kernel's smallest length (`1 / 10^7`)
below it. -/
structure TabContour64 (cad : Cad) (j : Job) (τ H L height : ℚ) (stepdown : Option ℚ) (b : List Edge) : Prop where
  ok : WireOK b
  chained : Chained b
  length : ∀ e ∈ b, 0 < e.length
  box : BoxMovesWithin τ H cad b
  level : ∃ z, |cad.zmin b - z| ≤ τ ∧ z ≤ j.opSafeHeight ∧ (∀ e ∈ b, FlatEdge z e) ∧ ∀ k : ℕ, k ≤ 100 →
    b64 (cad.zmin b + height) ≤ cad.zmin (b.map (Edge.up (b64 (stepdown.getD 0 * k)))) ∨
      z + b64 (stepdown.getD 0 * k) + 1 / 10 ^ 7 < b64 (cad.zmin b + height)
  top : b64 (cad.zmin b + height) ≤ j.opSafeHeight
  size : |cad.zmin b + height| ≤ L

/-- The kernel measures the edges of the contour, raised or not, up to 1000 units of rounding, and none is longer than 100 m. -/
def EdgesMeasured (len : Edge → ℚ) (b : List Edge) : Prop :=
  ∀ e ∈ b, e.length ≤ 10 ^ 5 ∧ ∀ dz, NearLength 1000 e.length (len (e.up dz))

/-- `n` tabs of the given width around the contour end at least 10 nm from its corners and from each other; it has at most 1000 edges and
100 m, and its length is found up to 1000 units of rounding, raised or not. -/
structure ZonesFit64 (cad : Cad) (total : List Edge → ℚ) (n : ℕ) (width : ℚ) (b : List Edge) : Prop where
  count : b.length ≤ 1000
  short : (b.map Edge.length).sum ≤ 10 ^ 5
  apart : EndsApart (1 / 10 ^ 5) n width (b.map Edge.length).sum b
  first : FirstTabApart n width (b.map Edge.length).sum b
  measured : ∀ dz, NearLength 1000 (b.map Edge.length).sum (cad.wireLength (b.map (Edge.up dz))) ∧
    NearLength 1000 (b.map Edge.length).sum (total (b.map (Edge.up dz)))

/-- The moves of the machine for the profile of one wire with tabs: for each contour its passes, up to rounding, one after the other, which
are raised to the top of the tabs (right up to `ε`) where `marks` says so. -/
def RunsTabProfile64 (cad : Cad) (top : Frame) (F r offset ε tol : ℚ) (stepdown : Option ℚ) (height : ℚ)
    (marks : List Edge → List Edge → List (List (ℚ × Transition)) → Prop) (wire : List Edge) (evs : List Event) : Prop :=
  ∃ bases, offsetWire64 cad (wire.map (Edge.toLocal top)) (b64 (offset * r)) = .ok bases ∧
    ∃ blocks : List (List (List Event)), evs = blocks.flatten.flatten ∧
      List.Forall₂ (fun base block => ∃ z layers passes, |z - (cad.zmin base + height)| ≤ ε ∧
        NearPassesOf cad ε tol stepdown base layers ∧ List.Forall₂ (TabbedPass cad z (marks base)) layers passes ∧
        List.Forall₂ (RunsWire cad.veq F) passes block) bases blocks

/-- The moves of the machine for the profiles of several wires with tabs; none if no offset is given. -/
def RunsTabProfiles64 (cad : Cad) (top : Frame) (F r ε tol : ℚ) (offset : Option ℚ) (stepdown : Option ℚ) (height : ℚ)
    (marks : List Edge → List Edge → List (List (ℚ × Transition)) → Prop) (wires : List (List Edge)) (evss : List (List Event)) : Prop :=
  match offset with
  | none => evss = []
  | some o => List.Forall₂ (RunsTabProfile64 cad top F r o ε tol stepdown height marks) wires evss

/-- The transitions mark the tabs along the edges, up to rounding. -/
def NearTabsOnEdges (t : EdgeTabs) (edges : List Edge) (tss : List (List (ℚ × Transition))) : Prop :=
  List.Forall₂ (NearEdgeMarks 1000 (3 / 10 ^ 13) t.spacing t.width t.only) edges tss

end CQ
