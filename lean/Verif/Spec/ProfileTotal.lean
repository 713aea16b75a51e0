import Verif.Spec.Profile

/-! # Specification: profiles that can be made -/

namespace CQ

/-- The kernel finds these contours at distance `d` of the wire, or none because it fails (`ValueError`) with this distance
and with one larger by 0.000001. -/
def Contours (cad : Cad) (w : List Edge) (d : ℚ) (curves : List (List Edge)) : Prop :=
  OffsetCurves cad w d curves ∨
    cad.offset2D w d = .error .valueError ∧ cad.offset2D w (d + 1 / 1000000) = .error .valueError ∧ curves = []

/-- The kernel fails to offset the wire with another exception. -/
def KernelFails (cad : Cad) (w : List Edge) (d : ℚ) (x : Err) : Prop :=
  x ≠ .valueError ∧ (cad.offset2D w d = .error x ∨
    cad.offset2D w d = .error .valueError ∧ cad.offset2D w (d + 1 / 1000000) = .error x)

/-- The kernel's wires have edges. -/
def NoEmptyWires (cad : Cad) : Prop := ∀ w d found, cad.offset2D w d = .ok found → ∀ c ∈ found, c ≠ []

/-- Raised by one to 101 stepdowns the contour reaches the surface (up to 0.001); a stepdown of zero is none. -/
def StepsOut (cad : Cad) (stepdown : Option ℚ) (c : List Edge) : Prop :=
  ∀ s, stepdown = some s → s ≠ 0 → ∃ k : ℕ, 1 ≤ k ∧ k ≤ 101 ∧ -1 / 1000 ≤ cad.zmin c + k * s

/-- All edges are of a kind the machine can follow. -/
def RoutableWire (c : List Edge) : Prop := ∀ e ∈ c, Routable e

/-- The contours of the wire at `offset` tool radii can be cut by the job. -/
def Makeable (cad : Cad) (j : Job) (offset : ℚ) (stepdown : Option ℚ) (wire : List Edge) : Prop :=
  ∃ diameter curves, j.toolDiameter = some diameter ∧ diameter ≠ 0 ∧
    Contours cad (wire.map (Edge.toLocal j.top)) (offset * (diameter / 2)) curves ∧
    ∀ c ∈ curves, StepsOut cad stepdown c ∧ RoutableWire c

/-- Why the contours of the wire cannot be cut, and the exception the user sees: there is no tool diameter or it is zero
(`TypeError`); the kernel fails; or a contour is too deep for the stepdown or cannot be followed (`RuntimeError`). -/
def CannotMake (cad : Cad) (j : Job) (offset : ℚ) (stepdown : Option ℚ) (wire : List Edge) (x : Err) : Prop :=
  (j.toolDiameter = none ∨ j.toolDiameter = some 0) ∧ x = .typeError ∨
  ∃ diameter, j.toolDiameter = some diameter ∧ diameter ≠ 0 ∧
    (KernelFails cad (wire.map (Edge.toLocal j.top)) (offset * (diameter / 2)) x ∨
      x = .runtimeError ∧ ∃ curves, Contours cad (wire.map (Edge.toLocal j.top)) (offset * (diameter / 2)) curves ∧
        ∃ c ∈ curves, ¬ StepsOut cad stepdown c ∨ ¬ RoutableWire c)

end CQ
