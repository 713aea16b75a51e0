import Verif.Spec.SurfaceTotal
import Verif.Spec.ZigZag64
import Verif.Model.Op3d64

/-! # Specification: 3D surfacing that can be made, in floating point -/

namespace CQ

/-- Scanlines with different ends, none of them at a vertex, all of them doubles up to `2 * M` and within 0.0003 from a segment of the
polyline. -/
structure OrdinaryScan64 (M : ℚ) (poly : List Pt) (lines : List (Pt × Pt)) : Prop where
  ends : (lineEnds lines).Nodup
  double : ∀ q ∈ lineEnds lines, (IsDouble q.x ∧ IsDouble q.y) ∧ |q.x| ≤ 2 * M ∧ |q.y| ≤ 2 * M
  between : ∀ q ∈ lineEnds lines, q ∉ poly
  near : ∀ q ∈ lineEnds lines, ∃ seg ∈ segments poly, NearWithin (9 / 10 ^ 8) seg q

/-- A first pass at `top + stepdown` is at least a millionth above the lowest point; a stepdown of zero is none. -/
def HasFirstPass64 (stepdown : Option ℚ) (top bottom : ℚ) : Prop :=
  ∀ s, stepdown = some s → s ≠ 0 → s < 0 ∧ bottom + 1 / 10 ^ 6 ≤ top + s

/-- The polygon, of doubles up to `M`, can be surfaced: the lines are some distance apart, and pyclipper cuts them to pieces inside the polygon
that are in ordinary position. -/
def CanSurface64 (M : ℚ) (eng : SurfaceEngine) (args : SurfaceArgs) (poly : List Pt) : Prop :=
  BoundaryOK64 M poly ∧ 2 ^ (-1000 : ℤ) ≤ |args.toolDiameter * args.stepover| ∧
    ∀ templates, scanTemplates64 eng.scan [poly] args.toolDiameter args.stepover = .ok templates →
      ∃ lines, eng.scan.clip [poly] templates = .ok lines ∧ lines ≠ [] ∧ OrdinaryScan64 M poly lines

end CQ
