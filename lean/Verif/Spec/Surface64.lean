import Verif.Model.ZigZag
import Verif.Spec.Surface

/-! # Specification: 3D surfacing in floating point -/

namespace CQ

/-- The point has coordinates up to `L`. -/
def Pt.Upto (L : ℚ) (p : Pt) : Prop := |p.x| ≤ L ∧ |p.y| ≤ L

/-- Scanlines that are clipped at boundaries with coordinates up to `L` have coordinates up to `L`. -/
def ClipsWithin (L : ℚ) (eng : ScanClipper) : Prop :=
  ∀ boundaries templates scanlines, (∀ b ∈ boundaries, ∀ p ∈ b, p.Upto L) → eng.clip boundaries templates = .ok scanlines →
    ∀ l ∈ scanlines, l.1.Upto L ∧ l.2.Upto L

end CQ
