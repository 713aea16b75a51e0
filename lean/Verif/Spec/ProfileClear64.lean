import Verif.Spec.ProfileClear

/-! # Specification: keeping off a part, with a kernel that is not exact -/

namespace CQ

/-- The contours the kernel finds at any distance within `η` of `d` from the wire are that far from the part, up to `κ`. -/
def OffsetsAwayWithin (cad : Cad) (part : Pt → Prop) (w : List Edge) (d η κ : ℚ) : Prop :=
  ∀ d', |d' - d| ≤ η → ∀ found, cad.offset2D w d' = .ok found → ∀ c ∈ found, ∀ e ∈ c, ∀ p, e.covers p →
    ∀ a, 0 ≤ a → a + κ ≤ |d'| → Away part a p

/-- These contours can be cut, and the kernel's searches between their passes find vertices. -/
def OffsetsSoundWithin (cad : Cad) (w : List Edge) (d η : ℚ) : Prop :=
  ∀ d', |d' - d| ≤ η → ∀ found, cad.offset2D w d' = .ok found → ∀ c ∈ found,
    WireOK c ∧ (∀ e ∈ c, TrueShape e) ∧ ∀ dz v h, cad.search v (c.map (Edge.up dz)) = some h → ∃ x q, h = .vertex x q

end CQ
