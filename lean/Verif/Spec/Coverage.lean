import Verif.Spec.PocketAreas

/-!
# Specification: clearing a region with contours

The contracts of the polygon engine are for outlines of a kind `G` (for example: simple polygons on the engine's grid) and
up to a tolerance `δ`, as in `ClipperNearOn`.  The engine cleans the contours of an offset up to the precision `k` of the job, so that
the tolerance of offsetting goes with `k`.
-/

namespace CQ

/-- The outlines that the engine makes are of the kind `G`. -/
structure MakesKind (G : List Pt → Prop) (eng : Clipper) : Prop where
  offset : ∀ path o k raw, eng.offset path o k = .ok raw → ∀ q ∈ raw, ∀ q', ClosedAs q q' → G q'
  difference : ∀ subjects clips tree, eng.difference subjects clips = .ok tree →
    ∀ n ∈ tree, ∀ k, n.Below k → ∀ q, ClosedAs k.contour q → G q

/-- Shrinking by `s` keeps what is farther than `s + δ` from the outline, in one contour, and every contour is within
`s + δ` of the outline. -/
structure ShrinksNear (G : List Pt → Prop) (δ : ℚ) (k : ℕ) (eng : Clipper) : Prop where
  keeps : ∀ path s raw, G path → 0 < s → eng.offset path (-s) k = .ok raw →
    ∀ p, Inside path p → FarFrom (s + δ) path p → insideCount raw p = 1
  near : ∀ path s raw, G path → 0 < s → eng.offset path (-s) k = .ok raw →
    ∀ q ∈ raw, ∀ x, OnOutline q x → ¬ FarFrom (s + δ) path x

/-- Shrinking by more than twice the tolerance leaves the tolerance inside the outline.  When something is cut away from the
contours of a shrunk outline, what is left, with its holes, does not leave these contours by more than the tolerance.  In a
difference holes of one outline do not overlap farther than the tolerance from them, and no outline runs inside what is cut away (even-odd) farther than the
tolerance from its outlines. -/
structure StaysInside (G : List Pt → Prop) (δ : ℚ) (k : ℕ) (eng : Clipper) : Prop where
  nonneg : 0 ≤ δ
  shrink : ∀ path s raw, G path → 2 * δ < s → eng.offset path (-s) k = .ok raw →
    ∀ q ∈ raw, ∀ x, Inside q x ∨ OnOutline q x → ∀ p, sqDist p x ≤ δ ^ 2 → Inside path p
  within : ∀ path s subjects clips tree, G path → 0 < s → OffsetContours eng (-s) k path subjects → (∀ c ∈ clips, G c) →
    eng.difference subjects clips = .ok tree → ∀ n ∈ tree, ∀ p, Inside n.contour p ∨ OnOutline n.contour p →
      ∃ q ∈ subjects, ∃ x, (Inside q x ∨ OnOutline q x) ∧ sqDist p x ≤ δ ^ 2
  siblings : ∀ subjects clips tree, (∀ s ∈ subjects ++ clips, G s) → eng.difference subjects clips = .ok tree →
    ∀ n ∈ tree, ∀ p, (∀ c ∈ n.childs, FarFrom δ c.contour p) → insideCount (n.childs.map PolyNode.contour) p ≤ 1
  outside : ∀ subjects clips tree, (∀ s ∈ subjects ++ clips, G s) → eng.difference subjects clips = .ok tree →
    ∀ n ∈ tree, ∀ p, OnOutline n.contour p → (∀ c ∈ clips, FarFrom δ c p) → insideCount clips p % 2 = 0

end CQ
