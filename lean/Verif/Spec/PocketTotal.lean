import Verif.Spec.Region
import Verif.Spec.PocketAreas

/-! # Specification: an engine that answers -/

namespace CQ

/-- An engine that answers every question about good contours (for unions and differences: about at least one contour),
with good contours.  Good contours have points, and no two equal neighbouring points; shrinking makes them smaller, by at
least a fixed amount for each step, as measured by `μ`, and a difference does not make them larger; a union is not
empty. -/
structure Answers (eng : Clipper) (Good : List Pt → Prop) (μ : List Pt → ℚ) : Prop where
  points : ∀ p, Good p → p ≠ [] ∧ ∀ s ∈ segments p, s.1 ≠ s.2
  size : ∀ p, Good p → 0 ≤ μ p
  offset : ∀ p o k, Good p → ∃ raw, eng.offset p o k = .ok raw ∧ ∀ q ∈ raw, ∀ q', ClosedAs q q' → Good q'
  shrink : ∀ s k, 0 < s → ∃ δ, 0 < δ ∧ ∀ p, Good p → ∀ raw, eng.offset p (-s) k = .ok raw →
    ∀ q ∈ raw, ∀ q', ClosedAs q q' → μ q' + δ ≤ μ p
  union : ∀ ss, ss ≠ [] → (∀ p ∈ ss, Good p) → ∃ tree, eng.union ss [] = .ok tree ∧ tree ≠ [] ∧
    ∀ n ∈ tree, n.contour ≠ [] ∧ (∀ q', ClosedAs n.contour q' → Good q') ∧ ∀ c ∈ n.childs, c.contour ≠ []
  difference : ∀ ss cs, ss ≠ [] → (∀ p ∈ ss ++ cs, Good p) → ∃ tree, eng.difference ss cs = .ok tree ∧
    ∀ n ∈ tree, n.contour ≠ [] ∧ (∀ q', ClosedAs n.contour q' → Good q' ∧ ∃ p ∈ ss, μ q' ≤ μ p) ∧
      ∀ c ∈ n.childs, c.contour ≠ [] ∧ ∀ q', ClosedAs c.contour q' → Good q'

/-- A face a pocket can be made from: flat to the thousandth, not above the stock, and with outlines that are good. -/
def Usable (veq : Vec → Vec → Bool) (precision : ℕ) (Good : List Pt → Prop) (f : CqFace) : Prop :=
  pyRound f.zmin 3 = pyRound f.zmax 3 ∧ f.zmax ≤ 0 ∧
    ∀ w ∈ f.outerWire :: f.innerWires, ∃ p, wireToPath veq w precision = .ok p ∧ Good p

/-- Offset by `o`, something is left of the outline of the face. -/
def LeavesSome (eng : Clipper) (veq : Vec → Vec → Bool) (precision : ℕ) (o : ℚ) (f : CqFace) : Prop :=
  ∀ p raw, wireToPath veq f.outerWire precision = .ok p → eng.offset p o precision = .ok raw → ∃ q ∈ raw, q ≠ []

end CQ
