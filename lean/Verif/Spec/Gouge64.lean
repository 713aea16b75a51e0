import Verif.Spec.EndToEnd
import Verif.Spec.Contour64

/-! # Specification: feed moves up to a tolerance -/

namespace CQ

/-- As `FeedsFromTo`, up to `tol` instead of half a thousandth. -/
def FeedsNear (tol : ℚ) (a b : Pt) (z : ℚ) (e : Event) : Prop :=
  e.st.spindle = .cw ∧ ∃ a' b' : Pt, ∃ z' ctr, e.st.pos = a'.pos z' ∧ e.act = .move .linear (b'.pos z) ctr ∧
    PtNear tol a' a ∧ PtNear tol b' b ∧ (z' = z ∨ (a' = b' ∧ z ≤ z'))

/-- As `StaysOver`, up to `tol` instead of half a thousandth. -/
def StaysNear (tol : ℚ) (K : Pt → Prop) (e : Event) : Prop :=
  ∃ a b : Pt, ∃ z z' k ctr, e.st.pos = a.pos z ∧ e.act = .move k (b.pos z') ctr ∧ (k = .rapid ∨ k = .linear) ∧
    ∀ q, OnSegment a b q → ∃ p, K p ∧ PtNear tol q p

/-- The points are near two points whose squared distance is at most `l2`. -/
def LinkedUpTo (tol l2 : ℚ) (p q : Pt) : Prop := ∃ p' q', PtNear tol p' p ∧ PtNear tol q' q ∧ sqDist p' q' ≤ l2

end CQ
