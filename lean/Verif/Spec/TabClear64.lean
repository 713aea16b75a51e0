import Verif.Spec.ProfileClear64
import Verif.Spec.TabRun64

/-! # Specification: profiles with tabs in floating point that keep off a part -/

namespace CQ

/-- The edges of the contour run where they should, and pieces of them run along them. -/
def ShapedContour (b : List Edge) : Prop := ∀ e ∈ b, TrueShape e ∧ Divisible e

end CQ
