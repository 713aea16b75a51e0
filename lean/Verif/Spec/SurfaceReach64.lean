import Verif.Spec.SurfaceStep

/-! # Specification: the machine reaches a point -/

namespace CQ

/-- The machine feeds straight to the point, given with the printed digits. -/
def FeedsTo (x y z : ℚ) (e : Event) : Prop := ∃ ctr, e.act = .move .linear ⟨rnd 3 x, rnd 3 y, rnd 3 z⟩ ctr

end CQ
