import Verif.Spec.EndToEnd
import Verif.Spec.Coverage

/-! # Specification: how deep a pocket cuts at once (C106) -/

namespace CQ

/-- What the engine takes to be contained is contained: every point of the second face is a point of the first (for faces whose outlines
are of the engine's kind `G`). -/
def ContainsRight (G : List Pt → Prop) (eng : Clipper) : Prop :=
  ∀ o r, o.All G → r.All G → eng.contains o r = true → ∀ p, FaceRegion r p → FaceRegion o p

/-- In these events the machine has been everywhere over the region at height `d`: for each point of the region that is not within `δ` of a
hole of one of the regions, it has milled at height `d` over a point at a distance of at most `reach`. -/
def ClearedAt (d reach δ : ℚ) (regions : List PathFace) (r : PathFace) (evs : List Event) : Prop :=
  ∀ p, FaceRegion r p → (∀ o ∈ regions, ∀ i ∈ o.inners, FarFrom δ i p) →
    ∃ e ∈ evs, ∃ q, MillsOver d q e ∧ sqDist p q ≤ reach ^ 2

end CQ
