import Verif.Spec.MeshPath

/-!
# Specification: a drop cutter that calculates in floating point
-/

namespace CQ

/-- What a drop cutter that rounds does: for each point a height, at most `η` below one at which the tool is clear of all triangles. -/
def DropsNear (c : Cutter) (η : ℚ) (drop : List Tri → ℚ → List Pt → List ℚ) : Prop :=
  ∀ tris z, ∃ h : Pt → ℚ, (∀ ps, drop tris z ps = ps.map h) ∧ ∀ p, ClearAt c (fun v => ∃ t ∈ tris, OnTriangle t v) p (h p + η)

/-- The heights that a drop cutter finds over these triangles, for points that begin at `z`, are at most `η` below heights at which the
tool is clear of them and which change by at most `K` per unit of length. -/
def SteepNear (c : Cutter) (K η : ℚ) (drop : List Tri → ℚ → List Pt → List ℚ) (tris : List Tri) (z : ℚ) : Prop :=
  ∃ h H : Pt → ℚ, (∀ ps, drop tris z ps = ps.map h) ∧ (∀ p, H p ≤ h p + η) ∧ SlopeUpTo K H ∧
    ∀ p, ClearAt c (fun v => ∃ t ∈ tris, OnTriangle t v) p (H p)

end CQ
