import Verif.Spec.Profile

/-! # Specification: passes of a profile in floating point -/

namespace CQ

/-- The lowest point of the bounding box moves with the wire `base` when it is raised by at most `H`, up to `τ`. -/
def BoxMovesWithin (τ H : ℚ) (cad : Cad) (base : List Edge) : Prop :=
  ∀ dz w, 0 ≤ dz → dz ≤ H → RaisedBy dz base w → |cad.zmin w - (cad.zmin base + dz)| ≤ τ

/-- The copies of the wire `base` raised by `n s`, …, `2 s`, `s`, `0`, in this order, up to `ε` and without any error at the last. -/
def NearCopies (ε s : ℚ) (base : List Edge) (n : ℕ) (layers : List (List Edge)) : Prop :=
  List.Forall₂ (fun (k : ℕ) w => ∃ dz, |dz - k * s| ≤ ε ∧ RaisedBy dz base w) (List.range (n + 1)).reverse layers ∧
    layers.getLast? = some base

/-- The passes for the wire `base` with stepdown `s`: copies raised by `n s`, …, `2 s`, `s`, `0` up to `ε`.  All but the last reach
more than `0.001 - tol` below the surface, and the first one at most `s + 0.001 + tol`. -/
def NearPasses (cad : Cad) (ε tol s : ℚ) (base : List Edge) (layers : List (List Edge)) : Prop :=
  ∃ n : ℕ, n ≤ 100 ∧ NearCopies ε s base n layers ∧
    (∀ k : ℕ, 1 ≤ k → k ≤ n → cad.zmin base + k * s < -1 / 1000 + tol) ∧
    (∀ w, layers.head? = some w → -1 / 1000 - s - tol ≤ cad.zmin w)

end CQ
