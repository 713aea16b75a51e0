import Verif.Spec.Surface

/-!
# Specification: paths refined up to rounding
-/

namespace CQ

/-- `m` is up to `tol` in each coordinate the point of the segment from `a` to `b` at the fraction `t`. -/
def NearFraction (tol : ℚ) (a b : Pt) (t : ℚ) (m : Pt) : Prop :=
  0 ≤ t ∧ t ≤ 1 ∧ |m.x - (a.lerp b t).x| ≤ tol ∧ |m.y - (a.lerp b t).y| ≤ tol

/-- `out` is `seq` with further points inserted: those inserted between two neighbours lie, up to `tol`, on the straight segment between
them, in order, and neighbouring points of `out` are at most `gap` apart. -/
inductive RefinesUpTo (tol gap : ℚ) : List Pt → List Pt → Prop
  | single (p : Pt) : RefinesUpTo tol gap [p] [p]
  | cons {p q : Pt} {seq ms out : List Pt}
      (along : ∃ ts : List ℚ, List.Pairwise (· ≤ ·) ts ∧ List.Forall₂ (NearFraction tol p q) ts ms)
      (near : List.IsChain (fun a b => sqDist a b ≤ gap ^ 2) (p :: (ms ++ [q])))
      (rest : RefinesUpTo tol gap (q :: seq) (q :: out)) : RefinesUpTo tol gap (p :: q :: seq) (p :: (ms ++ q :: out))

end CQ
