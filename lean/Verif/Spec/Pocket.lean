import Verif.Spec.Region

/-! # Specification: repeated shrinking of contours -/

namespace CQ

/-- `Unfolds R ps xs`: `xs` are the contours `ps`, everything obtained from them by `R`, everything obtained from
that, and so on (one copy for each way a contour is obtained), as a list; in particular the process ends. -/
inductive Unfolds {α : Type} (R : α → List α → Prop) : List α → List α → Prop where
  | nil : Unfolds R [] []
  | cons {p : α} {ps cs xs ys : List α} : R p cs → Unfolds R cs xs → Unfolds R ps ys →
      Unfolds R (p :: ps) (p :: (xs ++ ys))

/-- `cs` are the contours that follow the contour `p` in a pocket: the contours of `p` shrunk by `step`, and if the
pocket has holes, the outer contours of what is left of them outside the holes. -/
def Follows (eng : Clipper) (pocket : PathFace) (step : ℚ) (precision : ℕ) (p : List Pt) (cs : List (List Pt)) : Prop :=
  ∃ raw shrunk, eng.offset p (-step) precision = .ok raw ∧
    List.Forall₂ ClosedAs (raw.filter (fun q => decide (q ≠ []))) shrunk ∧
    if shrunk = [] ∨ pocket.inners = [] then cs = shrunk
    else ∃ tree, eng.difference shrunk pocket.inners = .ok tree ∧
      List.Forall₂ (fun n c => ClosedAs n.contour c) tree cs

end CQ
