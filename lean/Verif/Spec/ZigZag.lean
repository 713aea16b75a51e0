import Verif.Spec.Plane
import Mathlib.Analysis.Real.Sqrt

/-! # Specification: zigzag paths along a boundary -/

namespace CQ

/-- `run` follows `ring` from its beginning up to and including the first point of `targets`. -/
def RunTo (targets ring run : List Pt) : Prop :=
  ∃ pre q rest, run = pre ++ [q] ∧ ring = run ++ rest ∧ q ∈ targets ∧ ∀ p ∈ pre, p ∉ targets

/-- `run` follows the closed boundary from the point `p`, forwards or backwards, up to the first point of `targets`. -/
def BoundaryLink (boundary targets : List Pt) (p : Pt) (run : List Pt) : Prop :=
  ∃ before after, boundary = before ++ p :: after ∧
    (RunTo targets (after ++ before) run ∨ RunTo targets (after ++ before).reverse run)

/-- `run` follows the closed boundary from the point `p`, forwards or backwards. -/
def BoundaryRun (boundary : List Pt) (p : Pt) (run : List Pt) : Prop :=
  run ≠ [] ∧ ∃ before after rest, boundary = before ++ p :: after ∧
    (after ++ before = run ++ rest ∨ (after ++ before).reverse = run ++ rest)

/-- Length of a polyline. -/
noncomputable def pathLength : List Pt → ℝ
  | a :: b :: ps => Real.sqrt (sqDist a b : ℚ) + pathLength (b :: ps)
  | _ => 0

/-- The path goes on from `b`: along the boundary to the start of the next line, then straight to its end, and so on for
all the lines. -/
def LinksAndCuts (boundary : List Pt) : Pt → List (Pt × Pt) → List Pt → Prop
  | _, [], path => path = []
  | b, (s, e) :: lines, path => ∃ link rest, path = link ++ e :: rest ∧ link.getLast? = some s ∧
      BoundaryRun boundary b link ∧ LinksAndCuts boundary e lines rest

/-- The path cuts the lines one after the other, each from its start to its end, and links them along the boundary. -/
def CutsLines (boundary : List Pt) : List (Pt × Pt) → List Pt → Prop
  | [], path => path = []
  | (s, e) :: lines, path => ∃ rest, path = s :: e :: rest ∧ LinksAndCuts boundary e lines rest

/-- As `LinksAndCuts`, with links along any of the boundaries. -/
def LinksAndCutsAny (boundaries : List (List Pt)) : Pt → List (Pt × Pt) → List Pt → Prop
  | _, [], path => path = []
  | b, (s, e) :: lines, path => ∃ link rest, path = link ++ e :: rest ∧ link.getLast? = some s ∧
      (∃ boundary ∈ boundaries, BoundaryRun boundary b link) ∧ LinksAndCutsAny boundaries e lines rest

/-- As `CutsLines`, with links along any of the boundaries. -/
def CutsLinesAny (boundaries : List (List Pt)) : List (Pt × Pt) → List Pt → Prop
  | [], path => path = []
  | (s, e) :: lines, path => ∃ rest, path = s :: e :: rest ∧ LinksAndCutsAny boundaries e lines rest

/-- The same lines, in some order and each in one of its two directions. -/
def SameLines (lines scanlines : List (Pt × Pt)) : Prop :=
  ∃ ls, ls.Perm scanlines ∧ List.Forall₂ (fun l l' => l = l' ∨ l = (l'.2, l'.1)) lines ls

/-- The ends of the lines. -/
def lineEnds (lines : List (Pt × Pt)) : List Pt := lines.flatMap (fun l => [l.1, l.2])

/-- The vertices of a polyline with a block of points inserted after each of its vertices but the last. -/
def weave : List Pt → List (List Pt) → List Pt
  | v :: vs, b :: bs => v :: (b ++ weave vs bs)
  | vs, _ => vs

/-- In order of the distance from `a`. -/
def SortedFrom (a : Pt) (ps : List Pt) : Prop := ps.Pairwise (fun p q => sqDist a p ≤ sqDist a q)

/-- Within the tolerance from a segment. -/
def NearSegment (seg : Pt × Pt) (p : Pt) : Prop := ∃ q, OnSegment seg.1 seg.2 q ∧ sqDist p q < 1 / 10000000

end CQ
