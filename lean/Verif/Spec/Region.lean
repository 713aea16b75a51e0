import Verif.Spec.Contour
import Verif.Model.Pocket

/-!
# Specification: regions of the plane bounded by outlines

An outline is a list of points, closed by the segment from its last point back to its first.  A point is inside if a
ray from it in direction +x crosses the outline an odd number of times.
-/

namespace CQ

/-- The outline with the closing segment. -/
def closedOutline (path : List Pt) : List Pt := path ++ path.head?.toList

/-- The ray from `p` in direction +x crosses the segment. -/
def crosses (p : Pt) (s : Pt × Pt) : Bool :=
  decide (decide (p.y < s.1.y) ≠ decide (p.y < s.2.y)) &&
    decide (p.x < s.1.x + (p.y - s.1.y) * (s.2.x - s.1.x) / (s.2.y - s.1.y))

/-- Number of crossings. -/
def crossings (path : List Pt) (p : Pt) : ℕ := (segments (closedOutline path)).countP (crosses p)

/-- `p` is inside the outline. -/
def Inside (path : List Pt) (p : Pt) : Prop := crossings path p % 2 = 1

instance (path : List Pt) (p : Pt) : Decidable (Inside path p) := inferInstanceAs (Decidable (_ = _))

/-- `p` is on the outline. -/
def OnOutline (path : List Pt) (p : Pt) : Prop := OnPath (closedOutline path) p

/-- The outline `q` is the contour `c`, closed explicitly if it is not yet closed. -/
def ClosedAs (c q : List Pt) : Prop :=
  IsClosedPath q ∧ (q = c ∨ ∃ a, c.head? = some a ∧ c.getLast? ≠ some a ∧ q = c ++ [a]) ∧ ∀ p, Inside q p ↔ Inside c p

/-- The region of a face: inside its outer outline, in none of its holes. -/
def FaceRegion (f : PathFace) (p : Pt) : Prop := Inside f.outer p ∧ ∀ i ∈ f.inners, ¬ Inside i p

/-- The region of a result tree: a node's contour without the regions of its children (a child of an outline is a
hole, a child of a hole is an island, and so on). -/
def NodeRegion (p : Pt) : PolyNode → Prop
  | .node c cs => Inside c p ∧ ∀ h ∈ cs, ¬ NodeRegion p h

def TreeRegion (tree : List PolyNode) (p : Pt) : Prop := ∃ n ∈ tree, NodeRegion p n

/-- A node of a result tree, at any level. -/
inductive PolyNode.Below : PolyNode → PolyNode → Prop where
  | self (n : PolyNode) : PolyNode.Below n n
  | child {n m k : PolyNode} : m ∈ n.childs → PolyNode.Below m k → PolyNode.Below n k

/-- How many of the outlines contain `p`. -/
def insideCount (paths : List (List Pt)) (p : Pt) : ℕ := paths.countP (fun s => decide (Inside s p))

/-- A result tree is right at the point `p`: no contour goes through it, the outer outlines do not overlap there, and the
tree's region contains it iff it should. -/
structure RightAt (tree : List PolyNode) (p : Pt) (want : Prop) : Prop where
  off : ∀ n ∈ tree, ∀ k, n.Below k → ¬ OnOutline k.contour p
  apart : insideCount (tree.map PolyNode.contour) p ≤ 1
  region : TreeRegion tree p ↔ want

/-- The contract of an exact boolean engine: pyclipper's `Execute2` with its default fill rule, even-odd, is right at every
point that is not on one of the given outlines. -/
structure ClipperOK (eng : Clipper) : Prop where
  union : ∀ subjects clips tree, eng.union subjects clips = .ok tree →
    ∀ p, (∀ s ∈ subjects ++ clips, ¬ OnOutline s p) →
      RightAt tree p (insideCount subjects p % 2 = 1 ∨ insideCount clips p % 2 = 1)
  difference : ∀ subjects clips tree, eng.difference subjects clips = .ok tree →
    ∀ p, (∀ s ∈ subjects ++ clips, ¬ OnOutline s p) →
      RightAt tree p (insideCount subjects p % 2 = 1 ∧ ¬ insideCount clips p % 2 = 1)

/-- Every point of the outline is farther than `r` from `p`. -/
def FarFrom (r : ℚ) (path : List Pt) (p : Pt) : Prop := ∀ q, OnOutline path q → r ^ 2 < sqDist p q

/-- As `RightAt`, and all contours of the tree are farther than `r` from `p`. -/
structure RightNear (r : ℚ) (tree : List PolyNode) (p : Pt) (want : Prop) : Prop where
  off : ∀ n ∈ tree, ∀ k, n.Below k → FarFrom r k.contour p
  apart : insideCount (tree.map PolyNode.contour) p ≤ 1
  region : TreeRegion tree p ↔ want

/-- The contract of a boolean engine that moves outlines by up to `δ` (pyclipper rounds all coordinates to multiples of
2⁻³¹), for outlines of the kind `G`: its results are right at every point farther than `δ` from the given outlines, a point
farther than `r + δ` from the given outlines is farther than `r` from the outlines of the result, and united outlines are
again of the kind `G`. -/
structure ClipperNearOn (G : List Pt → Prop) (δ : ℚ) (eng : Clipper) : Prop where
  nonneg : 0 ≤ δ
  kind : ∀ subjects clips tree, (∀ s ∈ subjects ++ clips, G s) → eng.union subjects clips = .ok tree →
    ∀ n ∈ tree, ∀ q, ClosedAs n.contour q → G q
  union : ∀ subjects clips tree, (∀ s ∈ subjects ++ clips, G s) → eng.union subjects clips = .ok tree →
    ∀ r, 0 ≤ r → ∀ p, (∀ s ∈ subjects ++ clips, FarFrom (r + δ) s p) →
      RightNear r tree p (insideCount subjects p % 2 = 1 ∨ insideCount clips p % 2 = 1)
  difference : ∀ subjects clips tree, (∀ s ∈ subjects ++ clips, G s) → eng.difference subjects clips = .ok tree →
    ∀ r, 0 ≤ r → ∀ p, (∀ s ∈ subjects ++ clips, FarFrom (r + δ) s p) →
      RightNear r tree p (insideCount subjects p % 2 = 1 ∧ ¬ insideCount clips p % 2 = 1)

/-- The same for all outlines. -/
def ClipperNear (δ : ℚ) (eng : Clipper) : Prop := ClipperNearOn (fun _ => True) δ eng

/-- All outlines of the face are of the kind `G`. -/
def PathFace.All (G : List Pt → Prop) (f : PathFace) : Prop := G f.outer ∧ ∀ i ∈ f.inners, G i

/-- Outlines of the faces at depth `d` or deeper. -/
def outersAt (faces : List PathFace) (d : ℚ) : List (List Pt) :=
  (faces.filter (fun f => decide (f.depth ≤ d))).map PathFace.outer

/-- Holes of the faces at depth `d` or deeper. -/
def holesAt (faces : List PathFace) (d : ℚ) : List (List Pt) :=
  ((faces.filter (fun f => decide (f.depth ≤ d))).map PathFace.inners).flatten

/-- Outlines of the avoid areas that reach depth `d`. -/
def avoidAt (avoids : List PathFace) (d : ℚ) : List (List Pt) :=
  (avoids.filter (fun f => decide (d ≤ f.depth))).map PathFace.outer

/-- What is to be cleared at depth `d`: the outlines of all faces at depth `d` or deeper, without their holes and
without the outlines of the avoid areas that reach depth `d`. -/
def Wanted (opAreas avoidAreas : List PathFace) (d : ℚ) (p : Pt) : Prop :=
  (∃ s ∈ outersAt opAreas d, Inside s p) ∧ (∀ s ∈ holesAt opAreas d, ¬ Inside s p) ∧
    ∀ s ∈ avoidAt avoidAreas d, ¬ Inside s p

/-- `p` is not on an island: when the holes and the avoid outlines of depth `d` are cut away from the united outlines, no outline
inside a hole of the result is around `p`. -/
def NoIslandAt (eng : Clipper) (opAreas avoidAreas : List PathFace) (d : ℚ) (p : Pt) : Prop :=
  ∀ outers united subjects clips tree, outers.Perm (outersAt opAreas d) → eng.union outers [] = .ok united →
    List.Forall₂ (fun n s => ClosedAs n.contour s) united subjects → clips.Perm (holesAt opAreas d ++ avoidAt avoidAreas d) →
    eng.difference subjects clips = .ok tree → ∀ n ∈ tree, ∀ v ∈ n.childs, ∀ i ∈ v.childs, ¬ Inside i.contour p

/-- The point is farther than `r` from all of the outlines involved at depth `d`. -/
def FarOutlines (r : ℚ) (opAreas avoidAreas : List PathFace) (d : ℚ) (p : Pt) : Prop :=
  (∀ s ∈ outersAt opAreas d, FarFrom r s p) ∧ ∀ s ∈ holesAt opAreas d ++ avoidAt avoidAreas d, FarFrom r s p

end CQ
