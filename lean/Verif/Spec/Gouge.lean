import Verif.Spec.Coverage

/-!
# Specification: the tool and the faces given to a pocket

Contracts of the polygon engine for the outlines of the given faces (of a kind `D`, for example simple polygons) and for what it
makes of them (of the kind `G`), up to a tolerance `δ` and for the precision `k` of the job.
-/

namespace CQ

/-- `p` is in the outline or on it. -/
def InOn (path : List Pt) (p : Pt) : Prop := Inside path p ∨ OnOutline path p

/-- Offsetting an outline keeps the distance.  Shrunk by `s`, the contours are inside the outline up to the tolerance, at a distance
of at least `s - δ` from it.  Grown by `s`, a point closer than `s - δ` to something in or on the outline is in the contours
(even-odd), and the contours are at least that far away. -/
structure OffsetsRight (D : List Pt → Prop) (δ : ℚ) (k : ℕ) (eng : Clipper) : Prop where
  nonneg : 0 ≤ δ
  shrunk_in : ∀ path s raw, D path → 0 ≤ s → eng.offset path (-s) k = .ok raw →
    ∀ q ∈ raw, ∀ x, InOn q x → ∃ y, InOn path y ∧ sqDist x y ≤ δ ^ 2
  shrunk_deep : ∀ path s raw, D path → δ < s → eng.offset path (-s) k = .ok raw →
    ∀ q ∈ raw, ∀ x, InOn q x → ∀ z, sqDist x z < (s - δ) ^ 2 → Inside path z
  grown_covers : ∀ path s raw, D path → δ < s → eng.offset path s k = .ok raw →
    ∀ z, InOn path z → ∀ x, sqDist x z < (s - δ) ^ 2 → insideCount raw x % 2 = 1
  grown_far : ∀ path s raw, D path → δ < s → eng.offset path s k = .ok raw →
    ∀ z, InOn path z → ∀ q ∈ raw, ∀ x, OnOutline q x → (s - δ) ^ 2 ≤ sqDist x z

/-- Boolean operations.  What they make lies, up to the tolerance, in the given outlines; it does not reach into what is cut away
farther than the tolerance.  If something is cut away from the contours of a shrunk outline, what is left, with its holes, lies
in these contours up to the tolerance. -/
structure CutsRight (D G : List Pt → Prop) (δ : ℚ) (k : ℕ) (eng : Clipper) : Prop where
  union_from : ∀ subjects tree, (∀ s ∈ subjects, G s) → eng.union subjects [] = .ok tree →
    ∀ p, (TreeRegion tree p ∨ ∃ n ∈ tree, ∃ k, n.Below k ∧ OnOutline k.contour p) → ∃ s ∈ subjects, ∃ x, InOn s x ∧ sqDist p x ≤ δ ^ 2
  difference_from : ∀ subjects clips tree, (∀ s ∈ subjects ++ clips, G s) → eng.difference subjects clips = .ok tree →
    ∀ p, (TreeRegion tree p ∨ ∃ n ∈ tree, ∃ k, n.Below k ∧ OnOutline k.contour p) → ∃ s ∈ subjects, ∃ x, InOn s x ∧ sqDist p x ≤ δ ^ 2
  difference_out : ∀ subjects clips tree, (∀ s ∈ subjects ++ clips, G s) → eng.difference subjects clips = .ok tree →
    ∀ p, (∀ c ∈ clips, FarFrom δ c p) → insideCount clips p % 2 = 1 →
      ¬ TreeRegion tree p ∧ ∀ n ∈ tree, ∀ k, n.Below k → ¬ OnOutline k.contour p
  within : ∀ path s subjects clips tree, D path → 0 ≤ s → OffsetContours eng (-s) k path subjects → (∀ c ∈ clips, G c) →
    eng.difference subjects clips = .ok tree → ∀ n ∈ tree, ∀ p, InOn n.contour p →
      ∃ q ∈ subjects, ∃ x, InOn q x ∧ sqDist p x ≤ δ ^ 2

/-- The point is in some of the outlines (even-odd) or within `ρ` of one. -/
def Reaches (ρ : ℚ) (paths : List (List Pt)) (p : Pt) : Prop := insideCount paths p % 2 = 1 ∨ ∃ c ∈ paths, ¬ FarFrom ρ c p

/-- No point is in or within `ρ` of two of the groups of outlines. -/
def Separate (ρ : ℚ) (groups : List (List (List Pt))) : Prop :=
  groups.Pairwise (fun a b => ∀ p, ¬ (Reaches ρ a p ∧ Reaches ρ b p))

/-- What is cut away at depth `d`, by hole and by avoid face. -/
def cutAway (areas avoids : List (List PathFace)) (d : ℚ) : List (List (List Pt)) :=
  (holesAt areas.flatten d).map (fun i => [i]) ++ avoids.map (fun g => avoidAt g d)

/-- The outlines of the areas at depth `d` and deeper together enclose nothing but themselves. -/
def NoVoid (eng : Clipper) (areas : List (List PathFace)) (d : ℚ) : Prop :=
  ∀ s tree, s.Perm (outersAt areas.flatten d) → eng.union s [] = .ok tree → ∀ n ∈ tree, n.childs = []

/-- The holes of each face, grown by `o`, do not overlap. -/
def HolesApart (eng : Clipper) (δ o : ℚ) (precision : ℕ) (faces : List PathFace) : Prop :=
  ∀ f ∈ faces, ∀ holes, List.Forall₂ (OffsetContours eng o precision) f.inners holes → Separate (4 * δ) holes

/-- A tool with its centre over `x`, working at depth `d`, is in the given faces: its centre is (up to `ε`) in the outline of a face
that is at least as deep, the disc of radius `r` around it is inside that outline, every point of the holes of that face is at
least `r'` away, and every point of the avoid faces that reach that depth at least `r''`. -/
def ToolIn (faces avoids : List PathFace) (ε r r' r'' d : ℚ) (x : Pt) : Prop :=
  (∃ f ∈ faces, f.depth ≤ d ∧ (∃ y, InOn f.outer y ∧ sqDist x y ≤ ε ^ 2) ∧ (0 < r → ∀ z, sqDist x z < r ^ 2 → Inside f.outer z) ∧
    (0 < r' → ∀ h ∈ f.inners, ∀ z, InOn h z → r' ^ 2 ≤ sqDist x z)) ∧
  (0 < r'' → ∀ a ∈ avoids, d ≤ a.depth → ∀ z, InOn a.outer z → (∀ i ∈ a.inners, ¬ Inside i z) → r'' ^ 2 ≤ sqDist x z)

end CQ
