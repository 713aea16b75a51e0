import Verif.Spec.Gouge

/-!
# Specification: where the tool fits

More contracts of the polygon engine, for given outlines of a kind `D` and what it makes of them, of the kind `G`, up to a
tolerance `δ`.
-/

namespace CQ

/-- Offsetting moves outlines by no more than the distance.  Shrunk by `s`, what is inside the outline and farther than `s + δ` from it is
in the contours, and the contours are within `s + δ` of the outline.  Grown by `s`, the contours contain (even-odd) only
what is within `s + δ` of something in or on the outline, and so do they themselves. -/
structure OffsetsTight (D : List Pt → Prop) (δ : ℚ) (k : ℕ) (eng : Clipper) : Prop where
  shrunk_keeps : ∀ path s raw, D path → 0 ≤ s → eng.offset path (-s) k = .ok raw →
    ∀ p, Inside path p → FarFrom (s + δ) path p → insideCount raw p % 2 = 1
  shrunk_near : ∀ path s raw, D path → 0 ≤ s → eng.offset path (-s) k = .ok raw →
    ∀ q ∈ raw, ∀ x, OnOutline q x → ¬ FarFrom (s + δ) path x
  grown_only : ∀ path s raw, D path → 0 ≤ s → eng.offset path s k = .ok raw →
    ∀ p, insideCount raw p % 2 = 1 → ∃ z, InOn path z ∧ sqDist p z ≤ (s + δ) ^ 2
  grown_near : ∀ path s raw, D path → 0 ≤ s → eng.offset path s k = .ok raw →
    ∀ q ∈ raw, ∀ x, OnOutline q x → ∃ z, InOn path z ∧ sqDist x z ≤ (s + δ) ^ 2

/-- In a difference, a hole of an outline lies in the outline (looked at farther than the tolerance from the given outlines). -/
def HolesInside (G : List Pt → Prop) (δ : ℚ) (eng : Clipper) : Prop :=
  ∀ subjects clips tree, (∀ s ∈ subjects ++ clips, G s) → eng.difference subjects clips = .ok tree →
    ∀ n ∈ tree, ∀ c ∈ n.childs, ∀ p, (∀ s ∈ subjects ++ clips, FarFrom δ s p) → Inside c.contour p → Inside n.contour p

/-- When the holes of the face, offset by `o`, are cut out of its outline, offset by `s`, no outline inside a hole of the result
is around `p`. -/
def NoIslandIn (eng : Clipper) (s o : ℚ) (precision : ℕ) (f : PathFace) (p : Pt) : Prop :=
  ∀ outlines holes tree, OffsetContours eng s precision f.outer outlines →
    List.Forall₂ (OffsetContours eng o precision) f.inners holes → eng.difference outlines holes.flatten = .ok tree →
    ∀ n ∈ tree, ∀ v ∈ n.childs, ∀ i ∈ v.childs, ¬ Inside i.contour p

/-- The avoid face has no holes; or its holes lie in its outline and are not grown (offset `o`), and cutting them out of its outline, grown
by `s`, leaves no void around `p`. -/
def NoVoidIn (eng : Clipper) (s o : ℚ) (precision : ℕ) (f : PathFace) (p : Pt) : Prop :=
  f.inners = [] ∨ (o ≤ 0 ∧ (∀ i ∈ f.inners, ∀ z, InOn i z → InOn f.outer z) ∧
    ∀ outlines holes tree, OffsetContours eng s precision f.outer outlines →
      List.Forall₂ (OffsetContours eng o precision) f.inners holes → eng.difference outlines holes.flatten = .ok tree →
      ∀ n ∈ tree, ∀ v ∈ n.childs, ¬ Inside v.contour p)

/-- A tool with its centre over `x`, working at depth `d`, fits: `x` is in exactly one of the faces that are at least as deep and
farther than `r` from their outlines, the holes of these faces are farther than `r'` away, and the avoid faces that reach that depth
farther than `r''`. -/
structure Fits (faces avoids : List PathFace) (r r' r'' d : ℚ) (x : Pt) : Prop where
  one : insideCount (outersAt faces d) x = 1
  far : ∀ f ∈ faces, f.depth ≤ d → FarFrom r f.outer x
  holes : ∀ f ∈ faces, f.depth ≤ d → ∀ i ∈ f.inners, ∀ z, InOn i z → r' ^ 2 < sqDist x z
  avoids : ∀ a ∈ avoids, d ≤ a.depth → ∀ z, InOn a.outer z → r'' ^ 2 < sqDist x z

end CQ
