import Verif.Spec.Scaling
import Verif.Spec.Gouge
import Verif.Spec.Reach

/-!
# Specification: the polygon engine on integers

The contracts of the pocket theorems, for the engine as it is called: with integer points and integer distances, in units of
2⁻³¹ mm (the resolution that `scale_to_clipper` gives it), for which nothing has to be rounded.
-/

namespace CQ

/-- An integer path, in mm. -/
def inMM (path : List IPt) : List Pt := path.map IPt.mm

/-- An integer distance, in mm. -/
def distMM (n : ℤ) : ℚ := n / 2147483648

/-- The resolution of the integers, in mm. -/
def resolution : ℚ := 1 / 2147483648

/-- Offsetting an integer path of the kind `K` by an integer distance with the tolerance `t` is right up to `δ` (as `OffsetsRight` and
`OffsetsTight`). -/
structure IntOffsets (K : List IPt → Prop) (δ : ℚ) (t : ℤ) (e : IntClipper) : Prop where
  nonneg : 0 ≤ δ
  shrunk_in : ∀ path s raw, K path → 0 ≤ s → e.offset path (-s) t = .ok raw →
    ∀ q ∈ raw, ∀ x, InOn (inMM q) x → ∃ y, InOn (inMM path) y ∧ sqDist x y ≤ δ ^ 2
  shrunk_deep : ∀ path s raw, K path → δ < distMM s → e.offset path (-s) t = .ok raw →
    ∀ q ∈ raw, ∀ x, InOn (inMM q) x → ∀ z, sqDist x z < (distMM s - δ) ^ 2 → Inside (inMM path) z ∧ ¬ OnOutline (inMM path) z
  shrunk_keeps : ∀ path s raw, K path → 0 ≤ s → e.offset path (-s) t = .ok raw →
    ∀ p, Inside (inMM path) p → FarFrom (distMM s + δ) (inMM path) p → insideCount (raw.map inMM) p % 2 = 1
  shrunk_near : ∀ path s raw, K path → 0 ≤ s → e.offset path (-s) t = .ok raw →
    ∀ q ∈ raw, ∀ x, OnOutline (inMM q) x → ¬ FarFrom (distMM s + δ) (inMM path) x
  grown_covers : ∀ path s raw, K path → δ < distMM s → e.offset path s t = .ok raw →
    ∀ z, InOn (inMM path) z → ∀ x, sqDist x z < (distMM s - δ) ^ 2 → insideCount (raw.map inMM) x % 2 = 1
  grown_far : ∀ path s raw, K path → δ < distMM s → e.offset path s t = .ok raw →
    ∀ z, InOn (inMM path) z → ∀ q ∈ raw, ∀ x, OnOutline (inMM q) x → (distMM s - δ) ^ 2 ≤ sqDist x z
  grown_only : ∀ path s raw, K path → 0 ≤ s → e.offset path s t = .ok raw →
    ∀ p, insideCount (raw.map inMM) p % 2 = 1 → ∃ z, InOn (inMM path) z ∧ sqDist p z ≤ (distMM s + δ) ^ 2
  grown_near : ∀ path s raw, K path → 0 ≤ s → e.offset path s t = .ok raw →
    ∀ q ∈ raw, ∀ x, OnOutline (inMM q) x → ∃ z, InOn (inMM path) z ∧ sqDist x z ≤ (distMM s + δ) ^ 2

/-- What the engine makes is of the kind `K`: no two neighbouring points are equal, and it stays of that kind when it is closed. -/
structure IntKind (K : List IPt → Prop) (e : IntClipper) : Prop where
  clean : ∀ p, K p → ∀ s ∈ segments (inMM p), s.1 ≠ s.2
  closed : ∀ p q, K p → ClosedAs (inMM p) (inMM q) → K q
  offset : ∀ path o t raw, e.offset path o t = .ok raw → ∀ q ∈ raw, K q
  union : ∀ ss cs tree, (∀ s ∈ ss ++ cs, K s) → e.union ss cs = .ok tree → ∀ n ∈ INode.mms tree, ∃ q, n.contour = inMM q ∧ K q
  difference : ∀ ss cs tree, e.difference ss cs = .ok tree → ∀ n ∈ INode.mms tree, ∀ k, n.Below k → ∃ q, k.contour = inMM q ∧ K q

/-- Its boolean operations on paths of that kind are right up to `δ` (as `ClipperNearOn`, `CutsRight`, `StaysInside` and `HolesInside`;
`K₀` is the kind of the given outlines). -/
structure IntCuts (K₀ K : List IPt → Prop) (δ : ℚ) (t : ℤ) (e : IntClipper) : Prop where
  union : ∀ ss cs tree, (∀ s ∈ ss ++ cs, K s) → e.union ss cs = .ok tree →
    ∀ r, 0 ≤ r → ∀ p, (∀ s ∈ ss ++ cs, FarFrom (r + δ) (inMM s) p) →
      RightNear r (INode.mms tree) p (insideCount (ss.map inMM) p % 2 = 1 ∨ insideCount (cs.map inMM) p % 2 = 1)
  difference : ∀ ss cs tree, (∀ s ∈ ss ++ cs, K s) → e.difference ss cs = .ok tree →
    ∀ r, 0 ≤ r → ∀ p, (∀ s ∈ ss ++ cs, FarFrom (r + δ) (inMM s) p) →
      RightNear r (INode.mms tree) p (insideCount (ss.map inMM) p % 2 = 1 ∧ ¬ insideCount (cs.map inMM) p % 2 = 1)
  union_from : ∀ ss tree, (∀ s ∈ ss, K s) → e.union ss [] = .ok tree →
    ∀ p, (TreeRegion (INode.mms tree) p ∨ ∃ n ∈ INode.mms tree, ∃ k, n.Below k ∧ OnOutline k.contour p) →
      ∃ s ∈ ss, ∃ x, InOn (inMM s) x ∧ sqDist p x ≤ δ ^ 2
  difference_from : ∀ ss cs tree, (∀ s ∈ ss ++ cs, K s) → e.difference ss cs = .ok tree →
    ∀ p, (TreeRegion (INode.mms tree) p ∨ ∃ n ∈ INode.mms tree, ∃ k, n.Below k ∧ OnOutline k.contour p) →
      ∃ s ∈ ss, ∃ x, InOn (inMM s) x ∧ sqDist p x ≤ δ ^ 2
  difference_out : ∀ ss cs tree, (∀ s ∈ ss ++ cs, K s) → e.difference ss cs = .ok tree →
    ∀ p, (∀ c ∈ cs, FarFrom δ (inMM c) p) → insideCount (cs.map inMM) p % 2 = 1 →
      ¬ TreeRegion (INode.mms tree) p ∧ ∀ n ∈ INode.mms tree, ∀ k, n.Below k → ¬ OnOutline k.contour p
  within : ∀ path s raw ss cs tree, K₀ path → 0 ≤ s → e.offset path (-s) t = .ok raw →
    List.Forall₂ (fun c q => ClosedAs (inMM c) (inMM q)) (raw.filter (fun q => decide (q ≠ []))) ss → (∀ c ∈ cs, K c) →
    e.difference ss cs = .ok tree → ∀ n ∈ INode.mms tree, ∀ p, InOn n.contour p → ∃ q ∈ ss, ∃ x, InOn (inMM q) x ∧ sqDist p x ≤ δ ^ 2
  siblings : ∀ ss cs tree, (∀ s ∈ ss ++ cs, K s) → e.difference ss cs = .ok tree →
    ∀ n ∈ INode.mms tree, ∀ p, (∀ c ∈ n.childs, FarFrom δ c.contour p) → insideCount (n.childs.map PolyNode.contour) p ≤ 1
  outside : ∀ ss cs tree, (∀ s ∈ ss ++ cs, K s) → e.difference ss cs = .ok tree →
    ∀ n ∈ INode.mms tree, ∀ p, OnOutline n.contour p → (∀ c ∈ cs, FarFrom δ (inMM c) p) → insideCount (cs.map inMM) p % 2 = 0
  holes : ∀ ss cs tree, (∀ s ∈ ss ++ cs, K s) → e.difference ss cs = .ok tree →
    ∀ n ∈ INode.mms tree, ∀ c ∈ n.childs, ∀ p, (∀ s ∈ ss ++ cs, FarFrom δ (inMM s) p) → Inside c.contour p → Inside n.contour p

/-- All of these: `K₀` is the kind of the given outlines (rounded), `K` that of the outlines that the engine makes.  An outline that the
engine has made is kept in one contour where it is shrunk. -/
structure IntEngine (K₀ K : List IPt → Prop) (δ : ℚ) (t : ℤ) (e : IntClipper) : Prop where
  sub : ∀ p, K p → K₀ p
  kind : IntKind K e
  offsets : IntOffsets K₀ δ t e
  cuts : IntCuts K₀ K δ t e
  one : ∀ path s raw, K path → 0 ≤ s → e.offset path (-s) t = .ok raw →
    ∀ p, Inside (inMM path) p → FarFrom (distMM s + δ) (inMM path) p → insideCount (raw.map inMM) p = 1

/-- An outline that is of the kind `K` once it has been rounded. -/
def Rounded (K : List IPt → Prop) (path : List Pt) : Prop := K (path.map scalePt)

/-- An outline on the grid that is of the kind `K`. -/
def OnInts (K : List IPt → Prop) (path : List Pt) : Prop := ∃ l, path = inMM l ∧ K l

end CQ
