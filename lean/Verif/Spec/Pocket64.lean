import Verif.Spec.IntEngine
import Verif.Spec.Binary64
import Verif.Spec.PocketAreas

/-! # Specification: pockets in floating point -/

namespace CQ

/-- All coordinates of the path are at most `B`. -/
def InBox (B : ℚ) (path : List Pt) : Prop := ∀ p ∈ path, |p.x| ≤ B ∧ |p.y| ≤ B

/-- The engine does not put points far away: shrinking and the boolean operations stay in the box of the outlines, growing by `s` leaves it
by at most `s` and two units for rounding. -/
structure IntBoxes (t : ℤ) (e : IntClipper) : Prop where
  shrink : ∀ B path s raw, InBox B (inMM path) → 0 ≤ s → e.offset path (-s) t = .ok raw → ∀ q ∈ raw, InBox B (inMM q)
  grow : ∀ B path s raw, InBox B (inMM path) → 0 ≤ s → e.offset path s t = .ok raw →
    ∀ q ∈ raw, InBox (B + distMM s + 2 * resolution) (inMM q)
  union : ∀ B ss tree, (∀ s ∈ ss, InBox B (inMM s)) → e.union ss [] = .ok tree → ∀ n ∈ INode.mms tree, InBox B n.contour
  difference : ∀ B ss cs tree, (∀ s ∈ ss, InBox B (inMM s)) → e.difference ss cs = .ok tree →
    ∀ n ∈ INode.mms tree, InBox B n.contour

/-- The multiple of the tool radius and the distance that an offset argument stands for, if not given `k` tool radii. -/
def offsetParts (k : ℚ) : Option OffsetInput → ℚ × ℚ
  | none => (k, 0)
  | some (.mult m) => (m, 0)
  | some (.multDist m d) => (m, d)

/-- `o` is `m` times the radius `r` plus `d`, up to rounding. -/
def OffsetNear (r : ℚ) (md : ℚ × ℚ) (o : ℚ) : Prop :=
  |o - (md.1 * r + md.2)| ≤ 2 ^ (-51 : ℤ) * (|md.1 * r| + |md.2|) + 2 ^ (-1072 : ℤ) * (1 + |md.1|)

end CQ
