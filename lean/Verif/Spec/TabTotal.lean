import Verif.Spec.Tabs

/-! # Specification: tabs that can be cut -/

namespace CQ

/-- No edge of the wire that reaches into the half of the first tab before the end of the wire reaches back into another
one of the `n` tabs of the given width, evenly spaced around the length `L` of the wire. -/
def FirstTabApart (n : ℕ) (width L : ℚ) (w : List Edge) : Prop :=
  ∀ pre e post, w = pre ++ e :: post → n = 1 ∨ (pre.map Edge.length).sum + e.length + width / 2 < L ∨
    (n - 1 : ℚ) * (L / n) + width / 2 ≤ (pre.map Edge.length).sum

end CQ
