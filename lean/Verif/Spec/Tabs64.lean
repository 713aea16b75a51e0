import Verif.Spec.TabTotal

/-! # Specification: tabs around a wire in floating point -/

namespace CQ

/-- The value differs from the length `L` by at most `k` units of rounding. -/
def NearLength (k : ℕ) (L x : ℚ) : Prop := |x - L| ≤ k * 2 ^ (-52 : ℤ) * L

/-- The ends of the `n` tabs of the given width, evenly spaced around the length `L` of the wire, are more than `δ` away
from every corner of the wire and from each other, and no edge is shorter than that. -/
structure EndsApart (δ : ℚ) (n : ℕ) (width L : ℚ) (w : List Edge) : Prop where
  corners : ∀ pre post, w = pre ++ post → ∀ k : ℕ, k ≤ n → δ < |(pre.map Edge.length).sum - (k * (L / n) - width / 2)| ∧
    δ < |(pre.map Edge.length).sum - (k * (L / n) + width / 2)|
  tabs : δ < width
  between : width + δ < L / n
  edges : ∀ e ∈ w, δ < e.length

/-- The position `s` is more than `ε` away from the ends of the zones. -/
def AwayFromEnds (ε : ℚ) (n : ℕ) (width L s : ℚ) : Prop :=
  ∀ k : ℕ, k ≤ n → ε < |s - (k * (L / n) - width / 2)| ∧ ε < |s - (k * (L / n) + width / 2)|

/-- The transitions mark `n` zones of width `w`, evenly spaced around the wire of length `L` from its start, up to `ε` at the ends of
the zones. -/
def NearMarks (ε : ℚ) (n : ℕ) (w L : ℚ) (edges : List Edge) (tss : List (List (ℚ × Transition))) : Prop :=
  ∀ pre e post, edges = pre ++ e :: post → ∃ ts, tss[pre.length]? = some ts ∧ ∀ x, 0 ≤ x → x < 1 →
    AwayFromEnds ε n w L ((pre.map Edge.length).sum + x * e.length) →
    (MarkedTab ts x ↔ InZone n w L ((pre.map Edge.length).sum + x * e.length))

/-- How far rounding moves the ends of the tabs on a wire of `m` edges, as a part of its length, if the length of the wire
and the sum of the lengths of its edges are known up to `k` units of rounding. -/
def tabError (m k : ℕ) : ℚ := 24 * (2 * k + 4 * m + 12) * 2 ^ (-52 : ℤ)

end CQ
