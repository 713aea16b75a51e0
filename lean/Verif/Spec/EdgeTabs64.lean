import Verif.Spec.Tabs64

/-! # Specification: tabs along edges in floating point -/

namespace CQ

/-- The position `x` along an edge of length `l` with `n` tabs, evenly spaced between its ends, is in one of the tabs. -/
def InEdgeTab (n : ℕ) (width l x : ℚ) : Prop :=
  ∃ i : ℕ, i < n ∧ (i + 1) * (l / (n + 1)) - width / 2 ≤ x ∧ x < (i + 1) * (l / (n + 1)) + width / 2

/-- The position `x` is more than `ε` away from the ends of the tabs. -/
def AwayFromTabs (ε : ℚ) (n : ℕ) (width l x : ℚ) : Prop :=
  ∀ i : ℕ, i < n → ε < |x - ((i + 1) * (l / (n + 1)) - width / 2)| ∧ ε < |x - ((i + 1) * (l / (n + 1)) + width / 2)|

/-- Tabs are asked for on edges of this kind. -/
def TabKind (only : Option Geom) (e : Edge) : Prop := only = none ∨ only = some e.geom

/-- The transitions of an edge mark its tabs: as many as the spacing fits into the length (up to `k` units of rounding), and each at its
place, up to the part `c` of the length of the edge at the ends of the tabs; none on an edge of another kind. -/
def NearEdgeMarks (k : ℕ) (c spacing width : ℚ) (only : Option Geom) (e : Edge) (ts : List (ℚ × Transition)) : Prop :=
  (TabKind only e → ∃ n : ℕ, n * spacing ≤ e.length + k * 2 ^ (-52 : ℤ) * e.length ∧
      e.length - k * 2 ^ (-52 : ℤ) * e.length < (n + 1) * spacing ∧
      ∀ x, AwayFromTabs (c * e.length) n width e.length (x * e.length) → (MarkedTab ts x ↔ InEdgeTab n width e.length (x * e.length))) ∧
    (¬ TabKind only e → ∀ x, ¬ MarkedTab ts x)

/-- How far rounding moves the ends of the tabs, as a part of the length of the edge, if the lengths of edges are known up to `k` units of
rounding. -/
def edgeTabError (k : ℕ) : ℚ := (k + 10) * 2 ^ (-52 : ℤ)

end CQ
