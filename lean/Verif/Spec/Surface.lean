import Verif.Spec.Toolpath
import Verif.Spec.ZigZag

/-!
# Specification: 3D surfacing

Predicates on point lists and moves; they do not mention the operation.
-/

namespace CQ

/-- `m` lies on the segment from `a` to `b`, at the fraction `t`. -/
def AtFraction (a b : Pt) (t : ℚ) (m : Pt) : Prop :=
  0 ≤ t ∧ t ≤ 1 ∧ m = a.lerp b t

/-- The points `ms` lie on the segment from `a` to `b`, going from `a` towards `b`. -/
def AlongSegment (a b : Pt) (ms : List Pt) : Prop :=
  ∃ ts : List ℚ, List.Pairwise (· < ·) ts ∧ List.Forall₂ (AtFraction a b) ts ms

/-- `out` is `seq` with further points inserted: those inserted between two neighbours lie on the straight segment between
them, in order, and neighbouring points of `out` are at most `gap` apart. -/
inductive Refines (gap : ℚ) : List Pt → List Pt → Prop
  | single (p : Pt) : Refines gap [p] [p]
  | cons {p q : Pt} {seq ms out : List Pt} (along : AlongSegment p q ms)
      (near : List.IsChain (fun a b => sqDist a b ≤ gap ^ 2) (p :: (ms ++ [q])))
      (rest : Refines gap (q :: seq) (q :: out)) : Refines gap (p :: q :: seq) (p :: (ms ++ q :: out))

/-- `pieces` are the maximal runs of points of `seq` that are kept. -/
inductive Chopped (keep : Vec → Prop) : List Vec → List (List Vec) → Prop
  | none {gap : List Vec} (h : ∀ p ∈ gap, ¬ keep p) : Chopped keep gap []
  | last {gap piece : List Vec} (h : ∀ p ∈ gap, ¬ keep p) (hne : piece ≠ []) (hk : ∀ p ∈ piece, keep p) :
      Chopped keep (gap ++ piece) [piece]
  | cons {gap piece rest : List Vec} {c : Vec} {pieces : List (List Vec)} (h : ∀ p ∈ gap, ¬ keep p) (hne : piece ≠ [])
      (hk : ∀ p ∈ piece, keep p) (hc : ¬ keep c) (hr : Chopped keep rest pieces) :
      Chopped keep (gap ++ piece ++ c :: rest) (piece :: pieces)

/-- A feed move that ends at the XY position `p` at height `z`. -/
def CutsTo (p : Pt) (z : ℚ) (c : Motion) : Prop := c.kind.mot = .linear ∧ c.fin = p.at z

/-- The height `h` changes by at most `K` per unit of distance. -/
def SlopeUpTo (K : ℚ) (h : Pt → ℚ) : Prop := ∀ (p q : Pt) (ρ : ℚ), 0 ≤ ρ → sqDist p q ≤ ρ ^ 2 → h p ≤ h q + K * ρ

/-- On the whole straight way from `a` to `b` the height is nowhere more than `g` below `h`. -/
def ClearWay (h : Pt → ℚ) (g : ℚ) (a b : Vec) : Prop :=
  ∀ t : ℚ, 0 ≤ t → t ≤ 1 → h ((⟨a.x, a.y⟩ : Pt).lerp ⟨b.x, b.y⟩ t) ≤ a.z + t * (b.z - a.z) + g

/-- A move that rises straight to the rapid height `R`. -/
def Rises (R : ℚ) (c : Motion) : Prop := c.kind.mot = .rapid ∧ c.fin = ⟨c.start.x, c.start.y, some R⟩

/-- A rapid move that stays at the height `R`. -/
def TravelsAt (R : ℚ) (c : Motion) : Prop := c.kind.mot = .rapid ∧ c.start.z = some R ∧ c.fin.z = some R

end CQ
