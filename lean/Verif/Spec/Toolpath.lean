import Verif.Spec.Plane
import Verif.Spec.Intent

/-!
# Specification: tool paths

Predicates on lists of motion commands, stated on their start and end positions.
-/

namespace CQ

/-- Every move starts where the previous one ended; the first starts at `p`. -/
def Connected : AddrVec → List Motion → Prop
  | _, [] => True
  | p, c :: cs => c.start = p ∧ Connected c.fin cs

/-- Position after a list of moves. -/
def finalPos (p : AddrVec) : List Motion → AddrVec
  | [] => p
  | c :: cs => finalPos c.fin cs

/-- The move changes X or Y (an unknown start coordinate counts as changed when a target is given). -/
def Lateral (c : Motion) : Prop := c.start.x ≠ c.fin.x ∨ c.start.y ≠ c.fin.y

/-- A rapid that moves sideways does so at height `rh` for its whole length; any other rapid is vertical; no rapid
goes below `lo`. -/
def SafeRapid (rh lo : ℚ) (c : Motion) : Prop :=
  c.kind.mot = .rapid →
    (Lateral c → c.start.z = some rh ∧ c.fin.z = some rh) ∧ ∃ z, c.fin.z = some z ∧ lo ≤ z

/-- A point of the plane at a depth. -/
def Pt.at (p : Pt) (d : ℚ) : AddrVec := ⟨some p.x, some p.y, some d⟩

/-- The moves are straight cuts at depth `d` from point to point along the polyline `p, ps…`. -/
def CutsAlong (d : ℚ) (feed : PyNum) : Pt → List Pt → List Motion → Prop
  | _, [], [] => True
  | p, q :: qs, c :: cs =>
      (c.kind = .cut ∧ c.start = p.at d ∧ c.fin = q.at d ∧ c.feed = some feed) ∧ CutsAlong d feed q qs cs
  | _, _, _ => False

/-- A straight cut at depth `d` that passes over the point `q`. -/
def CutsThrough (d : ℚ) (q : Pt) (c : Motion) : Prop :=
  c.kind = .cut ∧ ∃ a b : Pt, c.start = a.at d ∧ c.fin = b.at d ∧ OnSegment a b q

end CQ
