import Verif.Spec.Intent
import Verif.Model.Visualize

/-!
# Specification: what a drawing of moves shows
-/

namespace CQ

/-- The axis is where the command says, or at `d` where it does not say. -/
def AxisIs (given : Option ℚ) (d v : ℚ) : Prop := (∀ q, given = some q → v = q) ∧ (given = none → v = d)

/-- `a` and `b` are the two ends of a move: unknown start coordinates count as 0, unknown end coordinates stay as they are. -/
def Ends (c : Motion) (a b : Vec) : Prop :=
  (AxisIs c.start.x 0 a.x ∧ AxisIs c.start.y 0 a.y ∧ AxisIs c.start.z 0 a.z) ∧
    AxisIs c.fin.x a.x b.x ∧ AxisIs c.fin.y a.y b.y ∧ AxisIs c.fin.z a.z b.z

/-- The drawing `ds` shows the moves in order, in world coordinates: an edge from start to end for each straight move whose ends
differ (for `eq`), an arc through the middle point for each arc, and nothing else. -/
inductive Shown (eq : Vec → Vec → Bool) (top : Frame) : List Motion → List Drawn → Prop where
  | nil : Shown eq top [] []
  | stay {c cs ds a b} (hk : c.kind.isArc = false) (h : Ends c a b) (he : eq a b = true) (hs : Shown eq top cs ds) :
      Shown eq top (c :: cs) ds
  | line {c cs ds a b} (hk : c.kind.isArc = false) (h : Ends c a b) (he : eq a b = false) (hs : Shown eq top cs ds) :
      Shown eq top (c :: cs) (.line (top.toWorld a) (top.toWorld b) :: ds)
  | arc {c cs ds a m b} (hk : c.kind.isArc = true) (h : Ends c a b) (hm : c.mid = AddrVec.fromVec m)
      (hs : Shown eq top cs ds) : Shown eq top (c :: cs) (.arc (top.toWorld a) (top.toWorld m) (top.toWorld b) :: ds)

/-- The kernel draws the move `c`, if it is an arc: start, middle and end are known, and the kernel takes them. -/
def ArcDrawn (k : DrawKernel) (c : Motion) : Prop :=
  c.kind.isArc = true → ∃ a m b, c.start = AddrVec.fromVec a ∧ c.mid = AddrVec.fromVec m ∧ c.fin = AddrVec.fromVec b ∧
    k.asVector c.start = some a ∧ k.arc a m b = true

/-- The two ends of an arc and its middle are known. -/
def ArcKnown (c : Motion) : Prop :=
  c.kind.isArc = true → ∃ a m b, c.start = AddrVec.fromVec a ∧ c.mid = AddrVec.fromVec m ∧ c.fin = AddrVec.fromVec b

/-- Points that the kernel tells apart can be joined by a line. -/
def LinesMade (k : DrawKernel) : Prop := ∀ a b, k.eq a b = false → k.line a b = true

/-- The kernel does not take an `AddressVector` for a vector (cadquery raises `TypeError`). -/
def NoAddress (k : DrawKernel) : Prop := ∀ a, k.asVector a = none

end CQ
