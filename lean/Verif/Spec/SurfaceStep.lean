import Verif.Spec.Surface
import Verif.Spec.EndToEnd

/-!
# Specification: how much a straight cut takes at once
-/

namespace CQ

/-- The points `a` and `b` lie over one another, `a` at most `s` higher than `b`. -/
def OverBy (s : ℚ) (a b : Vec) : Prop := a.x = b.x ∧ a.y = b.y ∧ a.z ≤ b.z + s

/-- Every feed move is straight, from `a` to `b`, and does not go deeper than `s` below the height `top`, or a feed move before it ran
along the same line at most `s` above it. -/
def TakesAtMost (top s : ℚ) (cs : List Motion) : Prop :=
  ∀ pre c post, cs = pre ++ c :: post → c.kind.mot ≠ .rapid →
    c.kind.mot = .linear ∧ ∃ a b : Vec, c.start = .fromVec a ∧ c.fin = .fromVec b ∧
      ((top ≤ a.z + s ∧ top ≤ b.z + s) ∨
        ∃ c' ∈ pre, c'.kind.mot = .linear ∧ ∃ a' b' : Vec, c'.start = .fromVec a' ∧ c'.fin = .fromVec b' ∧ OverBy s a' a ∧ OverBy s b' b)

/-- The machine feeds straight from `a` to `b`. -/
def FeedsStraight (a b : Vec) (e : Event) : Prop := e.st.pos = a.pos ∧ ∃ ctr, e.act = .move .linear b.pos ctr

/-- Whenever the machine feeds, it feeds straight and does not go deeper than `s` below the height `top`, or it has before fed along the
same line at most `s` above. -/
def FeedsAtMost (top s : ℚ) (evs : List Event) : Prop :=
  ∀ pre e post, evs = pre ++ e :: post → isFeedMove e = true →
    ∃ a b : Vec, FeedsStraight a b e ∧
      ((top ≤ a.z + s ∧ top ≤ b.z + s) ∨ ∃ e' ∈ pre, ∃ a' b' : Vec, FeedsStraight a' b' e' ∧ OverBy s a' a ∧ OverBy s b' b)

end CQ
