import Verif.Spec.SurfaceStep

/-!
# Specification: how much a profile takes at once
-/

namespace CQ

/-- A straight move that does not move sideways. -/
def StraightDown (c : Motion) : Prop := c.kind.mot = .linear ∧ ¬ Lateral c

/-- After the moves `pre`, the feed move `c` takes at most `s` at once below the height `top`:
it stays within `s` below `top`;
or it goes straight down to at most `s` below a place where a feed move began;
or a feed move of the same kind (straight, or a clockwise or counterclockwise arc about the same axis) ran along the same way at most
`s` above it. -/
def StepOK (top s : ℚ) (pre : List Motion) (c : Motion) : Prop :=
  ∃ b : Vec, c.fin = .fromVec b ∧
    ((top ≤ b.z + s ∧ (StraightDown c ∨ ∃ a : Vec, c.start = .fromVec a ∧ top ≤ a.z + s)) ∨
      (StraightDown c ∧ ∃ c' ∈ pre, c'.kind.mot ≠ .rapid ∧ ∃ a' : Vec, c'.start = .fromVec a' ∧ OverBy s a' b) ∨
      ∃ a : Vec, c.start = .fromVec a ∧ ∃ c' ∈ pre, c'.kind = c.kind ∧ c'.center.x = c.center.x ∧ c'.center.y = c.center.y ∧
        ∃ a' b' : Vec, c'.start = .fromVec a' ∧ c'.fin = .fromVec b' ∧ OverBy s a' a ∧ OverBy s b' b)

/-- Every feed move takes at most `s` at once. -/
def StepsDown (top s : ℚ) (cs : List Motion) : Prop := ∀ pre c post, cs = pre ++ c :: post → c.kind.mot ≠ .rapid → StepOK top s pre c

/-- The machine performs a move of kind `k` from `a` to `b` with the given centre offsets. -/
def MovesFrom (k : Mot) (a b : Vec) (cx cy : Option ℚ) (e : Event) : Prop :=
  e.st.pos = a.pos ∧ ∃ ctr, e.act = .move k b.pos ctr ∧ ctr.x = cx ∧ ctr.y = cy

/-- The machine performs a straight move that does not move sideways, down to `b`. -/
def RunsDown (b : Vec) (e : Event) : Prop := (∃ ctr, e.act = .move .linear b.pos ctr) ∧ e.st.pos.x = some b.x ∧ e.st.pos.y = some b.y

/-- Whenever the machine feeds, it stays within `s` below the height `top`, or goes straight down to at most `s` below a place where it has
begun to feed before, or has before fed along the same way (with the same centre, if it is an arc) at most `s` above. -/
def FeedsDown (top s : ℚ) (evs : List Event) : Prop :=
  ∀ pre e post, evs = pre ++ e :: post → isFeedMove e = true → ∃ k ctr, ∃ b : Vec, e.act = .move k b.pos ctr ∧
    ((top ≤ b.z + s ∧ (RunsDown b e ∨ ∃ a : Vec, e.st.pos = a.pos ∧ top ≤ a.z + s)) ∨
      (RunsDown b e ∧ ∃ e' ∈ pre, isFeedMove e' = true ∧ ∃ a' : Vec, e'.st.pos = a'.pos ∧ OverBy s a' b) ∨
      ∃ a : Vec, e.st.pos = a.pos ∧ ∃ e' ∈ pre, ∃ a' b' : Vec, MovesFrom k a' b' ctr.x ctr.y e' ∧ OverBy s a' a ∧ OverBy s b' b)

/-- Whether the ends of a circular edge coincide (for the kernel's tolerant comparison) does not depend on the height. -/
def SteadyEnds (cad : Cad) (w : List Edge) : Prop :=
  ∀ e ∈ w, (e.geom = .arc ∨ e.geom = .circle) → ∀ dz, cad.veq ((edgeStartPoint e).up dz) ((edgeEndPoint e).up dz) =
    cad.veq (edgeStartPoint e) (edgeEndPoint e)

/-- On all contours of the wire, whether the ends of arcs coincide does not depend on the height. -/
def SteadyContours (cad : Cad) (j : Job) (offset : ℚ) (wire : List Edge) : Prop :=
  ∀ r bases, j.toolRadius = some r → offsetWire cad (wire.map (Edge.toLocal j.top)) (offset * r) = .ok bases →
    ∀ b ∈ bases, SteadyEnds cad b

end CQ
