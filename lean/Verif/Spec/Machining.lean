import Verif.Spec.History

/-!
# Specification: feeds, homing, and the start of an operation
-/

namespace CQ

/-- The first feed move of the list, if there is any, carries a feed. -/
def FeedsSet : List Motion → Prop
  | [] => True
  | c :: cs => if c.kind.mot = .rapid then FeedsSet cs else c.feed ≠ none

/-- All feed moves of the list carry a feed. -/
def FeedsGiven (cs : List Motion) : Prop := ∀ c ∈ cs, c.kind.mot ≠ .rapid → c.feed ≠ none

/-- Whenever the machine homes and its height is known, it is at least at height `safe`. -/
def HomesHigh (safe : ℚ) (evs : List Event) : Prop := ∀ e ∈ evs, e.act = .home → ∀ z, e.st.pos.z = some z → safe ≤ z

/-- The moves end at height `safe` or higher (as printed). -/
def EndsHigh (safe : ℚ) (cs : List Motion) : Prop := ∀ c, cs.getLast? = some c → ∃ z, c.fin.z = some z ∧ safe ≤ rnd 3 z

/-- The moves begin with a vertical rapid to height `z`, whatever the position, followed by a rapid at that height to a place
given by both its coordinates. -/
def Opening (z : ℚ) (cs : List Motion) : Prop :=
  ∃ c1 c2 rest x y, cs = c1 :: c2 :: rest ∧ c1.kind.mot = .rapid ∧ c1.fin = ⟨none, none, some z⟩ ∧
    c2.kind.mot = .rapid ∧ c2.fin = ⟨some x, some y, some z⟩

/-- A rapid of a run: it ends at one of the (printed) heights `rh`, `sh` or 0, and if it goes sideways it does so at the height
`rh` or `sh`, which the machine had before and keeps. -/
def RapidFree (rh sh : ℚ) (e : Event) : Prop :=
  ∀ tgt ctr, e.act = .move .rapid tgt ctr →
    (tgt.z = some (rnd 3 rh) ∨ tgt.z = some (rnd 3 sh) ∨ tgt.z = some 0) ∧
    (tgt.x ≠ e.st.pos.x ∨ tgt.y ≠ e.st.pos.y →
      tgt.z = e.st.pos.z ∧ (tgt.z = some (rnd 3 rh) ∨ tgt.z = some (rnd 3 sh)))

/-- No move of the run ends below `lo`. -/
def StaysAbove (lo : ℚ) (evs : List Event) : Prop :=
  ∀ e ∈ evs, ∀ k tgt ctr, e.act = .move k tgt ctr → ∃ z, tgt.z = some z ∧ lo ≤ z

/-- All moves end at known heights not below `lo`. -/
def MovesAbove (lo : ℚ) (cs : List Motion) : Prop := ∀ c ∈ cs, ∃ z, c.fin.z = some z ∧ lo ≤ z

/-- The job differs from `j0` at most in the tool settings (number, diameter, feed, speed) and the operations. -/
def SameBase (j0 j : Job) : Prop :=
  j = { j0 with toolNumber := j.toolNumber, toolDiameter := j.toolDiameter, feed := j.feed, speed := j.speed
                operations := j.operations }

/-- Jobs reachable from constructor `j0` by operation calls that all meet `P`. -/
inductive ReachWith (P : Request → Prop) (j0 : Job) : Job → Prop where
  | init : ReachWith P j0 j0
  | result {j j' : Job} (r : Request) (h : ReachWith P j0 j) (hp : P r) (hr : RequestOK j r) (e : (j.call r).2 = .ok j') :
      ReachWith P j0 j'
  | receiver {j : Job} (r : Request) (h : ReachWith P j0 j) (hp : P r) (hr : RequestOK j r) : ReachWith P j0 (j.call r).1

/-- Where an operation of a job comes from: a tool change, a speed change, or a call meeting `P`. -/
def Origin (P : Request → Prop) (o : Operation) : Prop :=
  (∃ n s c, o.commands = [.toolChange n s c]) ∨ (∃ s c, o.commands = [.start s c]) ∨
    ∃ r j cs, P r ∧ r.gen j = .ok cs ∧ o.commands = cs.map .motion

end CQ
