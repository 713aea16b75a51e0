import Verif.Spec.Feeds

/-! # Specification for C128 and C129: calls and what was done before them -/

namespace CQ

/-- The same job, with other operations so far. -/
def Job.Past (j j' : Job) : Prop := ∃ old, j' = { j with operations := old }

/-- What the call does depends on the settings of the job and not on the operations done so far. -/
structure Forgetful (r : Request) : Prop where
  pre : ∀ (j : Job) (old : List Operation), r.pre { j with operations := old } = r.pre j
  gen : ∀ (j : Job) (old : List Operation), r.gen { j with operations := old } = r.gen j

/-- The call `r` asks at once for what the calls `r1` and then `r2` ask for in turn: with the same tool, accepted if and only if both
of them are, and with motions that are (related by `R` to) those of `r1` followed by those of `r2`. -/
structure SplitsInto (R : List Motion → List Motion → Prop) (r r1 r2 : Request) : Prop where
  tool1 : r1.tool = r.tool
  tool2 : r2.tool = r.tool
  pre : ∀ j : Job, r.pre j = .ok () ↔ r1.pre j = .ok () ∧ r2.pre (j.updateTool r.tool).2 = .ok ()
  made : ∀ (j : Job) cs, r.gen j = .ok cs → ∃ cs1 cs2, r1.gen j = .ok cs1 ∧ r2.gen j = .ok cs2 ∧ R cs (cs1 ++ cs2)
  join : ∀ (j : Job) cs1 cs2, r1.gen j = .ok cs1 → r2.gen j = .ok cs2 → ∃ cs, r.gen j = .ok cs ∧ R cs (cs1 ++ cs2)

/-- The same job but for the tool, its feed and speed, and the operations so far. -/
def Job.SameSetup (j j' : Job) : Prop :=
  ∃ number diameter feed speed old, j' = { j with toolNumber := number, toolDiameter := diameter, feed := feed, speed := speed, operations := old }

/-- Whether the call is refused at the start does not depend on which tool the job has, as long as its diameter is known. -/
def Steady (r : Request) : Prop :=
  ∀ j j' : Job, j.SameSetup j' → j.toolDiameter ≠ none → j'.toolDiameter ≠ none → r.pre j' = r.pre j

/-- A tool given with all its data. -/
def Tool.Complete (t : Tool) : Prop :=
  t.toolDiameter.isSome ∧ t.toolNumber.isSome ∧ t.feed.isSome ∧ t.speed.isSome

end CQ
