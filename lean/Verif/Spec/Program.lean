import Verif.Spec.Intent
import Verif.Model.Fluent

/-!
# Specification: what a whole program is meant to do
-/

namespace CQ

/-- A name that cannot end or break a comment. -/
def SafeName (t : Text) : Prop := ∀ c ∈ t, c ≠ '(' ∧ c ≠ ')' ∧ c ≠ '\n'

/-- All commands of a job in program order. -/
def Job.allCommands (j : Job) : List Command := (j.operations.map Operation.commands).flatten

/-- A job whose numbers can be printed and whose names are harmless. -/
structure JobOK (j : Job) : Prop where
  name : SafeName j.name
  ops : ∀ o ∈ j.operations, SafeName o.jobName ∧ SafeName o.name ∧ ∀ c ∈ o.commands, CommandOK c
  feed : NumOK j.feed
  speed : ∀ v, j.speed = some v → NumOK v

/-- The command list a program stands for: safety block, start, all operations, safety block, stop. -/
def Job.program (j : Job) : List Command :=
  [.safety, .start j.speed j.coolant] ++ j.allCommands ++ [.safety, .stop j.coolant]

/-- The intended run of a program: the effects of its commands, then the program end. -/
def Job.intended (j : Job) (m : Machine) : Machine × List Event :=
  let r := effects m j.program
  ({ r.1 with ended := true }, r.2 ++ [⟨r.1, .stop⟩])

/-- The moves among the events. -/
def isMove (e : Event) : Bool :=
  match e.act with
  | .move _ _ _ => true
  | _ => false

/-- Feed moves (G1, G2, G3). -/
def isFeedMove (e : Event) : Bool :=
  match e.act with
  | .move k _ _ => k != .rapid
  | _ => false

/-- The moves of a command list. -/
def motionsOf : List Command → List Motion
  | [] => []
  | .motion c :: cs => c :: motionsOf cs
  | _ :: cs => motionsOf cs

/-- Everything a command list does besides moving. -/
def otherActs : List Command → List Act
  | [] => []
  | .safety :: cs => .home :: otherActs cs
  | .toolChange n _ _ :: cs => [.home, .pause, .toolChange ((n.map PyNum.value).getD 0)] ++ otherActs cs
  | _ :: cs => otherActs cs

/-- An axis after a move: the given coordinate, rounded, or where it was. -/
def AxisAt (given : Option ℚ) (before after : Option ℚ) : Prop :=
  (∀ v, given = some v → after = some (rnd 3 v)) ∧ (given = none → after = before)

/-- The machine performs a motion command: right kind of motion, absolute rounded end coordinates, and for feed
moves the command's feed is in force. -/
def Performs (e : Event) (c : Motion) : Prop :=
  ∃ tgt ctr, e.act = .move c.kind.mot tgt ctr ∧
    AxisAt c.fin.x e.st.pos.x tgt.x ∧ AxisAt c.fin.y e.st.pos.y tgt.y ∧ AxisAt c.fin.z e.st.pos.z tgt.z ∧
    ctr = centreOff c ∧ (c.kind.isFeed = true → ∀ f, c.feed = some f → e.st.feed = some f.value)

end CQ
