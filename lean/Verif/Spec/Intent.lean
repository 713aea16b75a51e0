import Verif.Spec.GCode
import Verif.Spec.Words
import Verif.Model.Command

/-!
# Specification: what each command is meant to do

The intended effect of a command object on the machine of `Verif/Spec/GCode.lean`, described directly on machine
states (no text involved).  Coordinates are absolute and rounded to three decimals.
-/

namespace CQ

/-- Kind of machine motion of a command class. -/
def MKind.mot : MKind → Mot
  | .rapid | .plungeRapid | .retract => .rapid
  | .cut | .plungeCut => .linear
  | .cw => .cw
  | .ccw => .ccw

/-- Is the command an arc? -/
def MKind.isArc : MKind → Bool
  | .cw | .ccw => true
  | _ => false

/-- Position reached: rounded end coordinates where given, unchanged otherwise. -/
def reach (e : AddrVec) (p : Pos) : Pos :=
  ⟨(e.x.map (rnd 3)).or p.x, (e.y.map (rnd 3)).or p.y, (e.z.map (rnd 3)).or p.z⟩

/-- Offset of the arc centre from the arc start on one axis (0 if no centre coordinate is given). -/
def offAxis (c s : Option ℚ) : ℚ :=
  match c with
  | none => 0
  | some c => c - s.getD 0

/-- Rounded offsets from arc start to arc centre. -/
def centreOff (c : Motion) : Pos :=
  if c.kind.isArc then
    ⟨some (rnd 3 (offAxis c.center.x c.start.x)), some (rnd 3 (offAxis c.center.y c.start.y)),
      some (rnd 3 (offAxis c.center.z c.start.z))⟩
  else {}

/-- Machine after taking over the feed of a command. -/
def withFeed (m : Machine) (c : Motion) : Machine :=
  if c.kind.isFeed then { m with feed := (c.feed.map PyNum.value).or m.feed } else m

/-- A motion command moves the machine. -/
def Motion.effect (m : Machine) (c : Motion) : Machine × List Event :=
  let m1 := withFeed m c
  let tgt := reach c.fin m.pos
  ({ m1 with pos := tgt, motion := some c.kind.mot }, [⟨m1, .move c.kind.mot tgt (centreOff c)⟩])

/-- Switch coolant. -/
def setCoolant (m : Machine) : Option Coolant → Machine
  | none => m
  | some .mist => { m with mist := true }
  | some .flood => { m with flood := true }
  | some .off => { m with mist := false, flood := false }

/-- Start sequence: spindle clockwise, speed and coolant as given. -/
def startEffect (m : Machine) (speed : Option PyNum) (coolant : Option Coolant) : Machine :=
  setCoolant { m with spindle := .cw, speed := (speed.map PyNum.value).or m.speed } coolant

/-- Stop sequence: spindle off, coolant off if configured. -/
def stopEffect (m : Machine) (coolant : Option Coolant) : Machine :=
  match coolant with
  | none => { m with spindle := .off }
  | some _ => { m with spindle := .off, mist := false, flood := false }

/-- The machine's modal state after a safety block. -/
def safeModal (m : Machine) : Machine :=
  { m with
    absDist := true, offset := 1, planner := .continuous, plane := .xy, feedMode := .perMinute
    lenOff := none, radComp := .off, motion := none, metric := true }

/-- Safety block: defined modal state, then homing. -/
def safetyEffect (m : Machine) : Machine × List Event :=
  let m1 := safeModal m
  ({ m1 with pos := {} }, [⟨m1, .home⟩])

/-- Tool change: stop, home, optional pause, change to tool `n` with length offset `n`, start. -/
def toolChangeEffect (m : Machine) (n : ℚ) (speed : Option PyNum) (coolant : Option Coolant) :
    Machine × List Event :=
  let m1 := stopEffect m coolant
  let m2 : Machine := { m1 with pos := {} }
  let m3 : Machine := { m2 with nextTool := some n }
  let m4 : Machine := { m3 with tool := some n, spindle := .off, lenOff := some n }
  (startEffect m4 speed coolant, [⟨m1, .home⟩, ⟨m2, .pause⟩, ⟨m3, .toolChange n⟩])

/-- Effect of a command. -/
def Command.effect (m : Machine) : Command → Machine × List Event
  | .motion c => c.effect m
  | .start s c => (startEffect m s c, [])
  | .stop c => (stopEffect m c, [])
  | .safety => safetyEffect m
  | .toolChange n s c => toolChangeEffect m ((n.map PyNum.value).getD 0) s c

/-- Effect of a command list. -/
def effects (m : Machine) : List Command → Machine × List Event
  | [] => (m, [])
  | c :: cs =>
      let r := c.effect m
      let r2 := effects r.1 cs
      (r2.1, r.2 ++ r2.2)

/-! ### which commands can be expressed as text -/

/-- A number whose text reads back (every int; floats by C04). -/
def NumOK (n : PyNum) : Prop := readDec n.str = some n.value

/-- All known axes are doubles. -/
def DoubleVec (e : AddrVec) : Prop :=
  (∀ q, e.x = some q → DoubleLike q) ∧ (∀ q, e.y = some q → DoubleLike q) ∧
    (∀ q, e.z = some q → DoubleLike q)

/-- One axis of an arc: the centre axis is unknown or the start axis is known too and the offset is a double. -/
def ArcAxisOK (c s : Option ℚ) : Prop :=
  ∀ v, c = some v → ∃ w, s = some w ∧ DoubleLike (v - w)

/-- A motion command with printable numbers. -/
structure MotionOK (c : Motion) : Prop where
  fin : DoubleVec c.fin
  feed : ∀ f, c.feed = some f → NumOK f
  axes : c.kind.isArc = false → c.fin ≠ {}
  arc : c.kind.isArc = true → ArcAxisOK c.center.x c.start.x ∧ ArcAxisOK c.center.y c.start.y ∧
    ArcAxisOK c.center.z c.start.z

/-- A command with printable numbers. -/
def CommandOK : Command → Prop
  | .motion c => MotionOK c
  | .start s _ => ∀ v, s = some v → NumOK v
  | .stop _ => True
  | .safety => True
  | .toolChange n s _ => (∃ v, n = some v ∧ NumOK v) ∧ ∀ v, s = some v → NumOK v

end CQ
