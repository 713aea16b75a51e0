import Verif.Py.Err
import Verif.Model.Address
import Verif.Model.Groups

/-!
# Model of `src/cq_cam/command.py`

The visual attributes (`ais_color`, `arrow`) and `to_ais_shape` are not part of this file (see
`Verif/Model/Visualize.lean` for the latter).
-/

namespace CQ

/-- The concrete motion classes of src/cq_cam/command.py:207-372. -/
inductive MKind | rapid | plungeRapid | retract | cut | plungeCut | cw | ccw
deriving DecidableEq, Repr

/-- `modal` class attributes: src/cq_cam/command.py:169, 255, 368, 372. -/
def MKind.code : MKind → PathCode
  | .rapid | .plungeRapid | .retract => .rapid
  | .cut | .plungeCut => .linear
  | .cw => .arcCW
  | .ccw => .arcCCW

/-- Is the class one of the vertical-only ones (src/cq_cam/command.py:211, 224, 296)? -/
def MKind.vertical : MKind → Bool
  | .plungeRapid | .retract | .plungeCut => true
  | _ => false

/-- Is the class a `FeedRateCommand` (src/cq_cam/command.py:239)? -/
def MKind.isFeed : MKind → Bool
  | .cut | .plungeCut | .cw | .ccw => true
  | _ => false

/-- A motion command object: `start`, `end`, `feed` (`None` for rapids), and for arcs `center` and `mid`. -/
structure Motion where
  kind : MKind
  start : AddrVec
  fin : AddrVec
  feed : Option PyNum := none
  center : AddrVec := {}
  mid : AddrVec := {}
deriving DecidableEq, Repr

/-- src/cq_cam/command.py:144-152: axes of `end` left out are filled from `start`. -/
def fillEnd (e : AddrVec) : Option AddrVec → AddrVec
  | none => e
  | some s =>
    { x := match e.x with | none => s.x | some v => some v
      y := match e.y with | none => s.y | some v => some v
      z := match e.z with | none => s.z | some v => some v }

/-- Constructors of the motion classes: src/cq_cam/command.py:137-157 (`MotionCommand`), 214-217
(`PlungeRapid`), 229-232 (`Retract`), 242-251 (`FeedRateCommand`), 299-302 (`PlungeCut`), 314-322 (`Circular`).
The in-place update of the argument `end` is not observable: all callers pass a fresh `AddressVector`. -/
def mkMotion (k : MKind) (e : AddrVec) (start : Option AddrVec) (feed : Option PyNum := none)
    (center : AddrVec := {}) (mid : AddrVec := {}) : Except Err Motion :=
  if k.vertical && (e.x.isSome || e.y.isSome) then .error .runtimeError
  else .ok { kind := k, start := start.getD {}, fin := fillEnd e start, feed := feed
             center := center, mid := mid }

/-- `Rapid.abs(x, y, z, start)`: src/cq_cam/command.py:159-161. -/
def rapidAbs (e : AddrVec) (start : Option AddrVec) : Motion :=
  { kind := .rapid, start := start.getD {}, fin := fillEnd e start }

/-- `Cut.abs(x, y, z, start, feed=…)`: src/cq_cam/command.py:159-161, 242-251. -/
def cutAbs (e : AddrVec) (start : Option AddrVec) (feed : Option PyNum) : Motion :=
  { kind := .cut, start := start.getD {}, fin := fillEnd e start, feed := feed }

/-- `PlungeRapid.abs`, `Retract.abs`, `PlungeCut.abs` (src/cq_cam/command.py:219-221, 234-236, 304-306): only `z`
can be given, so the constructor check never fails. -/
def verticalAbs (k : MKind) (z : Option ℚ) (start : Option AddrVec) (feed : Option PyNum := none) : Motion :=
  { kind := k, start := start.getD {}, fin := fillEnd { z := z } start, feed := feed }

/-- src/cq_cam/command.py:197-204 (`RapidCommand.__str__`), 257-267 (`Cut.__str__`), 324-335
(`Circular.__str__`).  `Circular` raises `TypeError` when a centre axis is known but the start axis is `None`. -/
def Motion.str (c : Motion) : Except Err Text :=
  match c.kind with
  | .rapid | .plungeRapid | .retract =>
      .ok (joinSpace [c.kind.code.str, xyzText c.fin])
  | .cut | .plungeCut =>
      let feed := plainWord 'F' c.feed
      .ok (joinSpace ([c.kind.code.str, xyzText c.fin] ++ (if feed ≠ [] then [feed] else [])))
  | .cw | .ccw =>
      match c.center.toVecRel c.start with
      | none => .error .typeError
      | some v =>
          let feed := plainWord 'F' c.feed
          .ok (joinSpace ([c.kind.code.str, xyzText c.fin, ijkText v]
            ++ (if feed ≠ [] then [feed] else [])))

/-- src/cq_cam/command.py:390-399 `StartSequence.__str__`. -/
def startSequence (speed : Option PyNum) (coolant : Option Coolant) : Text :=
  joinSpace ([cutterOnCW] ++ (match speed with | some s => [plainWord 'S' (some s)] | none => [])
    ++ (match coolant with | some c => [c.str] | none => []))

/-- src/cq_cam/command.py:409-414 `StopSequence.__str__`. -/
def stopSequence (coolant : Option Coolant) : Text :=
  joinSpace ([cutterOff] ++ (match coolant with | some _ => [Coolant.off.str] | none => []))

/-- src/cq_cam/command.py:417-442 `SafetyBlock.__str__`. -/
def safetyBlock : Text :=
  joinNL [joinSpace [DistMode.absolute.str, WorkOffset.o1.str, PlannerMode.continuous.str, maxSpindleSpeed,
            WorkPlane.xy.str, unitsPerMinute],
          joinSpace [lengthCompOff, radiusCompOff, cannedCancel],
          JUnit.metric.str,
          secondaryHome]

/-- src/cq_cam/command.py:462-478 `ToolChange.__str__`. -/
def toolChangeText (n : Option PyNum) (speed : Option PyNum) (coolant : Option Coolant) : Text :=
  joinNL [stopSequence coolant,
          secondaryHome,
          pauseOptional,
          joinSpace [plainWord 'T' n, lengthCompOn, plainWord 'H' n, toolChangeCode],
          startSequence speed coolant]

/-- A command in an operation's list. -/
inductive Command where
  | motion (c : Motion)
  | start (speed : Option PyNum) (coolant : Option Coolant)
  | stop (coolant : Option Coolant)
  | safety
  | toolChange (n : Option PyNum) (speed : Option PyNum) (coolant : Option Coolant)
deriving DecidableEq, Repr

/-- `str(command)`. -/
def Command.str : Command → Except Err Text
  | .motion c => c.str
  | .start s c => .ok (startSequence s c)
  | .stop c => .ok (stopSequence c)
  | .safety => .ok safetyBlock
  | .toolChange n s c => .ok (toolChangeText n s c)

end CQ
