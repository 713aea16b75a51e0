import Verif.Model.Groups

/-!
# Model of `src/cq_cam/groups.py`: the remaining members

`Groups` has the members that programs are made of; here are all the others, so that the two files have every member of every class.
-/

namespace CQ

/-- src/cq_cam/groups.py:156-158 `ArcDistanceMode`: the `str` of its members. -/
def ArcMode.str : ArcMode → Text
  | .absolute => "G90.1".toList | .incremental => "G91.1".toList

/-- src/cq_cam/groups.py:70-74 `Position`. -/
inductive Position | dwell | absolute | primaryHome | secondaryHome
deriving DecidableEq, Repr

def Position.str : Position → Text
  | .dwell => "G4".toList | .absolute => "G53".toList | .primaryHome => "G28".toList | .secondaryHome => "G30".toList

/-- src/cq_cam/groups.py:87-89 `Path`, the members not in `PathCode`. -/
inductive SplineCode | cubic | quadratic | nurbs
deriving DecidableEq, Repr

def SplineCode.str : SplineCode → Text
  | .cubic => "G5".toList | .quadratic => "G5.1".toList | .nurbs => "G5.2".toList

/-- src/cq_cam/groups.py:92-96 `ProbeMode`. -/
inductive ProbeMode | onContactError | onContact | loseContactError | loseContact
deriving DecidableEq, Repr

def ProbeMode.str : ProbeMode → Text
  | .onContactError => "38.2".toList | .onContact => "G38.3".toList
  | .loseContactError => "G38.4".toList | .loseContact => "G38.5".toList

/-- src/cq_cam/groups.py:99-109 `CannedCycle`. -/
inductive CannedCycle
  | cancel | drillSimple | drillDwell | drillPeck | drillRightTap | bore | boreDwellStop | boreBack | boreDwellStopManual | boreDwell
deriving DecidableEq, Repr

def CannedCycle.str : CannedCycle → Text
  | .cancel => "G80".toList | .drillSimple => "G81".toList | .drillDwell => "G82".toList | .drillPeck => "G83".toList
  | .drillRightTap => "G84".toList | .bore => "G85".toList | .boreDwellStop => "G86".toList | .boreBack => "G87".toList
  | .boreDwellStopManual => "G88".toList | .boreDwell => "G89".toList

/-- src/cq_cam/groups.py:125-128 `RadiusCompensation`. -/
inductive RadiusCompensation | off | left | right
deriving DecidableEq, Repr

def RadiusCompensation.str : RadiusCompensation → Text
  | .off => "G40".toList | .left => "G41".toList | .right => "G42".toList

/-- src/cq_cam/groups.py:131-133 `LengthCompensation`. -/
inductive LengthCompensation | on | off
deriving DecidableEq, Repr

def LengthCompensation.str : LengthCompensation → Text
  | .on => "G43".toList | .off => "G49".toList

/-- src/cq_cam/groups.py:161-164 `FeedRateControlMode`. -/
inductive FeedRateMode | inverseTime | perMinute | perRevolution
deriving DecidableEq, Repr

def FeedRateMode.str : FeedRateMode → Text
  | .inverseTime => "G93".toList | .perMinute => "G94".toList | .perRevolution => "G95".toList

/-- src/cq_cam/groups.py:167-170 `SpindleControlMode`. -/
inductive SpindleMode | maxSpeed | surfaceSpeed | rpm
deriving DecidableEq, Repr

def SpindleMode.str : SpindleMode → Text
  | .maxSpeed => "G50".toList | .surfaceSpeed => "G96".toList | .rpm => "G97".toList

/-- src/cq_cam/groups.py:173-175 `CannedCycleReturnMode`. -/
inductive ReturnMode | retractHeight | lastHeight
deriving DecidableEq, Repr

def ReturnMode.str : ReturnMode → Text
  | .retractHeight => "G98".toList | .lastHeight => "G99".toList

/-- src/cq_cam/groups.py:188-192 `ProgramControlMode`. -/
inductive ProgramMode | pause | pauseOptional | finish | finishReset
deriving DecidableEq, Repr

def ProgramMode.str : ProgramMode → Text
  | .pause => "M0".toList | .pauseOptional => "M1".toList | .finish => "M2".toList | .finishReset => "M30".toList

/-- src/cq_cam/groups.py:195-198 `CutterState`. -/
inductive CutterState | onCW | onCCW | off
deriving DecidableEq, Repr

def CutterState.str : CutterState → Text
  | .onCW => "M3".toList | .onCCW => "M4".toList | .off => "M5".toList

/-- src/cq_cam/groups.py:201-203 `AutomaticChangerMode`. -/
inductive ChangerMode | toolChange | palletChange
deriving DecidableEq, Repr

def ChangerMode.str : ChangerMode → Text
  | .toolChange => "M6".toList | .palletChange => "M60".toList

/-- src/cq_cam/groups.py:212-214 `VacuumState`. -/
inductive VacuumState | on | off
deriving DecidableEq, Repr

def VacuumState.str : VacuumState → Text
  | .on => "M10".toList | .off => "M11".toList

/-- A member of any of the classes. -/
inductive GCode
  | coolant (c : Coolant) | unit (u : JUnit) | plane (p : WorkPlane) | offset (o : WorkOffset) | planner (p : PlannerMode)
  | distance (d : DistMode) | arc (a : ArcMode) | path (p : PathCode) | spline (s : SplineCode) | position (p : Position)
  | probe (p : ProbeMode) | canned (c : CannedCycle) | radius (r : RadiusCompensation) | length (l : LengthCompensation)
  | feedRate (f : FeedRateMode) | spindle (s : SpindleMode) | ret (r : ReturnMode) | program (p : ProgramMode) | cutter (c : CutterState)
  | changer (c : ChangerMode) | vacuum (v : VacuumState)
deriving DecidableEq, Repr

/-- src/cq_cam/groups.py:33-34 `GCodeGroup.__str__`. -/
def GCode.str : GCode → Text
  | .coolant c => c.str | .unit u => u.str | .plane p => p.str | .offset o => o.str | .planner p => p.str
  | .distance d => d.str | .arc a => a.str | .path p => p.str | .spline s => s.str | .position p => p.str
  | .probe p => p.str | .canned c => c.str | .radius r => r.str | .length l => l.str
  | .feedRate f => f.str | .spindle s => s.str | .ret r => r.str | .program p => p.str | .cutter c => c.str
  | .changer c => c.str | .vacuum v => v.str

end CQ
