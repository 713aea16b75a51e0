import Verif.Spec.Decimal

/-!
# Model of `src/cq_cam/groups.py`

Each enumeration with the `str` of its members (`GCodeGroup.__str__`, lines 33-34, returns the value).  Here are the
enumerations the package uses; the others are in `AllGroups`.
-/

namespace CQ

/-- src/cq_cam/groups.py:206-209 `CoolantState`. -/
inductive Coolant | mist | flood | off
deriving DecidableEq, Repr

def Coolant.str : Coolant → Text
  | .mist => ['M', '7'] | .flood => ['M', '8'] | .off => ['M', '9']

/-- src/cq_cam/groups.py:120-122 `Unit`. -/
inductive JUnit | imperial | metric
deriving DecidableEq, Repr

def JUnit.str : JUnit → Text
  | .imperial => ['G', '2', '0'] | .metric => ['G', '2', '1']

/-- src/cq_cam/groups.py:30-31 `GCodeGroup.__repr__` for `Unit`. -/
def JUnit.repr : JUnit → Text
  | .imperial => "Unit.IMPERIAL".toList | .metric => "Unit.METRIC".toList

/-- src/cq_cam/groups.py:113-116 `WorkPlane`. -/
inductive WorkPlane | xy | xz | yz
deriving DecidableEq, Repr

def WorkPlane.str : WorkPlane → Text
  | .xy => "G17".toList | .xz => "G18".toList | .yz => "G19".toList

/-- src/cq_cam/groups.py:136-142 `WorkOffset` (`OFFSET_n`, `n` = 1…6). -/
inductive WorkOffset | o1 | o2 | o3 | o4 | o5 | o6
deriving DecidableEq, Repr

def WorkOffset.str : WorkOffset → Text
  | .o1 => "G54".toList | .o2 => "G55".toList | .o3 => "G56".toList
  | .o4 => "G57".toList | .o5 => "G58".toList | .o6 => "G59".toList

/-- src/cq_cam/groups.py:145-148 `PlannerControlMode`. -/
inductive PlannerMode | exactPath | exactStop | continuous
deriving DecidableEq, Repr

def PlannerMode.str : PlannerMode → Text
  | .exactPath => "G61".toList | .exactStop => "G61.1".toList | .continuous => "G64".toList

/-- src/cq_cam/groups.py:151-153 `DistanceMode`. -/
inductive DistMode | absolute | incremental
deriving DecidableEq, Repr

def DistMode.str : DistMode → Text
  | .absolute => "G90".toList | .incremental => "G91".toList

/-- src/cq_cam/groups.py:156-158 `ArcDistanceMode`. -/
inductive ArcMode | absolute | incremental
deriving DecidableEq, Repr

/-- src/cq_cam/groups.py:82-86 `Path`, the four members the commands use. -/
inductive PathCode | rapid | linear | arcCW | arcCCW
deriving DecidableEq, Repr

def PathCode.str : PathCode → Text
  | .rapid => ['G', '0'] | .linear => ['G', '1'] | .arcCW => ['G', '2'] | .arcCCW => ['G', '3']

/-- src/cq_cam/groups.py:196-198 `CutterState.ON_CW` / `CutterState.OFF`. -/
def cutterOnCW : Text := ['M', '3']
def cutterOff : Text := ['M', '5']
/-- src/cq_cam/groups.py:74 `Position.SECONDARY_HOME`. -/
def secondaryHome : Text := "G30".toList
/-- src/cq_cam/groups.py:190-192 `ProgramControlMode`. -/
def pauseOptional : Text := ['M', '1']
def endReset : Text := "M30".toList
/-- src/cq_cam/groups.py:202 `AutomaticChangerMode.TOOL_CHANGE`. -/
def toolChangeCode : Text := ['M', '6']
/-- src/cq_cam/groups.py:132-133 `LengthCompensation`. -/
def lengthCompOn : Text := "G43".toList
def lengthCompOff : Text := "G49".toList
/-- src/cq_cam/groups.py:126 `RadiusCompensation.OFF`. -/
def radiusCompOff : Text := "G40".toList
/-- src/cq_cam/groups.py:100 `CannedCycle.CANCEL`. -/
def cannedCancel : Text := "G80".toList
/-- src/cq_cam/groups.py:168 `SpindleControlMode.MAX_SPINDLE_SPEED`. -/
def maxSpindleSpeed : Text := "G50".toList
/-- src/cq_cam/groups.py:163 `FeedRateControlMode.UNITS_PER_MINUTE`. -/
def unitsPerMinute : Text := "G94".toList

end CQ
