import Verif.Model.AllGroups
import Verif.Spec.GCode

/-! # Specification: what the named codes are for -/

namespace CQ

/-- The machine after a mode has been chosen, for the modes that the machine of the specification has; `none` for the other codes. -/
def GCode.selects (m : Machine) : GCode → Option Machine
  | .coolant .mist => some { m with mist := true }
  | .coolant .flood => some { m with flood := true }
  | .coolant .off => some { m with mist := false, flood := false }
  | .unit .metric => some { m with metric := true }
  | .unit .imperial => some { m with metric := false }
  | .plane .xy => some { m with plane := .xy }
  | .plane .xz => some { m with plane := .xz }
  | .plane .yz => some { m with plane := .yz }
  | .offset .o1 => some { m with offset := 1 }
  | .offset .o2 => some { m with offset := 2 }
  | .offset .o3 => some { m with offset := 3 }
  | .offset .o4 => some { m with offset := 4 }
  | .offset .o5 => some { m with offset := 5 }
  | .offset .o6 => some { m with offset := 6 }
  | .planner .exactPath => some { m with planner := .exactPath }
  | .planner .exactStop => some { m with planner := .exactStop }
  | .planner .continuous => some { m with planner := .continuous }
  | .distance .absolute => some { m with absDist := true }
  | .distance .incremental => some { m with absDist := false }
  | .arc .absolute => some { m with arcInc := false }
  | .arc .incremental => some { m with arcInc := true }
  | .canned .cancel => some { m with motion := none }
  | .radius .off => some { m with radComp := .off }
  | .radius .left => some { m with radComp := .left }
  | .radius .right => some { m with radComp := .right }
  | .length .off => some { m with lenOff := none }
  | .feedRate .inverseTime => some { m with feedMode := .inverse }
  | .feedRate .perMinute => some { m with feedMode := .perMinute }
  | .feedRate .perRevolution => some { m with feedMode := .perRev }
  | .cutter .onCW => some { m with spindle := .cw }
  | .cutter .onCCW => some { m with spindle := .ccw }
  | .cutter .off => some { m with spindle := .off }
  | _ => none

/-- The letter and the number in tenths of the code that a name stands for, by the RS274/NGC language and its common extensions
(module documentation, src/cq_cam/groups.py:5-62 and 178-185). -/
def GCode.number : GCode → Char × ℕ
  | .position .dwell => ('G', 40) | .position .absolute => ('G', 530)
  | .position .primaryHome => ('G', 280) | .position .secondaryHome => ('G', 300)
  | .path .rapid => ('G', 0) | .path .linear => ('G', 10) | .path .arcCW => ('G', 20) | .path .arcCCW => ('G', 30)
  | .spline .cubic => ('G', 50) | .spline .quadratic => ('G', 51) | .spline .nurbs => ('G', 52)
  | .probe .onContactError => ('G', 382) | .probe .onContact => ('G', 383)
  | .probe .loseContactError => ('G', 384) | .probe .loseContact => ('G', 385)
  | .canned .cancel => ('G', 800) | .canned .drillSimple => ('G', 810) | .canned .drillDwell => ('G', 820)
  | .canned .drillPeck => ('G', 830) | .canned .drillRightTap => ('G', 840) | .canned .bore => ('G', 850)
  | .canned .boreDwellStop => ('G', 860) | .canned .boreBack => ('G', 870) | .canned .boreDwellStopManual => ('G', 880)
  | .canned .boreDwell => ('G', 890)
  | .plane .xy => ('G', 170) | .plane .xz => ('G', 180) | .plane .yz => ('G', 190)
  | .unit .imperial => ('G', 200) | .unit .metric => ('G', 210)
  | .radius .off => ('G', 400) | .radius .left => ('G', 410) | .radius .right => ('G', 420)
  | .length .on => ('G', 430) | .length .off => ('G', 490)
  | .offset .o1 => ('G', 540) | .offset .o2 => ('G', 550) | .offset .o3 => ('G', 560)
  | .offset .o4 => ('G', 570) | .offset .o5 => ('G', 580) | .offset .o6 => ('G', 590)
  | .planner .exactPath => ('G', 610) | .planner .exactStop => ('G', 611) | .planner .continuous => ('G', 640)
  | .distance .absolute => ('G', 900) | .distance .incremental => ('G', 910)
  | .arc .absolute => ('G', 901) | .arc .incremental => ('G', 911)
  | .feedRate .inverseTime => ('G', 930) | .feedRate .perMinute => ('G', 940) | .feedRate .perRevolution => ('G', 950)
  | .spindle .maxSpeed => ('G', 500) | .spindle .surfaceSpeed => ('G', 960) | .spindle .rpm => ('G', 970)
  | .ret .retractHeight => ('G', 980) | .ret .lastHeight => ('G', 990)
  | .program .pause => ('M', 0) | .program .pauseOptional => ('M', 10) | .program .finish => ('M', 20) | .program .finishReset => ('M', 300)
  | .cutter .onCW => ('M', 30) | .cutter .onCCW => ('M', 40) | .cutter .off => ('M', 50)
  | .changer .toolChange => ('M', 60) | .changer .palletChange => ('M', 600)
  | .coolant .mist => ('M', 70) | .coolant .flood => ('M', 80) | .coolant .off => ('M', 90)
  | .vacuum .on => ('M', 100) | .vacuum .off => ('M', 110)

/-- A line is read as this code and nothing else. -/
def ReadsAs (t : Text) (k : Char × ℕ) : Prop :=
  readLine t = some (if k.1 = 'G' then { gs := [k.2] } else { ms := [k.2] })

end CQ
