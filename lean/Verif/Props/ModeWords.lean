import Verif.Spec.ModeWords
import Mathlib.Data.List.Nodup

/-! # C111: the named codes mean what their names say -/

namespace CQ

/-- C111, modes: written on a line of its own, the text of a mode puts the machine, whatever its state, into this mode and
changes nothing else. -/
theorem C111_modes (c : GCode) (m m' : Machine) (hend : m.ended = false) (h : c.selects m = some m') : runText m c.str = some (m', []) := by
  have key : ∀ b : Block, readLine c.str = some b → b ≠ {} → splitLines c.str = [c.str] → execBlock m b = some (m', []) →
      runText m c.str = some (m', []) := by
    intro b h1 h2 h3 h4
    simp [runText, h3, runLines, execLine, h1, h2, hend, h4]
  have key' : ∀ {b : Block}, readLine c.str = some b → decide (b ≠ {}) = true → splitLines c.str = [c.str] → execBlock m b = some (m', []) →
      runText m c.str = some (m', []) := fun h1 h2 => key _ h1 (of_decide_eq_true h2)
  cases c with
  | coolant c => cases c <;> cases h <;> exact key' rfl (by decide) (by decide) rfl
  | unit c => cases c <;> cases h <;> exact key' rfl (by decide) (by decide) rfl
  | plane c => cases c <;> cases h <;> exact key' rfl (by decide) (by decide) rfl
  | offset c => cases c <;> cases h <;> exact key' rfl (by decide) (by decide) rfl
  | planner c => cases c <;> cases h <;> exact key' rfl (by decide) (by decide) rfl
  | distance c => cases c <;> cases h <;> exact key' rfl (by decide) (by decide) rfl
  | arc c => cases c <;> cases h <;> exact key' rfl (by decide) (by decide) rfl
  | canned c => cases c <;> cases h; exact key' rfl (by decide) (by decide) rfl
  | radius c => cases c <;> cases h <;> exact key' rfl (by decide) (by decide) rfl
  | length c => cases c <;> cases h; exact key' rfl (by decide) (by decide) rfl
  | feedRate c => cases c <;> cases h <;> exact key' rfl (by decide) (by decide) rfl
  | cutter c => cases c <;> cases h <;> exact key' rfl (by decide) (by decide) rfl
  | _ => cases h

example (m : Machine) (h : m.ended = false) : runText m (GCode.planner .exactStop).str = some ({ m with planner := .exactStop }, []) :=
  C111_modes _ m _ h rfl

/-- Without the name of the probing towards contact with an error, every text is read as the code that its name stands for. -/
theorem C111_words_partial (c : GCode) (hc : c ≠ .probe .onContactError) : ReadsAs c.str c.number := by
  unfold ReadsAs
  cases c <;> rename_i x <;> cases x <;> first | exact absurd rfl hc | decide +kernel

example : ReadsAs (GCode.canned .drillPeck).str ('G', 830) := C111_words_partial (.canned .drillPeck) (by decide)

/-- All the names. -/
def GCode.all : List GCode :=
  [.position .dwell, .position .absolute, .position .primaryHome, .position .secondaryHome, .path .rapid, .path .linear,
   .path .arcCW, .path .arcCCW, .spline .cubic, .spline .quadratic, .spline .nurbs, .probe .onContactError,
   .probe .onContact, .probe .loseContactError, .probe .loseContact, .canned .cancel, .canned .drillSimple, .canned .drillDwell,
   .canned .drillPeck, .canned .drillRightTap, .canned .bore, .canned .boreDwellStop, .canned .boreBack, .canned .boreDwellStopManual,
   .canned .boreDwell, .plane .xy, .plane .xz, .plane .yz, .unit .imperial, .unit .metric,
   .radius .off, .radius .left, .radius .right, .length .on, .length .off, .offset .o1,
   .offset .o2, .offset .o3, .offset .o4, .offset .o5, .offset .o6, .planner .exactPath,
   .planner .exactStop, .planner .continuous, .distance .absolute, .distance .incremental, .arc .absolute, .arc .incremental,
   .feedRate .inverseTime, .feedRate .perMinute, .feedRate .perRevolution, .spindle .maxSpeed, .spindle .surfaceSpeed, .spindle .rpm,
   .ret .retractHeight, .ret .lastHeight, .program .pause, .program .pauseOptional, .program .finish, .program .finishReset,
   .cutter .onCW, .cutter .onCCW, .cutter .off, .changer .toolChange, .changer .palletChange, .coolant .mist,
   .coolant .flood, .coolant .off, .vacuum .on, .vacuum .off]

theorem GCode.mem_all (c : GCode) : c ∈ GCode.all := by
  cases c <;> rename_i x <;> cases x <;> decide +kernel

/-- Different names have different texts. -/
theorem C111_distinct (c d : GCode) (h : c.str = d.str) : c = d := by
  have hn : (GCode.all.map GCode.str).Nodup := by decide +kernel
  exact List.inj_on_of_nodup_map hn (GCode.mem_all c) (GCode.mem_all d) h

example : (GCode.spindle .rpm).str ≠ (GCode.feedRate .perRevolution).str := fun h => by cases C111_distinct _ _ h

/-- The texts that the commands and the safety block use are the texts of members. -/
example : cutterOnCW = (GCode.cutter .onCW).str ∧ cutterOff = (GCode.cutter .off).str ∧ secondaryHome = (GCode.position .secondaryHome).str ∧
    pauseOptional = (GCode.program .pauseOptional).str ∧ endReset = (GCode.program .finishReset).str ∧
    toolChangeCode = (GCode.changer .toolChange).str ∧ lengthCompOn = (GCode.length .on).str ∧
    lengthCompOff = (GCode.length .off).str ∧ radiusCompOff = (GCode.radius .off).str ∧ cannedCancel = (GCode.canned .cancel).str ∧
    maxSpindleSpeed = (GCode.spindle .maxSpeed).str ∧ unitsPerMinute = (GCode.feedRate .perMinute).str := by decide

/-- The text of the probing towards contact with an error is `38.2`, without the letter: it is not a word, no machine accepts
a line with it. -/
theorem C111_violated : (∀ k, ¬ ReadsAs (GCode.probe .onContactError).str k) ∧ ∀ m, runText m (GCode.probe .onContactError).str = none := by
  have h : readLine (GCode.probe .onContactError).str = none := by decide +kernel
  refine ⟨fun k hk => (by rw [ReadsAs, h] at hk; cases hk), fun m => ?_⟩
  have h3 : splitLines (GCode.probe .onContactError).str = [(GCode.probe .onContactError).str] := by decide +kernel
  simp [runText, h3, runLines, execLine, h]

end CQ
