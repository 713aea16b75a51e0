import Verif.Props.Feeds
import Verif.Props.ShiftExample

/-! # C124: jobs as they are created, and instances -/

namespace CQ

/-- C124 for jobs as they are created: with the same plane, diameter, heights (given, or defaults for the same unit) and precision,
jobs have the same geometry whatever their feeds, speed, tool number, name, coolant and controller settings. -/
theorem C124_init (top : Frame) (d : Option ℚ) (rapid safe : Option ℚ) (precision : ℕ) (unit : JUnit) (feed feed' : PyNum)
    (speed speed' number number' plunge plunge' : Option PyNum) (name name' : Text) (plane plane' : WorkPlane)
    (coord coord' : WorkOffset) (dist dist' : DistMode) (arc arc' : ArcMode) (ctl ctl' : PlannerMode) (cool cool' : Option Coolant) :
    SameGeometry (Job.init top feed speed d number name plunge rapid safe precision unit plane coord dist arc ctl cool)
      (Job.init top feed' speed' d number' name' plunge' rapid safe precision unit plane' coord' dist' arc' ctl' cool') :=
  ⟨rfl, rfl, rfl, rfl, rfl⟩

/-- `placedJob` with other feeds, a spindle speed, a tool number, a name and coolant. -/
def fastJob : Job := Job.init Frame.xy (.int 2500) (speed := some (.int 18000)) (toolDiameter := some 2) (toolNumber := some (.int 4))
  (name := "fast".toList) (plungeFeed := some (.int 300)) (coolant := some .flood)

theorem fastJob_geometry : SameGeometry placedJob fastJob := C124_init ..

/-- A pocket without a tool, and the same pocket with a tool that has a number, feed and speed but no diameter: all motions agree
but for their feeds, and the feeds do differ. -/
example : (match placedJob.chain [pocketPlacedRequest boxEngine exactEq levelBox 50 [⟨placedSquare, []⟩] [] {} none],
      fastJob.chain [pocketPlacedRequest boxEngine exactEq levelBox 50 [⟨placedSquare, []⟩] [] {}
        (some { toolNumber := some (.int 9), feed := some (.int 77) })] with
    | .ok j, .ok j' => decide (10 ≤ j.motions.length ∧ j.motions ≠ j'.motions ∧ j.motions.map Motion.still = j'.motions.map Motion.still)
    | _, _ => false) = true := by decide +kernel

example : List.Forall₂ SamePath
    [pocketPlacedRequest boxEngine exactEq levelBox 50 [⟨placedSquare, []⟩] [] {} none,
      profileRequest flatCad [.wire placedSquare] (some 1) none (some 1) none (some { toolDiameter := some 3 }),
      drillRequest drillCenter (some drillObjs) (some 3) none]
    [pocketPlacedRequest boxEngine exactEq levelBox 50 [⟨placedSquare, []⟩] [] {} (some { toolNumber := some (.int 9), feed := some (.int 77) }),
      profileRequest flatCad [.wire placedSquare] (some 1) none (some 1) none (some { toolDiameter := some 3, speed := some (.int 5) }),
      drillRequest drillCenter (some drillObjs) (some 3) none] :=
  .cons (C124_pocket _ _ _ _ _ _ _ rfl) (.cons (C124_profile _ _ _ _ _ _ rfl) (.cons (C124_drill _ _ _ rfl) .nil))

/-- The two jobs run on the machine. -/
example : ∃ t t' m1 m1' a b c a' b' c' evss evss', runText {} t = some (m1, a :: (evss.flatten ++ [b, c])) ∧
    runText { tool := some 4 } t' = some (m1', a' :: (evss'.flatten ++ [b', c'])) ∧ evss.length = 1 ∧
    List.Forall₂ (fun evs evs' => List.Forall₂ MovesAlike (evs.filter isMove) (evs'.filter isMove)) evss evss' := by
  obtain ⟨cs, -, hr, hc⟩ := call_good (j := placedJob) (r := pocketPlacedRequest boxEngine exactEq levelBox 50 [⟨placedSquare, []⟩] [] {} none)
    rfl rfl (by unfold SafeName; decide) (by decide +kernel)
  obtain ⟨cs', -, hr', hc'⟩ := call_good (j := fastJob) (r := pocketPlacedRequest boxEngine exactEq levelBox 50 [⟨placedSquare, []⟩] [] {} none)
    rfl rfl (by unfold SafeName; decide) (by decide +kernel)
  have hchain : placedJob.chain [pocketPlacedRequest boxEngine exactEq levelBox 50 [⟨placedSquare, []⟩] [] {} none] =
      .ok (placedJob.addOperation "Pocket".toList (cs.map .motion)) := by
    simp only [Job.chain, hc]
    rfl
  obtain ⟨jf', t, t', m1, m1', a, b, c, a', b', c', evss, evss', -, -, -, q1, q2, q3, -, -, q4⟩ :=
    C124_machine {} { tool := some 4 } (j0 := placedJob) (j0' := fastJob)
      (rs := [pocketPlacedRequest boxEngine exactEq levelBox 50 [⟨placedSquare, []⟩] [] {} none])
      (rs' := [pocketPlacedRequest boxEngine exactEq levelBox 50 [⟨placedSquare, []⟩] [] {} none]) fastJob_geometry
      ⟨rfl, by unfold SafeName; decide, numOK_int _, by rintro v ⟨⟩⟩
      ⟨rfl, by unfold SafeName; decide, numOK_int _, by rintro v ⟨⟩; exact numOK_int _⟩
      (by rintro v ⟨⟩) (by rintro v ⟨⟩; exact numOK_int _) ⟨hr, fun _ _ => trivial⟩ ⟨hr', fun _ _ => trivial⟩
      (.cons (C124_pocket _ _ _ _ _ _ _ rfl) .nil) hchain rfl rfl (by rintro n ⟨⟩) (by rintro n ⟨⟩; rfl)
  exact ⟨t, t', m1, m1', a, b, c, a', b', c', evss, evss', q1, q2, q3, q4⟩

end CQ
