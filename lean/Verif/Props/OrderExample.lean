import Verif.Props.Order
import Verif.Props.AddsPassesExample

/-! # C128, C129: a counterexample and instances -/

namespace CQ

/-! ### C128 -/

/-- Two wires profiled at once, with a tool, a drilling after it: accepted, with more than a dozen motions, and the operations are
other ones than with two calls (so the statement compares different programs). -/
example : (match placedJob.chain [wireProfileRequest flatCad ([placedSquare] ++ [demoSlot]) 1 (some 1) none (some { toolNumber := some (.int 3) }),
      drillRequest drillCenter (some drillObjs) (some 3) none],
    placedJob.chain [wireProfileRequest flatCad [placedSquare] 1 (some 1) none (some { toolNumber := some (.int 3) }),
      wireProfileRequest flatCad [demoSlot] 1 (some 1) none (some { toolNumber := some (.int 3) }),
      drillRequest drillCenter (some drillObjs) (some 3) none] with
    | .ok j, .ok j' => decide (13 ≤ j.motions.length ∧ j.motions = j'.motions ∧ j.operations.length = 3 ∧ j'.operations.length = 4)
    | _, _ => false) = true := by decide +kernel

/-- The same by the theorem. -/
example (jf : Job) (h : placedJob.chain [wireProfileRequest flatCad ([placedSquare] ++ [demoSlot]) 1 (some 1) none none,
      drillRequest drillCenter (some drillObjs) (some 3) none] = .ok jf) :
    ∃ jf', placedJob.chain [wireProfileRequest flatCad [placedSquare] 1 (some 1) none none,
      wireProfileRequest flatCad [demoSlot] 1 (some 1) none none, drillRequest drillCenter (some drillObjs) (some 3) none] = .ok jf' ∧
      jf.Past jf' ∧ jf.motions = jf'.motions :=
  (C128_wire_profile flatCad [placedSquare] [demoSlot] 1 (some 1) none none
    (after := [drillRequest drillCenter (some drillObjs) (some 3) none])
    (by intro r hr; rw [List.mem_singleton] at hr; subst hr; exact forgetful_drill ..) placedJob []).1 jf h

/-- Two faces with holes: in one call the holes come first, so the motions are the same only up to their order. -/
example : (match placedJob.chain [profileRequest flatCad ([.face demoSlot [placedSquare]] ++ [.face demoSlot [placedSquare]]) (some 1) (some (-1)) none none none],
    placedJob.chain [profileRequest flatCad [.face demoSlot [placedSquare]] (some 1) (some (-1)) none none none,
      profileRequest flatCad [.face demoSlot [placedSquare]] (some 1) (some (-1)) none none none] with
    | .ok j, .ok j' => decide (10 ≤ j.motions.length ∧ j.motions.length = j'.motions.length ∧ j.motions ≠ j'.motions)
    | _, _ => false) = true := by decide +kernel

/-! ### C129 -/

/-- A tool with all its data. -/
def fullTool (n : ℤ) : Tool := { toolDiameter := some 2, toolNumber := some (.int n), feed := some (.int 300), speed := some (.int 9000) }

/-- A job that knows no tool diameter. -/
def bareJob : Job := Job.init Frame.xy (.int 100)

/-- C129 is false for calls with tools on a job without a tool diameter: `profile` asks for the diameter before it looks at its own
tool, so it is refused at the start but accepted after another call. -/
theorem C129_violated : ∃ (rs rs' : List Request) (jf : Job), rs'.Perm rs ∧ (∀ r ∈ rs, Forgetful r) ∧ (∀ r ∈ rs, Steady r) ∧
    (∀ r ∈ rs, ∃ t : Tool, r.tool = some t ∧ t.Complete) ∧ bareJob.chain rs = .ok jf ∧ bareJob.chain rs' = .error .valueError := by
  have h : (match bareJob.chain [pocketPlacedRequest boxEngine exactEq levelBox 50 [⟨placedSquare, []⟩] [] {} (some (fullTool 1)),
        profileRequest flatCad [.wire placedSquare] (some 1) none none none (some (fullTool 2))] with
      | .ok _ => true | .error _ => false) = true := by decide +kernel
  cases hc : bareJob.chain [pocketPlacedRequest boxEngine exactEq levelBox 50 [⟨placedSquare, []⟩] [] {} (some (fullTool 1)),
      profileRequest flatCad [.wire placedSquare] (some 1) none none none (some (fullTool 2))] with
  | error e => rw [hc] at h; cases h
  | ok jf =>
    refine ⟨_, [profileRequest flatCad [.wire placedSquare] (some 1) none none none (some (fullTool 2)),
      pocketPlacedRequest boxEngine exactEq levelBox 50 [⟨placedSquare, []⟩] [] {} (some (fullTool 1))], jf, .swap _ _ _, ?_, ?_, ?_, hc, rfl⟩
    · intro r hr
      simp only [List.mem_cons, List.not_mem_nil, or_false] at hr
      rcases hr with rfl | rfl
      · exact forgetful_pocket ..
      · exact forgetful_profile ..
    · intro r hr
      simp only [List.mem_cons, List.not_mem_nil, or_false] at hr
      rcases hr with rfl | rfl
      · exact steady_of_free fun _ => rfl
      · exact steady_profile _ _ _ _ _ _ _
    · intro r hr
      simp only [List.mem_cons, List.not_mem_nil, or_false] at hr
      rcases hr with rfl | rfl
      · exact ⟨fullTool 1, rfl, rfl, rfl, rfl, rfl⟩
      · exact ⟨fullTool 2, rfl, rfl, rfl, rfl, rfl⟩

/-- A pocket, a profile and a drilling. -/
def threeCalls (a b c : Option Tool) : List Request :=
  [pocketPlacedRequest boxEngine exactEq levelBox 50 [⟨placedSquare, []⟩] [] {} a,
    profileRequest flatCad [.wire placedSquare] (some 1) none (some 1) none b, drillRequest drillCenter (some drillObjs) (some 3) c]

theorem threeCalls_forgetful (a b c : Option Tool) : ∀ r ∈ threeCalls a b c, Forgetful r := by
  intro r hr
  simp only [threeCalls, List.mem_cons, List.not_mem_nil, or_false] at hr
  rcases hr with rfl | rfl | rfl
  · exact forgetful_pocket ..
  · exact forgetful_profile ..
  · exact forgetful_drill ..

/-- The hypotheses of `C129_program` hold, and the chain is accepted, with more than twenty motions. -/
example : (∀ r ∈ threeCalls none none none, r.tool = none) ∧
    (match placedJob.chain (threeCalls none none none) with | .ok j => decide (20 < j.motions.length) | .error _ => false) = true := by
  refine ⟨?_, by decide +kernel⟩
  intro r hr
  simp only [threeCalls, List.mem_cons, List.not_mem_nil, or_false] at hr
  rcases hr with rfl | rfl | rfl <;> rfl

/-- The hypotheses of `C129_tools_partial` hold, and the chain is accepted. -/
example : placedJob.toolDiameter ≠ none ∧ (∀ r ∈ threeCalls (some (fullTool 1)) (some (fullTool 2)) (some (fullTool 3)), Steady r) ∧
    (∀ r ∈ threeCalls (some (fullTool 1)) (some (fullTool 2)) (some (fullTool 3)), ∃ t : Tool, r.tool = some t ∧ t.Complete) ∧
    (match placedJob.chain (threeCalls (some (fullTool 1)) (some (fullTool 2)) (some (fullTool 3))) with
      | .ok j => decide (20 < j.motions.length) | .error _ => false) = true := by
  refine ⟨by decide, ?_, ?_, by decide +kernel⟩
  · intro r hr
    simp only [threeCalls, List.mem_cons, List.not_mem_nil, or_false] at hr
    rcases hr with rfl | rfl | rfl
    · exact steady_of_free fun _ => rfl
    · exact steady_profile _ _ _ _ _ _ _
    · exact steady_of_free fun _ => rfl
  · intro r hr
    simp only [threeCalls, List.mem_cons, List.not_mem_nil, or_false] at hr
    rcases hr with rfl | rfl | rfl <;> exact ⟨_, rfl, rfl, rfl, rfl, rfl⟩

end CQ
