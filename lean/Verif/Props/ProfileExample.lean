import Verif.Props.TabRun
import Verif.Props.ProfileStep

/-! # Instances of the theorems on `profile` whose counterparts for `wire_profile` have instances beside them -/

namespace CQ

/-- A slot with a round end is the only contour made for itself. -/
theorem roundSlot_contours {P : List Edge → Prop} (h : P roundSlot) : EachContour flatCad (twoJob.updateTool none).2 1 roundSlot P := by
  intro r bases h1 h2 b hb
  rw [show (twoJob.updateTool none).2.toolRadius = some 1 from by decide +kernel] at h1
  cases h1
  have h2' : offsetWire flatCad (roundSlot.map (Edge.toLocal twoJob.top)) (1 * 1) = .ok bases := h2
  rw [roundSlot_offset] at h2'
  cases h2'
  cases List.mem_singleton.mp hb
  exact h

/-- The hypotheses of `C101_profile_partial`: a face bounded by the slot with the round end, in two passes. -/
example : ∃ j2 t m' pre part post outer,
    (twoJob.call (profileRequest flatCad [.face roundSlot []] (some 1) none (some (3 / 5)) none none)).2 = .ok j2 ∧
    j2.toGcode = .ok t ∧ runText {} t = some (m', pre ++ part ++ post) ∧ part.filter isMove = List.flatten outer ∧
    RunsProfiles flatCad Frame.xy 500 1 (some 1) (some (3 / 5)) [roundSlot] outer := by
  obtain ⟨cs, hg, hr, hc⟩ := call_good (j := twoJob) (r := profileRequest flatCad [.face roundSlot []] (some 1) none (some (3 / 5)) none none)
    (by decide +kernel) rfl (by unfold SafeName; decide) (by decide +kernel)
  obtain ⟨t, m', pre, part, post, inner, outer, a1, a2, a3, a4, a5⟩ := C101_profile_partial (cad := flatCad) flatCad_boxMoves
    (shapes := [.face roundSlot []]) (outerOffset := some 1) (innerOffset := none) (r := 1) (stepdown := some (3 / 5)) (tool := none)
    (before := []) (after := []) {} twoJob_ok (by rintro v ⟨⟩)
    (show ChainOK twoJob [_] from ⟨hr, fun _ _ => trivial⟩) rfl hc rfl rfl (by rintro n ⟨⟩) flatCad_keepsBelow
    (by rintro s ⟨⟩; norm_num) (by decide +kernel) rfl (by decide +kernel)
    (by
      rintro o ⟨⟩ w hw
      cases List.mem_singleton.mp hw
      exact roundSlot_contours roundSlot_plain)
    (by rintro o ⟨⟩)
  cases (show inner = [] from a4)
  rw [show (twoJob.updateTool none).2.feed.value = 500 from by decide +kernel] at a5
  exact ⟨_, t, m', pre, part, post, outer, hc, a1, a2, a3, a5⟩

/-- The hypotheses of `C122_profile_partial`: the same face. -/
example : ∃ j2 t m' pre part post cs,
    (twoJob.call (profileRequest flatCad [.face roundSlot []] (some 1) none (some (3 / 5)) none none)).2 = .ok j2 ∧
    j2.toGcode = .ok t ∧ runText {} t = some (m', pre ++ part ++ post) ∧
    (profileRequest flatCad [.face roundSlot []] (some 1) none (some (3 / 5)) none none).gen twoJob = .ok cs ∧ 10 < cs.length ∧
    (part.filter isMove).length = cs.length ∧ FeedsDown (-1 / 1000) (3 / 5 + 1 / 1000) part := by
  obtain ⟨cs, hg, hr, hc⟩ := call_good (j := twoJob) (r := profileRequest flatCad [.face roundSlot []] (some 1) none (some (3 / 5)) none none)
    (by decide +kernel) rfl (by unfold SafeName; decide) (by decide +kernel)
  obtain ⟨t, m', pre, part, post, ds, a1, a2, a3, a4, a5⟩ := C122_profile_partial (cad := flatCad) flatCad_boxMoves
    (shapes := [.face roundSlot []]) (outerOffset := some 1) (innerOffset := none) (s := 3 / 5) (tool := none) (before := [])
    (after := []) {} twoJob_ok (by rintro v ⟨⟩)
    (show ChainOK twoJob [_] from ⟨hr, fun _ _ => trivial⟩) rfl hc rfl rfl (by rintro n ⟨⟩) flatCad_keepsBelow
    (by norm_num) (by decide +kernel) rfl
    (by
      rintro o ⟨⟩ w hw
      cases List.mem_singleton.mp hw
      exact ⟨roundSlot_contours roundSlot_plain, roundSlot_contours roundSlot_steady⟩)
    (by rintro o ⟨⟩)
  refine ⟨_, t, m', pre, part, post, ds, hc, a1, a2, a3, ?_, a4, a5⟩
  have hm : (match (profileRequest flatCad [.face roundSlot []] (some 1) none (some (3 / 5)) none none).gen twoJob with
    | .ok cs => decide (10 < cs.length) | .error _ => false) = true := by decide +kernel
  rw [show (profileRequest flatCad [.face roundSlot []] (some 1) none (some (3 / 5)) none none).gen twoJob = .ok ds from a3] at hm
  exact of_decide_eq_true hm

/-- The hypotheses of `C102_profile_edge_tabs_partial`: a face bounded by the square, with two tabs on each side. -/
example : ∃ j2 t m' pre part post outer,
    (twoJob.call (profileRequest strictCad [.face innerSquare []] (some 1) none (some (3 / 5)) (some (.edge ⟨3, 1, 1 / 2, none⟩)) none)).2
      = .ok j2 ∧
    j2.toGcode = .ok t ∧ runText {} t = some (m', pre ++ part ++ post) ∧ part.filter isMove = List.flatten outer ∧
    RunsTabProfiles strictCad Frame.xy 500 1 (some 1) (some (3 / 5)) (1 / 2) (fun _ => EdgeMarks ⟨3, 1, 1 / 2, none⟩)
      [innerSquare] outer := by
  obtain ⟨cs, hg, hr, hc⟩ := call_good (j := twoJob)
    (r := profileRequest strictCad [.face innerSquare []] (some 1) none (some (3 / 5)) (some (.edge ⟨3, 1, 1 / 2, none⟩)) none)
    (by decide +kernel) rfl (by unfold SafeName; decide) (by decide +kernel)
  obtain ⟨t, m', pre, part, post, inner, outer, a1, a2, a3, a4, a5⟩ := C102_profile_edge_tabs_partial strictCad_assembles flatCad_boxMoves
    (shapes := [.face innerSquare []]) (outerOffset := some 1) (innerOffset := none) (r := 1) (stepdown := some (3 / 5)) (spacing := 3)
    (width := 1) (height := 1 / 2) (only := none)
    (by decide +kernel) (by norm_num) (by norm_num) (tool := none) (before := []) (after := []) {} twoJob_ok (by rintro v ⟨⟩)
    (show ChainOK twoJob [_] from ⟨hr, fun _ _ => trivial⟩) rfl hc rfl rfl (by rintro n ⟨⟩) flatCad_keepsBelow
    (by rintro s ⟨⟩; norm_num) (by decide +kernel) (fun _ _ _ h => (by cases h)) rfl (by decide +kernel)
    (by
      rintro o ⟨⟩ w hw
      exact innerSquare_contours innerSquare_flat w hw)
    (by rintro o ⟨⟩)
  cases (show inner = [] from a4)
  rw [show (twoJob.updateTool none).2.feed.value = 500 from by decide +kernel] at a5
  exact ⟨_, t, m', pre, part, post, outer, hc, a1, a2, a3, a5⟩

/-- Those of `C102_profile_wire_tabs_partial`: the same face with three tabs around it. -/
example : ∃ j2 t m' pre part post outer,
    (twoJob.call (profileRequest strictCad [.face innerSquare []] (some 1) none (some (3 / 5)) (some (.wire ⟨3, 1, 1 / 2⟩)) none)).2
      = .ok j2 ∧
    j2.toGcode = .ok t ∧ runText {} t = some (m', pre ++ part ++ post) ∧ part.filter isMove = List.flatten outer ∧
    RunsTabProfiles strictCad Frame.xy 500 1 (some 1) (some (3 / 5)) (1 / 2) (fun b => WireMarks 3 1 (b.map Edge.length).sum)
      [innerSquare] outer := by
  obtain ⟨cs, hg, hr, hc⟩ := call_good (j := twoJob)
    (r := profileRequest strictCad [.face innerSquare []] (some 1) none (some (3 / 5)) (some (.wire ⟨3, 1, 1 / 2⟩)) none)
    (by decide +kernel) rfl (by unfold SafeName; decide) (by decide +kernel)
  obtain ⟨t, m', pre, part, post, inner, outer, a1, a2, a3, a4, a5⟩ := C102_profile_wire_tabs_partial strictCad_assembles flatCad_boxMoves
    (shapes := [.face innerSquare []]) (outerOffset := some 1) (innerOffset := none) (r := 1) (stepdown := some (3 / 5))
    (tabs := ⟨3, 1, 1 / 2⟩) (n := 3) (by norm_num) rfl
    (by norm_num) (tool := none) (before := []) (after := []) {} twoJob_ok (by rintro v ⟨⟩)
    (show ChainOK twoJob [_] from ⟨hr, fun _ _ => trivial⟩) rfl hc rfl rfl (by rintro n ⟨⟩) flatCad_keepsBelow
    (by rintro s ⟨⟩; norm_num) (by decide +kernel) (fun _ _ _ h => (by cases h)) rfl (by decide +kernel)
    (by
      rintro o ⟨⟩ w hw
      exact innerSquare_contours ⟨innerSquare_flat, innerSquare_zones⟩ w hw)
    (by rintro o ⟨⟩)
  cases (show inner = [] from a4)
  rw [show (twoJob.updateTool none).2.feed.value = 500 from by decide +kernel] at a5
  exact ⟨_, t, m', pre, part, post, outer, hc, a1, a2, a3, a5⟩

end CQ
