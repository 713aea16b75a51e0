import Verif.Props.TabClear64

/-! # C149 and C150: instances for faces -/

namespace CQ

/-- The profile of a face with tabs along its edges. -/
def faceEdgeTabs : Request := tabProfileRequest64 gapStrictCad Edge.length exactTotal [.face innerSquare []] (some 1) none
  (some (b64 (3 / 5))) (.edge ⟨3, 1, 1 / 2, none⟩) none

/-- The profile of a face with tabs around it. -/
def faceWireTabs : Request := tabProfileRequest64 gapStrictCad Edge.length exactTotal [.face innerSquare []] (some 1) none
  (some (b64 (3 / 5))) (.wire ⟨3, 1, 1 / 2⟩) none

theorem face_outer {P : List Edge → Prop} (h : ∀ w ∈ [innerSquare], EachContour64 gapStrictCad (twoJob.updateTool none).2 1 w P) :
    ∀ o, some (1 : ℚ) = some o → ∀ w ∈ outerWires [.face innerSquare []], EachContour64 gapStrictCad (twoJob.updateTool none).2 o w P := by
  rintro o ⟨⟩ w hw
  exact h w (by simpa [outerWires] using hw)

theorem face_away {P : List Edge → Prop} (h : ∀ w ∈ [innerSquare], EachContour64 gapStrictCad (twoJob.updateTool none).2 1 w P) :
    ∀ w o, (w ∈ outerWires [.face innerSquare []] ∧ some (1 : ℚ) = some o) ∨ (w ∈ innerWires [.face innerSquare []] ∧ none = some o) →
      EachContour64 gapStrictCad (twoJob.updateTool none).2 o w P ∧
      OffsetsAwayWithin gapStrictCad squarePart (w.map (Edge.toLocal (twoJob.updateTool none).2.top)) (o * 1) (2 / 1000000) 0 := by
  rintro w o (⟨hw, ⟨⟩⟩ | ⟨-, ⟨⟩⟩)
  refine ⟨face_outer h 1 rfl w hw, ?_⟩
  have hw : w = innerSquare := by simpa [outerWires] using hw
  subst hw
  change OffsetsAwayWithin gapCad squarePart (innerSquare.map (Edge.toLocal twoJob.top)) (1 * 1) _ _
  rw [innerSquare_local, one_mul]
  exact innerSquare_away64

/-- The hypotheses of `C149_profile_edge_tabs_partial`: a square face with two tabs on each side, in two passes. -/
example : ∃ j2 t m' pre part post inner outer, (twoJob.call faceEdgeTabs).2 = .ok j2 ∧
    j2.toGcode = .ok t ∧ runText {} t = some (m', pre ++ part ++ post) ∧ part.filter isMove = List.flatten inner ++ List.flatten outer ∧
    RunsTabProfiles64 gapStrictCad twoJob.top 500 1 (heightError 1010000) (1 / 4000) (some 1) (some (b64 (3 / 5))) (1 / 2)
      (fun _ => NearTabsOnEdges ⟨3, 1, 1 / 2, none⟩) (outerWires [.face innerSquare []]) outer := by
  obtain ⟨cs, hg, hr, hc⟩ := call_good (j := twoJob) (r := faceEdgeTabs) (by decide +kernel) rfl (by unfold SafeName; decide)
    (by decide +kernel)
  obtain ⟨t, m', pre, part, post, inner, outer, a1, a2, a3, -, a4⟩ := C149_profile_edge_tabs_partial (cad := gapStrictCad) strictCad_assembles
    (shapes := [.face innerSquare []]) (outerOffset := some 1) (innerOffset := none) (r := 1) (tabs := ⟨3, 1, 1 / 2, none⟩)
    (by norm_num) (by norm_num) (tool := none) (before := []) (after := []) {} twoJob_ok (by rintro v ⟨⟩)
    (show ChainOK twoJob [faceEdgeTabs] from ⟨hr, fun _ _ => trivial⟩) rfl hc rfl rfl (by rintro n ⟨⟩) gapCad_keepsBelow
    (steps64_millimetres (by decide +kernel) (by decide +kernel)) (by decide +kernel) (fun _ _ _ h => (by cases h)) rfl (by decide +kernel)
    (face_outer (gapStrict_contours (by decide +kernel) ⟨innerSquare_contour64 (by decide +kernel), innerSquare_measured⟩))
    (by rintro o ⟨⟩)
  rw [show (twoJob.updateTool none).2.feed.value = 500 from by decide +kernel] at a4
  exact ⟨_, t, m', pre, part, post, inner, outer, hc, a1, a2, a3, a4⟩

/-- Those of `C149_profile_wire_tabs_partial`: the same face with three tabs around it. -/
example : ∃ j2 t m' pre part post inner outer, (twoJob.call faceWireTabs).2 = .ok j2 ∧
    j2.toGcode = .ok t ∧ runText {} t = some (m', pre ++ part ++ post) ∧ part.filter isMove = List.flatten inner ++ List.flatten outer ∧
    RunsTabProfiles64 gapStrictCad twoJob.top 500 1 (heightError 1010000) (1 / 4000) (some 1) (some (b64 (3 / 5))) (1 / 2)
      (fun b => NearMarks (5 / 10 ^ 6) 3 1 (b.map Edge.length).sum) (outerWires [.face innerSquare []]) outer := by
  obtain ⟨cs, hg, hr, hc⟩ := call_good (j := twoJob) (r := faceWireTabs) (by decide +kernel) rfl (by unfold SafeName; decide)
    (by decide +kernel)
  obtain ⟨t, m', pre, part, post, inner, outer, a1, a2, a3, -, a4⟩ := C149_profile_wire_tabs_partial (cad := gapStrictCad) strictCad_assembles
    (shapes := [.face innerSquare []]) (outerOffset := some 1) (innerOffset := none) (r := 1) (tabs := ⟨3, 1, 1 / 2⟩) (n := 3)
    (by norm_num) rfl (tool := none) (before := []) (after := []) {} twoJob_ok (by rintro v ⟨⟩)
    (show ChainOK twoJob [faceWireTabs] from ⟨hr, fun _ _ => trivial⟩) rfl hc rfl rfl (by rintro n ⟨⟩) gapCad_keepsBelow
    (steps64_millimetres (by decide +kernel) (by decide +kernel)) (by decide +kernel) (fun _ _ _ h => (by cases h)) rfl (by decide +kernel)
    (face_outer (gapStrict_contours (by decide +kernel) ⟨innerSquare_contour64 (by decide +kernel), innerSquare_zones64⟩))
    (by rintro o ⟨⟩)
  rw [show (twoJob.updateTool none).2.feed.value = 500 from by decide +kernel] at a4
  exact ⟨_, t, m', pre, part, post, inner, outer, hc, a1, a2, a3, a4⟩

/-- Those of `C150_profile_edge_tabs_partial`. -/
example : ∃ j2 t m' pre evs post, ∃ cs : List Motion, (twoJob.call faceEdgeTabs).2 = .ok j2 ∧
    j2.toGcode = .ok t ∧ runText {} t = some (m', pre ++ evs ++ post) ∧ List.Forall₂ Performs (evs.filter isMove) cs ∧
    ∀ e ∈ evs, isFeedMove e = true → KeepsOff squarePart (99 / 100) e := by
  obtain ⟨cs, hg, hr, hc⟩ := call_good (j := twoJob) (r := faceEdgeTabs) (by decide +kernel) rfl (by unfold SafeName; decide)
    (by decide +kernel)
  obtain ⟨t, m', pre, evs, post, cs', a1, a2, -, a4, a5⟩ := C150_profile_edge_tabs_partial (cad := gapStrictCad) strictCad_assembles
    strictCad_from (shapes := [.face innerSquare []]) (outerOffset := some 1) (innerOffset := none) (r := 1) (tabs := ⟨3, 1, 1 / 2, none⟩)
    (by norm_num) (by norm_num) (tool := none) (before := []) (after := []) {} twoJob_ok (by rintro v ⟨⟩)
    (show ChainOK twoJob [faceEdgeTabs] from ⟨hr, fun _ _ => trivial⟩) rfl hc rfl rfl (by rintro n ⟨⟩) gapCad_keepsBelow
    (steps64_millimetres (by decide +kernel) (by decide +kernel)) (by decide +kernel) (fun _ _ _ h => (by cases h)) rfl (by decide +kernel)
    (part := squarePart) (τ := 3 / 2000) (κ := 0) (s := 99 / 100) (fun _ _ => rfl) ⟨strictCad_tolerance.unit, strictCad_tolerance.same⟩
    (face_away (gapStrict_contours (by decide +kernel) ⟨innerSquare_contour64 (by decide +kernel), innerSquare_measured, innerSquare_shaped⟩))
    (by norm_num) (by rintro o (⟨⟨⟩⟩ | ⟨⟨⟩⟩); norm_num)
  exact ⟨_, t, m', pre, evs, post, cs', hc, a1, a2, a4, a5⟩

/-- Those of `C150_profile_wire_tabs_partial`. -/
example : ∃ j2 t m' pre evs post, ∃ cs : List Motion, (twoJob.call faceWireTabs).2 = .ok j2 ∧
    j2.toGcode = .ok t ∧ runText {} t = some (m', pre ++ evs ++ post) ∧ List.Forall₂ Performs (evs.filter isMove) cs ∧
    ∀ e ∈ evs, isFeedMove e = true → KeepsOff squarePart (99 / 100) e := by
  obtain ⟨cs, hg, hr, hc⟩ := call_good (j := twoJob) (r := faceWireTabs) (by decide +kernel) rfl (by unfold SafeName; decide)
    (by decide +kernel)
  obtain ⟨t, m', pre, evs, post, cs', a1, a2, -, a4, a5⟩ := C150_profile_wire_tabs_partial (cad := gapStrictCad) strictCad_assembles
    strictCad_from (shapes := [.face innerSquare []]) (outerOffset := some 1) (innerOffset := none) (r := 1) (tabs := ⟨3, 1, 1 / 2⟩) (n := 3)
    (by norm_num) rfl (tool := none) (before := []) (after := []) {} twoJob_ok (by rintro v ⟨⟩)
    (show ChainOK twoJob [faceWireTabs] from ⟨hr, fun _ _ => trivial⟩) rfl hc rfl rfl (by rintro n ⟨⟩) gapCad_keepsBelow
    (steps64_millimetres (by decide +kernel) (by decide +kernel)) (by decide +kernel) (fun _ _ _ h => (by cases h)) rfl (by decide +kernel)
    (part := squarePart) (τ := 3 / 2000) (κ := 0) (s := 99 / 100) (fun _ _ => rfl) ⟨strictCad_tolerance.unit, strictCad_tolerance.same⟩
    (face_away (gapStrict_contours (by decide +kernel) ⟨innerSquare_contour64 (by decide +kernel), innerSquare_zones64, innerSquare_shaped⟩))
    (by norm_num) (by rintro o (⟨⟨⟩⟩ | ⟨⟨⟩⟩); norm_num)
  exact ⟨_, t, m', pre, evs, post, cs', hc, a1, a2, a4, a5⟩

end CQ
