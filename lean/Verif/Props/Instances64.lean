import Verif.Props.ProfileClear64

/-! # Concrete cases of the theorems on profiles computed in floating point -/

namespace CQ

/-- `C143_wire_profile_partial`: the slot with the round end at depth 1 with a stepdown of 0.3 (rounded), on a kernel that rounds. -/
example : ∃ j2 t m' pre part post evss,
    (twoJob.call (wireProfileRequest64 gapCad [roundSlot] 1 (some (b64 (3 / 10))) none)).2 = .ok j2 ∧
    j2.toGcode = .ok t ∧ runText {} t = some (m', pre ++ part ++ post) ∧ part.filter isMove = List.flatten evss ∧
    List.Forall₂ (RunsProfile64 gapCad twoJob.top twoJob.feed.value 1 1 (heightError 1010000) (1 / 4000) (some (b64 (3 / 10))))
      [roundSlot] evss := by
  obtain ⟨cs, hg, hr, hc⟩ := call_good (j := twoJob) (r := wireProfileRequest64 gapCad [roundSlot] 1 (some (b64 (3 / 10))) none)
    (by decide +kernel) rfl (by unfold SafeName; decide) (by decide +kernel)
  obtain ⟨t, m', pre, part, post, evss, a1, a2, a3, a4⟩ := C143_wire_profile_partial (cad := gapCad) (wires := [roundSlot]) (offset := 1)
    (r := 1) (stepdown := some (b64 (3 / 10))) (tool := none) (before := []) (after := []) {} twoJob_ok (by rintro v ⟨⟩)
    (show ChainOK twoJob [_] from ⟨hr, fun _ _ => trivial⟩) rfl hc rfl rfl (by rintro n ⟨⟩) gapCad_keepsBelow
    (steps64_millimetres (by decide +kernel) (by decide +kernel)) (by decide +kernel) rfl (by decide +kernel) (by
      intro w hw r bases h1 h2 b hb
      cases List.mem_singleton.mp hw
      cases roundSlot_offset64 h2
      cases List.mem_singleton.mp hb
      have h : (2 : ℚ) * 1010000 = 2020000 := by norm_num
      rw [h]
      exact roundSlot_plain64 (by decide +kernel))
  exact ⟨_, t, m', pre, part, post, evss, hc, a1, a2, a3, a4⟩

/-- `C143_profile_partial`: the same slot as a wire given to `profile`. -/
example : ∃ j2 t m' pre part post outer,
    (twoJob.call (profileRequest64 gapCad [.wire roundSlot] (some 1) none (some (b64 (3 / 10))) none)).2 = .ok j2 ∧
    j2.toGcode = .ok t ∧ runText {} t = some (m', pre ++ part ++ post) ∧ part.filter isMove = List.flatten outer ∧
    RunsProfiles64 gapCad twoJob.top twoJob.feed.value 1 (heightError 1010000) (1 / 4000) (some 1) (some (b64 (3 / 10)))
      [roundSlot] outer ∧ FeedsDown (-1 / 1000) (b64 (3 / 10) + 1 / 4000 + 1 / 1000) part := by
  obtain ⟨cs, hg, hr, hc⟩ := call_good (j := twoJob)
    (r := profileRequest64 gapCad [.wire roundSlot] (some 1) none (some (b64 (3 / 10))) none)
    (by decide +kernel) rfl (by unfold SafeName; decide) (by decide +kernel)
  obtain ⟨t, m', pre, part, post, inner, outer, a1, a2, a3, a4, a5, a6⟩ := C143_profile_partial (cad := gapCad)
    (shapes := [.wire roundSlot]) (outerOffset := some 1) (innerOffset := none)
    (r := 1) (stepdown := some (b64 (3 / 10))) (tool := none) (before := []) (after := []) {} twoJob_ok (by rintro v ⟨⟩)
    (show ChainOK twoJob [_] from ⟨hr, fun _ _ => trivial⟩) rfl hc rfl rfl (by rintro n ⟨⟩) gapCad_keepsBelow
    (steps64_millimetres (by decide +kernel) (by decide +kernel)) (by decide +kernel) rfl (by decide +kernel) (by
      rintro _ ⟨⟩ w hw r bases h1 h2 b hb
      cases List.mem_singleton.mp hw
      cases roundSlot_offset64 h2
      cases List.mem_singleton.mp hb
      have h : (2 : ℚ) * 1010000 = 2020000 := by norm_num
      rw [h]
      exact ⟨roundSlot_plain64 (by decide +kernel), roundSlot_steady⟩) (by rintro _ ⟨⟩)
  cases a4
  exact ⟨_, t, m', pre, part, post, outer, hc, a1, a2, a3, a5, a6 _ rfl (by decide +kernel)⟩

/-- `C144_profile_partial`: the square is milled along the larger one, given to `profile` as a wire. -/
example : ∃ j2 t m' pre evs post, ∃ cs : List Motion,
    (twoJob.call (profileRequest64 gapCad [.wire innerSquare] (some 1) none (some (b64 (3 / 10))) none)).2 = .ok j2 ∧
    j2.toGcode = .ok t ∧ runText {} t = some (m', pre ++ evs ++ post) ∧ List.Forall₂ Performs (evs.filter isMove) cs ∧
    ∀ e ∈ evs, isFeedMove e = true → KeepsOff squarePart (99 / 100) e := by
  obtain ⟨cs, hg, hr, hc⟩ := call_good (j := twoJob)
    (r := profileRequest64 gapCad [.wire innerSquare] (some 1) none (some (b64 (3 / 10))) none)
    (by decide +kernel) rfl (by unfold SafeName; decide) (by decide +kernel)
  obtain ⟨t, m', pre, evs, post, cs', a1, a2, a3, a4, a5⟩ := C144_profile_partial (cad := gapCad)
    (shapes := [.wire innerSquare]) (outerOffset := some 1) (innerOffset := none) (r := 1) (stepdown := some (b64 (3 / 10)))
    (tool := none) (before := []) (after := []) {}
    twoJob_ok (by rintro v ⟨⟩) (show ChainOK twoJob [_] from ⟨hr, fun _ _ => trivial⟩) rfl hc rfl rfl (by rintro n ⟨⟩)
    gapCad_keepsBelow (steps64_millimetres (by decide +kernel) (by decide +kernel)) (by decide +kernel) rfl (by decide +kernel)
    (show extractWires _ = .ok ([innerSquare], []) from rfl)
    (part := squarePart) (τ := 3 / 2000) (κ := 0) (s := 99 / 100) (fun _ _ => rfl)
    ⟨strictCad_tolerance.unit, strictCad_tolerance.same⟩
    (by
      rintro w o (⟨hw, ⟨⟩⟩ | ⟨-, ⟨⟩⟩)
      cases List.mem_singleton.mp hw
      refine ⟨?_, ?_⟩
      · intro r bases h1 h2 b hb
        cases innerSquare_offset64 h2
        cases List.mem_singleton.mp hb
        exact innerSquare_plain64 (by decide +kernel)
      · change OffsetsSoundWithin gapCad (innerSquare.map (Edge.toLocal twoJob.top)) (1 * 1) _ ∧
          OffsetsAwayWithin gapCad squarePart (innerSquare.map (Edge.toLocal twoJob.top)) (1 * 1) _ _
        rw [innerSquare_local, one_mul]
        exact ⟨innerSquare_sound64 1 _, innerSquare_away64⟩) (by norm_num) (by rintro o (⟨⟨⟩⟩ | ⟨⟨⟩⟩); norm_num)
  exact ⟨_, t, m', pre, evs, post, cs', hc, a1, a2, a4, a5⟩

end CQ
