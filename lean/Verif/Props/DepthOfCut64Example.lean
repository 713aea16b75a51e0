import Verif.Props.DepthOfCut64
import Verif.Props.Gouge64Example

/-! # C142: instances -/

namespace CQ

theorem intMoat_contains {K : List IPt → Prop} : ContainsRight (OnInts K) intMoat.scaled := by
  intro o r _ _ h
  cases h

/-- The hypotheses of `C142_pocket`: the pocket of C113 in passes of 0.25 mm. -/
example : ∃ j2 t m' pre part post regions step, (twoJob.call offPocket64).2 = .ok j2 ∧ j2.toGcode = .ok t ∧
    runText {} t = some (m', pre ++ part ++ post) ∧ |step - 2| ≤ 1 / 1000 ∧
    ∀ earlier e later, part = earlier ++ e :: later → isFeedMove e = true → ∃ r ∈ regions, ∃ z, z ≤ 0 ∧
      (∃ p q, FeedsNear (1 / 2000 + 2 ^ (-28 : ℤ)) p q (rnd 3 z) e) ∧
      (-(1 / 4) - 1 / 100000 ≤ z ∨ ∃ d, d ≤ z + 1 / 4 + 1 / 2000 + 1 / 100000 ∧
        ClearedAt d (step + 2 * (1 / 2 + 3 * resolution) + 1 / 1000 + 2 ^ (-27 : ℤ)) (1 / 2 + 3 * resolution) regions r earlier) := by
  obtain ⟨cs, -, hr, h⟩ := call_good (j := twoJob) (r := offPocket64) rfl rfl (by unfold SafeName; decide) (by decide +kernel)
  obtain ⟨t, m', pre, part, post, d, outer, inner, ao, ai, step, faces, avoidFaces, areas, avoids, regions, h1, h2, h3, o1, o2, o3, -, o5, h4,
      h5, h6, h7, -, h8⟩ :=
    C142_pocket (lib := demoLib) (before := []) (after := []) (s := 1 / 4) intMoat_engine intMoat_boxes intMoat_contains squaresWell_b64 rfl {}
      twoJob_ok (by rintro v ⟨⟩) ⟨hr, fun _ _ => trivial⟩ rfl h rfl rfl (by rintro n ⟨⟩) (by decide +kernel) rfl quarter_double
      (by norm_num) (by norm_num)
  cases h3
  have p1 := near_of (m := -1) (d := 0) (by simpa [offsetParts] using o1) (by norm_num) (by norm_num)
  have p5 := near_of (m := 2) (d := 0) (by simpa [offsetParts] using o5) (by norm_num) (by norm_num)
  norm_num at p5
  refine ⟨_, t, m', pre, part, post, regions, step, h, h1, h2, by norm_num; exact p5, fun earlier e later he hf => ?_⟩
  rw [abs_le] at p1 p5
  norm_num at p1 p5
  cases h4 with
  | cons a b =>
  cases b
  cases flatFace_fun a off_flat
  obtain ⟨r, hr', contours, z, -, -, k2, ⟨p, q, -, -, k3⟩, k4⟩ := h8 (by linarith) 40 (by
      rw [max_eq_right (by linarith)]; norm_num) (by
      intro f hf
      rw [List.mem_singleton] at hf
      subst hf
      exact ⟨off_box, by norm_num [offPath]⟩) earlier e later he hf
  exact ⟨r, hr', z, k2, ⟨p, q, k3⟩, k4⟩

/-- The passes are at the depths 0.25, 0.5, 0.75 and 1; with a stepdown of -0.25 there is only the last one. -/
example : (match pocketClipper64 demoLib intMoat.scaled 9 sixJob64 [plainPath64] [] (-3) 3 3 (-3) 6 (some (1 / 4)) with
    | .ok cs => decide (((cs.filter (fun c => decide (c.kind = .plungeCut))).map (fun c => c.fin.z)).dedup =
        [some (-1 / 4), some (-1 / 2), some (-3 / 4), some (-1)])
    | .error _ => false) = true := by decide +kernel

example : (match pocketClipper64 demoLib intMoat.scaled 9 sixJob64 [plainPath64] [] (-3) 3 3 (-3) 6 (some (-1 / 4)) with
    | .ok cs => decide (((cs.filter (fun c => decide (c.kind = .plungeCut))).map (fun c => c.fin.z)).dedup = [some (-1)])
    | .error _ => false) = true := by
  rw [C142_negative (by norm_num) ⟨-1, -2, by norm_num, by norm_num, by norm_num⟩ (by
    intro f hf
    rw [List.mem_singleton] at hf
    subst hf
    exact ⟨-1, 0, by norm_num, by norm_num, by norm_num [plainPath64]⟩)]
  decide +kernel

end CQ
