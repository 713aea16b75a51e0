import Verif.Props.Heights
import Verif.Props.ProfileStep
import Verif.Props.ShiftExample
import Verif.Props.Machining

/-! # C126: level contours, surfacing, and instances -/

namespace CQ

theorem stepLayers_levels {cad : Cad} (hb : BoxMoves cad) {top : Frame} {b : List Edge} {s : ℚ} (hlevel : ∀ e ∈ b, (edgeStartPoint e).z = cad.zmin b)
    {n i : ℕ} {ls : List (List Edge)} (h : stepLayers cad top b s n i = .ok ls) :
    ∀ w ∈ ls, ∀ e ∈ w, (edgeStartPoint e).z < 0 := by
  induction n generalizing i ls with
  | zero => simp [stepLayers] at h
  | succ n ih =>
    rw [stepLayers] at h
    split at h
    · cases h; simp
    · rename_i hz
      split at h
      · obtain ⟨rest, h1, h⟩ := bind_ok.mp h
        cases h
        intro w hw e he
        rcases List.mem_cons.mp hw with rfl | hw
        · obtain ⟨e0, he0, rfl⟩ := List.mem_map.mp he
          have hne : b ≠ [] := by rintro rfl; simp at he0
          rw [hb _ _ _ hne (raised_up _ b), not_le] at hz
          rw [edgeStart_up]
          change (edgeStartPoint e0).z + _ < 0
          rw [hlevel e0 he0]
          linarith
        · exact ih h1 w hw e he
      · cases h; simp

/-- Level contours at or below the surface start below every positive height, with any stepdown. -/
theorem startsBelow_level {cad : Cad} (hb : BoxMoves cad) {top : Frame} {offset : ℚ} {sd : Option ℚ} {wire : List Edge} {S : ℚ} (hS : 0 < S)
    (h : ∀ r bases, offsetWire cad (wire.map (Edge.toLocal top)) (offset * r) = .ok bases →
      ∀ b ∈ bases, cad.zmin b ≤ 0 ∧ ∀ e ∈ b, (edgeStartPoint e).z = cad.zmin b) : StartsBelow cad top offset sd none S wire := by
  intro j ws ht hws w hw e he
  subst ht
  have he := List.mem_of_mem_head? he
  unfold profileWires at hws
  cases hr : j.toolRadius with
  | none => rw [hr] at hws; cases hws
  | some r =>
    rw [hr] at hws
    obtain ⟨bases, h1, hws⟩ := bind_ok.mp hws
    obtain ⟨ls, h2, hws⟩ := bind_ok.mp hws
    cases hws
    obtain ⟨l, hl, hwl⟩ := List.mem_flatten.mp hw
    obtain ⟨b, hbm, hf⟩ := mapE_mem h2 hl
    obtain ⟨h3, h4⟩ := h r bases h1 b hbm
    obtain ⟨layers, h5, hf⟩ := bind_ok.mp hf
    cases hf
    have base : ∀ e ∈ b, (edgeStartPoint e).z < S := fun e he => by rw [h4 e he]; linarith
    unfold profileLayers at h5
    cases sd with
    | none =>
      cases h5
      rw [List.mem_singleton] at hwl
      subst hwl
      exact base e he
    | some s =>
      simp only at h5
      split at h5
      · cases h5
        rw [List.mem_singleton] at hwl
        subst hwl
        exact base e he
      · obtain ⟨steps, h6, h5⟩ := bind_ok.mp h5
        cases h5
        rw [List.mem_reverse] at hwl
        rcases List.mem_cons.mp hwl with rfl | hwl
        · exact base e he
        · have := stepLayers_levels hb h4 h6 w hwl e he
          linarith

/-- C126 does not hold for surfacing when the safe height changes: the first cut of each piece is a ramp that starts at the safe
height, so another safe height cuts another way. -/
theorem C126_violated_surface : ∃ eng k args oo io bs, ∃ j jf jf' : Job, ∃ S' : ℚ, 0 < j.opSafeHeight ∧ 0 < S' ∧ j.operations = [] ∧
    j.chain [surface3dRequest eng k args oo io bs] = .ok jf ∧
    (j.atHeights j.rapidHeight S' []).chain [surface3dRequest eng k args oo io bs] = .ok jf' ∧
    (∃ c c', (jf.motions.filter (fun c => c.kind.isFeed)).head? = some c ∧ (jf'.motions.filter (fun c => c.kind.isFeed)).head? = some c' ∧
      c.kind = .cut ∧ c'.kind = .cut ∧ c.fin = c'.fin ∧ c.start.x ≠ c.fin.x ∧ c.start.z ≠ c'.start.z) ∧
    ¬ SameCuts jf.motions jf'.motions := by
  have h : (match demoInit.chain [surface3dRequest hillEngine idleKernel hillArgs (-1, 0) (some (1, 0)) [hillFace]],
      (demoInit.atHeights demoInit.rapidHeight 7 []).chain [surface3dRequest hillEngine idleKernel hillArgs (-1, 0) (some (1, 0)) [hillFace]] with
    | .ok jf, .ok jf' => (match (jf.motions.filter (fun c => c.kind.isFeed)).head?, (jf'.motions.filter (fun c => c.kind.isFeed)).head? with
      | some c, some c' => decide (c.kind = .cut ∧ c'.kind = .cut ∧ c.fin = c'.fin ∧ c.start.x ≠ c.fin.x ∧ c.start.z ≠ c'.start.z)
      | _, _ => false)
    | _, _ => false) = true := by decide +kernel
  cases h1 : demoInit.chain [surface3dRequest hillEngine idleKernel hillArgs (-1, 0) (some (1, 0)) [hillFace]] with
  | error e => rw [h1] at h; cases h
  | ok jf =>
    cases h2 : (demoInit.atHeights demoInit.rapidHeight 7 []).chain [surface3dRequest hillEngine idleKernel hillArgs (-1, 0) (some (1, 0)) [hillFace]] with
    | error e => rw [h1, h2] at h; cases h
    | ok jf' =>
      rw [h1, h2] at h
      simp only at h
      refine ⟨hillEngine, idleKernel, hillArgs, (-1, 0), some (1, 0), [hillFace], demoInit, jf, jf', 7, by decide +kernel, by norm_num, rfl,
        h1, h2, ?_⟩
      cases hl : (jf.motions.filter (fun c => c.kind.isFeed)).head? with
      | none => rw [hl] at h; cases h
      | some c =>
        cases hl' : (jf'.motions.filter (fun c => c.kind.isFeed)).head? with
        | none => rw [hl, hl'] at h; cases h
        | some c' =>
          rw [hl, hl'] at h
          have hd := of_decide_eq_true h
          refine ⟨⟨c, c', rfl, rfl, hd⟩, fun hs => ?_⟩
          unfold SameCuts at hs
          cases hs' : jf.motions.filter (fun c => c.kind.isFeed) with
          | nil => rw [hs'] at hl; cases hl
          | cons a l =>
            cases hs'' : jf'.motions.filter (fun c => c.kind.isFeed) with
            | nil => rw [hs''] at hl'; cases hl'
            | cons a' l' =>
              rw [hs'] at hl hs
              rw [hs''] at hl' hs
              cases hl
              cases hl'
              cases hs with
              | cons hc _ =>
                refine hd.2.2.2.2 (hc.startZ ?_).symm
                rw [hd.1]
                decide

/-! ### Instances -/

/-- The square, profiled with stepdown 1, at any two positive safe heights. -/
theorem placedSquare_startsBelow {S : ℚ} (hS : 0 < S) : StartsBelow flatCad Frame.xy 1 (some 1) none S placedSquare := by
  refine startsBelow_level flatCad_boxMoves hS ?_
  intro r bases h b hb
  have hl : ((placedSquare.map (Edge.toLocal Frame.xy)).all (fun e => decide ((edgeStartPoint e).z = -6)) &&
    decide (flatCad.zmin (placedSquare.map (Edge.toLocal Frame.xy)) = -6)) = true := by decide +kernel
  have hbs : bases = [placedSquare.map (Edge.toLocal Frame.xy)] := by
    have : offsetWire flatCad (placedSquare.map (Edge.toLocal Frame.xy)) (1 * r) = .ok [placedSquare.map (Edge.toLocal Frame.xy)] := by
      have hv : ∀ w, offsetValid flatCad w = true := fun w => by simp only [offsetValid, flatCad]; norm_num
      have ht : tryOffset flatCad (placedSquare.map (Edge.toLocal Frame.xy)) (1 * r) = .ok [placedSquare.map (Edge.toLocal Frame.xy)] := rfl
      unfold offsetWire
      rw [ht]
      simp only [ok_bind, List.filter, hv]
      rfl
    rw [this] at h
    cases h
    rfl
  subst hbs
  rw [List.mem_singleton] at hb
  subst hb
  obtain ⟨h1, h2⟩ := (Bool.and_eq_true _ _).mp hl
  have h2 := of_decide_eq_true h2
  refine ⟨by rw [h2]; norm_num, fun e he => ?_⟩
  rw [h2]
  exact of_decide_eq_true (List.all_eq_true.mp h1 e he)

/-- A pocket, a profile and a drilling at the default heights and at other ones. -/
theorem heights_example (R : ℚ) {S' : ℚ} (hS : 0 < S') : Alike (fun i i' => SameCuts i.motions i'.motions)
    (placedJob.chain [pocketPlacedRequest boxEngine exactEq levelBox 50 [⟨placedSquare, []⟩] [] {} none,
      profileRequest flatCad [.wire placedSquare] (some 1) none (some 1) none none, drillRequest drillCenter (some drillObjs) (some 3) none])
    ((placedJob.atHeights R S' []).chain [pocketPlacedRequest boxEngine exactEq levelBox 50 [⟨placedSquare, []⟩] [] {} none,
      profileRequest flatCad [.wire placedSquare] (some 1) none (some 1) none none, drillRequest drillCenter (some drillObjs) (some 3) none]) := by
  refine C126_program_partial rfl (fun r hr => ?_)
  have h0 : 0 < placedJob.opSafeHeight := by decide +kernel
  simp only [List.mem_cons, List.not_mem_nil, or_false] at hr
  rcases hr with rfl | rfl | rfl
  · exact C126_pocket_partial _ _ _ _ _ _ _ _ _ h0 hS
  · refine C126_profile_partial (fun os is he => ?_)
    cases he
    refine ⟨?_, by rintro o ⟨⟩⟩
    rintro o ⟨⟩ w hw
    rw [List.mem_singleton] at hw
    subst hw
    exact ⟨placedSquare_startsBelow h0, placedSquare_startsBelow hS⟩
  · exact C126_drill_partial ..

/-- Both chains are accepted, cut something, and do differ in their rapid moves. -/
example : (match placedJob.chain [pocketPlacedRequest boxEngine exactEq levelBox 50 [⟨placedSquare, []⟩] [] {} none,
      profileRequest flatCad [.wire placedSquare] (some 1) none (some 1) none none, drillRequest drillCenter (some drillObjs) (some 3) none],
    (placedJob.atHeights 33 7 []).chain [pocketPlacedRequest boxEngine exactEq levelBox 50 [⟨placedSquare, []⟩] [] {} none,
      profileRequest flatCad [.wire placedSquare] (some 1) none (some 1) none none, drillRequest drillCenter (some drillObjs) (some 3) none] with
    | .ok j, .ok j' => decide (10 ≤ (j.motions.filter (fun c => c.kind.isFeed)).length ∧ j.motions ≠ j'.motions)
    | _, _ => false) = true := by decide +kernel

/-- The two jobs run on the machine. -/
example : ∃ t t' m1 m1' a b c a' b' c' evss evss', runText {} t = some (m1, a :: (evss.flatten ++ [b, c])) ∧
    runText {} t' = some (m1', a' :: (evss'.flatten ++ [b', c'])) ∧ evss.length = 1 ∧
    List.Forall₂ (fun evs evs' => List.Forall₂ MovesAlike (evs.filter isFeedMove) (evs'.filter isFeedMove)) evss evss' := by
  obtain ⟨cs, -, hr, hc⟩ := call_good (j := placedJob) (r := pocketPlacedRequest boxEngine exactEq levelBox 50 [⟨placedSquare, []⟩] [] {} none)
    rfl rfl (by unfold SafeName; decide) (by decide +kernel)
  obtain ⟨cs', -, hr', hc'⟩ := call_good (j := placedJob.atHeights 33 7 [])
    (r := pocketPlacedRequest boxEngine exactEq levelBox 50 [⟨placedSquare, []⟩] [] {} none)
    rfl rfl (by unfold SafeName; decide) (by decide +kernel)
  have hchain : placedJob.chain [pocketPlacedRequest boxEngine exactEq levelBox 50 [⟨placedSquare, []⟩] [] {} none] =
      .ok (placedJob.addOperation "Pocket".toList (cs.map .motion)) := by
    simp only [Job.chain, hc]
    rfl
  obtain ⟨jf', t, t', m1, m1', a, b, c, a', b', c', evss, evss', -, -, -, q1, q2, q3, -, -, q4⟩ :=
    C126_machine_partial {} {} (j0 := placedJob) (R := 33) (S' := 7)
      (rs := [pocketPlacedRequest boxEngine exactEq levelBox 50 [⟨placedSquare, []⟩] [] {} none])
      ⟨rfl, by unfold SafeName; decide, numOK_int _, by rintro v ⟨⟩⟩
      (by rintro v ⟨⟩) ⟨hr, fun _ _ => trivial⟩ ⟨hr', fun _ _ => trivial⟩
      (fun r h => by
        rw [List.mem_singleton] at h
        subst h
        exact C126_pocket_partial _ _ _ _ _ _ _ _ _ (by decide +kernel) (by norm_num)) hchain rfl rfl (by rintro n ⟨⟩) (by rintro n ⟨⟩)
  exact ⟨t, t', m1, m1', a, b, c, a', b', c', evss, evss', q1, q2, q3, q4⟩

end CQ
