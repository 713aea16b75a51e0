import Verif.Props.AddsPasses
import Verif.Props.HeightsExample
import Verif.Props.ProfileRun

/-! # C127: a counterexample and instances -/

namespace CQ

theorem MoreCuts.exists {cs cs' : List Motion} (h : MoreCuts cs cs') {c : Motion} (hc : c ∈ cs.filter (fun c => c.kind.isFeed)) :
    ∃ c' ∈ cs'.filter (fun c => c.kind.isFeed), SameCut c c' := by
  unfold MoreCuts at h
  generalize cs.filter (fun c => c.kind.isFeed) = l at h hc
  generalize cs'.filter (fun c => c.kind.isFeed) = l' at h
  induction h with
  | nil => simp at hc
  | @cons a b l1 l2 hr _ ih =>
    rcases List.mem_cons.mp hc with rfl | hc
    · exact ⟨b, by simp, hr⟩
    · obtain ⟨c', h1, h2⟩ := ih hc
      exact ⟨c', by simp [h1], h2⟩
  | cons_right _ ih =>
    obtain ⟨c', h1, h2⟩ := ih hc
    exact ⟨c', by simp [h1], h2⟩

/-- C127 is false for profiles of several contours when the kernel's search from one contour to the next finds a point inside an
edge: without stepdown the pass at full depth runs past its contour (see `C101_violated`), with a stepdown it is the pass above that
does. -/
theorem C127_violated_profile : ∃ jf jf' : Job, 0 < twoJob.opSafeHeight ∧
    twoJob.chain [wireProfileRequest overshootCad [demoSlot] 1 none none none] = .ok jf ∧
    twoJob.chain [wireProfileRequest overshootCad [demoSlot] 1 (some (1 / 2)) none none] = .ok jf' ∧
    (∃ c ∈ jf.motions, c.kind = .cut ∧ c.fin = AddrVec.fromVec ⟨30, 0, -1⟩ ∧ ∀ c' ∈ jf'.motions, c'.fin ≠ c.fin) ∧
    ¬ MoreCuts jf.motions jf'.motions := by
  have h : (match twoJob.chain [wireProfileRequest overshootCad [demoSlot] 1 none none none],
      twoJob.chain [wireProfileRequest overshootCad [demoSlot] 1 (some (1 / 2)) none none] with
    | .ok jf, .ok jf' => jf.motions.any (fun c => decide (c.kind = .cut ∧ c.fin = AddrVec.fromVec ⟨30, 0, -1⟩ ∧ ∀ c' ∈ jf'.motions, c'.fin ≠ c.fin))
    | _, _ => false) = true := by decide +kernel
  cases h1 : twoJob.chain [wireProfileRequest overshootCad [demoSlot] 1 none none none] with
  | error e => rw [h1] at h; cases h
  | ok jf =>
    cases h2 : twoJob.chain [wireProfileRequest overshootCad [demoSlot] 1 (some (1 / 2)) none none] with
    | error e => rw [h1, h2] at h; cases h
    | ok jf' =>
      rw [h1, h2] at h
      obtain ⟨c, hc, hd⟩ := List.any_eq_true.mp h
      have hd := of_decide_eq_true hd
      refine ⟨jf, jf', by decide +kernel, rfl, rfl, ⟨c, hc, hd⟩, fun hm => ?_⟩
      obtain ⟨c', hc', hs⟩ := hm.exists (c := c) (List.mem_filter.mpr ⟨hc, by rw [hd.1]; rfl⟩)
      exact hd.2.2 c' (List.mem_filter.mp hc').1 hs.fin

/-! ### Instances -/

/-- The square, profiled with stepdown 1. -/
theorem placedSquare_passes {S : ℚ} (hS : 0 < S) : PlainPasses flatCad Frame.xy 1 (some 1) none S placedSquare := by
  intro j ws ht h w hw
  refine ⟨?_, placedSquare_startsBelow hS j ws ht h w hw, ?_⟩
  · unfold profileWires at h
    cases hr : j.toolRadius with
    | none => rw [hr] at h; cases h
    | some r =>
      rw [hr] at h
      obtain ⟨bases, h1, h⟩ := bind_ok.mp h
      obtain ⟨ls, h2, h⟩ := bind_ok.mp h
      cases h
      obtain ⟨l, hl, hwl⟩ := List.mem_flatten.mp hw
      obtain ⟨b, hb, hf⟩ := mapE_mem h2 hl
      have hbs : bases = [placedSquare.map (Edge.toLocal j.top)] := by
        have hv : ∀ w, offsetValid flatCad w = true := fun w => by simp only [offsetValid, flatCad]; norm_num
        have ht : tryOffset flatCad (placedSquare.map (Edge.toLocal j.top)) (1 * r) = .ok [placedSquare.map (Edge.toLocal j.top)] := rfl
        unfold offsetWire at h1
        rw [ht] at h1
        simp only [ok_bind, List.filter, hv] at h1
        cases h1
        rfl
      subst hbs
      rw [List.mem_singleton] at hb
      subst hb
      obtain ⟨layers, h5, hf⟩ := bind_ok.mp hf
      cases hf
      have hlen : ∀ v ∈ l, v.length = 4 := by
        unfold profileLayers at h5
        simp only [one_ne_zero, if_false] at h5
        obtain ⟨steps, h6, h5⟩ := bind_ok.mp h5
        cases h5
        have key : ∀ n i ss, stepLayers flatCad j.top (placedSquare.map (Edge.toLocal j.top)) 1 n i = .ok ss → ∀ v ∈ ss, v.length = 4 := by
          intro n
          induction n with
          | zero => intro i ss h; rw [stepLayers] at h; cases h
          | succ n ih =>
            intro i ss h
            rw [stepLayers] at h
            split at h
            · cases h; simp
            · split at h
              · obtain ⟨rest, h7, h⟩ := bind_ok.mp h
                cases h
                intro v hv
                rcases List.mem_cons.mp hv with rfl | hv
                · rfl
                · exact ih _ _ h7 v hv
              · cases h; simp
        intro v hv
        rw [List.mem_reverse] at hv
        rcases List.mem_cons.mp hv with rfl | hv
        · rfl
        · exact key _ _ _ h6 v hv
      rintro rfl
      exact absurd (hlen _ hwl) (by simp)
  · rintro v x ⟨⟩

/-- A pocket, a profile and a drilling, with and without stepdowns. -/
theorem passes_example : List.Forall₂ (AddsOnly placedJob.top placedJob.opSafeHeight)
    [pocketPlacedRequest boxEngine exactEq levelBox 50 [⟨placedSquare, []⟩] [] {} none,
      profileRequest flatCad [.wire placedSquare] (some 1) none none none none, drillRequest drillCenter (some drillObjs) (some 3) none]
    [pocketPlacedRequest boxEngine exactEq levelBox 50 [⟨placedSquare, []⟩] [] { stepdown := some 2 } none,
      profileRequest flatCad [.wire placedSquare] (some 1) none (some 1) none none, drillRequest drillCenter (some drillObjs) (some 3) none] := by
  have h0 : 0 < placedJob.opSafeHeight := by decide +kernel
  refine .cons (C127_pocket_partial boxEngine exactEq levelBox 50 [⟨placedSquare, []⟩] [] { stepdown := some 2 } none _ h0)
    (.cons ?_ (.cons (C126_drill_partial ..).adds .nil))
  refine C127_profile_partial (fun os is he => ?_)
  cases he
  refine ⟨?_, by rintro o ⟨⟩⟩
  rintro o ⟨⟩ w hw
  rw [List.mem_singleton] at hw
  subst hw
  exact placedSquare_passes h0

/-- Both chains are accepted; the stepdowns do add feed moves. -/
example : (match placedJob.chain [pocketPlacedRequest boxEngine exactEq levelBox 50 [⟨placedSquare, []⟩] [] {} none,
      profileRequest flatCad [.wire placedSquare] (some 1) none none none none, drillRequest drillCenter (some drillObjs) (some 3) none],
    placedJob.chain [pocketPlacedRequest boxEngine exactEq levelBox 50 [⟨placedSquare, []⟩] [] { stepdown := some 2 } none,
      profileRequest flatCad [.wire placedSquare] (some 1) none (some 1) none none, drillRequest drillCenter (some drillObjs) (some 3) none] with
    | .ok j, .ok j' => decide (10 ≤ (j.motions.filter (fun c => c.kind.isFeed)).length ∧
        (j.motions.filter (fun c => c.kind.isFeed)).length + 20 ≤ (j'.motions.filter (fun c => c.kind.isFeed)).length)
    | _, _ => false) = true := by decide +kernel

/-- The two pockets run on the machine. -/
example : ∃ t t' m1 m1' a b c a' b' c' evss evss', runText {} t = some (m1, a :: (evss.flatten ++ [b, c])) ∧
    runText {} t' = some (m1', a' :: (evss'.flatten ++ [b', c'])) ∧ evss.length = 1 ∧
    List.Forall₂ (fun evs evs' => List.SublistForall₂ MovesAlike (evs.filter isFeedMove) (evs'.filter isFeedMove)) evss evss' := by
  obtain ⟨cs, -, hr, hc⟩ := call_good (j := placedJob) (r := pocketPlacedRequest boxEngine exactEq levelBox 50 [⟨placedSquare, []⟩] [] {} none)
    rfl rfl (by unfold SafeName; decide) (by decide +kernel)
  obtain ⟨cs', -, hr', hc'⟩ := call_good (j := placedJob)
    (r := pocketPlacedRequest boxEngine exactEq levelBox 50 [⟨placedSquare, []⟩] [] { stepdown := some 2 } none)
    rfl rfl (by unfold SafeName; decide) (by decide +kernel)
  have hchain : placedJob.chain [pocketPlacedRequest boxEngine exactEq levelBox 50 [⟨placedSquare, []⟩] [] { stepdown := some 2 } none] =
      .ok (placedJob.addOperation "Pocket".toList (cs'.map .motion)) := by
    simp only [Job.chain, hc']
    rfl
  obtain ⟨jf', t, t', m1, m1', a, b, c, a', b', c', evss, evss', -, -, -, q1, q2, q3, -, -, q4⟩ :=
    C127_machine_partial {} {} (j0 := placedJob)
      (rs := [pocketPlacedRequest boxEngine exactEq levelBox 50 [⟨placedSquare, []⟩] [] {} none])
      (rs' := [pocketPlacedRequest boxEngine exactEq levelBox 50 [⟨placedSquare, []⟩] [] { stepdown := some 2 } none])
      ⟨rfl, by unfold SafeName; decide, numOK_int _, by rintro v ⟨⟩⟩
      (by rintro v ⟨⟩) ⟨hr, fun _ _ => trivial⟩ ⟨hr', fun _ _ => trivial⟩
      (.cons (C127_pocket_partial boxEngine exactEq levelBox 50 [⟨placedSquare, []⟩] [] { stepdown := some 2 } none _ (by decide +kernel)) .nil)
      hchain rfl rfl (by rintro n ⟨⟩) (by rintro n ⟨⟩)
  exact ⟨t, t', m1, m1', a, b, c, a', b', c', evss, evss', q1, q2, q3, q4⟩

end CQ
