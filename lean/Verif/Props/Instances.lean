import Verif.Props.Gouge64Example
import Verif.Props.OrderExample
import Verif.Props.UnitsExample
import Verif.Props.Commands

/-! # Instances of theorems that have none in their own file -/

namespace CQ

/-- C06: a machine at (1, 2), 5 mm up, plunges by 8 mm. -/
example : ∃ t m' ev, ({ kind := .plungeCut, start := ⟨some 1, some 2, some 5⟩, fin := ⟨some 1, some 2, some (-3)⟩
                        feed := some (.int 50) } : Motion).str = .ok t ∧
    runText { absDist := true, pos := ⟨some 1, some 2, some 5⟩ } t = some (m', [ev]) ∧ m'.pos.x = some 1 ∧ m'.pos.y = some 2 := by
  obtain ⟨t, m', ev, h1, h2, h3, h4⟩ := C06_machine_vertical .plungeCut { z := some (-3) } ⟨some 1, some 2, some 5⟩ (some (.int 50)) _
    { absDist := true, pos := ⟨some 1, some 2, some 5⟩ } (.inr (.inr rfl)) rfl (goodMove_ok (by decide +kernel)) rfl rfl
    (by decide +kernel) (by decide +kernel)
  exact ⟨t, m', ev, h1, h2, h3, h4⟩

/-- C82: pocketing the square of side 6 and depth 1 never goes below that depth. -/
example : ∃ cs, squarePocket.gen twoJob = .ok cs ∧ MovesAbove (-1) cs := by
  obtain ⟨cs, hg, -, -⟩ := call_good (j := twoJob) (r := squarePocket) rfl rfl (by unfold SafeName; decide) (by decide +kernel)
  refine ⟨cs, hg, C82_pocket hg ?_ ?_ ?_ ?_ ?_⟩
  · intro f hf
    rw [List.mem_singleton] at hf
    subst hf
    decide +kernel
  all_goals decide +kernel

/-- C89: the point (3, 2) of the square of side 6 is under the tool of diameter 2 at some moment. -/
example : ∃ cs, squarePocket.gen twoJob = .ok cs ∧ ∃ c ∈ cs, ∃ q, CutsThrough (-1) q c ∧ sqDist ⟨3, 2⟩ q ≤ 1 := by
  obtain ⟨cs, hg, -, -⟩ := call_good (j := twoJob) (r := squarePocket) rfl rfl (by unfold SafeName; decide) (by decide +kernel)
  obtain ⟨d, faces, avoidFaces, areas, avoids, regions, h1, h2, h3, h4, h5, h6, h7⟩ :=
    C89_under_tool boxEngine_near boxEngine_kind boxEngine_shrinks boxEngine_noRepeats (j := twoJob) (show pocket boxEngine exactEq 9 [squareFace] [] {} twoJob = .ok cs from hg) (by decide +kernel)
  cases h1
  cases h3
  cases h5
  cases h2 with
  | cons a b =>
  cases b
  cases squarePocket_faces a
  cases h4 with
  | cons a b =>
  cases b
  rw [if_neg (by simp), show offsetDistance (2 / 2) (-1) ({} : PocketArgs).outerOffset = -1 by norm_num [offsetDistance]] at a
  cases squarePocket_areas a
  have hb : (match buildPocketOps boxEngine [⟨rect 1 1 5 5, [], -1⟩] [] with
    | .ok rs => decide (rs = [⟨rect 1 1 5 5, [], -1⟩]) | .error _ => true) = true := by decide +kernel
  rw [show buildPocketOps boxEngine [⟨rect 1 1 5 5, [], -1⟩] [] = .ok regions from h6] at hb
  have hb := of_decide_eq_true hb
  subst hb
  obtain ⟨c, hc, q, hq, hd⟩ := h7 (by norm_num [offsetDistance]) (by norm_num [offsetDistance]) _ (List.mem_singleton.mpr rfl) ⟨3, 2⟩
    ⟨(inside_rect (by norm_num) (by norm_num) _).mpr (by norm_num), by simp⟩ (by simp)
  exact ⟨cs, hg, c, hc, q, hq, hd.trans (by norm_num)⟩

/-! ### Chains of calls -/

/-- Every call of the chain is accepted and makes printable moves. -/
def chainCheck : Job → List Request → Bool
  | _, [] => true
  | j, r :: rs =>
      (match r.gen (j.updateTool r.tool).2 with | .ok cs => cs.all goodMove | .error _ => false) &&
      match (j.call r).2 with | .ok j' => chainCheck j' rs | .error _ => false

theorem chain_checked {rs : List Request} (hn : ∀ r ∈ rs, SafeName r.opName ∧ ∀ t, r.tool = some t → ToolOK t) {j : Job}
    (h : chainCheck j rs = true) : ChainOK j rs ∧ ∃ jf, j.chain rs = .ok jf := by
  induction rs generalizing j with
  | nil => exact ⟨trivial, j, rfl⟩
  | cons r rs ih =>
    rw [chainCheck, Bool.and_eq_true] at h
    obtain ⟨h1, h2⟩ := h
    cases hc : (j.call r).2 with
    | error e => rw [hc] at h2; cases h2
    | ok j' =>
      rw [hc] at h2
      obtain ⟨i1, jf, i2⟩ := ih (fun r hr => hn r (by simp [hr])) h2
      obtain ⟨n1, n2⟩ := hn r (by simp)
      refine ⟨⟨⟨n1, n2, ?_⟩, ?_⟩, jf, by simp only [Job.chain, hc, i2]⟩
      · intro cs hg c hm
        rw [hg] at h1
        exact goodMove_ok (List.all_eq_true.mp h1 c hm)
      · intro k hk
        rw [hc] at hk
        cases hk
        exact i1

theorem placedJob_ok : InitOK placedJob := ⟨rfl, by unfold SafeName; decide, numOK_int _, by rintro v ⟨⟩⟩

theorem fullTool_ok (n : ℤ) : ToolOK (fullTool n) :=
  ⟨by rintro v ⟨⟩; exact numOK_int _, by rintro v ⟨⟩; exact numOK_int _, by rintro v ⟨⟩; exact numOK_int _⟩

theorem threeCalls_names (a b c : Option Tool) (ht : ∀ t, (a = some t ∨ b = some t ∨ c = some t) → ToolOK t) :
    ∀ r ∈ threeCalls a b c, SafeName r.opName ∧ ∀ t, r.tool = some t → ToolOK t := by
  intro r hr
  simp only [threeCalls, List.mem_cons, List.not_mem_nil, or_false] at hr
  rcases hr with rfl | rfl | rfl
  · exact ⟨show SafeName "Pocket".toList by unfold SafeName; decide, fun t h => ht t (.inl h)⟩
  · exact ⟨show SafeName "Profile".toList by unfold SafeName; decide, fun t h => ht t (.inr (.inl h))⟩
  · exact ⟨show SafeName "Drill".toList by unfold SafeName; decide, fun t h => ht t (.inr (.inr h))⟩

/-- C129 on the machine: a pocket, a profile and a drilling, and the same in reverse. -/
example : ∃ (jf jf' : Job) (moves : Request → List Motion), ∃ t t' m1 m1' a b c a' b' c' evss evss',
    placedJob.chain (threeCalls none none none) = .ok jf ∧ placedJob.chain (threeCalls none none none).reverse = .ok jf' ∧
    jf.toGcode = .ok t ∧ jf'.toGcode = .ok t' ∧ runText {} t = some (m1, a :: (evss.flatten ++ [b, c])) ∧
    runText {} t' = some (m1', a' :: (evss'.flatten ++ [b', c'])) ∧
    List.Forall₂ (fun evs r => List.Forall₂ Performs (evs.filter isMove) (moves r)) evss (threeCalls none none none) ∧
    List.Forall₂ (fun evs r => List.Forall₂ Performs (evs.filter isMove) (moves r)) evss' (threeCalls none none none).reverse := by
  have hn := threeCalls_names none none none (by simp)
  obtain ⟨hok, jf, h⟩ := chain_checked hn (j := placedJob) (by decide +kernel)
  obtain ⟨hok', -, -⟩ := chain_checked (rs := (threeCalls none none none).reverse) (fun r hr => hn r (List.mem_reverse.mp hr)) (j := placedJob)
    (by decide +kernel)
  obtain ⟨jf', moves, t, t', m1, m1', a, b, c, a', b', c', evss, evss', h1, h2, h3, h4, h5, -, -, h6, h7⟩ :=
    C129_machine {} {} (threeCalls_forgetful none none none)
    (by
      intro r hr
      simp only [threeCalls, List.mem_cons, List.not_mem_nil, or_false] at hr
      rcases hr with rfl | rfl | rfl <;> rfl)
    (fun r hr => List.mem_reverse.mp hr) placedJob_ok (by rintro v ⟨⟩) hok hok' h rfl rfl (by rintro n ⟨⟩) (by rintro n ⟨⟩)
  exact ⟨jf, jf', moves, t, t', m1, m1', a, b, c, a', b', c', evss, evss', h, h1, h2, h3, h4, h5, h6, h7⟩

/-- C129 on the machine, with a tool for each call. -/
example : ∃ (jf jf' : Job) (moves : Request → List Motion), ∃ t t' m1 m1' a b c a' b' c' evss evss',
    placedJob.chain (threeCalls (some (fullTool 1)) (some (fullTool 2)) (some (fullTool 3))) = .ok jf ∧
    placedJob.chain (threeCalls (some (fullTool 1)) (some (fullTool 2)) (some (fullTool 3))).reverse = .ok jf' ∧
    jf.toGcode = .ok t ∧ jf'.toGcode = .ok t' ∧ runText {} t = some (m1, a :: (evss.flatten ++ [b, c])) ∧
    runText {} t' = some (m1', a' :: (evss'.flatten ++ [b', c'])) ∧
    List.Forall₂ (fun evs r => List.Forall₂ Performs (evs.filter isMove) (moves r)) evss
      (threeCalls (some (fullTool 1)) (some (fullTool 2)) (some (fullTool 3))) ∧
    List.Forall₂ (fun evs r => List.Forall₂ Performs (evs.filter isMove) (moves r)) evss'
      (threeCalls (some (fullTool 1)) (some (fullTool 2)) (some (fullTool 3))).reverse := by
  have hn := threeCalls_names (some (fullTool 1)) (some (fullTool 2)) (some (fullTool 3)) (by
    rintro t (h | h | h) <;> cases h <;> exact fullTool_ok _)
  obtain ⟨hok, jf, h⟩ := chain_checked hn (j := placedJob) (by decide +kernel)
  obtain ⟨hok', -, -⟩ := chain_checked (rs := (threeCalls (some (fullTool 1)) (some (fullTool 2)) (some (fullTool 3))).reverse)
    (fun r hr => hn r (List.mem_reverse.mp hr)) (j := placedJob) (by decide +kernel)
  obtain ⟨jf', moves, t, t', m1, m1', a, b, c, a', b', c', evss, evss', h1, h2, h3, h4, h5, -, -, h6, h7⟩ :=
    C129_machine_tools_partial {} {} (by decide) (threeCalls_forgetful _ _ _)
    (by
      intro r hr
      simp only [threeCalls, List.mem_cons, List.not_mem_nil, or_false] at hr
      rcases hr with rfl | rfl | rfl
      · exact steady_of_free fun _ => rfl
      · exact steady_profile _ _ _ _ _ _ _
      · exact steady_of_free fun _ => rfl)
    (by
      intro r hr
      simp only [threeCalls, List.mem_cons, List.not_mem_nil, or_false] at hr
      rcases hr with rfl | rfl | rfl <;> exact ⟨_, rfl, rfl, rfl, rfl, rfl⟩)
    (fun r hr => List.mem_reverse.mp hr) placedJob_ok (by rintro v ⟨⟩) hok hok' h rfl rfl (by rintro n ⟨⟩) (by rintro n ⟨⟩)
  exact ⟨jf, jf', moves, t, t', m1, m1', a, b, c, a', b', c', evss, evss', h, h1, h2, h3, h4, h5, h6, h7⟩

/-- C128 on the machine: two wires at once or one by one, and a drilling. -/
example : ∃ jf jf' t t' m1 m1' evs evs',
    placedJob.chain [wireProfileRequest flatCad ([placedSquare] ++ [demoSlot]) 1 (some 1) none none,
      drillRequest drillCenter (some drillObjs) (some 3) none] = .ok jf ∧
    placedJob.chain [wireProfileRequest flatCad [placedSquare] 1 (some 1) none none, wireProfileRequest flatCad [demoSlot] 1 (some 1) none none,
      drillRequest drillCenter (some drillObjs) (some 3) none] = .ok jf' ∧
    jf.toGcode = .ok t ∧ jf'.toGcode = .ok t' ∧ runText {} t = some (m1, evs) ∧ runText {} t' = some (m1', evs') ∧
    List.Forall₂ MovesAlike (evs.filter isMove) (evs'.filter isMove) := by
  obtain ⟨hok, jf, h⟩ := chain_checked (j := placedJob) (rs := [wireProfileRequest flatCad ([placedSquare] ++ [demoSlot]) 1 (some 1) none none,
      drillRequest drillCenter (some drillObjs) (some 3) none]) (by
    intro r hr
    simp only [List.mem_cons, List.not_mem_nil, or_false] at hr
    rcases hr with rfl | rfl <;> exact ⟨by unfold SafeName; decide, by rintro t ⟨⟩⟩) (by decide +kernel)
  obtain ⟨hok', -, -⟩ := chain_checked (j := placedJob) (rs := [wireProfileRequest flatCad [placedSquare] 1 (some 1) none none,
      wireProfileRequest flatCad [demoSlot] 1 (some 1) none none, drillRequest drillCenter (some drillObjs) (some 3) none]) (by
    intro r hr
    simp only [List.mem_cons, List.not_mem_nil, or_false] at hr
    rcases hr with rfl | rfl | rfl <;> exact ⟨by unfold SafeName; decide, by rintro t ⟨⟩⟩) (by decide +kernel)
  obtain ⟨jf', t, t', m1, m1', evs, evs', p⟩ := C128_machine (before := []) {} {} (splits_wireProfile flatCad [placedSquare] [demoSlot] 1 (some 1) none none)
    (forgetful_wireProfile ..) (by intro r hr; rw [List.mem_singleton] at hr; subst hr; exact forgetful_drill ..) placedJob_ok (by rintro v ⟨⟩)
    hok hok' h rfl rfl (by rintro n ⟨⟩) (by rintro n ⟨⟩)
  exact ⟨jf, jf', t, t', m1, m1', evs, evs', h, p⟩

/-- C128 on the machine for faces: two faces with holes. -/
example : ∃ jf jf' t t' m1 m1' evs evs' l,
    placedJob.chain [profileRequest flatCad ([.face demoSlot [placedSquare]] ++ [.face demoSlot [placedSquare]]) (some 1) (some (-1)) none none none] =
      .ok jf ∧
    placedJob.chain [profileRequest flatCad [.face demoSlot [placedSquare]] (some 1) (some (-1)) none none none,
      profileRequest flatCad [.face demoSlot [placedSquare]] (some 1) (some (-1)) none none none] = .ok jf' ∧
    jf.toGcode = .ok t ∧ jf'.toGcode = .ok t' ∧ runText {} t = some (m1, evs) ∧ runText {} t' = some (m1', evs') ∧
    l.Perm (evs'.filter isMove) ∧ List.Forall₂ MovesAlike (evs.filter isMove) l := by
  obtain ⟨hok, jf, h⟩ := chain_checked (j := placedJob)
    (rs := [profileRequest flatCad ([.face demoSlot [placedSquare]] ++ [.face demoSlot [placedSquare]]) (some 1) (some (-1)) none none none]) (by
    intro r hr
    rw [List.mem_singleton] at hr
    subst hr
    exact ⟨by unfold SafeName; decide, by rintro t ⟨⟩⟩) (by decide +kernel)
  obtain ⟨hok', -, -⟩ := chain_checked (j := placedJob) (rs := [profileRequest flatCad [.face demoSlot [placedSquare]] (some 1) (some (-1)) none none none,
      profileRequest flatCad [.face demoSlot [placedSquare]] (some 1) (some (-1)) none none none]) (by
    intro r hr
    simp only [List.mem_cons, List.not_mem_nil, or_false] at hr
    rcases hr with rfl | rfl <;> exact ⟨by unfold SafeName; decide, by rintro t ⟨⟩⟩) (by decide +kernel)
  obtain ⟨jf', t, t', m1, m1', evs, evs', l, p⟩ := C128_machine_profile (before := []) (after := []) flatCad [.face demoSlot [placedSquare]]
    [.face demoSlot [placedSquare]] (some 1) (some (-1)) none none none {} {} (by simp) placedJob_ok (by rintro v ⟨⟩)
    hok hok' h rfl rfl (by rintro n ⟨⟩) (by rintro n ⟨⟩)
  exact ⟨jf, jf', t, t', m1, m1', evs, evs', l, h, p⟩

/-! ### Units -/

/-- C134 for profiles of faces: the plate of one inch with a stepdown of 2 mm and four tabs, in millimetres and in inches. -/
example : UnitWork toInches millJob (profileRequest polyCad [.face inchPlate []] (some 0) (some 0) (some 2) (some (.wire ⟨4, 3, 1⟩)) none)
    (profileRequest polyCad [.face (inchPlate.map (Edge.conv toInches)) []] (some 0) (some 0) (some (5 / 127 * 2))
      (some (.wire ⟨4, 5 / 127 * 3, 5 / 127 * 1⟩)) none) :=
  C134_profile_partial (polyCad_units toInches) polyCad_plain polyCad_hits millJob (shapes := [.face inchPlate []])
    (fun w hw => by
      have hw : w ∈ [inchPlate] := hw
      rw [List.mem_singleton.mp hw]; exact inchPlate_plain) (tool := none)
    (.inr (.inr (polyCad_cut toInches)))
    (fun w hw o ho r _ => by
      have hw : w ∈ [inchPlate] := hw
      rw [List.mem_singleton.mp hw]
      cases ho
      have e : inchPlate.map (Edge.toLocal Frame.xy) = inchPlate := by
        rw [show Edge.toLocal Frame.xy = id from funext toLocal_xy, List.map_id]
      change ToleranceFree toInches polyCad (inchPlate.map (Edge.toLocal Frame.xy)) (0 * r) (some 2)
      rw [e, zero_mul]
      exact inchPlate_free)
    (fun w hw => by
      have hw : w ∈ ([] : List (List Edge)) := hw
      cases hw)
    (some (.wire ⟨4, 3, 1⟩))

/-! ### A pocket with the engine on integers -/

/-- C113: the pocket of C141 in exact arithmetic; every feed move starts and ends where a disc of 0.4 mm is inside the square. -/
example : ∃ j2 t m' evs, (sixJob64.call (pocketRequest intMoat.scaled exactEq 9 [plainFace64] [] { stepover := some (.mult 2) })).2 = .ok j2 ∧
    j2.toGcode = .ok t ∧ runText {} t = some (m', evs) ∧
    ∃ pre part post, evs = pre ++ part ++ post ∧ ∀ e ∈ part, isFeedMove e = true → ∃ z p q, FeedsFromTo p q z e ∧
      (∀ x, sqDist p x < (4 / 10) ^ 2 → Inside (rect (1 / 10) (1 / 10) 40 40) x) ∧
      ∀ x, sqDist q x < (4 / 10) ^ 2 → Inside (rect (1 / 10) (1 / 10) 40 40) x := by
  obtain ⟨cs, -, hr, h⟩ := call_good (j := sixJob64) (r := pocketRequest intMoat.scaled exactEq 9 [plainFace64] [] { stepover := some (.mult 2) })
    rfl rfl (by unfold SafeName; decide) (by decide +kernel)
  have hres : (1 : ℚ) / 2 + 3 * resolution ≤ 501 / 1000 := by unfold resolution; norm_num
  obtain ⟨t, m', pre, part, post, d, outer, inner, ao, ai, faces, avoidFaces, areas, avoids, regions, h1, h2, h3, o1, o2, o3, o4, h4, h5,
      h6, h7, h8, h9⟩ :=
    C113_gouge (before := []) (after := []) intMoat_engine rfl {} sixJob64_ok
      (by rintro v ⟨⟩) ⟨hr, fun _ _ => trivial⟩ rfl h rfl rfl (by rintro n ⟨⟩) (by decide +kernel)
      (by rintro d ⟨⟩; norm_num [offsetDistance]; linarith)
      (by
        intro c hc f hf
        simp only [List.append_nil, List.mem_singleton] at hc
        subst hc
        rw [flatFace_fun hf plain64_flat]
        exact ⟨off_rounded.1, by simp [plainPath64]⟩)
  refine ⟨_, t, m', _, h, h1, h2, pre, part, post, rfl, ?_⟩
  cases h3
  have ho : outer = -3 := by rw [o1]; norm_num [offsetDistance]
  subst ho
  cases h4 with
  | cons a b =>
  cases b
  cases flatFace_fun a plain64_flat
  cases h5
  cases h7
  cases h6 with
  | cons a b =>
  cases b
  obtain ⟨outlines, hol, hgs⟩ := a
  rw [if_pos (show plainPath64.inners = [] from rfl)] at hgs
  have hol := intMoat_offset_one hol
  subst hgs
  intro e he hf
  obtain ⟨r, -, z, p, q, -, -, k1, k2, k3, -⟩ := h9 (by norm_num) (by simp)
    (by
      intro f hf holes hh
      rw [List.mem_singleton] at hf
      subst hf
      cases hh
      exact .nil)
    (by
      intro r hr
      refine ⟨intMoat_noVoid (by simpa using hol), ?_⟩
      have : cutAway [outlines.map (fun o => (⟨o, [], plainPath64.depth⟩ : PathFace))] [] r.depth = [] := by
        simp [cutAway, holesAt]
      rw [this]
      exact .nil) e he hf
  have key : ∀ y, ToolIn [plainPath64] [] (5 * (1 / 2 + 3 * resolution)) (- -3 - 5 * (1 / 2 + 3 * resolution))
      (inner - 5 * (1 / 2 + 3 * resolution)) (ao - 5 * (1 / 2 + 3 * resolution)) r.depth y →
      ∀ x, sqDist y x < (4 / 10) ^ 2 → Inside (rect (1 / 10) (1 / 10) 40 40) x := by
    rintro y ⟨⟨f, hf, -, -, h3, -⟩, -⟩ x hx
    rw [List.mem_singleton] at hf
    subst hf
    exact h3 (by linarith) x (hx.trans_le (pow_le_pow_left₀ (by norm_num) (by linarith) 2))
  exact ⟨_, p, q, k1, key p k2, key q k3⟩

end CQ
