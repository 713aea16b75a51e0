import Verif.Props.Gouge64
import Verif.Props.Pocket64Example
import Verif.Props.GougeExample

/-! # C141: a wall that is cut through, and a pocket -/

namespace CQ

/-- The pocket of `C108_violated`, in floating point. -/
def wallPocket64 : Request := pocketRequest64 demoLib wallEngine exactEq 9 [wallFace] [] {}

/-- C141 is violated: the pocket of `C108_violated` (where the engine is shown to make no mistake), whose coordinates are multiples of 1/128
inch and so without rounding errors, is milled in floating point with the same link through the wall. -/
theorem C141_violated : ∃ j2 t m' evs, (inchJob.call wallPocket64).2 = .ok j2 ∧ j2.toGcode = .ok t ∧ runText {} t = some (m', evs) ∧
    ∃ e ∈ evs, ∃ q, MillsOver (-1 / 10) q e ∧ Inside (rect (9 / 128) (9 / 128) (39 / 128) (11 / 128)) q ∧
      ∀ r r'', 0 < r → ∀ r', 0 < r' → ¬ ToolIn [wallPath] [] 0 r r' r'' (-1 / 10) q := by
  obtain ⟨j2, t, m', evs, h1, h2, h3, e, he, hbad⟩ := run_witness (j := inchJob) (r := wallPocket64) (bad := cutsWall) inchJob_ok
    (by rintro v ⟨⟩) rfl rfl (by unfold SafeName; decide) (by decide +kernel)
  have hq : Inside (rect (9 / 128) (9 / 128) (39 / 128) (11 / 128)) ⟨188 / 1000, 8 / 100⟩ := by
    rw [inside_rect (by norm_num) (by norm_num)]
    norm_num
  refine ⟨j2, t, m', evs, h1, h2, h3, e, he, ⟨188 / 1000, 8 / 100⟩, ?_, hq, ?_⟩
  · simp only [cutsWall, Bool.and_eq_true, decide_eq_true_eq] at hbad
    obtain ⟨⟨k1, k2⟩, k3⟩ := hbad
    split at k3
    · rename_i tgt ctr hact
      rw [of_decide_eq_true k3] at hact
      exact ⟨k1, _, _, ctr, k2, hact, 37 / 86, by norm_num, by norm_num, by decide +kernel⟩
    · cases k3
  · rintro r r'' hr r' hr' ⟨⟨f, hf, -, -, -, h⟩, -⟩
    rw [List.mem_singleton] at hf
    subst hf
    have := h hr' _ (by simp [wallPath]) _ (.inl hq)
    simp [sqDist] at this
    nlinarith

/-! ### A pocket -/

/-- A square whose corner is not on the grid, pocketed with a tool of diameter 6 in passes of 0.25 mm. -/
def sixJob64 : Job := Job.init Frame.xy (.int 500) (toolDiameter := some 6)
def plainFace64 : CqFace := ⟨box (1 / 10) (1 / 10) 40 40, [], -1, -1⟩
def plainPath64 : PathFace := ⟨rect (1 / 10) (1 / 10) 40 40, [], -1⟩
def plainPocket64 : Request :=
  pocketRequest64 demoLib intMoat.scaled exactEq 9 [plainFace64] [] { stepover := some (.mult 2), stepdown := some (1 / 4) }

theorem sixJob64_ok : InitOK sixJob64 := ⟨rfl, by unfold SafeName; decide, numOK_int _, by rintro v ⟨⟩⟩

theorem plain64_flat : FlatFace exactEq sixJob64.precision plainFace64 plainPath64 := flat_of (by decide +kernel)

theorem intMoat_offset_one {path : List Pt} {o : ℚ} {k : ℕ} {qs : List (List Pt)} (h : OffsetContours intMoat.scaled o k path qs) :
    qs.length ≤ 1 := by
  obtain ⟨raw, h1, h2⟩ := h
  obtain ⟨rs, h3, rfl⟩ := scaledOffset_ok h1
  have hlen : (rs.map inMM).length ≤ 1 := by
    rcases boxEngine_offset (moat_offset (intMoat_offset h3 3)).2 with ⟨-, e⟩ | ⟨a, b, -, ⟨-, -, e⟩ | ⟨-, e⟩⟩ <;> rw [e] <;> simp
  rw [← h2.length_eq]
  exact (List.length_filter_le _ _).trans (by simpa using hlen)

theorem intMoat_noVoid {areas : List (List PathFace)} {d : ℚ} (h : areas.flatten.length ≤ 1) : NoVoid intMoat.scaled areas d := by
  intro s tree hs hu n hn
  obtain ⟨t, h1, rfl⟩ := scaledBoolean_ok hu
  have hlen : s.length ≤ 1 := by
    rw [hs.length_eq, outersAt, List.length_map]
    exact (List.length_filter_le _ _).trans h
  rcases moat_union (intMoat_union h1) with ⟨x0, y0, x1, y1, -, -, -, -, e2⟩ |
    ⟨x0, y0, x1, y1, u0, v0, u1, v1, -, -, -, -, -, -, -, -, e1, -, e2⟩
  · rw [e2, List.mem_singleton] at hn
    subst hn
    rfl
  · have := congrArg List.length e1
    simp only [List.length_map, List.length_cons, List.length_nil] at this
    omega

/-- The hypotheses of `C141_pocket_partial`: every feed move starts and ends (up to printing and rounding) where a disc of 0.4 mm is inside
the square. -/
example : ∃ j2 t m' evs, (sixJob64.call plainPocket64).2 = .ok j2 ∧ j2.toGcode = .ok t ∧ runText {} t = some (m', evs) ∧
    ∃ pre part post, evs = pre ++ part ++ post ∧ ∀ e ∈ part, isFeedMove e = true → ∃ z p q, FeedsNear (1 / 2000 + 2 ^ (-28 : ℤ)) p q z e ∧
      (∀ x, sqDist p x < (4 / 10) ^ 2 → Inside (rect (1 / 10) (1 / 10) 40 40) x) ∧
      ∀ x, sqDist q x < (4 / 10) ^ 2 → Inside (rect (1 / 10) (1 / 10) 40 40) x := by
  obtain ⟨cs, -, hr, h⟩ := call_good (j := sixJob64) (r := plainPocket64) rfl rfl (by unfold SafeName; decide) (by decide +kernel)
  obtain ⟨t, m', pre, part, post, d, outer, inner, ao, ai, step, faces, avoidFaces, areas, avoids, regions, h1, h2, h3, o1, -, -, -, o5, h4, h5,
      h6, h7, h8, h9⟩ :=
    C141_pocket_partial (lib := demoLib) (before := []) (after := []) intMoat_engine intMoat_boxes squaresWell_b64 rfl {} sixJob64_ok
      (by rintro v ⟨⟩) ⟨hr, fun _ _ => trivial⟩ rfl h rfl rfl (by rintro n ⟨⟩) (by decide +kernel)
      (by rintro s ⟨⟩; exact ⟨quarter_double, .inr ⟨by norm_num, by norm_num⟩⟩)
      (by
        intro c hc f hf
        simp only [List.append_nil, List.mem_singleton] at hc
        subst hc
        rw [flatFace_fun hf plain64_flat]
        exact ⟨off_rounded.1, by simp [plainPath64]⟩)
  refine ⟨_, t, m', _, h, h1, h2, pre, part, post, rfl, ?_⟩
  cases h3
  have p1 := near_of (m := -1) (d := 0) (by simpa [offsetParts] using o1) (by norm_num) (by norm_num)
  have p5 : |step - 6| ≤ 1 / 1000 := by
    have hη : (2 : ℚ) ^ (-1072 : ℤ) ≤ 2 ^ (-20 : ℤ) := zpow_le_zpow_right₀ (by norm_num) (by norm_num)
    have := o5
    simp only [OffsetNear, offsetParts] at this
    generalize (2 : ℚ) ^ (-1072 : ℤ) = η at *
    norm_num at this hη ⊢
    linarith
  rw [abs_le] at p1 p5
  norm_num at p1 p5
  have hres : (1 : ℚ) / 2 + 3 * resolution ≤ 501 / 1000 := by unfold resolution; norm_num
  cases h4 with
  | cons a b =>
  cases b
  cases flatFace_fun a plain64_flat
  cases h5
  cases h7
  cases h6 with
  | cons a b =>
  cases b
  obtain ⟨outlines, hol, hgs⟩ := a
  rw [if_pos (show plainPath64.inners = [] from rfl)] at hgs
  have hol := intMoat_offset_one hol
  subst hgs
  intro e he hf
  obtain ⟨-, r, -, z, p, q, -, -, k1, k2, k3, -⟩ := h9 (by linarith) (by linarith)
    (by
      intro f hf
      rw [List.mem_singleton] at hf
      subst hf
      exact ⟨off_box.mono (by norm_num), by norm_num [plainPath64]⟩)
    (by simp)
    (by
      intro f hf holes hh
      rw [List.mem_singleton] at hf
      subst hf
      cases hh
      exact .nil)
    (by
      intro r hr
      refine ⟨intMoat_noVoid (by simpa using hol), ?_⟩
      have : cutAway [outlines.map (fun o => (⟨o, [], plainPath64.depth⟩ : PathFace))] [] r.depth = [] := by
        simp [cutAway, holesAt]
      rw [this]
      exact .nil) e he hf
  have key : ∀ y, ToolIn [plainPath64] [] (5 * (1 / 2 + 3 * resolution)) (-outer - 5 * (1 / 2 + 3 * resolution))
      (inner - 5 * (1 / 2 + 3 * resolution)) (ao - 5 * (1 / 2 + 3 * resolution)) r.depth y →
      ∀ x, sqDist y x < (4 / 10) ^ 2 → Inside (rect (1 / 10) (1 / 10) 40 40) x := by
    rintro y ⟨⟨f, hf, -, -, h3, -⟩, -⟩ x hx
    rw [List.mem_singleton] at hf
    subst hf
    exact h3 (by linarith) x (hx.trans_le (pow_le_pow_left₀ (by norm_num) (by linarith) 2))
  exact ⟨_, p, q, k1, key p k2, key q k3⟩

end CQ
