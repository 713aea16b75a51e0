import Verif.Props.Pocket64
import Verif.Props.IntEngineExample

/-! # C139: an engine that meets the hypotheses, and a pocket -/

namespace CQ

theorem inBox_rect {B x0 y0 x1 y1 : ℚ} : InBox B (rect x0 y0 x1 y1) ↔ |x0| ≤ B ∧ |y0| ≤ B ∧ |x1| ≤ B ∧ |y1| ≤ B := by
  constructor
  · intro h
    have h1 := h ⟨x0, y0⟩ (by simp [rect])
    have h2 := h ⟨x1, y1⟩ (by simp [rect])
    exact ⟨h1.1, h1.2, h2.1, h2.2⟩
  · rintro ⟨h1, h2, h3, h4⟩ p hp
    simp only [rect, List.mem_cons, List.not_mem_nil, or_false] at hp
    rcases hp with rfl | rfl | rfl | rfl | rfl <;> exact ⟨by assumption, by assumption⟩

theorem intMoat_boxes {t : ℤ} : IntBoxes t intMoat where
  shrink := by
    intro B path s raw hB hs h q hq
    have h := intMoat_offset h 3
    rw [distMM_neg] at h
    have hs' : 0 ≤ distMM s := by unfold distMM; positivity
    have hq : inMM q ∈ raw.map inMM := List.mem_map.mpr ⟨q, hq, rfl⟩
    rcases boxEngine_offset (moat_offset h).2 with ⟨-, e⟩ | ⟨a, b, h1, ⟨h2, h3, e⟩ | ⟨-, e⟩⟩
    · rw [e] at hq; simp at hq
    · rw [e, List.mem_singleton] at hq
      rw [hq]
      rw [(rectOf_some h1).2.2, inBox_rect] at hB
      obtain ⟨b1, b2, b3, b4⟩ := hB
      rw [abs_le] at b1 b2 b3 b4
      rw [inBox_rect]
      simp only [abs_le]
      refine ⟨⟨?_, ?_⟩, ⟨?_, ?_⟩, ⟨?_, ?_⟩, ?_, ?_⟩ <;> linarith [b1.1, b1.2, b2.1, b2.2, b3.1, b3.2, b4.1, b4.2]
    · rw [e] at hq; simp at hq
  grow := by
    intro B path s raw hB hs h q hq
    have h := intMoat_offset h 3
    have hs' : 0 ≤ distMM s := by unfold distMM; positivity
    have hr := resolution_pos
    have hq : inMM q ∈ raw.map inMM := List.mem_map.mpr ⟨q, hq, rfl⟩
    rcases boxEngine_offset (moat_offset h).2 with ⟨-, e⟩ | ⟨a, b, h1, ⟨h2, h3, e⟩ | ⟨-, e⟩⟩
    · rw [e] at hq; simp at hq
    · rw [e, List.mem_singleton] at hq
      rw [hq]
      rw [(rectOf_some h1).2.2, inBox_rect] at hB
      obtain ⟨b1, b2, b3, b4⟩ := hB
      rw [abs_le] at b1 b2 b3 b4
      rw [inBox_rect]
      simp only [abs_le]
      refine ⟨⟨?_, ?_⟩, ⟨?_, ?_⟩, ⟨?_, ?_⟩, ?_, ?_⟩ <;> linarith [b1.1, b1.2, b2.1, b2.2, b3.1, b3.2, b4.1, b4.2]
    · rw [e] at hq; simp at hq
  union := by
    intro B ss tree hB h n hn
    have hB' : ∀ s ∈ ss.map inMM, InBox B s := by
      intro s hs
      obtain ⟨l, hl, rfl⟩ := List.mem_map.mp hs
      exact hB l hl
    rcases moat_union (intMoat_union h) with ⟨x0, y0, x1, y1, hx, hy, e1, -, e2⟩ |
      ⟨x0, y0, x1, y1, u0, v0, u1, v1, hx, hy, -, -, -, -, -, -, e1, -, e2⟩
    all_goals
      rw [e2, List.mem_singleton] at hn
      subst hn
      exact hB' _ (by rw [e1]; simp [PolyNode.contour])
  difference := by
    intro B ss cs tree hB h n hn
    have hB' : ∀ s ∈ ss.map inMM, InBox B s := by
      intro s hs
      obtain ⟨l, hl, rfl⟩ := List.mem_map.mp hs
      exact hB l hl
    obtain ⟨x0, y0, x1, y1, hx, hy, e1, ⟨e2, e3⟩ | ⟨u0, v0, u1, v1, hu, hv, e2, ⟨-, -, -, -, e3⟩ | ⟨-, -, -, -, e3⟩⟩⟩ :=
      boxEngine_difference (intMoat_difference h)
    · rw [e3, List.mem_singleton] at hn
      subst hn
      exact hB' _ (by rw [e1]; simp [PolyNode.contour])
    · rw [e3, List.mem_singleton] at hn
      subst hn
      exact hB' _ (by rw [e1]; simp [PolyNode.contour])
    · rw [e3] at hn; simp at hn

/-- The pocket of C113, in floating point, in passes of 0.25 mm. -/
def offPocket64 : Request :=
  pocketRequest64 demoLib intMoat.scaled exactEq 9 [offFace] [] { stepover := some (.mult 2), stepdown := some (1 / 4) }

theorem quarter_double : IsDouble (1 / 4) := ⟨1, -2, by norm_num, by norm_num, by norm_num⟩

theorem off_box : InBox 40 offPath.outer := by
  unfold offPath
  rw [inBox_rect]
  simp only [abs_le]
  norm_num

theorem off_fits64 {a b c : ℚ} (ha0 : 0 ≤ a) (ha : a ≤ 4) (hb0 : 0 ≤ b) (hb : b ≤ 4) : Fits [offPath] [] a b c (-1) ⟨5, 20⟩ where
  one := by decide +kernel
  far := by
    intro f hf _
    rw [List.mem_singleton] at hf
    subst hf
    refine FarFrom.mono (r := 4) ?_ ha0 ha
    exact farFrom_rect (by norm_num) (by norm_num) (by norm_num) (by norm_num)
  holes := by
    intro f hf _ i hi z hz
    rw [List.mem_singleton] at hf
    subst hf
    simp only [offPath, List.mem_singleton] at hi
    subst hi
    obtain ⟨⟨b1, b2⟩, b3, b4⟩ := inOn_rect (by norm_num) (by norm_num) hz
    simp only [sqDist]
    nlinarith [mul_self_nonneg (20 - z.y)]
  avoids := by simp

theorem near_of {r m d o : ℚ} (h : OffsetNear r (m, d) o) (h1 : |m * r| + |d| ≤ 4) (h2 : |m| ≤ 4) :
    |o - (m * r + d)| ≤ 1 / 1000 := by
  have hη : (2 : ℚ) ^ (-1072 : ℤ) ≤ 2 ^ (-20 : ℤ) := zpow_le_zpow_right₀ (by norm_num) (by norm_num)
  have hp := two_zpow_pos (-1072)
  unfold OffsetNear at h
  simp only at h
  refine h.trans ?_
  generalize (2 : ℚ) ^ (-1072 : ℤ) = η at *
  have e1 : (2 : ℚ) ^ (-51 : ℤ) * (|m * r| + |d|) ≤ 2 ^ (-51 : ℤ) * 4 := mul_le_mul_of_nonneg_left h1 (by positivity)
  have e2 : η * (1 + |m|) ≤ 2 ^ (-20 : ℤ) * 5 :=
    mul_le_mul hη (by linarith) (by positivity) (by positivity)
  refine (add_le_add e1 e2).trans ?_
  norm_num

/-- The hypotheses of `C139_pocket` and `C139_reach`: the machine comes to (5, 20) up to the stepover of 2 and the tolerances. -/
example : ∃ j2 t m' evs, (twoJob.call offPocket64).2 = .ok j2 ∧ j2.toGcode = .ok t ∧ runText {} t = some (m', evs) ∧
    ∃ e ∈ evs, ∃ q, MillsOver (-1) q e ∧ sqDist ⟨5, 20⟩ q ≤ (3 + 1 / 100) ^ 2 := by
  obtain ⟨cs, -, hr, h⟩ := call_good (j := twoJob) (r := offPocket64) rfl rfl (by unfold SafeName; decide) (by decide +kernel)
  obtain ⟨t, m', evs, d, outer, inner, ao, ai, step, faces, avoidFaces, areas, avoids, h1, h2, h3, o1, o2, o3, -, o5, h4, h5, h6, h7, h8⟩ :=
    C139_reach (lib := demoLib) (before := []) (after := []) intMoat_engine intMoat_boxes squaresWell_b64 rfl {} twoJob_ok
      (by rintro v ⟨⟩) ⟨hr, fun _ _ => trivial⟩ rfl h rfl rfl (by rintro n ⟨⟩) (by decide +kernel)
      (by rintro s ⟨⟩; exact ⟨by norm_num, quarter_double⟩)
      (by
        intro c hc f hf
        simp only [List.append_nil, List.mem_singleton] at hc
        subst hc
        rw [flatFace_fun hf off_flat]
        exact off_rounded)
  refine ⟨_, t, m', evs, h, h1, h2, ?_⟩
  cases h3
  have p1 := near_of (m := -1) (d := 0) (by simpa [offsetParts] using o1) (by norm_num) (by norm_num)
  have p2 := near_of (m := 1) (d := 0) (by simpa [offsetParts] using o2) (by norm_num) (by norm_num)
  have p3 := near_of (m := 1) (d := 0) (by simpa [offsetParts] using o3) (by norm_num) (by norm_num)
  have p5 := near_of (m := 2) (d := 0) (by simpa [offsetParts] using o5) (by norm_num) (by norm_num)
  rw [abs_le] at p1 p2 p3 p5
  norm_num at p1 p2 p3 p5
  cases h4 with
  | cons a b =>
  cases b
  cases flatFace_fun a off_flat
  cases h5
  have hres : (1 : ℚ) / 2 + 3 * resolution ≤ 501 / 1000 := by unfold resolution; norm_num
  have hres0 : (0 : ℚ) ≤ 1 / 2 + 3 * resolution := by unfold resolution; norm_num
  obtain ⟨e, he, q, hq, hd, -⟩ := h8 (by linarith) (by linarith) (by linarith) (by linarith)
    (by
      intro f hf
      rw [List.mem_singleton] at hf
      subst hf
      exact off_box.mono (by norm_num)) offPath (by simp) ⟨5, 20⟩
    (by decide +kernel) (off_fits64 (by linarith) (by linarith) (by linarith) (by linarith)) (by simp)
    (fun g _ _ _ _ _ _ _ hdiff n hn v hv i hi => by rw [intMoat_noIsland hdiff n hn v hv] at hi; cases hi)
    (fun _ _ _ _ _ _ _ _ _ hdiff n hn v hv i hi => by rw [intMoat_noIsland hdiff n hn v hv] at hi; cases hi)
  refine ⟨e, he, q, ?_, hd.trans (pow_le_pow_left₀ ?_ ?_ 2)⟩
  · have : rnd 3 offPath.depth = -1 := by decide +kernel
    rwa [this] at hq
  · have := two_zpow_pos (-27); linarith
  · have : (2 : ℚ) ^ (-27 : ℤ) ≤ 1 / 1000 := by norm_num
    linarith

/-- The hypotheses of `C139_path`, `C139_accepted` and `C139_floor`: the ring is pocketed in floating point, the path is connected and does not
go below the depth of 1 mm. -/
example : ∃ cs, pocketClipper64 demoLib intMoat.scaled 9 twoJob [offPath] [] (-1) 1 1 (-1) 2 (some (1 / 4)) = .ok cs ∧ Connected {} cs ∧
    ∀ c ∈ cs, c.kind.mot ≠ .rapid → ∃ z ≤ 0, FeedMove twoJob z c ∧ -1 - 1 / 100000 ≤ z := by
  have hB : ∀ f ∈ [offPath], InBox 40 f.outer := by
    intro f hf
    rw [List.mem_singleton] at hf
    subst hf
    exact off_box
  have hsd : ∀ s, (some (1 / 4) : Option ℚ) = some s → 0 ≤ s ∧ IsDouble s := by
    rintro s ⟨⟩; exact ⟨by norm_num, quarter_double⟩
  obtain ⟨cs, h⟩ := (C139_accepted (lib := demoLib) (j := twoJob) (fuel := 9) (avoidAreas := []) (innerOffset := 1) (avoidOuterOffset := 1)
    (avoidInnerOffset := -1) (stepover := 2) intMoat_engine intMoat_boxes squaresWell_b64
    (by decide +kernel) (by norm_num) hsd (B := 40) (outerOffset := -1) (by norm_num) hB).mpr (by
      cases hc : pocketClipper intMoat.scaled 9 twoJob [offPath] [] (-1) 1 1 (-1) 2 (some (1 / 4)) with
      | ok cs => exact ⟨cs, rfl⟩
      | error er =>
        have : (match pocketClipper intMoat.scaled 9 twoJob [offPath] [] (-1) 1 1 (-1) 2 (some (1 / 4)) with
          | .ok _ => true | .error _ => false) = true := by decide +kernel
        rw [hc] at this; cases this)
  obtain ⟨-, h2, -, -, -⟩ := C139_path intMoat_engine intMoat_boxes squaresWell_b64 h (by decide +kernel) (by norm_num) hsd
    (B := 40) (by norm_num) hB
  have h3 := C139_floor intMoat_engine intMoat_boxes squaresWell_b64 h (by decide +kernel) (by norm_num)
    (by rintro s ⟨⟩; exact ⟨quarter_double, .inr ⟨by norm_num, by norm_num⟩⟩) (B := 40) (by norm_num) hB (by simp [offPath])
  refine ⟨cs, h, h2, fun c hc hk => ?_⟩
  obtain ⟨z, z1, z2, f, hf, z3⟩ := h3 c hc hk
  rw [List.mem_singleton] at hf
  subst hf
  exact ⟨z, z2, z1, z3⟩

end CQ
