import Verif.Props.IntEngine
import Verif.Props.ReachExample

/-! # C113: an engine on integers that meets the contracts, and a pocket whose outline is not on the grid -/

namespace CQ

/-- The engine for rectangles, on integers. -/
def intMoat : IntClipper := IntClipper.of moatEngine

/-- The integer path is a rectangle. -/
def IntRect (path : List IPt) : Prop := IsRect (inMM path)

theorem inMM_rect {path : List IPt} {x0 y0 x1 y1 : ℚ} (h : inMM path = rect x0 y0 x1 y1) : OnGrid x0 ∧ OnGrid y0 ∧ OnGrid x1 ∧ OnGrid y1 := by
  have hg : GridPath (rect x0 y0 x1 y1) := h ▸ gridPath_iff.mpr ⟨path, rfl⟩
  have h1 := hg ⟨x0, y0⟩ (by simp [rect])
  have h2 := hg ⟨x1, y1⟩ (by simp [rect])
  exact ⟨h1.1, h1.2, h2.1, h2.2⟩

theorem OnGrid.sub {a : ℚ} (ha : OnGrid a) (n : ℤ) : OnGrid (a - scaleFrom n) := by
  obtain ⟨m, rfl⟩ := ha
  exact ⟨m - n, by rw [scaleFrom_eq]; push_cast; ring⟩

theorem OnGrid.add {a : ℚ} (ha : OnGrid a) (n : ℤ) : OnGrid (a + scaleFrom n) := by
  obtain ⟨m, rfl⟩ := ha
  exact ⟨m + n, by rw [scaleFrom_eq]; push_cast; ring⟩

theorem gridPath_rect_of {x0 y0 x1 y1 : ℚ} (h1 : OnGrid x0) (h2 : OnGrid y0) (h3 : OnGrid x1) (h4 : OnGrid y1) : GridPath (rect x0 y0 x1 y1) := by
  intro p hp
  simp only [rect, List.mem_cons, List.not_mem_nil, or_false] at hp
  rcases hp with rfl | rfl | rfl | rfl | rfl <;> exact ⟨by assumption, by assumption⟩

/-- The engine on integers does what the engine on numbers does. -/
theorem intMoat_offset {path : List IPt} {o t : ℤ} {raw : List (List IPt)} (h : intMoat.offset path o t = .ok raw) (k : ℕ) :
    moatEngine.offset (inMM path) (distMM o) k = .ok (raw.map inMM) := by
  have e0 : distMM o = scaleFrom o := (scaleFrom_eq o).symm
  simp only [intMoat, IntClipper.of] at h
  cases hu : moatEngine.offset (path.map IPt.mm) (scaleFrom o) 3 with
  | error er => rw [hu] at h; cases h
  | ok qs =>
    rw [hu] at h
    have h : qs.map (fun q => q.map scalePt) = raw := by simpa [Except.map] using h
    rw [e0]
    have hk : moatEngine.offset (inMM path) (scaleFrom o) k = .ok qs := hu
    rw [hk, ← h]
    congr 1
    rw [List.map_map]
    conv_lhs => rw [← List.map_id qs]
    refine List.map_congr_left fun q hq => (inMM_scale ?_).symm
    rcases boxEngine_offset (moat_offset hu).2 with ⟨-, rfl⟩ | ⟨a, b, h1, ⟨h2, h3, rfl⟩ | ⟨-, rfl⟩⟩
    · simp at hq
    · rw [List.mem_singleton] at hq
      subst hq
      obtain ⟨g1, g2, g3, g4⟩ := inMM_rect (path := path) (rectOf_some h1).2.2
      exact gridPath_rect_of (g1.sub o) (g2.sub o) (g3.add o) (g4.add o)
    · simp at hq

theorem mms_scale {tree : List PolyNode} (h : ∀ n ∈ tree, (∃ c, n = .node c [] ∧ GridPath c) ∨ ∃ c d, n = .node c [.node d []] ∧ GridPath c ∧ GridPath d) :
    INode.mms (scaleNodes tree) = tree := by
  induction tree with
  | nil => rfl
  | cons n ns ih =>
    rw [scaleNodes, INode.mms, ih fun m hm => h m (by simp [hm])]
    congr 1
    rcases h n (by simp) with ⟨c, rfl, hc⟩ | ⟨c, d, rfl, hc, hd⟩
    · simp only [PolyNode.scale, INode.mm, scaleNodes, INode.mms, (C88_grid hc).1]
    · simp only [PolyNode.scale, INode.mm, scaleNodes, INode.mms, (C88_grid hc).1, (C88_grid hd).1]

theorem mem_inMM {ss : List (List IPt)} {q : List Pt} (h : q ∈ ss.map inMM) : GridPath q := by
  obtain ⟨l, -, rfl⟩ := List.mem_map.mp h
  exact gridPath_iff.mpr ⟨l, rfl⟩

theorem intMoat_union {ss cs : List (List IPt)} {tree : List INode} (h : intMoat.union ss cs = .ok tree) :
    moatEngine.union (ss.map inMM) (cs.map inMM) = .ok (INode.mms tree) := by
  simp only [intMoat, IntClipper.of] at h
  cases hu : moatEngine.union (ss.map (fun s => s.map IPt.mm)) (cs.map (fun s => s.map IPt.mm)) with
  | error er => rw [hu] at h; cases h
  | ok t =>
    rw [hu] at h
    have h : scaleNodes t = tree := by simpa [Except.map] using h
    have hu' : moatEngine.union (ss.map inMM) (cs.map inMM) = .ok t := hu
    rw [hu', ← h, mms_scale]
    intro n hn
    rcases moat_union hu' with ⟨x0, y0, x1, y1, hx, hy, e1, -, rfl⟩ | ⟨x0, y0, x1, y1, u0, v0, u1, v1, -, -, -, -, -, -, -, -, e1, -, rfl⟩
    · rw [List.mem_singleton] at hn
      exact .inl ⟨_, hn, mem_inMM (ss := ss) (by rw [e1]; simp)⟩
    · rw [List.mem_singleton] at hn
      exact .inr ⟨_, _, hn, mem_inMM (ss := ss) (by rw [e1]; simp), mem_inMM (ss := ss) (by rw [e1]; simp)⟩

theorem intMoat_difference {ss cs : List (List IPt)} {tree : List INode} (h : intMoat.difference ss cs = .ok tree) :
    moatEngine.difference (ss.map inMM) (cs.map inMM) = .ok (INode.mms tree) := by
  simp only [intMoat, IntClipper.of] at h
  cases hu : moatEngine.difference (ss.map (fun s => s.map IPt.mm)) (cs.map (fun s => s.map IPt.mm)) with
  | error er => rw [hu] at h; cases h
  | ok t =>
    rw [hu] at h
    have h : scaleNodes t = tree := by simpa [Except.map] using h
    have hu' : moatEngine.difference (ss.map inMM) (cs.map inMM) = .ok t := hu
    rw [hu', ← h, mms_scale]
    intro n hn
    obtain ⟨x0, y0, x1, y1, hx, hy, e1, ⟨e2, rfl⟩ | ⟨u0, v0, u1, v1, hu, hv, e2, ⟨a1, a2, a3, a4, rfl⟩ | ⟨a1, a2, a3, a4, rfl⟩⟩⟩ :=
      boxEngine_difference hu'
    · rw [List.mem_singleton] at hn
      exact .inl ⟨_, hn, mem_inMM (ss := ss) (by rw [e1]; simp)⟩
    · rw [List.mem_singleton] at hn
      exact .inr ⟨_, _, hn, mem_inMM (ss := ss) (by rw [e1]; simp), mem_inMM (ss := cs) (by rw [e2]; simp)⟩
    · simp at hn

theorem intRects {ss cs : List (List IPt)} (h : ∀ s ∈ ss ++ cs, IntRect s) : ∀ s ∈ ss.map inMM ++ cs.map inMM, IsRect s := by
  intro s hs
  rw [← List.map_append] at hs
  obtain ⟨l, hl, rfl⟩ := List.mem_map.mp hs
  exact h l hl

theorem intFars {ss : List (List IPt)} {r : ℚ} {p : Pt} (h : ∀ s ∈ ss, FarFrom r (inMM s) p) : ∀ s ∈ ss.map inMM, FarFrom r s p := by
  intro s hs
  obtain ⟨l, hl, rfl⟩ := List.mem_map.mp hs
  exact h l hl

theorem isRect_closed {p q : List Pt} (h : IsRect p) (hc : ClosedAs p q) : IsRect q := by
  obtain ⟨x0, y0, x1, y1, hx, hy, rfl⟩ := h
  exact ⟨x0, y0, x1, y1, hx, hy, IsRect.closed hc⟩

theorem isRect_clean {p : List Pt} (h : IsRect p) : ∀ s ∈ segments p, s.1 ≠ s.2 := by
  obtain ⟨x0, y0, x1, y1, hx, hy, rfl⟩ := h
  intro s hs
  simp only [rect, segments, List.mem_cons, List.not_mem_nil, or_false] at hs
  rcases hs with rfl | rfl | rfl | rfl <;> simp [hx.ne, hy.ne, hx.ne', hy.ne']

theorem isRect_made {q : List Pt} {path : List Pt} {o : ℚ} {k : ℕ} {raw : List (List Pt)} (h : moatEngine.offset path o k = .ok raw)
    (hq : q ∈ raw) : IsRect q := by
  rcases boxEngine_offset (moat_offset h).2 with ⟨-, rfl⟩ | ⟨a, b, h1, ⟨h2, h3, rfl⟩ | ⟨-, rfl⟩⟩
  · simp at hq
  · rw [List.mem_singleton] at hq
    exact ⟨_, _, _, _, h2, h3, hq⟩
  · simp at hq

theorem moat_deep {path : List Pt} {s : ℚ} {k : ℕ} {raw : List (List Pt)} (hp : IsRect path) (hs : 0 < s)
    (h : moatEngine.offset path (-s) k = .ok raw) {q : List Pt} (hq : q ∈ raw) {x z : Pt} (hx : InOn q x) (hz : sqDist x z < s ^ 2) :
    Inside path z ∧ ¬ OnOutline path z := by
  refine ⟨moat_offsets.shrunk_deep path s raw hp hs h q hq x hx z (by rwa [sub_zero]), ?_⟩
  obtain ⟨x0, y0, x1, y1, hx', hy, rfl⟩ := hp
  rcases boxEngine_offset (moat_offset h).2 with ⟨h1, -⟩ | ⟨a, b, h1, h2⟩
  · rw [rectOf_rect hx' hy] at h1; cases h1
  · rw [rectOf_rect hx' hy] at h1
    cases h1
    simp only [sub_neg_eq_add, ← sub_eq_add_neg] at h2
    rcases h2 with ⟨h3, h4, rfl⟩ | ⟨-, rfl⟩
    · rw [List.mem_singleton] at hq
      subst hq
      obtain ⟨⟨c1, c2⟩, c3, c4⟩ := inOn_rect h3.le h4.le hx
      obtain ⟨⟨d1, d2⟩, d3, d4⟩ := sqDist_coords hs.le hz
      rw [onOutline_rect hx'.le hy.le]
      rintro (⟨-, h | h⟩ | ⟨-, h | h⟩) <;> linarith
    · simp at hq

theorem distMM_neg (s : ℤ) : distMM (-s) = -distMM s := by unfold distMM; push_cast; ring

theorem moat_offsets_half : OffsetsRight IsRect (1 / 2) 3 moatEngine := moat_offsets.mono (by norm_num)
theorem moat_near_half : ClipperNearOn IsRect (1 / 2) moatEngine := moat_near.mono (by norm_num)
theorem moat_cuts_half : CutsRight IsRect IsRect (1 / 2) 3 moatEngine := moat_cuts.mono le_rfl (by norm_num)
theorem moat_nests_half : HolesInside IsRect (1 / 2) moatEngine := moat_nests.mono le_rfl (by norm_num)

theorem intMoat_engine {t : ℤ} : IntEngine IntRect IntRect (1 / 2) t intMoat where
  sub := fun _ h => h
  kind :=
    { clean := fun p hp => isRect_clean hp
      closed := fun p q hp hc => isRect_closed hp hc
      offset := fun path o t raw h q hq => isRect_made (intMoat_offset h 3) (List.mem_map.mpr ⟨q, hq, rfl⟩)
      union := by
        intro ss cs tree hs h n hn
        rcases moat_union (intMoat_union h) with ⟨x0, y0, x1, y1, hx, hy, e1, -, e2⟩ |
          ⟨x0, y0, x1, y1, u0, v0, u1, v1, hx, hy, -, -, -, -, -, -, e1, -, e2⟩
        all_goals
          rw [e2, List.mem_singleton] at hn
          subst hn
          have : rect x0 y0 x1 y1 ∈ ss.map inMM := by rw [e1]; simp
          obtain ⟨l, -, hl⟩ := List.mem_map.mp this
          exact ⟨l, hl.symm, by unfold IntRect; rw [hl]; exact ⟨_, _, _, _, hx, hy, rfl⟩⟩
      difference := by
        intro ss cs tree h n hn k hk
        obtain ⟨x0, y0, x1, y1, hx, hy, e1, ⟨e2, e3⟩ | ⟨u0, v0, u1, v1, hu, hv, e2, ⟨-, -, -, -, e3⟩ | ⟨-, -, -, -, e3⟩⟩⟩ :=
          boxEngine_difference (intMoat_difference h)
        · rw [e3, List.mem_singleton] at hn
          subst hn
          rw [below_leaf hk]
          have : rect x0 y0 x1 y1 ∈ ss.map inMM := by rw [e1]; simp
          obtain ⟨l, -, hl⟩ := List.mem_map.mp this
          exact ⟨l, hl.symm, by unfold IntRect; rw [hl]; exact ⟨_, _, _, _, hx, hy, rfl⟩⟩
        · rw [e3, List.mem_singleton] at hn
          subst hn
          rcases below_ring hk with rfl | rfl
          · have : rect x0 y0 x1 y1 ∈ ss.map inMM := by rw [e1]; simp
            obtain ⟨l, -, hl⟩ := List.mem_map.mp this
            exact ⟨l, hl.symm, by unfold IntRect; rw [hl]; exact ⟨_, _, _, _, hx, hy, rfl⟩⟩
          · have : rect u0 v0 u1 v1 ∈ cs.map inMM := by rw [e2]; simp
            obtain ⟨l, -, hl⟩ := List.mem_map.mp this
            exact ⟨l, hl.symm, by unfold IntRect; rw [hl]; exact ⟨_, _, _, _, hu, hv, rfl⟩⟩
        · rw [e3] at hn; simp at hn }
  offsets :=
    { nonneg := by norm_num
      shrunk_in := by
        intro path s raw hK hs h q hq x hx
        have h := intMoat_offset h 3
        rw [distMM_neg] at h
        exact moat_offsets_half.shrunk_in _ _ _ hK (distMM_nonneg hs) h _ (List.mem_map.mpr ⟨q, hq, rfl⟩) x hx
      shrunk_deep := by
        intro path s raw hK hs h q hq x hx z hz
        have h := intMoat_offset h 3
        rw [distMM_neg] at h
        exact moat_deep hK (by linarith) h (List.mem_map.mpr ⟨q, hq, rfl⟩) hx
          (hz.trans_le (pow_le_pow_left₀ (by linarith) (by linarith) 2))
      shrunk_keeps := by
        intro path s raw hK hs h p hp hf
        have h := intMoat_offset h 3
        rw [distMM_neg] at h
        exact moat_tight.shrunk_keeps _ _ _ hK (distMM_nonneg hs) h p hp hf
      shrunk_near := by
        intro path s raw hK hs h q hq x hx
        have h := intMoat_offset h 3
        rw [distMM_neg] at h
        exact moat_tight.shrunk_near _ _ _ hK (distMM_nonneg hs) h _ (List.mem_map.mpr ⟨q, hq, rfl⟩) x hx
      grown_covers := by
        intro path s raw hK hs h z hz x hx
        exact moat_offsets_half.grown_covers _ _ _ hK hs (intMoat_offset h 3) z hz x hx
      grown_far := by
        intro path s raw hK hs h z hz q hq x hx
        exact moat_offsets_half.grown_far _ _ _ hK hs (intMoat_offset h 3) z hz _ (List.mem_map.mpr ⟨q, hq, rfl⟩) x hx
      grown_only := by
        intro path s raw hK hs h p hp
        exact moat_tight.grown_only _ _ _ hK (distMM_nonneg hs) (intMoat_offset h 3) p hp
      grown_near := by
        intro path s raw hK hs h q hq x hx
        exact moat_tight.grown_near _ _ _ hK (distMM_nonneg hs) (intMoat_offset h 3) _ (List.mem_map.mpr ⟨q, hq, rfl⟩) x hx }
  cuts :=
    { union := by
        intro ss cs tree hs h r hr p hp
        refine moat_near_half.union _ _ _ (intRects hs) (intMoat_union h) r hr p ?_
        rw [← List.map_append]
        exact intFars hp
      difference := by
        intro ss cs tree hs h r hr p hp
        refine moat_near_half.difference _ _ _ (intRects hs) (intMoat_difference h) r hr p ?_
        rw [← List.map_append]
        exact intFars hp
      union_from := by
        intro ss tree hs h p hp
        obtain ⟨s, hs', x, hx, hd⟩ := moat_cuts_half.union_from _ _ (by
          intro s hs'
          obtain ⟨l, hl, rfl⟩ := List.mem_map.mp hs'
          exact hs l hl) (intMoat_union h) p hp
        obtain ⟨l, hl, rfl⟩ := List.mem_map.mp hs'
        exact ⟨l, hl, x, hx, hd⟩
      difference_from := by
        intro ss cs tree hs h p hp
        obtain ⟨s, hs', x, hx, hd⟩ := moat_cuts_half.difference_from _ _ _ (intRects hs) (intMoat_difference h) p hp
        obtain ⟨l, hl, rfl⟩ := List.mem_map.mp hs'
        exact ⟨l, hl, x, hx, hd⟩
      difference_out := by
        intro ss cs tree hs h p hp hi
        exact moat_cuts_half.difference_out _ _ _ (intRects hs) (intMoat_difference h) p (intFars hp) hi
      within := by
        intro path s raw ss cs tree hK hs h hF hc hd n hn p hp
        have h := intMoat_offset h 3
        rw [distMM_neg] at h
        obtain ⟨q, hq, x, hx, hd⟩ := moat_cuts_half.within _ _ (ss.map inMM) _ _ hK (distMM_nonneg hs) ⟨_, h, by
            have e1 : (raw.map inMM).filter (fun q => decide (q ≠ [])) = (raw.filter (fun q => decide (q ≠ []))).map inMM := by
              rw [List.filter_map]
              refine congrArg _ (List.filter_congr fun q _ => ?_)
              simp [inMM]
            rw [e1, List.forall₂_map_left_iff, List.forall₂_map_right_iff]
            exact hF⟩ (by
            intro c hc'
            obtain ⟨l, hl, rfl⟩ := List.mem_map.mp hc'
            exact hc l hl) (intMoat_difference hd) n hn p hp
        obtain ⟨l, hl, rfl⟩ := List.mem_map.mp hq
        exact ⟨l, hl, x, hx, hd⟩
      siblings := by
        intro ss cs tree hs h n hn p hp
        obtain ⟨x0, y0, x1, y1, hx, hy, e1, ⟨e2, e3⟩ | ⟨u0, v0, u1, v1, hu, hv, e2, ⟨-, -, -, -, e3⟩ | ⟨-, -, -, -, e3⟩⟩⟩ :=
          boxEngine_difference (intMoat_difference h)
        · rw [e3, List.mem_singleton] at hn
          subst hn
          simp [PolyNode.childs, insideCount]
        · rw [e3, List.mem_singleton] at hn
          subst hn
          exact insideCount_one_le
        · rw [e3] at hn; simp at hn
      outside := by
        intro ss cs tree hs h n hn p hp hf
        exact (boxEngine_inside (k := 3)).outside _ _ _ (intRects hs) (intMoat_difference h) n hn p hp
          fun c hc => (intFars hf c hc).mono le_rfl (by norm_num)
      holes := by
        intro ss cs tree hs h n hn c hc p hp hi
        refine moat_nests_half _ _ _ (intRects hs) (intMoat_difference h) n hn c hc p ?_ hi
        rw [← List.map_append]
        exact intFars hp }
  one := by
    intro path s raw hK hs h p hp hf
    have h := intMoat_offset h 3
    rw [distMM_neg] at h
    rcases (distMM_nonneg hs).eq_or_lt with h0 | h0
    · obtain ⟨x0, y0, x1, y1, hx, hy, e1⟩ := hK
      rw [e1] at hp h
      rw [← h0] at h
      rcases boxEngine_offset (moat_offset h).2 with ⟨h1, -⟩ | ⟨a, b, h1, h2⟩
      · rw [rectOf_rect hx hy] at h1; cases h1
      · rw [rectOf_rect hx hy] at h1
        cases h1
        simp only [neg_zero, sub_zero, add_zero] at h2
        rcases h2 with ⟨-, -, e2⟩ | ⟨h3, -⟩
        · rw [e2]; simp [insideCount, hp]
        · exact absurd ⟨hx, hy⟩ h3
    · exact moat_shrinks.keeps _ _ _ hK h0 h p hp (hf.mono (by linarith) (by linarith))

/-! ### A pocket -/

/-- A ring whose outer corner is not on the grid. -/
def offFace : CqFace := ⟨box (1 / 10) (1 / 10) 40 40, [box 10 10 30 30], -1, -1⟩
def offPath : PathFace := ⟨rect (1 / 10) (1 / 10) 40 40, [rect 10 10 30 30], -1⟩
def offPocket : Request := pocketRequest intMoat.scaled exactEq 9 [offFace] [] { stepover := some (.mult 2) }

theorem off_flat : FlatFace exactEq twoJob.precision offFace offPath := flat_of (by decide +kernel)

theorem scaled_rect {x0 y0 x1 y1 : ℚ} : inMM ((rect x0 y0 x1 y1).map scalePt) =
    rect (distMM (scaleTo x0)) (distMM (scaleTo y0)) (distMM (scaleTo x1)) (distMM (scaleTo y1)) := rfl

theorem off_rounded : offPath.All (Rounded IntRect) := by
  refine ⟨⟨_, _, _, _, ?_, ?_, scaled_rect⟩, ?_⟩
  · decide +kernel
  · decide +kernel
  · intro i hi
    simp only [offPath, List.mem_singleton] at hi
    subst hi
    exact ⟨_, _, _, _, by decide +kernel, by decide +kernel, scaled_rect⟩

theorem intMoat_noIsland {ss cs : List (List Pt)} {tree : List PolyNode} (h : intMoat.scaled.difference ss cs = .ok tree) :
    ∀ n ∈ tree, ∀ v ∈ n.childs, v.childs = [] := by
  obtain ⟨t, h1, rfl⟩ := scaledBoolean_ok h
  exact moat_noIsland (intMoat_difference h1)

/-- The margin of the tool at (5, 20). -/
theorem off_fits {δ : ℚ} (h0 : 0 ≤ δ) (h : δ ≤ 3 / 5) : Fits [offPath] [] (1 + 5 * δ) (1 + 5 * δ) (1 + 5 * δ) (-1) ⟨5, 20⟩ where
  one := by decide +kernel
  far := by
    intro f hf _
    rw [List.mem_singleton] at hf
    subst hf
    refine FarFrom.mono (r := 4) ?_ (by linarith) (by linarith)
    exact farFrom_rect (by norm_num) (by norm_num) (by norm_num) (by norm_num)
  holes := by
    intro f hf _ i hi z hz
    rw [List.mem_singleton] at hf
    subst hf
    simp only [offPath, List.mem_singleton] at hi
    subst hi
    obtain ⟨⟨b1, b2⟩, b3, b4⟩ := inOn_rect (by norm_num) (by norm_num) hz
    simp only [sqDist]
    nlinarith [mul_self_nonneg (20 - z.y)]
  avoids := by simp

/-- The outline is not on the grid, and the engine gets another one. -/
example : ¬ GridPath offPath.outer ∧ inMM (offPath.outer.map scalePt) ≠ offPath.outer := by
  have h : inMM (offPath.outer.map scalePt) ≠ offPath.outer := by decide +kernel
  exact ⟨fun hg => h (inMM_scale hg), h⟩

/-- The hypotheses of `C113_reach`: the machine comes to (5, 20) up to the stepover of 2 and the tolerances. -/
example : ∃ j2 t m' evs, (twoJob.call offPocket).2 = .ok j2 ∧ j2.toGcode = .ok t ∧ runText {} t = some (m', evs) ∧
    ∃ e ∈ evs, ∃ q, MillsOver (-1) q e ∧ sqDist ⟨5, 20⟩ q ≤ (3 + 1 / 500) ^ 2 := by
  obtain ⟨cs, -, hr, h⟩ := call_good (j := twoJob) (r := offPocket) rfl rfl (by unfold SafeName; decide) (by decide +kernel)
  obtain ⟨t, m', evs, d, outer, inner, ao, faces, avoidFaces, areas, avoids, h1, h2, h3, o1, o2, o3, h4, h5, h6, h7, h8⟩ :=
    C113_reach (before := []) (after := []) intMoat_engine rfl {} twoJob_ok (by rintro v ⟨⟩) ⟨hr, fun _ _ => trivial⟩ rfl h rfl rfl
      (by rintro n ⟨⟩) (by decide +kernel)
      (by
        intro c hc f hf
        simp only [List.append_nil, List.mem_singleton] at hc
        subst hc
        rw [flatFace_fun hf off_flat]
        exact off_rounded)
  refine ⟨_, t, m', evs, h, h1, h2, ?_⟩
  cases h3
  have hd : outer = -1 := by rw [o1]; simp [offsetDistance]
  subst hd
  cases h4 with
  | cons a b =>
  cases b
  cases flatFace_fun a off_flat
  cases h5
  have hi : inner = 1 := by rw [o2]; norm_num [offsetDistance]
  have ha : ao = 1 := by rw [o3]; norm_num [offsetDistance]
  subst hi ha
  have hres : (1 : ℚ) / 2 + 3 * resolution ≤ 3 / 5 := by unfold resolution; norm_num
  have hres0 : (0 : ℚ) ≤ 1 / 2 + 3 * resolution := by unfold resolution; norm_num
  obtain ⟨e, he, q, hq, hd, -⟩ := h8 (by norm_num [offsetDistance]) (by norm_num) (by norm_num) (by norm_num) offPath (by simp) ⟨5, 20⟩
    (by decide +kernel) (by rw [neg_neg]; exact off_fits hres0 hres) (by simp)
    (fun g _ _ _ _ _ _ _ hdiff n hn v hv i hi => by rw [intMoat_noIsland hdiff n hn v hv] at hi; cases hi)
    (fun _ _ _ _ _ _ _ _ _ hdiff n hn v hv i hi => by rw [intMoat_noIsland hdiff n hn v hv] at hi; cases hi)
  refine ⟨e, he, q, ?_, hd.trans (by norm_num [offsetDistance, resolution])⟩
  have : rnd 3 offPath.depth = -1 := by decide +kernel
  rwa [this] at hq

end CQ
