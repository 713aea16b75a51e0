import Verif.Props.Gouge

/-! # C108: the engine for rectangles meets the contracts; a wall that is cut through -/

namespace CQ

theorem inOn_rect {x0 y0 x1 y1 : ℚ} (hx : x0 ≤ x1) (hy : y0 ≤ y1) {p : Pt} (h : InOn (rect x0 y0 x1 y1) p) :
    (x0 ≤ p.x ∧ p.x ≤ x1) ∧ y0 ≤ p.y ∧ p.y ≤ y1 := by
  unfold InOn at h
  rw [inside_rect hx hy, onOutline_rect hx hy] at h
  rcases h with ⟨⟨a, b⟩, c, d⟩ | ⟨⟨a, b⟩, c | c⟩ | ⟨⟨a, b⟩, c | c⟩ <;> exact ⟨⟨by linarith, by linarith⟩, by linarith, by linarith⟩

/-- Points that are near are near in each coordinate. -/
theorem sqDist_coords {a b : Pt} {r : ℚ} (hr : 0 ≤ r) (h : sqDist a b < r ^ 2) :
    (a.x - r < b.x ∧ b.x < a.x + r) ∧ a.y - r < b.y ∧ b.y < a.y + r := by
  unfold sqDist at h
  refine ⟨⟨?_, ?_⟩, ?_, ?_⟩ <;> by_contra hc <;> rw [not_lt] at hc <;>
    nlinarith [sq_nonneg (a.x - b.x), sq_nonneg (a.y - b.y)]

theorem boxEngine_offsets {k : ℕ} : OffsetsRight IsRect 0 k boxEngine where
  nonneg := le_rfl
  shrunk_in := by
    rintro _ s raw ⟨x0, y0, x1, y1, hx, hy, rfl⟩ hs h q hq x hxq
    refine ⟨x, ?_, by simp [sqDist]⟩
    rcases boxEngine_offset h with ⟨h1, -⟩ | ⟨a, b, h1, h2⟩
    · rw [rectOf_rect hx hy] at h1; cases h1
    · rw [rectOf_rect hx hy] at h1
      cases h1
      simp only [sub_neg_eq_add, ← sub_eq_add_neg] at h2
      rcases h2 with ⟨h3, h4, rfl⟩ | ⟨-, rfl⟩
      · rw [List.mem_singleton] at hq
        subst hq
        rcases hs.eq_or_lt with rfl | hs
        · simpa using hxq
        · obtain ⟨⟨c1, c2⟩, c3, c4⟩ := inOn_rect h3.le h4.le hxq
          exact .inl ((inside_rect hx.le hy.le x).mpr ⟨⟨by linarith, by linarith⟩, by linarith, by linarith⟩)
      · simp at hq
  shrunk_deep := by
    rintro _ s raw ⟨x0, y0, x1, y1, hx, hy, rfl⟩ hs h q hq x hxq z hz
    rcases boxEngine_offset h with ⟨h1, -⟩ | ⟨a, b, h1, h2⟩
    · rw [rectOf_rect hx hy] at h1; cases h1
    · rw [rectOf_rect hx hy] at h1
      cases h1
      simp only [sub_neg_eq_add, ← sub_eq_add_neg] at h2
      rcases h2 with ⟨h3, h4, rfl⟩ | ⟨-, rfl⟩
      · rw [List.mem_singleton] at hq
        subst hq
        rw [sub_zero] at hz
        obtain ⟨⟨c1, c2⟩, c3, c4⟩ := inOn_rect h3.le h4.le hxq
        obtain ⟨⟨d1, d2⟩, d3, d4⟩ := sqDist_coords hs.le hz
        exact (inside_rect hx.le hy.le z).mpr ⟨⟨by linarith, by linarith⟩, by linarith, by linarith⟩
      · simp at hq
  grown_covers := by
    rintro _ s raw ⟨x0, y0, x1, y1, hx, hy, rfl⟩ hs h z hz x hxz
    rcases boxEngine_offset h with ⟨h1, -⟩ | ⟨a, b, h1, h2⟩
    · rw [rectOf_rect hx hy] at h1; cases h1
    · rw [rectOf_rect hx hy] at h1
      cases h1
      rcases h2 with ⟨h3, h4, rfl⟩ | ⟨hne, -⟩
      · rw [sub_zero, sqDist_comm] at hxz
        rw [insideCount_one, inside_rect h3.le h4.le]
        obtain ⟨⟨c1, c2⟩, c3, c4⟩ := inOn_rect hx.le hy.le hz
        obtain ⟨⟨d1, d2⟩, d3, d4⟩ := sqDist_coords hs.le hxz
        exact ⟨⟨by simp only; linarith, by simp only; linarith⟩, by simp only; linarith, by simp only; linarith⟩
      · exact absurd ⟨by simp only; linarith, by simp only; linarith⟩ hne
  grown_far := by
    rintro _ s raw ⟨x0, y0, x1, y1, hx, hy, rfl⟩ hs h z hz q hq x hxq
    rw [sub_zero]
    rcases boxEngine_offset h with ⟨h1, -⟩ | ⟨a, b, h1, h2⟩
    · rw [rectOf_rect hx hy] at h1; cases h1
    · rw [rectOf_rect hx hy] at h1
      cases h1
      rcases h2 with ⟨h3, h4, rfl⟩ | ⟨-, rfl⟩
      · rw [List.mem_singleton] at hq
        subst hq
        by_contra hc
        rw [not_le, sqDist_comm] at hc
        obtain ⟨⟨c1, c2⟩, c3, c4⟩ := inOn_rect hx.le hy.le hz
        obtain ⟨⟨d1, d2⟩, d3, d4⟩ := sqDist_coords hs.le hc
        rw [onOutline_rect h3.le h4.le] at hxq
        rcases hxq with ⟨-, e | e⟩ | ⟨-, e | e⟩ <;> simp only at e <;> linarith
      · simp at hq

theorem inOn_of_region_leaf {c : List Pt} {p : Pt}
    (h : TreeRegion [.node c []] p ∨ ∃ n ∈ [PolyNode.node c []], ∃ k, n.Below k ∧ OnOutline k.contour p) : InOn c p := by
  rcases h with h | ⟨n, hn, k, hk, h⟩
  · exact .inl (treeRegion_leaf.mp h)
  · rw [List.mem_singleton] at hn
    subst hn
    rw [below_leaf hk] at h
    exact .inr h

theorem rect_in_rect {x0 y0 x1 y1 u0 v0 u1 v1 : ℚ} (hu : u0 ≤ u1) (hv : v0 ≤ v1) (a1 : x0 < u0) (a2 : y0 < v0)
    (a3 : u1 < x1) (a4 : v1 < y1) {p : Pt} (h : InOn (rect u0 v0 u1 v1) p) :
    Inside (rect x0 y0 x1 y1) p ∧ ¬ OnOutline (rect x0 y0 x1 y1) p := by
  obtain ⟨⟨c1, c2⟩, c3, c4⟩ := inOn_rect hu hv h
  rw [inside_rect (by linarith) (by linarith), onOutline_rect (by linarith) (by linarith)]
  refine ⟨⟨⟨by linarith, by linarith⟩, by linarith, by linarith⟩, ?_⟩
  rintro (⟨-, e | e⟩ | ⟨-, e | e⟩) <;> linarith

theorem boxEngine_cuts {k : ℕ} : CutsRight IsRect IsRect 0 k boxEngine where
  union_from := by
    intro ss tree _ h p hp
    obtain ⟨x0, y0, x1, y1, hx, hy, rfl, -, rfl⟩ := boxEngine_union h
    exact ⟨_, by simp, p, inOn_of_region_leaf hp, by simp [sqDist]⟩
  difference_from := by
    intro ss cs tree _ h p hp
    obtain ⟨x0, y0, x1, y1, hx, hy, rfl, ⟨rfl, rfl⟩ | ⟨u0, v0, u1, v1, hu, hv, rfl, ⟨a1, a2, a3, a4, rfl⟩ | ⟨a1, a2, a3, a4, rfl⟩⟩⟩ :=
      boxEngine_difference h
    · exact ⟨_, by simp, p, inOn_of_region_leaf hp, by simp [sqDist]⟩
    · refine ⟨rect x0 y0 x1 y1, by simp, p, ?_, by simp [sqDist]⟩
      rcases hp with hp | ⟨n, hn, k, hk, hp⟩
      · exact .inl (treeRegion_ring.mp hp).1
      · rw [List.mem_singleton] at hn
        subst hn
        rcases below_ring hk with rfl | rfl
        · exact .inr hp
        · exact .inl (rect_in_rect hu.le hv.le a1 a2 a3 a4 (.inr hp)).1
    · rcases hp with ⟨n, hn, -⟩ | ⟨n, hn, -⟩ <;> cases hn
  difference_out := by
    intro ss cs tree _ h p hfar hin
    obtain ⟨x0, y0, x1, y1, hx, hy, rfl, ⟨rfl, rfl⟩ | ⟨u0, v0, u1, v1, hu, hv, rfl, ⟨a1, a2, a3, a4, rfl⟩ | ⟨a1, a2, a3, a4, rfl⟩⟩⟩ :=
      boxEngine_difference h
    · simp [insideCount] at hin
    · rw [insideCount_one] at hin
      refine ⟨fun h => (treeRegion_ring.mp h).2 hin, ?_⟩
      intro n hn k hk hp
      rw [List.mem_singleton] at hn
      subst hn
      rcases below_ring hk with rfl | rfl
      · exact (rect_in_rect hu.le hv.le a1 a2 a3 a4 (.inl hin)).2 hp
      · have := hfar (rect u0 v0 u1 v1) (by simp) p hp
        simp [sqDist] at this
    · refine ⟨?_, ?_⟩
      · rintro ⟨n, hn, -⟩; cases hn
      · intro n hn; cases hn
  within := by
    intro _ _ ss cs tree _ _ _ _ h n hn p hp
    obtain ⟨x0, y0, x1, y1, hx, hy, rfl, ⟨rfl, rfl⟩ | ⟨u0, v0, u1, v1, hu, hv, rfl, ⟨a1, a2, a3, a4, rfl⟩ | ⟨a1, a2, a3, a4, rfl⟩⟩⟩ :=
      boxEngine_difference h
    · rw [List.mem_singleton] at hn
      subst hn
      exact ⟨_, by simp [PolyNode.contour], p, hp, by simp [sqDist]⟩
    · rw [List.mem_singleton] at hn
      subst hn
      exact ⟨_, by simp [PolyNode.contour], p, hp, by simp [sqDist]⟩
    · simp at hn

theorem separate_single {ρ : ℚ} {g : List (List Pt)} : Separate ρ [g] := List.pairwise_singleton _ _

theorem boxEngine_noVoid {areas : List (List PathFace)} {d : ℚ} : NoVoid boxEngine areas d := by
  intro s tree _ h n hn
  obtain ⟨x0, y0, x1, y1, hx, hy, -, -, rfl⟩ := boxEngine_union h
  rw [List.mem_singleton] at hn
  subst hn
  rfl

/-- The tool in the pocket with an island (`ringPocket`): over every point between the outline and the island (both moved by the tool
radius) the tool is in the given square and does not touch the given island. -/
example (p : Pt) (hp : (1 ≤ p.x ∧ p.x < 9) ∧ 1 ≤ p.y ∧ p.y < 9) (hout : p.x < 3 ∨ 7 < p.x ∨ p.y < 3 ∨ 7 < p.y) :
    (∀ z, sqDist p z < 1 → Inside (rect 0 0 10 10) z) ∧ ∀ z, InOn (rect 4 4 6 6) z → 1 ≤ sqDist p z := by
  have h1 := mapE_ok.mp ringPocket_areas
  have hk1 := List.Forall₂.imp (fun _ _ h => offsetPolyface_spec h) h1
  have := region_tool boxEngine_near boxEngine_kind boxEngine_offsets boxEngine_cuts (s := 1) (so := 1) (si := 1)
    (avoidFaces := []) (avoids := []) (regions := [ringRegion]) (r := ringRegion) (p := p) (by norm_num)
    (by
      intro f hf
      simp only [List.append_nil, List.mem_singleton] at hf
      subst hf
      refine ⟨⟨0, 0, 10, 10, by norm_num, by norm_num, rfl⟩, ?_⟩
      intro i hi
      simp only [List.mem_singleton] at hi
      subst hi
      exact ⟨4, 4, 6, 6, by norm_num, by norm_num, rfl⟩)
    hk1 .nil ringPocket_regions (by simp) (by simp) boxEngine_noVoid
    (by
      intro f hf holes hh
      simp only [List.mem_singleton] at hf
      subst hf
      cases hh with
      | cons a b =>
      cases b
      exact separate_single)
    (by
      have : cutAway [[ringRegion]] [] ringRegion.depth = [[rect 3 3 7 7]] := by decide +kernel
      rw [this]
      exact separate_single)
    (.inr ⟨(inside_rect (by norm_num) (by norm_num) p).mpr hp, fun _ => ⟨(inside_rect (by norm_num) (by norm_num) p).mpr hp, ?_⟩⟩)
  · obtain ⟨⟨f, hf, -, -, h3, h4⟩, -⟩ := this
    rw [List.mem_singleton] at hf
    subst hf
    refine ⟨fun z hz => h3 (by norm_num) z (by simpa using hz), fun z hz => ?_⟩
    simpa using h4 (by norm_num) _ (by simp) z hz
  · intro i hi
    simp only [ringRegion, List.mem_singleton] at hi
    subst hi
    rw [inside_rect (by norm_num) (by norm_num)]
    rintro ⟨⟨b1, b2⟩, b3, b4⟩
    rcases hout with h | h | h | h <;> linarith

/-- The hypotheses of `C108_pocket_partial`: pocketing a square of side 6 with a tool of diameter 2, every feed move starts and ends where
the whole tool is in the given square. -/
example : ∃ j2 t m' pre part post, (twoJob.call squarePocket).2 = .ok j2 ∧ j2.toGcode = .ok t ∧
    runText {} t = some (m', pre ++ part ++ post) ∧
    ∀ e ∈ part, isFeedMove e = true → ∃ d p q, FeedsFromTo p q d e ∧ (∀ z, sqDist p z < 1 → Inside (rect 0 0 6 6) z) ∧
      ∀ z, sqDist q z < 1 → Inside (rect 0 0 6 6) z := by
  obtain ⟨cs, -, hr, h⟩ := squarePocket_call
  obtain ⟨t, m', pre, part, post, d, outer, inner, ao, ai, faces, avoidFaces, areas, avoids, regions, h1, h2, h3, o1, o2, o3, o4, h4, h5,
      h6, h7, h8, h9⟩ :=
    C108_pocket_partial (before := []) (after := []) (D := IsRect) boxEngine_near boxEngine_kind boxEngine_inside boxEngine_offsets
      boxEngine_cuts boxEngine_noRepeats {} twoJob_ok (by rintro v ⟨⟩) ⟨hr, fun _ _ => trivial⟩ rfl h rfl rfl (by rintro n ⟨⟩)
      (by decide +kernel) (by rintro d ⟨⟩; norm_num [offsetDistance])
      (by
        intro c hc f hf
        simp only [List.append_nil, List.mem_singleton] at hc
        subst hc
        cases squarePocket_faces hf
        exact ⟨⟨0, 0, 6, 6, by norm_num, by norm_num, rfl⟩, by intro i hi; cases hi⟩)
  refine ⟨_, t, m', pre, part, post, h, h1, h2, fun e he hf => ?_⟩
  cases h3
  have hd : outer = -1 := by rw [o1]; simp [offsetDistance]
  subst hd
  cases h4 with
  | cons a b =>
  cases b
  cases squarePocket_faces a
  cases h5
  cases h7
  cases h6 with
  | cons a b =>
  cases b
  cases squarePocket_areas a
  obtain ⟨r, -, d, p, q, -, -, k1, k2, k3, -⟩ := h9 (by norm_num) (by simp)
    (by
      intro f hf holes hh
      simp only [List.mem_singleton] at hf
      subst hf
      cases hh
      exact .nil)
    (fun r hr => ⟨boxEngine_noVoid, by
      have : cutAway [[⟨rect 1 1 5 5, [], -1⟩]] [] r.depth = [] := by
        simp only [cutAway, holesAt, List.flatten_cons, List.flatten_nil, List.append_nil, List.map_nil, List.map_eq_nil_iff]
        by_cases hd : (-1 : ℚ) ≤ r.depth <;> simp [hd]
      rw [this]
      exact .nil⟩) e he hf
  refine ⟨_, p, q, k1, fun z hz => ?_, fun z hz => ?_⟩
  · obtain ⟨⟨f, hf, -, -, h3, -⟩, -⟩ := k2
    rw [List.mem_singleton] at hf
    subst hf
    exact h3 (by norm_num) z (by simpa using hz)
  · obtain ⟨⟨f, hf, -, -, h3, -⟩, -⟩ := k3
    rw [List.mem_singleton] at hf
    subst hf
    exact h3 (by norm_num) z (by simpa using hz)

/-! ### A wall that is cut through -/

/-- The outline moved inwards by the radius 4/128, and by the stepover 2/128. -/
def wallOuter : List Pt := rect (4 / 128) (4 / 128) (44 / 128) (30 / 128)
def wallStep : List Pt := rect (6 / 128) (6 / 128) (42 / 128) (28 / 128)

/-- The wall and the second hole, moved outwards by the radius. -/
def wallGrown : List Pt := rect (5 / 128) (5 / 128) (43 / 128) (15 / 128)
def postGrown : List Pt := rect (7 / 128) (16 / 128) (20 / 128) (27 / 128)

/-- What is left of the shrunk outline above the wall, and its further steps. -/
def wallRest : List Pt := rect (6 / 128) (15 / 128) (42 / 128) (28 / 128)
def wallRestStep : List Pt := rect (8 / 128) (17 / 128) (40 / 128) (26 / 128)
def wallRest2 : List Pt := rect (20 / 128) (17 / 128) (40 / 128) (26 / 128)
def wallRest3 : List Pt := rect (22 / 128) (19 / 128) (38 / 128) (24 / 128)
def wallRest4 : List Pt := rect (24 / 128) (21 / 128) (36 / 128) (22 / 128)

/-- The engine for rectangles with the differences that are needed here. -/
def wallEngine : Clipper where
  offset := boxEngine.offset
  union := boxEngine.union
  difference ss cs :=
    if cs = [wallGrown, postGrown] then
      if ss = [wallOuter] then .ok [.node wallOuter [.node wallGrown [], .node postGrown []]]
      else if ss = [wallStep] then .ok [.node wallRest [.node postGrown []]]
      else if ss = [wallRestStep] then .ok [.node wallRest2 []]
      else if ss = [wallRest3] then .ok [.node wallRest3 []]
      else if ss = [wallRest4] then .ok [.node wallRest4 []]
      else .error .valueError
    else .error .valueError
  contains _ _ := false

def box (a b c d : ℚ) : List Edge :=
  outline [(1, ⟨a, b⟩, ⟨c, b⟩, c - a), (2, ⟨c, b⟩, ⟨c, d⟩, d - b), (3, ⟨c, d⟩, ⟨a, d⟩, c - a), (4, ⟨a, d⟩, ⟨a, b⟩, d - b)]

def wallFace : CqFace := ⟨box 0 0 (48 / 128) (34 / 128),
  [box (9 / 128) (9 / 128) (39 / 128) (11 / 128), box (11 / 128) (20 / 128) (16 / 128) (23 / 128)], -1 / 10, -1 / 10⟩

/-- A job in inches with a tool of diameter 1/16. -/
def inchJob : Job := Job.init Frame.xy (.int 500) (toolDiameter := some (8 / 128)) (unit := .imperial)

def wallPocket : Request := pocketRequest wallEngine exactEq 9 [wallFace] [] {}

theorem wallEngine_difference {ss cs : List (List Pt)} {tree : List PolyNode} (h : wallEngine.difference ss cs = .ok tree) :
    cs = [wallGrown, postGrown] ∧ ((ss = [wallOuter] ∧ tree = [.node wallOuter [.node wallGrown [], .node postGrown []]]) ∨
      (ss = [wallStep] ∧ tree = [.node wallRest [.node postGrown []]]) ∨ (ss = [wallRestStep] ∧ tree = [.node wallRest2 []]) ∨
      (ss = [wallRest3] ∧ tree = [.node wallRest3 []]) ∨ (ss = [wallRest4] ∧ tree = [.node wallRest4 []])) := by
  simp only [wallEngine] at h
  split at h
  · rename_i h0
    refine ⟨h0, ?_⟩
    split at h
    · cases h; exact .inl ⟨by assumption, rfl⟩
    · split at h
      · cases h; exact .inr (.inl ⟨by assumption, rfl⟩)
      · split at h
        · cases h; exact .inr (.inr (.inl ⟨by assumption, rfl⟩))
        · split at h
          · cases h; exact .inr (.inr (.inr (.inl ⟨by assumption, rfl⟩)))
          · split at h
            · cases h; exact .inr (.inr (.inr (.inr ⟨by assumption, rfl⟩)))
            · cases h
  · cases h

theorem inside_wall (p : Pt) :
    (Inside wallOuter p ↔ (4 / 128 ≤ p.x ∧ p.x < 44 / 128) ∧ 4 / 128 ≤ p.y ∧ p.y < 30 / 128) ∧
    (Inside wallStep p ↔ (6 / 128 ≤ p.x ∧ p.x < 42 / 128) ∧ 6 / 128 ≤ p.y ∧ p.y < 28 / 128) ∧
    (Inside wallGrown p ↔ (5 / 128 ≤ p.x ∧ p.x < 43 / 128) ∧ 5 / 128 ≤ p.y ∧ p.y < 15 / 128) ∧
    (Inside postGrown p ↔ (7 / 128 ≤ p.x ∧ p.x < 20 / 128) ∧ 16 / 128 ≤ p.y ∧ p.y < 27 / 128) ∧
    (Inside wallRest p ↔ (6 / 128 ≤ p.x ∧ p.x < 42 / 128) ∧ 15 / 128 ≤ p.y ∧ p.y < 28 / 128) ∧
    (Inside wallRestStep p ↔ (8 / 128 ≤ p.x ∧ p.x < 40 / 128) ∧ 17 / 128 ≤ p.y ∧ p.y < 26 / 128) ∧
    (Inside wallRest2 p ↔ (20 / 128 ≤ p.x ∧ p.x < 40 / 128) ∧ 17 / 128 ≤ p.y ∧ p.y < 26 / 128) ∧
    (Inside wallRest3 p ↔ (22 / 128 ≤ p.x ∧ p.x < 38 / 128) ∧ 19 / 128 ≤ p.y ∧ p.y < 24 / 128) ∧
    (Inside wallRest4 p ↔ (24 / 128 ≤ p.x ∧ p.x < 36 / 128) ∧ 21 / 128 ≤ p.y ∧ p.y < 22 / 128) := by
  refine ⟨?_, ?_, ?_, ?_, ?_, ?_, ?_, ?_, ?_⟩ <;> exact inside_rect (by norm_num) (by norm_num) p

/-- How the rectangles lie to each other. -/
theorem wall_regions (p : Pt) : ¬ (Inside wallGrown p ∧ Inside postGrown p) ∧
    (Inside wallRest p ↔ Inside wallStep p ∧ ¬ Inside wallGrown p) ∧
    (Inside wallRest2 p ↔ Inside wallRestStep p ∧ ¬ Inside postGrown p) ∧ ¬ (Inside wallRestStep p ∧ Inside wallGrown p) ∧
    ¬ (Inside wallRest3 p ∧ (Inside wallGrown p ∨ Inside postGrown p)) ∧
    ¬ (Inside wallRest4 p ∧ (Inside wallGrown p ∨ Inside postGrown p)) := by
  obtain ⟨-, h2, h3, h4, h5, h6, h7, h8, h9⟩ := inside_wall p
  rw [h2, h3, h4, h5, h6, h7, h8, h9]
  refine ⟨?_, ⟨?_, ?_⟩, ⟨?_, ?_⟩, ?_, ?_, ?_⟩
  · rintro ⟨⟨-, -, a⟩, -, b, -⟩; linarith
  · rintro ⟨⟨a, b⟩, c, d⟩
    exact ⟨⟨⟨a, b⟩, by linarith, d⟩, by rintro ⟨-, -, e⟩; linarith⟩
  · rintro ⟨⟨⟨a, b⟩, c, d⟩, e⟩
    refine ⟨⟨a, b⟩, ?_, d⟩
    by_contra hc
    exact e ⟨⟨by linarith, by linarith⟩, by linarith, by linarith⟩
  · rintro ⟨⟨a, b⟩, c, d⟩
    exact ⟨⟨⟨by linarith, b⟩, c, d⟩, by rintro ⟨⟨-, e⟩, -⟩; linarith⟩
  · rintro ⟨⟨⟨a, b⟩, c, d⟩, e⟩
    refine ⟨⟨?_, b⟩, c, d⟩
    by_contra hc
    exact e ⟨⟨by linarith, by linarith⟩, by linarith, by linarith⟩
  · rintro ⟨⟨-, a, -⟩, -, -, b⟩; linarith
  · rintro ⟨⟨⟨a, -⟩, b, -⟩, ⟨-, -, c⟩ | ⟨⟨-, c⟩, -⟩⟩ <;> linarith
  · rintro ⟨⟨⟨a, -⟩, b, -⟩, ⟨-, -, c⟩ | ⟨⟨-, c⟩, -⟩⟩ <;> linarith

/-- The outlines of what is left run on the given outlines. -/
theorem wall_outlines (p : Pt) : (OnOutline wallRest p → OnOutline wallStep p ∨ OnOutline wallGrown p) ∧
    (OnOutline wallRest2 p → OnOutline wallRestStep p ∨ OnOutline postGrown p) := by
  unfold wallRest wallStep wallGrown wallRest2 wallRestStep postGrown
  simp only [onOutline_rect (show (6 : ℚ) / 128 ≤ 42 / 128 by norm_num) (show (15 : ℚ) / 128 ≤ 28 / 128 by norm_num),
    onOutline_rect (show (6 : ℚ) / 128 ≤ 42 / 128 by norm_num) (show (6 : ℚ) / 128 ≤ 28 / 128 by norm_num),
    onOutline_rect (show (5 : ℚ) / 128 ≤ 43 / 128 by norm_num) (show (5 : ℚ) / 128 ≤ 15 / 128 by norm_num),
    onOutline_rect (show (20 : ℚ) / 128 ≤ 40 / 128 by norm_num) (show (17 : ℚ) / 128 ≤ 26 / 128 by norm_num),
    onOutline_rect (show (8 : ℚ) / 128 ≤ 40 / 128 by norm_num) (show (17 : ℚ) / 128 ≤ 26 / 128 by norm_num),
    onOutline_rect (show (7 : ℚ) / 128 ≤ 20 / 128 by norm_num) (show (16 : ℚ) / 128 ≤ 27 / 128 by norm_num)]
  constructor
  · rintro (⟨⟨a, b⟩, c | c⟩ | ⟨⟨a, b⟩, c⟩)
    · exact .inr (.inl ⟨⟨by linarith, by linarith⟩, .inr c⟩)
    · exact .inl (.inl ⟨⟨a, b⟩, .inr c⟩)
    · exact .inl (.inr ⟨⟨by linarith, b⟩, c⟩)
  · rintro (⟨⟨a, b⟩, c⟩ | ⟨⟨a, b⟩, c | c⟩)
    · exact .inl (.inl ⟨⟨by linarith, b⟩, c⟩)
    · exact .inr (.inr ⟨⟨by linarith, by linarith⟩, .inr c⟩)
    · exact .inl (.inr ⟨⟨a, b⟩, .inr c⟩)

theorem insideCount_two {c d : List Pt} {p : Pt} (h : ¬ (Inside c p ∧ Inside d p)) :
    insideCount [c, d] p % 2 = 1 ↔ Inside c p ∨ Inside d p := by
  by_cases h1 : Inside c p <;> by_cases h2 : Inside d p <;> simp_all [insideCount]

/-- The nodes of the trees are these rectangles; every point on one of them is on a given outline. -/
theorem wallEngine_nodes {ss cs : List (List Pt)} {tree : List PolyNode} (h : wallEngine.difference ss cs = .ok tree) :
    ∀ n ∈ tree, ∀ k, n.Below k → IsRect k.contour ∧ ∀ p, OnOutline k.contour p → ∃ s ∈ ss ++ cs, OnOutline s p := by
  have hr : ∀ c, c ∈ [wallOuter, wallGrown, postGrown, wallRest, wallRest2, wallRest3, wallRest4] → IsRect c := by
    intro c hc
    simp only [List.mem_cons, List.not_mem_nil, or_false] at hc
    rcases hc with rfl | rfl | rfl | rfl | rfl | rfl | rfl <;> exact ⟨_, _, _, _, by norm_num, by norm_num, rfl⟩
  obtain ⟨rfl, ⟨rfl, rfl⟩ | ⟨rfl, rfl⟩ | ⟨rfl, rfl⟩ | ⟨rfl, rfl⟩ | ⟨rfl, rfl⟩⟩ := wallEngine_difference h <;> intro n hn k hk <;>
    rw [List.mem_singleton] at hn <;> subst hn
  · rcases below_node hk with rfl | ⟨m, hm, hk⟩
    · exact ⟨hr wallOuter (by simp), fun p hp => ⟨wallOuter, by simp, hp⟩⟩
    · simp only [List.mem_cons, List.not_mem_nil, or_false] at hm
      rcases hm with rfl | rfl
      · rw [below_leaf hk]; exact ⟨hr wallGrown (by simp), fun p hp => ⟨wallGrown, by simp, hp⟩⟩
      · rw [below_leaf hk]; exact ⟨hr postGrown (by simp), fun p hp => ⟨postGrown, by simp, hp⟩⟩
  · rcases below_ring hk with rfl | rfl
    · refine ⟨hr wallRest (by simp), fun p hp => ?_⟩
      rcases (wall_outlines p).1 hp with h | h
      · exact ⟨wallStep, by simp, h⟩
      · exact ⟨wallGrown, by simp, h⟩
    · exact ⟨hr postGrown (by simp), fun p hp => ⟨postGrown, by simp, hp⟩⟩
  · rw [below_leaf hk]
    refine ⟨hr wallRest2 (by simp), fun p hp => ?_⟩
    rcases (wall_outlines p).2 hp with h | h
    · exact ⟨wallRestStep, by simp, h⟩
    · exact ⟨postGrown, by simp, h⟩
  · rw [below_leaf hk]; exact ⟨hr wallRest3 (by simp), fun p hp => ⟨wallRest3, by simp, hp⟩⟩
  · rw [below_leaf hk]; exact ⟨hr wallRest4 (by simp), fun p hp => ⟨wallRest4, by simp, hp⟩⟩

theorem wallEngine_region {ss cs : List (List Pt)} {tree : List PolyNode} (h : wallEngine.difference ss cs = .ok tree) (p : Pt) :
    insideCount (tree.map PolyNode.contour) p ≤ 1 ∧
    (TreeRegion tree p ↔ (insideCount ss p % 2 = 1 ∧ ¬ insideCount cs p % 2 = 1)) := by
  obtain ⟨h1, h2, h3, h4, h5, h6⟩ := wall_regions p
  obtain ⟨rfl, ⟨rfl, rfl⟩ | ⟨rfl, rfl⟩ | ⟨rfl, rfl⟩ | ⟨rfl, rfl⟩ | ⟨rfl, rfl⟩⟩ := wallEngine_difference h <;>
    refine ⟨insideCount_one_le, ?_⟩ <;> rw [insideCount_one, insideCount_two h1]
  · simp only [TreeRegion, NodeRegion, exists_eq_left, List.mem_cons, List.not_mem_nil, or_false,
      forall_eq_or_imp, forall_eq, IsEmpty.forall_iff, implies_true, and_true]
    exact Iff.intro (fun a => ⟨a.1, fun b => b.elim a.2.1 a.2.2⟩) (fun a => ⟨a.1, fun b => a.2 (.inl b), fun b => a.2 (.inr b)⟩)
  · rw [treeRegion_ring, h2]
    exact Iff.intro (fun a => ⟨a.1.1, fun b => b.elim a.1.2 a.2⟩) (fun a => ⟨⟨a.1, fun b => a.2 (.inl b)⟩, fun b => a.2 (.inr b)⟩)
  · rw [treeRegion_leaf, h3]
    exact Iff.intro (fun a => ⟨a.1, fun b => b.elim (fun b => h4 ⟨a.1, b⟩) a.2⟩) (fun a => ⟨a.1, fun b => a.2 (.inr b)⟩)
  · rw [treeRegion_leaf]
    exact Iff.intro (fun a => ⟨a, fun b => h5 ⟨a, b⟩⟩) (fun a => a.1)
  · rw [treeRegion_leaf]
    exact Iff.intro (fun a => ⟨a, fun b => h6 ⟨a, b⟩⟩) (fun a => a.1)

theorem rect_inOn_rect {x0 y0 x1 y1 u0 v0 u1 v1 : ℚ} (hu : u0 ≤ u1) (hv : v0 ≤ v1) (a1 : x0 ≤ u0) (a2 : y0 ≤ v0)
    (a3 : u1 ≤ x1) (a4 : v1 ≤ y1) {p : Pt} (h : InOn (rect u0 v0 u1 v1) p) : InOn (rect x0 y0 x1 y1) p := by
  obtain ⟨⟨c1, c2⟩, c3, c4⟩ := inOn_rect hu hv h
  unfold InOn
  rw [inside_rect (by linarith) (by linarith), onOutline_rect (by linarith) (by linarith)]
  rcases lt_or_eq_of_le (c2.trans a3) with e | e
  · rcases lt_or_eq_of_le (c4.trans a4) with e' | e'
    · exact .inl ⟨⟨by linarith, e⟩, by linarith, e'⟩
    · exact .inr (.inl ⟨⟨by linarith, by linarith⟩, .inr e'⟩)
  · exact .inr (.inr ⟨⟨by linarith, by linarith⟩, .inr e⟩)

theorem wall_within {ss cs : List (List Pt)} {tree : List PolyNode} (h : wallEngine.difference ss cs = .ok tree) {n : PolyNode}
    (hn : n ∈ tree) {p : Pt} (hp : InOn n.contour p) : ∃ s ∈ ss, InOn s p := by
  obtain ⟨rfl, ⟨rfl, rfl⟩ | ⟨rfl, rfl⟩ | ⟨rfl, rfl⟩ | ⟨rfl, rfl⟩ | ⟨rfl, rfl⟩⟩ := wallEngine_difference h <;>
    rw [List.mem_singleton] at hn <;> subst hn
  · exact ⟨_, List.mem_singleton.mpr rfl, hp⟩
  · exact ⟨_, List.mem_singleton.mpr rfl, rect_inOn_rect (by norm_num) (by norm_num) (by norm_num) (by norm_num) (by norm_num)
      (by norm_num) hp⟩
  · exact ⟨_, List.mem_singleton.mpr rfl, rect_inOn_rect (by norm_num) (by norm_num) (by norm_num) (by norm_num) (by norm_num)
      (by norm_num) hp⟩
  · exact ⟨_, List.mem_singleton.mpr rfl, hp⟩
  · exact ⟨_, List.mem_singleton.mpr rfl, hp⟩

theorem wall_inOn {ss cs : List (List Pt)} {tree : List PolyNode} (h : wallEngine.difference ss cs = .ok tree) {n k : PolyNode}
    (hn : n ∈ tree) (hk : n.Below k) {p : Pt} (hp : OnOutline k.contour p) : ∃ s ∈ ss, InOn s p := by
  rcases below_node (c := n.contour) (cs := n.childs) (by cases n; exact hk) with e | ⟨m, hm, hk'⟩
  · refine wall_within h hn (.inr ?_)
    rw [e] at hp
    exact hp
  · obtain ⟨rfl, ⟨rfl, rfl⟩ | ⟨rfl, rfl⟩ | ⟨rfl, rfl⟩ | ⟨rfl, rfl⟩ | ⟨rfl, rfl⟩⟩ := wallEngine_difference h <;>
      rw [List.mem_singleton] at hn <;> subst hn <;> simp only [PolyNode.childs, List.mem_cons, List.not_mem_nil, or_false] at hm
    · rcases hm with rfl | rfl <;> rw [below_leaf hk'] at hp <;>
        exact ⟨_, List.mem_singleton.mpr rfl, rect_inOn_rect (by norm_num) (by norm_num) (by norm_num) (by norm_num) (by norm_num)
          (by norm_num) (.inr hp)⟩
    · subst hm
      rw [below_leaf hk'] at hp
      exact ⟨_, List.mem_singleton.mpr rfl, rect_inOn_rect (by norm_num) (by norm_num) (by norm_num) (by norm_num) (by norm_num)
          (by norm_num) (.inr hp)⟩

/-- A point in a hole (off its outline) is on no outline of the results. -/
theorem wall_out {ss cs : List (List Pt)} {tree : List PolyNode} (h : wallEngine.difference ss cs = .ok tree) {n k : PolyNode}
    (hn : n ∈ tree) (hk : n.Below k) {p : Pt} (hp : OnOutline k.contour p) (hfar : ∀ c ∈ cs, FarFrom 0 c p) :
    ¬ insideCount cs p % 2 = 1 := by
  intro hin
  obtain ⟨h1, -⟩ := wall_regions p
  have hno : ∀ c ∈ cs, ¬ OnOutline c p := by
    intro c hc ho
    have := hfar c hc p ho
    simp [sqDist] at this
  have hcs := (wallEngine_difference h).1
  subst hcs
  rw [insideCount_two h1] at hin
  obtain ⟨-, -, hw, hq, -⟩ := inside_wall p
  have n1 := hno wallGrown (by simp)
  have n2 := hno postGrown (by simp)
  rw [hw, hq] at hin
  unfold wallGrown at n1
  unfold postGrown at n2
  rw [onOutline_rect (by norm_num) (by norm_num), not_or] at n1 n2
  have hin' : ((5 / 128 < p.x ∧ p.x < 43 / 128) ∧ 5 / 128 < p.y ∧ p.y < 15 / 128) ∨
      ((7 / 128 < p.x ∧ p.x < 20 / 128) ∧ 16 / 128 < p.y ∧ p.y < 27 / 128) := by
    rcases hin with ⟨⟨a, b⟩, c, d⟩ | ⟨⟨a, b⟩, c, d⟩
    · exact .inl ⟨⟨lt_of_le_of_ne a fun e => n1.2 ⟨⟨c, d.le⟩, .inl e.symm⟩, b⟩, lt_of_le_of_ne c fun e => n1.1 ⟨⟨a, b.le⟩, .inl e.symm⟩, d⟩
    · exact .inr ⟨⟨lt_of_le_of_ne a fun e => n2.2 ⟨⟨c, d.le⟩, .inl e.symm⟩, b⟩, lt_of_le_of_ne c fun e => n2.1 ⟨⟨a, b.le⟩, .inl e.symm⟩, d⟩
  have hc : k.contour ∈ [wallOuter, wallGrown, postGrown, wallRest, wallRest2, wallRest3, wallRest4] := by
    have hd := (wallEngine_difference h).2
    rcases hd with ⟨-, rfl⟩ | ⟨-, rfl⟩ | ⟨-, rfl⟩ | ⟨-, rfl⟩ | ⟨-, rfl⟩ <;> rw [List.mem_singleton] at hn <;> subst hn
    · rcases below_node hk with rfl | ⟨m, hm, hk⟩
      · simp [PolyNode.contour]
      · simp only [List.mem_cons, List.not_mem_nil, or_false] at hm
        rcases hm with rfl | rfl <;> rw [below_leaf hk] <;> simp [PolyNode.contour]
    · rcases below_ring hk with rfl | rfl <;> simp [PolyNode.contour]
    all_goals rw [below_leaf hk]; simp [PolyNode.contour]
  generalize k.contour = c at hc hp
  simp only [List.mem_cons, List.not_mem_nil, or_false] at hc
  rcases hc with rfl | rfl | rfl | rfl | rfl | rfl | rfl
  · unfold wallOuter at hp
    rw [onOutline_rect (by norm_num) (by norm_num)] at hp
    rcases hp with ⟨⟨a, b⟩, c | c⟩ | ⟨⟨a, b⟩, c | c⟩ <;> rcases hin' with ⟨⟨d, e⟩, f, g⟩ | ⟨⟨d, e⟩, f, g⟩ <;> linarith
  · exact absurd hp (hno wallGrown (by simp))
  · exact absurd hp (hno postGrown (by simp))
  · unfold wallRest at hp
    rw [onOutline_rect (by norm_num) (by norm_num)] at hp
    rcases hp with ⟨⟨a, b⟩, c | c⟩ | ⟨⟨a, b⟩, c | c⟩ <;> rcases hin' with ⟨⟨d, e⟩, f, g⟩ | ⟨⟨d, e⟩, f, g⟩ <;> linarith
  · obtain ⟨⟨a, b⟩, c, d⟩ := inOn_rect (by norm_num) (by norm_num) (.inr hp)
    rcases hin' with ⟨⟨d, e⟩, f, g⟩ | ⟨⟨d, e⟩, f, g⟩ <;> linarith
  · obtain ⟨⟨a, b⟩, c, d⟩ := inOn_rect (by norm_num) (by norm_num) (.inr hp)
    rcases hin' with ⟨⟨d, e⟩, f, g⟩ | ⟨⟨d, e⟩, f, g⟩ <;> linarith
  · obtain ⟨⟨a, b⟩, c, d⟩ := inOn_rect (by norm_num) (by norm_num) (.inr hp)
    rcases hin' with ⟨⟨d, e⟩, f, g⟩ | ⟨⟨d, e⟩, f, g⟩ <;> linarith

theorem wallEngine_near : ClipperNearOn IsRect 0 wallEngine where
  nonneg := le_rfl
  kind := boxEngine_near.kind
  union := boxEngine_near.union
  difference := by
    intro ss cs tree _ h r hr p hp
    rw [add_zero] at hp
    obtain ⟨h1, h2⟩ := wallEngine_region h p
    refine ⟨fun n hn k hk q hq => ?_, h1, h2⟩
    obtain ⟨s, hs, hsq⟩ := (wallEngine_nodes h n hn k hk).2 q hq
    exact hp s hs q hsq

theorem wallEngine_kind : MakesKind IsRect wallEngine where
  offset := boxEngine_kind.offset
  difference := by
    intro ss cs tree h n hn k hk q hq
    obtain ⟨x0, y0, x1, y1, hx, hy, e⟩ := (wallEngine_nodes h n hn k hk).1
    rw [e] at hq
    exact ⟨x0, y0, x1, y1, hx, hy, IsRect.closed hq⟩

theorem wallEngine_noRepeats : NoRepeats wallEngine where
  offset := boxEngine_noRepeats.offset
  difference := by
    intro ss cs tree h n hn q' hc
    obtain ⟨x0, y0, x1, y1, hx, hy, rfl⟩ := wallEngine_kind.difference _ _ _ h n hn n (.self n) q' hc
    exact rect_segments hx hy

theorem wallEngine_offsets {k : ℕ} : OffsetsRight IsRect 0 k wallEngine :=
  ⟨le_rfl, (boxEngine_offsets (k := k)).shrunk_in, (boxEngine_offsets (k := k)).shrunk_deep, (boxEngine_offsets (k := k)).grown_covers, (boxEngine_offsets (k := k)).grown_far⟩

theorem wallEngine_cuts {k : ℕ} : CutsRight IsRect IsRect 0 k wallEngine where
  union_from := (boxEngine_cuts (k := k)).union_from
  difference_from := by
    intro ss cs tree _ h p hp
    have hs : ∃ s ∈ ss, InOn s p := by
      rcases hp with hp | ⟨n, hn, k, hk, hp⟩
      · have := ((wallEngine_region h p).2.mp hp).1
        have hpos : 0 < insideCount ss p := by omega
        obtain ⟨s, hs, hin⟩ := List.countP_pos_iff.mp hpos
        exact ⟨s, hs, .inl (of_decide_eq_true hin)⟩
      · exact wall_inOn h hn hk hp
    obtain ⟨s, hs, hin⟩ := hs
    exact ⟨s, hs, p, hin, by simp [sqDist]⟩
  difference_out := by
    intro ss cs tree _ h p hfar hin
    refine ⟨fun hp => ((wallEngine_region h p).2.mp hp).2 hin, fun n hn k hk hp => ?_⟩
    exact wall_out h hn hk hp hfar hin
  within := by
    intro _ _ ss cs tree _ _ _ _ h n hn p hp
    obtain ⟨s, hs, hin⟩ := wall_within h hn hp
    exact ⟨s, hs, p, hin, by simp [sqDist]⟩

theorem wallEngine_inside {k : ℕ} : StaysInside IsRect 0 k wallEngine where
  nonneg := le_rfl
  shrink := (boxEngine_inside (k := k)).shrink
  within := by
    intro _ _ ss cs tree _ _ _ _ h n hn p hp
    obtain ⟨s, hs, hin⟩ := wall_within h hn hp
    exact ⟨s, hs, p, hin, by simp [sqDist]⟩
  siblings := by
    intro ss cs tree _ h n hn p _
    obtain ⟨h1, -⟩ := wall_regions p
    obtain ⟨rfl, ⟨rfl, rfl⟩ | ⟨rfl, rfl⟩ | ⟨rfl, rfl⟩ | ⟨rfl, rfl⟩ | ⟨rfl, rfl⟩⟩ := wallEngine_difference h <;>
      rw [List.mem_singleton] at hn <;> subst hn
    · change insideCount [wallGrown, postGrown] p ≤ 1
      by_cases h2 : Inside wallGrown p <;> by_cases h3 : Inside postGrown p <;> simp_all [insideCount]
    · exact insideCount_one_le
    all_goals simp [PolyNode.childs, insideCount]
  outside := by
    intro ss cs tree _ h n hn p hp hfar
    have := wall_out h hn (.self n) hp hfar
    omega

/-- The machine feeds straight at height -0.1 from (0.188, 0.117) to (0.188, 0.031). -/
def cutsWall (e : Event) : Bool :=
  decide (e.st.spindle = .cw) && decide (e.st.pos = Pt.pos ⟨188 / 1000, 117 / 1000⟩ (-1 / 10)) &&
  match e.act with
  | .move .linear tgt _ => decide (tgt = Pt.pos ⟨188 / 1000, 31 / 1000⟩ (-1 / 10))
  | _ => false

/-- The face as polygons. -/
def wallPath : PathFace := ⟨rect 0 0 (48 / 128) (34 / 128),
  [rect (9 / 128) (9 / 128) (39 / 128) (11 / 128), rect (11 / 128) (20 / 128) (16 / 128) (23 / 128)], -1 / 10⟩

theorem inchJob_ok : InitOK inchJob := ⟨rfl, by unfold SafeName; decide, numOK_int _, by rintro v ⟨⟩⟩

/-- C108 is violated, with default arguments and an engine that makes no mistake: a job in inches with a tool of diameter 1/16 and a
pocket with a wall 1/64 thick, which the tool can go around.  Everything but the links is as it should be (the contracts, the
hypotheses of `C108_pocket_partial`), but the code compares the square of the length of a link with the stepover, so with the stepover of 1/64
links may be 1/8 long; the next outline is on the other side of the wall, 11/128 away, and the centre of the tool goes straight
through the wall at full depth. -/
theorem C108_violated :
    (ClipperNearOn IsRect 0 wallEngine ∧ MakesKind IsRect wallEngine ∧ StaysInside IsRect 0 twoJob.precision wallEngine ∧
      OffsetsRight IsRect 0 twoJob.precision wallEngine ∧ CutsRight IsRect IsRect 0 twoJob.precision wallEngine ∧ NoRepeats wallEngine) ∧
    FlatFace exactEq inchJob.precision wallFace wallPath ∧ wallPath.All IsRect ∧
    (∃ area, OffsetFaces wallEngine (offsetDistance (8 / 128 / 2) (-1) none) (offsetDistance (8 / 128 / 2) 1 none) inchJob.precision wallPath [area] ∧
      buildPocketOps wallEngine [area] [] = .ok [area] ∧ NoVoid wallEngine [[area]] area.depth ∧
      HolesApart wallEngine 0 (offsetDistance (8 / 128 / 2) 1 none) inchJob.precision [wallPath] ∧
      Separate 0 (cutAway [[area]] [] area.depth)) ∧
    ∃ j2 t m' evs, (inchJob.call wallPocket).2 = .ok j2 ∧ j2.toGcode = .ok t ∧ runText {} t = some (m', evs) ∧
      ∃ e ∈ evs, ∃ q, MillsOver (-1 / 10) q e ∧ Inside (rect (9 / 128) (9 / 128) (39 / 128) (11 / 128)) q ∧
        ∀ r r'', 0 < r → ∀ r', 0 < r' → ¬ ToolIn [wallPath] [] 0 r r' r'' (-1 / 10) q := by
  have hsep : Separate 0 [[wallGrown], [postGrown]] := by
    refine .cons ?_ separate_single
    intro b hb
    rw [List.mem_singleton] at hb
    subst hb
    intro p
    have key : ∀ c : List Pt, Reaches 0 [c] p → InOn c p := by
      rintro c (h | ⟨c', hc', h⟩)
      · exact .inl (insideCount_one.mp h)
      · rw [List.mem_singleton] at hc'
        subst hc'
        rw [not_farFrom] at h
        obtain ⟨q, hq, h⟩ := h
        rw [eq_of_sqDist h]
        exact .inr hq
    rintro ⟨h1, h2⟩
    have h1 := inOn_rect (by norm_num) (by norm_num) (key _ h1)
    have h2 := inOn_rect (by norm_num) (by norm_num) (key _ h2)
    linarith [h1.2.2, h2.2.1]
  refine ⟨⟨wallEngine_near, wallEngine_kind, wallEngine_inside, wallEngine_offsets, wallEngine_cuts, wallEngine_noRepeats⟩, ?_, ?_,
    ⟨⟨wallOuter, [wallGrown, postGrown], -1 / 10⟩, ?_, ?_, ?_, ?_, ?_⟩, ?_⟩
  · have : (match PathFace.fromCqFace exactEq wallFace inchJob.precision with
        | .ok p => decide (p = wallPath) | .error _ => false) = true := by decide +kernel
    cases h : PathFace.fromCqFace exactEq wallFace inchJob.precision with
    | error e => rw [h] at this; cases this
    | ok p => rw [h] at this; rw [← of_decide_eq_true this]; exact fromCqFace_spec h
  · refine ⟨⟨0, 0, 48 / 128, 34 / 128, by norm_num, by norm_num, rfl⟩, ?_⟩
    intro i hi
    simp only [wallPath, List.mem_cons, List.not_mem_nil, or_false] at hi
    rcases hi with rfl | rfl <;> exact ⟨_, _, _, _, by norm_num, by norm_num, rfl⟩
  · exact offsetPolyface_spec (by decide +kernel)
  · have : (match buildPocketOps wallEngine [⟨wallOuter, [wallGrown, postGrown], -1 / 10⟩] [] with
        | .ok a => decide (a = [⟨wallOuter, [wallGrown, postGrown], -1 / 10⟩]) | .error _ => false) = true := by decide +kernel
    cases h : buildPocketOps wallEngine [⟨wallOuter, [wallGrown, postGrown], -1 / 10⟩] [] with
    | error e => rw [h] at this; cases this
    | ok a => rw [h] at this; rw [of_decide_eq_true this]
  · exact boxEngine_noVoid
  · intro f hf holes hh
    rw [List.mem_singleton] at hf
    subst hf
    have ho : offsetDistance (8 / 128 / 2) 1 none = 4 / 128 := by norm_num [offsetDistance]
    have grow : ∀ {a b c d : ℚ} {qs : List (List Pt)}, a < c → b < d →
        OffsetContours wallEngine (4 / 128) inchJob.precision (rect a b c d) qs →
        qs = [rect (a - 4 / 128) (b - 4 / 128) (c + 4 / 128) (d + 4 / 128)] := by
      rintro a b c d qs hac hbd ⟨raw, h1, h2⟩
      rcases boxEngine_offset (k := inchJob.precision) h1 with ⟨h3, -⟩ | ⟨u, v, h3, h4⟩
      · rw [rectOf_rect hac hbd] at h3; cases h3
      · rw [rectOf_rect hac hbd] at h3
        cases h3
        rcases h4 with ⟨-, -, rfl⟩ | ⟨h4, -⟩
        · cases h2 with
          | cons a b =>
            cases b
            rw [IsRect.closed a]
        · exact absurd ⟨by simp only; linarith, by simp only; linarith⟩ h4
    rw [ho] at hh
    cases hh with
    | cons a b =>
    cases b with
    | cons b c =>
    cases c
    rw [grow (by norm_num) (by norm_num) a, grow (by norm_num) (by norm_num) b, mul_zero]
    refine cast ?_ hsep
    unfold wallGrown postGrown
    norm_num
  · have : cutAway [[⟨wallOuter, [wallGrown, postGrown], -1 / 10⟩]] [] (-1 / 10) = [[wallGrown], [postGrown]] := by decide +kernel
    rw [this]
    exact hsep
  · obtain ⟨j2, t, m', evs, h1, h2, h3, e, he, hbad⟩ := run_witness (j := inchJob) (r := wallPocket) (bad := cutsWall) inchJob_ok
      (by rintro v ⟨⟩) rfl rfl (by unfold SafeName; decide) (by decide +kernel)
    have hq : Inside (rect (9 / 128) (9 / 128) (39 / 128) (11 / 128)) ⟨188 / 1000, 8 / 100⟩ := by
      rw [inside_rect (by norm_num) (by norm_num)]
      norm_num
    refine ⟨j2, t, m', evs, h1, h2, h3, e, he, ⟨188 / 1000, 8 / 100⟩, ?_, hq, ?_⟩
    · simp only [cutsWall, Bool.and_eq_true, decide_eq_true_eq] at hbad
      obtain ⟨⟨k1, k2⟩, k3⟩ := hbad
      split at k3
      · rename_i tgt ctr hact
        rw [of_decide_eq_true k3] at hact
        exact ⟨k1, _, _, ctr, k2, hact, 37 / 86, by norm_num, by norm_num, by decide +kernel⟩
      · cases k3
    · rintro r r'' hr r' hr' ⟨⟨f, hf, -, -, -, h⟩, -⟩
      rw [List.mem_singleton] at hf
      subst hf
      have := h hr' _ (by simp [wallPath]) _ (.inl hq)
      simp [sqDist] at this
      nlinarith

end CQ
