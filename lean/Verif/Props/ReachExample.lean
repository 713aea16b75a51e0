import Verif.Props.GougeExample
import Verif.Props.Reach

/-! # C109: an engine that meets the contracts, a moat, and a pocket in the middle of it that is forgotten -/

namespace CQ

/-! ### A larger tolerance is a weaker contract -/

theorem ClipperNearOn.mono {G : List Pt → Prop} {δ δ' : ℚ} {eng : Clipper} (h : ClipperNearOn G δ eng) (hδ : δ ≤ δ') :
    ClipperNearOn G δ' eng where
  nonneg := h.nonneg.trans hδ
  kind := h.kind
  union := fun ss cs tree hG ht r hr p hp => h.union ss cs tree hG ht r hr p fun s hs =>
    (hp s hs).mono (by linarith [h.nonneg]) (by linarith)
  difference := fun ss cs tree hG ht r hr p hp => h.difference ss cs tree hG ht r hr p fun s hs =>
    (hp s hs).mono (by linarith [h.nonneg]) (by linarith)

theorem ShrinksNear.mono {G : List Pt → Prop} {δ δ' : ℚ} {eng : Clipper} {k : ℕ} (h : ShrinksNear G δ k eng) (h0 : 0 ≤ δ) (hδ : δ ≤ δ') :
    ShrinksNear G δ' k eng where
  keeps := fun path s raw hG hs ho p hp hf => h.keeps path s raw hG hs ho p hp (hf.mono (by linarith) (by linarith))
  near := fun path s raw hG hs ho q hq x hx hf => h.near path s raw hG hs ho q hq x hx (hf.mono (by linarith) (by linarith))

theorem OffsetsRight.mono {D : List Pt → Prop} {δ δ' : ℚ} {eng : Clipper} {k : ℕ} (h : OffsetsRight D δ k eng) (hδ : δ ≤ δ') :
    OffsetsRight D δ' k eng where
  nonneg := h.nonneg.trans hδ
  shrunk_in := fun path s raw hD hs ho q hq x hx => by
    obtain ⟨y, hy, hd⟩ := h.shrunk_in path s raw hD hs ho q hq x hx
    exact ⟨y, hy, hd.trans (pow_le_pow_left₀ h.nonneg hδ 2)⟩
  shrunk_deep := fun path s raw hD hs ho q hq x hx z hz => h.shrunk_deep path s raw hD (by linarith) ho q hq x hx z
    (hz.trans_le (pow_le_pow_left₀ (by linarith) (by linarith) 2))
  grown_covers := fun path s raw hD hs ho z hz x hx => h.grown_covers path s raw hD (by linarith) ho z hz x
    (hx.trans_le (pow_le_pow_left₀ (by linarith) (by linarith) 2))
  grown_far := fun path s raw hD hs ho z hz q hq x hx =>
    (pow_le_pow_left₀ (by linarith) (by linarith) 2).trans (h.grown_far path s raw hD (by linarith) ho z hz q hq x hx)

theorem CutsRight.mono {D G : List Pt → Prop} {δ δ' : ℚ} {eng : Clipper} {k : ℕ} (h : CutsRight D G δ k eng) (h0 : 0 ≤ δ) (hδ : δ ≤ δ') :
    CutsRight D G δ' k eng where
  union_from := fun ss tree hG ht p hp => by
    obtain ⟨s, hs, x, hx, hd⟩ := h.union_from ss tree hG ht p hp
    exact ⟨s, hs, x, hx, hd.trans (pow_le_pow_left₀ h0 hδ 2)⟩
  difference_from := fun ss cs tree hG ht p hp => by
    obtain ⟨s, hs, x, hx, hd⟩ := h.difference_from ss cs tree hG ht p hp
    exact ⟨s, hs, x, hx, hd.trans (pow_le_pow_left₀ h0 hδ 2)⟩
  difference_out := fun ss cs tree hG ht p hp hin => h.difference_out ss cs tree hG ht p (fun c hc => (hp c hc).mono h0 hδ) hin
  within := fun path s ss cs tree hD hs ho hG ht n hn p hp => by
    obtain ⟨q, hq, x, hx, hd⟩ := h.within path s ss cs tree hD hs ho hG ht n hn p hp
    exact ⟨q, hq, x, hx, hd.trans (pow_le_pow_left₀ h0 hδ 2)⟩

theorem HolesInside.mono {G : List Pt → Prop} {δ δ' : ℚ} {eng : Clipper} (h : HolesInside G δ eng) (h0 : 0 ≤ δ) (hδ : δ ≤ δ') :
    HolesInside G δ' eng :=
  fun ss cs tree hG ht n hn c hc p hp hin => h ss cs tree hG ht n hn c hc p (fun s hs => (hp s hs).mono h0 hδ) hin

/-! ### The engine -/

/-- The engine for rectangles, which grows them by at most 1 (their corners are not rounded) and which unites a rectangle with one inside it: with the
even-odd rule the inner one becomes a void. -/
def moatEngine : Clipper where
  offset path o k := if 1 < o then .error .valueError else boxEngine.offset path o k
  union ss cs := match ss, cs with
    | [s, t], [] => match rectOf s, rectOf t with
        | some (a, b), some (u, v) => if a.x < u.x ∧ a.y < u.y ∧ v.x < b.x ∧ v.y < b.y then .ok [.node s [.node t []]] else .error .valueError
        | _, _ => .error .valueError
    | _, _ => boxEngine.union ss cs
  difference := boxEngine.difference
  contains _ _ := false

theorem moat_offset {path : List Pt} {o : ℚ} {k : ℕ} {raw : List (List Pt)} (h : moatEngine.offset path o k = .ok raw) :
    o ≤ 1 ∧ boxEngine.offset path o k = .ok raw := by
  simp only [moatEngine] at h
  split at h
  · cases h
  · exact ⟨by linarith, h⟩

theorem moat_union {ss cs : List (List Pt)} {tree : List PolyNode} (h : moatEngine.union ss cs = .ok tree) :
    (∃ x0 y0 x1 y1 : ℚ, x0 < x1 ∧ y0 < y1 ∧ ss = [rect x0 y0 x1 y1] ∧ cs = [] ∧ tree = [.node (rect x0 y0 x1 y1) []]) ∨
    ∃ x0 y0 x1 y1 u0 v0 u1 v1 : ℚ, x0 < x1 ∧ y0 < y1 ∧ u0 < u1 ∧ v0 < v1 ∧ x0 < u0 ∧ y0 < v0 ∧ u1 < x1 ∧ v1 < y1 ∧
      ss = [rect x0 y0 x1 y1, rect u0 v0 u1 v1] ∧ cs = [] ∧ tree = [.node (rect x0 y0 x1 y1) [.node (rect u0 v0 u1 v1) []]] := by
  simp only [moatEngine] at h
  split at h
  · split at h
    · rename_i hr1 hr2
      obtain ⟨h1, h2, rfl⟩ := rectOf_some hr1
      obtain ⟨h3, h4, rfl⟩ := rectOf_some hr2
      split at h
      · rename_i hc
        obtain ⟨c1, c2, c3, c4⟩ := hc
        cases h
        exact .inr ⟨_, _, _, _, _, _, _, _, h1, h2, h3, h4, c1, c2, c3, c4, rfl, rfl, rfl⟩
      · cases h
    · cases h
  · exact .inl (boxEngine_union h)

theorem moat_near : ClipperNearOn IsRect 0 moatEngine where
  nonneg := le_rfl
  kind := by
    intro ss cs tree _ h n hn q hq
    rcases moat_union h with ⟨x0, y0, x1, y1, hx, hy, -, -, rfl⟩ | ⟨x0, y0, x1, y1, _, _, _, _, hx, hy, -, -, -, -, -, -, -, -, rfl⟩ <;>
    · rw [List.mem_singleton] at hn
      subst hn
      exact ⟨x0, y0, x1, y1, hx, hy, IsRect.closed hq⟩
  union := by
    intro ss cs tree _ h r hr p hp
    rw [add_zero] at hp
    rcases moat_union h with ⟨x0, y0, x1, y1, hx, hy, rfl, rfl, rfl⟩ |
      ⟨x0, y0, x1, y1, u0, v0, u1, v1, hx, hy, hu, hv, a1, a2, a3, a4, rfl, rfl, rfl⟩
    · refine ⟨?_, insideCount_one_le, ?_⟩
      · intro n hn k hk
        rw [List.mem_singleton] at hn
        subst hn
        rw [below_leaf hk]
        exact hp _ (by simp [PolyNode.contour])
      · rw [treeRegion_leaf, insideCount_one]
        simp [insideCount]
    · refine ⟨?_, insideCount_one_le, ?_⟩
      · intro n hn k hk
        rw [List.mem_singleton] at hn
        subst hn
        rcases below_ring hk with rfl | rfl
        · exact hp _ (by simp [PolyNode.contour])
        · exact hp _ (by simp [PolyNode.contour])
      · rw [treeRegion_ring]
        have h2 := fun h => (rect_in_rect hu.le hv.le a1 a2 a3 a4 (p := p) (.inl h)).1
        by_cases c1 : Inside (rect x0 y0 x1 y1) p <;> by_cases c2 : Inside (rect u0 v0 u1 v1) p
        · simp [insideCount, c1, c2]
        · simp [insideCount, c1, c2]
        · exact absurd (h2 c2) c1
        · simp [insideCount, c1, c2]
  difference := boxEngine_near.difference

theorem moat_kind : MakesKind IsRect moatEngine where
  offset := fun path o k raw h => boxEngine_kind.offset path o k raw (moat_offset h).2
  difference := boxEngine_kind.difference

theorem moat_noRepeats : NoRepeats moatEngine where
  offset := fun path o k raw h => boxEngine_noRepeats.offset path o k raw (moat_offset h).2
  difference := boxEngine_noRepeats.difference

theorem moat_shrinks {k : ℕ} : ShrinksNear IsRect 0 k moatEngine where
  keeps := fun path s raw hG hs h => boxEngine_shrinks.keeps path s raw hG hs (moat_offset h).2
  near := fun path s raw hG hs h => boxEngine_shrinks.near path s raw hG hs (moat_offset h).2

theorem moat_offsets {k : ℕ} : OffsetsRight IsRect 0 k moatEngine where
  nonneg := le_rfl
  shrunk_in := fun path s raw hG hs h => boxEngine_offsets.shrunk_in path s raw hG hs (moat_offset h).2
  shrunk_deep := fun path s raw hG hs h => boxEngine_offsets.shrunk_deep path s raw hG hs (moat_offset h).2
  grown_covers := fun path s raw hG hs h => boxEngine_offsets.grown_covers path s raw hG hs (moat_offset h).2
  grown_far := fun path s raw hG hs h => boxEngine_offsets.grown_far path s raw hG hs (moat_offset h).2

theorem moat_cuts {k : ℕ} : CutsRight IsRect IsRect 0 k moatEngine where
  union_from := by
    intro ss tree _ h p hp
    rcases moat_union h with ⟨x0, y0, x1, y1, hx, hy, rfl, -, rfl⟩ |
      ⟨x0, y0, x1, y1, u0, v0, u1, v1, hx, hy, hu, hv, a1, a2, a3, a4, rfl, -, rfl⟩
    · exact ⟨_, by simp, p, inOn_of_region_leaf hp, by simp [sqDist]⟩
    · refine ⟨rect x0 y0 x1 y1, by simp, p, ?_, by simp [sqDist]⟩
      rcases hp with hp | ⟨n, hn, k, hk, hp⟩
      · exact .inl (treeRegion_ring.mp hp).1
      · rw [List.mem_singleton] at hn
        subst hn
        rcases below_ring hk with rfl | rfl
        · exact .inr hp
        · exact .inl (rect_in_rect hu.le hv.le a1 a2 a3 a4 (.inr hp)).1
  difference_from := (boxEngine_cuts (k := k)).difference_from
  difference_out := (boxEngine_cuts (k := k)).difference_out
  within := fun path s ss cs tree hD hs ho => by
    obtain ⟨raw, h1, h2⟩ := ho
    exact boxEngine_cuts.within path s ss cs tree hD hs ⟨raw, (moat_offset h1).2, h2⟩

theorem moat_nests : HolesInside IsRect 0 moatEngine := by
  intro ss cs tree _ h n hn c hc p _ hp
  obtain ⟨x0, y0, x1, y1, hx, hy, rfl, ⟨rfl, rfl⟩ | ⟨u0, v0, u1, v1, hu, hv, rfl, ⟨a1, a2, a3, a4, rfl⟩ | ⟨a1, a2, a3, a4, rfl⟩⟩⟩ :=
    boxEngine_difference h
  · rw [List.mem_singleton] at hn
    subst hn
    simp [PolyNode.childs] at hc
  · rw [List.mem_singleton] at hn
    subst hn
    simp only [PolyNode.childs, List.mem_singleton] at hc
    subst hc
    exact (rect_in_rect hu.le hv.le a1 a2 a3 a4 (.inl hp)).1
  · simp at hn

theorem inOn_rect_of {x0 y0 x1 y1 : ℚ} (hx : x0 ≤ x1) (hy : y0 ≤ y1) {p : Pt} (h1 : x0 ≤ p.x) (h2 : p.x ≤ x1) (h3 : y0 ≤ p.y)
    (h4 : p.y ≤ y1) : InOn (rect x0 y0 x1 y1) p := by
  rcases h2.eq_or_lt with e | h2
  · exact .inr ((onOutline_rect hx hy p).mpr (.inr ⟨⟨h3, h4⟩, .inr e⟩))
  · rcases h4.eq_or_lt with e | h4
    · exact .inr ((onOutline_rect hx hy p).mpr (.inl ⟨⟨h1, h2.le⟩, .inr e⟩))
    · exact .inl ((inside_rect hx hy p).mpr ⟨⟨h1, h2⟩, h3, h4⟩)

/-- The nearest number in an interval. -/
theorem clamp {a b t s : ℚ} (hab : a ≤ b) (hs : 0 ≤ s) (h1 : a - s ≤ t) (h2 : t ≤ b + s) :
    ∃ u, a ≤ u ∧ u ≤ b ∧ (t - u) * (t - u) ≤ s * s := by
  rcases lt_or_ge t a with h | h
  · exact ⟨a, le_rfl, hab, by nlinarith⟩
  · rcases lt_or_ge b t with h' | h'
    · exact ⟨b, hab, le_rfl, by nlinarith⟩
    · exact ⟨t, h, h', by nlinarith⟩

theorem rect_near {x0 y0 x1 y1 s : ℚ} (hx : x0 ≤ x1) (hy : y0 ≤ y1) (hs : 0 ≤ s) (hs1 : s ≤ 1) {p : Pt}
    (h : (x0 - s ≤ p.x ∧ p.x ≤ x1 + s) ∧ y0 - s ≤ p.y ∧ p.y ≤ y1 + s) :
    ∃ z, InOn (rect x0 y0 x1 y1) z ∧ sqDist p z ≤ (s + 1 / 2) ^ 2 := by
  obtain ⟨u, u1, u2, u3⟩ := clamp hx hs h.1.1 h.1.2
  obtain ⟨v, v1, v2, v3⟩ := clamp hy hs h.2.1 h.2.2
  exact ⟨⟨u, v⟩, inOn_rect_of hx hy u1 u2 v1 v2, by unfold sqDist; nlinarith⟩

theorem moat_tight {k : ℕ} : OffsetsTight IsRect (1 / 2) k moatEngine where
  shrunk_keeps := by
    intro path s raw hD hs h p hp hf
    rcases hs.eq_or_lt with rfl | hs
    · obtain ⟨x0, y0, x1, y1, hx, hy, rfl⟩ := hD
      rcases boxEngine_offset (moat_offset h).2 with ⟨h1, -⟩ | ⟨a, b, h1, h2⟩
      · rw [rectOf_rect hx hy] at h1; cases h1
      · rw [rectOf_rect hx hy] at h1
        cases h1
        simp only [neg_zero, sub_zero, add_zero] at h2
        rcases h2 with ⟨-, -, rfl⟩ | ⟨h3, -⟩
        · exact insideCount_one.mpr hp
        · exact absurd ⟨hx, hy⟩ h3
    · rw [moat_shrinks.keeps _ _ _ hD hs h p hp (hf.mono (by linarith) (by linarith))]
  shrunk_near := by
    intro path s raw hD hs h q hq x hx hf
    rcases hs.eq_or_lt with rfl | hs
    · obtain ⟨x0, y0, x1, y1, hx', hy, rfl⟩ := hD
      rcases boxEngine_offset (moat_offset h).2 with ⟨h1, -⟩ | ⟨a, b, h1, h2⟩
      · rw [rectOf_rect hx' hy] at h1; cases h1
      · rw [rectOf_rect hx' hy] at h1
        cases h1
        simp only [neg_zero, sub_zero, add_zero] at h2
        rcases h2 with ⟨-, -, rfl⟩ | ⟨-, rfl⟩
        · rw [List.mem_singleton] at hq
          subst hq
          have := hf x hx
          simp [sqDist] at this
          nlinarith
        · simp at hq
    · exact moat_shrinks.near _ _ _ hD hs h q hq x hx (hf.mono (by linarith) (by linarith))
  grown_only := by
    rintro _ s raw ⟨x0, y0, x1, y1, hx, hy, rfl⟩ hs h p hp
    obtain ⟨hs1, h⟩ := moat_offset h
    rcases boxEngine_offset h with ⟨h1, -⟩ | ⟨a, b, h1, h2⟩
    · rw [rectOf_rect hx hy] at h1; cases h1
    · rw [rectOf_rect hx hy] at h1
      cases h1
      rcases h2 with ⟨h3, h4, rfl⟩ | ⟨-, rfl⟩
      · have := inOn_rect h3.le h4.le (.inl (insideCount_one.mp hp))
        exact rect_near hx.le hy.le hs hs1 this
      · simp [insideCount] at hp
  grown_near := by
    rintro _ s raw ⟨x0, y0, x1, y1, hx, hy, rfl⟩ hs h q hq x hxq
    obtain ⟨hs1, h⟩ := moat_offset h
    rcases boxEngine_offset h with ⟨h1, -⟩ | ⟨a, b, h1, h2⟩
    · rw [rectOf_rect hx hy] at h1; cases h1
    · rw [rectOf_rect hx hy] at h1
      cases h1
      rcases h2 with ⟨h3, h4, rfl⟩ | ⟨-, rfl⟩
      · rw [List.mem_singleton] at hq
        subst hq
        exact rect_near hx.le hy.le hs hs1 (inOn_rect h3.le h4.le (.inr hxq))
      · simp at hq

/-! ### The moat -/

/-- A square ring, and the square in the middle of its hole. -/
def moatFace : CqFace := ⟨box 0 0 40 40, [box 10 10 30 30], -1, -1⟩
def coreFace : CqFace := ⟨box 14 14 26 26, [], -1, -1⟩
def moatPath : PathFace := ⟨rect 0 0 40 40, [rect 10 10 30 30], -1⟩
def corePath : PathFace := ⟨rect 14 14 26 26, [], -1⟩

def moatPocket : Request := pocketRequest moatEngine exactEq 9 [moatFace] [] { stepover := some (.mult 2) }
def corePocket : Request := pocketRequest moatEngine exactEq 9 [moatFace, coreFace] [] { stepover := some (.mult 2) }

theorem flatFace_fun {veq : Vec → Vec → Bool} {k : ℕ} {c : CqFace} {f g : PathFace} (h : FlatFace veq k c f) (h' : FlatFace veq k c g) :
    f = g := by
  obtain ⟨-, a1, a2, a3⟩ := h
  obtain ⟨-, b1, b2, b3⟩ := h'
  obtain ⟨o, i, d⟩ := f
  obtain ⟨o', i', d'⟩ := g
  rw [a1] at b1
  cases b1
  simp only at a2 b2 a3 b3
  rw [a3, b3]
  congr 1
  clear a1
  generalize c.innerWires = ws at a2 b2
  induction a2 generalizing i' with
  | nil => cases b2; rfl
  | cons h _ ih =>
    cases b2 with
    | cons h' b2 =>
      rw [h] at h'
      cases h'
      rw [ih _ b2]

theorem flat_of {c : CqFace} {f : PathFace} (h : (match PathFace.fromCqFace exactEq c twoJob.precision with
    | .ok p => decide (p = f) | .error _ => false) = true) : FlatFace exactEq twoJob.precision c f := by
  cases hc : PathFace.fromCqFace exactEq c twoJob.precision with
  | error e => rw [hc] at h; cases h
  | ok p => rw [hc] at h; rw [← of_decide_eq_true h]; exact fromCqFace_spec hc

theorem moat_flat : FlatFace exactEq twoJob.precision moatFace moatPath := flat_of (by decide +kernel)
theorem core_flat : FlatFace exactEq twoJob.precision coreFace corePath := flat_of (by decide +kernel)

theorem moat_rect : moatPath.All IsRect := by
  refine ⟨⟨0, 0, 40, 40, by norm_num, by norm_num, rfl⟩, ?_⟩
  intro i hi
  simp only [moatPath, List.mem_singleton] at hi
  subst hi
  exact ⟨10, 10, 30, 30, by norm_num, by norm_num, rfl⟩

theorem core_rect : corePath.All IsRect :=
  ⟨⟨14, 14, 26, 26, by norm_num, by norm_num, rfl⟩, by intro i hi; cases hi⟩

theorem moat_noIsland {ss cs : List (List Pt)} {tree : List PolyNode} (h : moatEngine.difference ss cs = .ok tree) :
    ∀ n ∈ tree, ∀ v ∈ n.childs, v.childs = [] := by
  intro n hn v hv
  obtain ⟨x0, y0, x1, y1, hx, hy, rfl, ⟨rfl, rfl⟩ | ⟨u0, v0, u1, v1, hu, hv, rfl, ⟨a1, a2, a3, a4, rfl⟩ | ⟨a1, a2, a3, a4, rfl⟩⟩⟩ :=
    boxEngine_difference h
  · rw [List.mem_singleton] at hn
    subst hn
    simp [PolyNode.childs] at hv
  · rw [List.mem_singleton] at hn
    subst hn
    simp only [PolyNode.childs, List.mem_singleton] at hv
    subst hv
    rfl
  · simp at hn

/-- In the moat of width 10 a tool of diameter 2 fits at (5, 20), with the margin of five times the tolerance of 1/2. -/
theorem moat_fits : Fits [moatPath] [] (7 / 2) (7 / 2) (7 / 2) (-1) ⟨5, 20⟩ where
  one := by decide +kernel
  far := by
    intro f hf _
    rw [List.mem_singleton] at hf
    subst hf
    exact farFrom_rect (by norm_num) (by norm_num) (by norm_num) (by norm_num)
  holes := by
    intro f hf _ i hi z hz
    rw [List.mem_singleton] at hf
    subst hf
    simp only [moatPath, List.mem_singleton] at hi
    subst hi
    obtain ⟨⟨b1, b2⟩, b3, b4⟩ := inOn_rect (by norm_num) (by norm_num) hz
    simp only [sqDist]
    nlinarith [mul_self_nonneg (20 - z.y)]
  avoids := by simp

/-- The hypotheses of `C109_pocket_partial`: the machine comes to (5, 20) up to the stepover of 2 and the tolerances. -/
example : ∃ j2 t m' evs, (twoJob.call moatPocket).2 = .ok j2 ∧ j2.toGcode = .ok t ∧ runText {} t = some (m', evs) ∧
    ∃ e ∈ evs, ∃ q, MillsOver (-1) q e ∧ sqDist ⟨5, 20⟩ q ≤ (3 + 1 / 1000) ^ 2 := by
  obtain ⟨cs, -, hr, h⟩ := call_good (j := twoJob) (r := moatPocket) rfl rfl (by unfold SafeName; decide) (by decide +kernel)
  obtain ⟨t, m', evs, d, outer, inner, ao, faces, avoidFaces, areas, avoids, h1, h2, h3, o1, o2, o3, h4, h5, h6, h7, h8⟩ :=
    C109_pocket_partial (before := []) (after := []) (D := IsRect) (δ := 1 / 2) (moat_near.mono (by norm_num)) moat_kind
      (moat_shrinks.mono le_rfl (by norm_num)) (moat_offsets.mono (by norm_num)) moat_tight (moat_cuts.mono le_rfl (by norm_num))
      (moat_nests.mono le_rfl (by norm_num)) moat_noRepeats {} twoJob_ok (by rintro v ⟨⟩) ⟨hr, fun _ _ => trivial⟩ rfl h rfl rfl
      (by rintro n ⟨⟩) (by decide +kernel)
      (by
        intro c hc f hf
        simp only [List.append_nil, List.mem_singleton] at hc
        subst hc
        rw [flatFace_fun hf moat_flat]
        exact moat_rect)
  refine ⟨_, t, m', evs, h, h1, h2, ?_⟩
  cases h3
  have hd : outer = -1 := by rw [o1]; simp [offsetDistance]
  subst hd
  cases h4 with
  | cons a b =>
  cases b
  cases flatFace_fun a moat_flat
  cases h5
  have hi : inner = 1 := by rw [o2]; norm_num [offsetDistance]
  have ha : ao = 1 := by rw [o3]; norm_num [offsetDistance]
  subst hi ha
  obtain ⟨e, he, q, hq, hd, -⟩ := h8 (by norm_num [offsetDistance]) (by norm_num) (by norm_num) (by norm_num) moatPath (by simp) ⟨5, 20⟩
    (by decide +kernel) (by norm_num; exact moat_fits) (by simp)
    (fun g _ _ _ _ _ _ _ hdiff n hn v hv i hi => by rw [moat_noIsland hdiff n hn v hv] at hi; cases hi)
    (fun _ _ _ _ _ _ _ _ _ hdiff n hn v hv i hi => by rw [moat_noIsland hdiff n hn v hv] at hi; cases hi)
  refine ⟨e, he, q, ?_, hd.trans (by norm_num [offsetDistance])⟩
  have : rnd 3 moatPath.depth = -1 := by decide +kernel
  rwa [this] at hq

/-! ### The pocket that is forgotten -/

theorem run_all {j : Job} {r : Request} {good : Event → Bool} (h0 : InitOK j) (hn : ∀ v, j.toolNumber = some v → NumOK v)
    (hp : r.pre j = .ok ()) (ht : r.tool = none) (hname : SafeName r.opName)
    (h : (match r.gen j with
      | .ok cs => cs.all goodMove && ((j.addOperation r.opName (cs.map .motion)).intended {}).2.all good &&
          ((j.addOperation r.opName (cs.map .motion)).intended {}).2.any isFeedMove
      | .error _ => false) = true) :
    ∃ j2 t m' evs, (j.call r).2 = .ok j2 ∧ j2.toGcode = .ok t ∧ runText {} t = some (m', evs) ∧
      (∀ e ∈ evs, good e = true) ∧ ∃ e ∈ evs, isFeedMove e = true := by
  obtain ⟨cs, hg, hr, hc⟩ := call_good hp ht hname (by
    cases hg : r.gen j with
    | error e => rw [hg] at h; cases h
    | ok cs => rw [hg] at h; simp only [Bool.and_eq_true] at h; exact h.1.1)
  rw [hg] at h
  simp only [Bool.and_eq_true] at h
  obtain ⟨t, ht, hrun⟩ := run_job {} _ (inv_reach (inv_init h0 hn) (.result r .init hr hc)).ok rfl
  exact ⟨_, t, _, _, hc, ht, hrun, List.all_eq_true.mp h.1.2, List.any_eq_true.mp h.2⟩

/-- A straight feed move stays on one side of the square 10 ≤ x, y ≤ 30. -/
def staysOut (e : Event) : Bool :=
  match e.act with
  | .move .linear tgt _ => match e.st.pos.x, e.st.pos.y, tgt.x, tgt.y with
      | some ax, some ay, some bx, some b_y => decide ((ax ≤ 10 ∧ bx ≤ 10) ∨ (30 ≤ ax ∧ 30 ≤ bx) ∨ (ay ≤ 10 ∧ b_y ≤ 10) ∨ (30 ≤ ay ∧ 30 ≤ b_y))
      | _, _, _, _ => true
  | _ => true

theorem staysOut_mills {e : Event} (h : staysOut e = true) {z : ℚ} {q : Pt} (hq : MillsOver z q e) : 10 ^ 2 ≤ sqDist ⟨20, 20⟩ q := by
  obtain ⟨-, a, b, ctr, hpos, hact, t, t0, t1, rfl⟩ := hq
  unfold staysOut at h
  rw [hact, hpos] at h
  simp only [Pt.pos, decide_eq_true_eq] at h
  simp only [sqDist, Pt.lerp]
  rcases h with ⟨h1, h2⟩ | ⟨h1, h2⟩ | ⟨h1, h2⟩ | ⟨h1, h2⟩
  · have : a.x + t * (b.x - a.x) ≤ 10 := by nlinarith
    nlinarith [mul_self_nonneg (20 - (a.y + t * (b.y - a.y)))]
  · have : 30 ≤ a.x + t * (b.x - a.x) := by nlinarith
    nlinarith [mul_self_nonneg (20 - (a.y + t * (b.y - a.y)))]
  · have : a.y + t * (b.y - a.y) ≤ 10 := by nlinarith
    nlinarith [mul_self_nonneg (20 - (a.x + t * (b.x - a.x)))]
  · have : 30 ≤ a.y + t * (b.y - a.y) := by nlinarith
    nlinarith [mul_self_nonneg (20 - (a.x + t * (b.x - a.x)))]

/-- C109 is violated, with an engine that makes no mistake: a moat and, in the middle of what it surrounds, a second square to be
pocketed at the same depth.  A tool of diameter 2 fits in that square with more than five times its diameter to spare, there are no holes and no
avoid areas near, and the machine never mills within 10 of its middle: of two outlines one inside the other the code keeps the outer one only.  The
program is made without any complaint. -/
theorem C109_violated :
    (ClipperNearOn IsRect (1 / 2) moatEngine ∧ MakesKind IsRect moatEngine ∧ ShrinksNear IsRect (1 / 2) twoJob.precision moatEngine ∧
      OffsetsRight IsRect (1 / 2) twoJob.precision moatEngine ∧ OffsetsTight IsRect (1 / 2) twoJob.precision moatEngine ∧ CutsRight IsRect IsRect (1 / 2) twoJob.precision moatEngine ∧
      HolesInside IsRect (1 / 2) moatEngine ∧ NoRepeats moatEngine) ∧
    FlatFace exactEq twoJob.precision moatFace moatPath ∧ FlatFace exactEq twoJob.precision coreFace corePath ∧
    moatPath.All IsRect ∧ corePath.All IsRect ∧
    (∀ z, sqDist ⟨20, 20⟩ z < 6 ^ 2 → Inside corePath.outer z ∧ ¬ FaceRegion moatPath z) ∧ corePath.inners = [] ∧
    (∀ n tree ss cs, moatEngine.difference ss cs = .ok tree → n ∈ tree → ∀ v ∈ n.childs, v.childs = []) ∧
    ∃ j2 t m' evs, (twoJob.call corePocket).2 = .ok j2 ∧ j2.toGcode = .ok t ∧ runText {} t = some (m', evs) ∧
      (∃ e ∈ evs, isFeedMove e = true) ∧ ∀ e ∈ evs, ∀ z q, MillsOver z q e → 10 ^ 2 ≤ sqDist ⟨20, 20⟩ q := by
  refine ⟨⟨moat_near.mono (by norm_num), moat_kind, moat_shrinks.mono le_rfl (by norm_num), moat_offsets.mono (by norm_num), moat_tight,
    moat_cuts.mono le_rfl (by norm_num), moat_nests.mono le_rfl (by norm_num), moat_noRepeats⟩, moat_flat, core_flat, moat_rect, core_rect,
    ?_, rfl, fun n tree ss cs h hn => moat_noIsland h n hn, ?_⟩
  · intro z hz
    obtain ⟨⟨c1, c2⟩, c3, c4⟩ := sqDist_coords (by norm_num) hz
    simp only at c1 c2 c3 c4
    refine ⟨(inside_rect (by norm_num) (by norm_num) z).mpr ⟨⟨by linarith, by linarith⟩, by linarith, by linarith⟩, fun h => ?_⟩
    exact h.2 (rect 10 10 30 30) (by simp [moatPath])
      ((inside_rect (by norm_num) (by norm_num) z).mpr ⟨⟨by linarith, by linarith⟩, by linarith, by linarith⟩)
  · obtain ⟨j2, t, m', evs, h1, h2, h3, hall, hany⟩ := run_all (j := twoJob) (r := corePocket) (good := staysOut) twoJob_ok
      (by rintro v ⟨⟩) rfl rfl (by unfold SafeName; decide) (by decide +kernel)
    exact ⟨j2, t, m', evs, h1, h2, h3, hany, fun e he z q hq => staysOut_mills (hall e he) hq⟩

/-! ### Avoid faces with holes -/

/-- A square of side 40, and a square ring to be avoided in it. -/
def plateFace : CqFace := ⟨box 0 0 40 40, [], -1, -1⟩
def avoidRingFace : CqFace := ⟨box 8 8 32 32, [box 9 9 31 31], -1, -1⟩
def platePath : PathFace := ⟨rect 0 0 40 40, [], -1⟩
def avoidRingPath : PathFace := ⟨rect 8 8 32 32, [rect 9 9 31 31], -1⟩

def avoidRingPocket : Request := pocketRequest moatEngine exactEq 9 [plateFace] [avoidRingFace] { stepover := some (.mult 2) }

theorem plate_flat : FlatFace exactEq twoJob.precision plateFace platePath := flat_of (by decide +kernel)
theorem avoidRing_flat : FlatFace exactEq twoJob.precision avoidRingFace avoidRingPath := flat_of (by decide +kernel)

theorem plate_rect : platePath.All IsRect :=
  ⟨⟨0, 0, 40, 40, by norm_num, by norm_num, rfl⟩, by intro i hi; cases hi⟩

theorem avoidRing_rect : avoidRingPath.All IsRect := by
  refine ⟨⟨8, 8, 32, 32, by norm_num, by norm_num, rfl⟩, ?_⟩
  intro i hi
  simp only [avoidRingPath, List.mem_singleton] at hi
  subst hi
  exact ⟨9, 9, 31, 31, by norm_num, by norm_num, rfl⟩

/-- C109 is violated by avoid faces with holes: the tool fits in the hole of a ring that is to be avoided, 11 from the ring on all sides,
and the machine never mills within 10 of the middle of the hole (the code cuts away the whole outline of the ring). -/
theorem C109_violated_avoid :
    (ClipperNearOn IsRect (1 / 2) moatEngine ∧ MakesKind IsRect moatEngine ∧ ShrinksNear IsRect (1 / 2) twoJob.precision moatEngine ∧
      OffsetsRight IsRect (1 / 2) twoJob.precision moatEngine ∧ OffsetsTight IsRect (1 / 2) twoJob.precision moatEngine ∧ CutsRight IsRect IsRect (1 / 2) twoJob.precision moatEngine ∧
      HolesInside IsRect (1 / 2) moatEngine ∧ NoRepeats moatEngine) ∧
    FlatFace exactEq twoJob.precision plateFace platePath ∧ FlatFace exactEq twoJob.precision avoidRingFace avoidRingPath ∧
    platePath.All IsRect ∧ avoidRingPath.All IsRect ∧ platePath.inners = [] ∧
    (∀ z, sqDist ⟨20, 20⟩ z < 11 ^ 2 → Inside platePath.outer z ∧ ¬ FaceRegion avoidRingPath z) ∧
    ∃ j2 t m' evs, (twoJob.call avoidRingPocket).2 = .ok j2 ∧ j2.toGcode = .ok t ∧ runText {} t = some (m', evs) ∧
      (∃ e ∈ evs, isFeedMove e = true) ∧ ∀ e ∈ evs, ∀ z q, MillsOver z q e → 10 ^ 2 ≤ sqDist ⟨20, 20⟩ q := by
  refine ⟨⟨moat_near.mono (by norm_num), moat_kind, moat_shrinks.mono le_rfl (by norm_num), moat_offsets.mono (by norm_num), moat_tight,
    moat_cuts.mono le_rfl (by norm_num), moat_nests.mono le_rfl (by norm_num), moat_noRepeats⟩, plate_flat, avoidRing_flat, plate_rect, avoidRing_rect,
    rfl, ?_, ?_⟩
  · intro z hz
    obtain ⟨⟨c1, c2⟩, c3, c4⟩ := sqDist_coords (by norm_num) hz
    simp only at c1 c2 c3 c4
    refine ⟨(inside_rect (by norm_num) (by norm_num) z).mpr ⟨⟨by linarith, by linarith⟩, by linarith, by linarith⟩, fun h => ?_⟩
    exact h.2 (rect 9 9 31 31) (by simp [avoidRingPath])
      ((inside_rect (by norm_num) (by norm_num) z).mpr ⟨⟨by linarith, by linarith⟩, by linarith, by linarith⟩)
  · obtain ⟨j2, t, m', evs, h1, h2, h3, hall, hany⟩ := run_all (j := twoJob) (r := avoidRingPocket) (good := staysOut) twoJob_ok
      (by rintro v ⟨⟩) rfl rfl (by unfold SafeName; decide) (by decide +kernel)
    exact ⟨j2, t, m', evs, h1, h2, h3, hany, fun e he z q hq => staysOut_mills (hall e he) hq⟩

/-- The point (2, 20) between the ring and the edge of the plate meets the hypotheses of `C109_pocket_partial` about avoid faces. -/
example : Fits [platePath] [avoidRingPath] (0 + 1) (1 + 1) (1 + 1) (-1) ⟨2, 20⟩ ∧ NoVoidIn moatEngine 1 (-1) twoJob.precision avoidRingPath ⟨2, 20⟩ := by
  refine ⟨⟨by decide +kernel, ?_, ?_, ?_⟩, .inr ⟨by norm_num, ?_, ?_⟩⟩
  · intro f hf _
    rw [List.mem_singleton] at hf
    subst hf
    exact farFrom_rect (by norm_num) (by norm_num) (by norm_num) (by norm_num)
  · intro f hf _ i hi
    rw [List.mem_singleton] at hf
    subst hf
    cases hi
  · intro f hf _ z hz
    rw [List.mem_singleton] at hf
    subst hf
    obtain ⟨⟨b1, b2⟩, b3, b4⟩ := inOn_rect (by norm_num) (by norm_num) hz
    simp only [sqDist]
    nlinarith [mul_self_nonneg (20 - z.y)]
  · intro i hi z hz
    simp only [avoidRingPath, List.mem_singleton] at hi
    subst hi
    obtain ⟨⟨b1, b2⟩, b3, b4⟩ := inOn_rect (by norm_num) (by norm_num) hz
    exact inOn_rect_of (by norm_num) (by norm_num) (by linarith) (by linarith) (by linarith) (by linarith)
  · intro outlines holes tree ho hh hd n hn v hv hin
    obtain ⟨raw, r1, r2⟩ := ho
    have hout : outlines = [rect 7 7 33 33] := by
      have hr : moatEngine.offset avoidRingPath.outer 1 twoJob.precision = .ok [rect 7 7 33 33] := by
        have hm : (match moatEngine.offset avoidRingPath.outer 1 twoJob.precision with
          | .ok r => decide (r = [rect 7 7 33 33]) | .error _ => false) = true := by decide +kernel
        cases hc : moatEngine.offset avoidRingPath.outer 1 twoJob.precision with
        | error e => rw [hc] at hm; cases hm
        | ok r => rw [hc] at hm; rw [← of_decide_eq_true hm]
      rw [hr] at r1
      cases r1
      simp only [show [rect 7 7 33 33].filter (fun p => decide (p ≠ [])) = [rect 7 7 33 33] from rfl] at r2
      cases r2 with
      | cons a b => cases b; rw [IsRect.closed a]
    subst hout
    obtain ⟨x0, y0, x1, y1, hx, hy, he, ⟨-, rfl⟩ | ⟨u0, v0, u1, v1, hu, hv', -, ⟨a1, a2, a3, a4, rfl⟩ | ⟨a1, a2, a3, a4, rfl⟩⟩⟩ :=
      boxEngine_difference hd
    · rw [List.mem_singleton] at hn
      subst hn
      simp [PolyNode.childs] at hv
    · rw [List.mem_singleton] at hn
      subst hn
      simp only [PolyNode.childs, List.mem_singleton] at hv
      subst hv
      have h1 := (rect_in_rect hu.le hv'.le a1 a2 a3 a4 (p := ⟨2, 20⟩) (.inl hin)).1
      rw [← List.singleton_inj.mp he] at h1
      obtain ⟨⟨b1, b2⟩, b3, b4⟩ := inOn_rect (by norm_num) (by norm_num) (.inl h1)
      norm_num at b1
    · simp at hn

end CQ
