import Verif.Proofs.Nudge
import Verif.Spec.IntEngine
import Verif.Props.Scaling
import Verif.Props.Reach

/-! # C113: what rounding to integers does to the guarantees of pockets -/

namespace CQ

theorem forall₂_imp_right {α β : Type} {R S : α → β → Prop} {a : List α} {b : List β} (h : List.Forall₂ R a b)
    (hi : ∀ x y, y ∈ b → R x y → S x y) : List.Forall₂ S a b := by
  induction h with
  | nil => exact .nil
  | cons h _ ih => exact .cons (hi _ _ (by simp) h) (ih fun x y hy => hi x y (by simp [hy]))

/-- The triangle inequality. -/
theorem sqDist_via {p q x : Pt} {a b : ℚ} (ha : 0 ≤ a) (hb : 0 ≤ b) (h1 : sqDist p q ≤ a ^ 2) (h2 : sqDist q x ≤ b ^ 2) :
    sqDist p x ≤ (a + b) ^ 2 := by
  rw [add_comm]
  exact sqDist_triangle hb ha h1 h2

theorem scaleTo_neg (q : ℚ) : scaleTo (-q) = -scaleTo q := by
  rcases lt_trichotomy q 0 with h | rfl | h
  · rw [scaleTo_floor (by linarith), scaleTo_ceil (by linarith), neg_mul, Int.floor_neg]
  · simp [scaleTo]
  · rw [scaleTo_ceil (by linarith), scaleTo_floor h.le, neg_mul, Int.ceil_neg]

theorem distMM_scale {s : ℚ} (h : 0 ≤ s) : 0 ≤ scaleTo s ∧ distMM (scaleTo s) ≤ s ∧ s - resolution < distMM (scaleTo s) := by
  obtain ⟨-, h1, -, h3⟩ := C88_rounding s
  have h0 : 0 ≤ scaleTo s := by rw [scaleTo_floor h]; exact Int.floor_nonneg.mpr (by positivity)
  rw [scaleFrom_eq] at h1 h3
  have h4 : (0 : ℚ) ≤ (scaleTo s : ℚ) / 2147483648 := by positivity
  rw [abs_of_nonneg h4, abs_of_nonneg h] at h1
  unfold distMM resolution
  have := (abs_lt.mp h3).2
  exact ⟨h0, h1, by linarith⟩

theorem resolution_pos : 0 < resolution := by unfold resolution; norm_num

theorem distMM_nonneg {n : ℤ} (h : 0 ≤ n) : 0 ≤ distMM n := by unfold distMM; positivity

/-- Rounding moves the vertices by less than one and a half of the resolution. -/
theorem nudged_scale (path : List Pt) : Nudged (3 / 2 * resolution) path (inMM (path.map scalePt)) := by
  unfold Nudged inMM
  rw [List.map_map]
  induction path with
  | nil => exact .nil
  | cons p ps ih =>
    refine .cons ?_ ih
    obtain ⟨-, -, -, h1⟩ := C88_rounding p.x
    obtain ⟨-, -, -, h2⟩ := C88_rounding p.y
    rw [scaleFrom_eq] at h1 h2
    have r0 := resolution_pos
    change |_| < resolution at h1
    change |_| < resolution at h2
    have a1 := abs_lt.mp h1
    have a2 := abs_lt.mp h2
    simp only [sqDist, Function.comp, scalePt, IPt.mm]
    nlinarith

theorem onInts_grid {K : List IPt → Prop} {path : List Pt} (h : OnInts K path) : GridPath path := by
  obtain ⟨l, rfl, -⟩ := h
  exact gridPath_iff.mpr ⟨l, rfl⟩

theorem inMM_scale {path : List Pt} (h : GridPath path) : inMM (path.map scalePt) = path := (C88_grid h).1

theorem onInts_scale {K : List IPt → Prop} {path : List Pt} (h : OnInts K path) : K (path.map scalePt) := by
  obtain ⟨l, rfl, hl⟩ := h
  unfold inMM
  rw [scalePt_mms]; exact hl

theorem onInts_back {K : List IPt → Prop} {ss : List (List Pt)} (h : ∀ s ∈ ss, OnInts K s) :
    (ss.map (fun s => s.map scalePt)).map inMM = ss := by
  rw [List.map_map]
  conv_rhs => rw [← List.map_id ss]
  exact List.map_congr_left fun s hs => inMM_scale (onInts_grid (h s hs))

/-- What the engine is called with. -/
theorem onInts_args {K : List IPt → Prop} {ss cs : List (List Pt)} (h : ∀ s ∈ ss ++ cs, OnInts K s) :
    ∀ s ∈ ss.map (fun s => s.map scalePt) ++ cs.map (fun s => s.map scalePt), K s := by
  intro s hs
  rw [← List.map_append] at hs
  obtain ⟨t, ht, rfl⟩ := List.mem_map.mp hs
  exact onInts_scale (h t ht)

theorem onInts_far {K : List IPt → Prop} {ss : List (List Pt)} (h : ∀ s ∈ ss, OnInts K s) {r : ℚ} {p : Pt} (hf : ∀ s ∈ ss, FarFrom r s p) :
    ∀ s ∈ ss.map (fun s => s.map scalePt), FarFrom r (inMM s) p := by
  intro s hs
  obtain ⟨t, ht, rfl⟩ := List.mem_map.mp hs
  rw [inMM_scale (onInts_grid (h t ht))]
  exact hf t ht

theorem closedAs_onInts {K : List IPt → Prop} {e : IntClipper} (hk : IntKind K e) {c q : List Pt} (hc : OnInts K c) (h : ClosedAs c q) :
    OnInts K q := by
  have hg := gridPath_closedAs (onInts_grid hc) h
  refine ⟨q.map scalePt, (inMM_scale hg).symm, ?_⟩
  obtain ⟨l, rfl, hl⟩ := hc
  refine hk.closed l _ hl ?_
  rw [inMM_scale hg]; exact h

section
variable {K₀ K : List IPt → Prop} {δ : ℚ} {k : ℕ} {e : IntClipper}

theorem scaled_kind (he : IntKind K e) : MakesKind (OnInts K) e.scaled where
  offset := by
    intro path o k raw h q hq q' hc
    obtain ⟨rs, h1, rfl⟩ := scaledOffset_ok h
    obtain ⟨r, hr, rfl⟩ := List.mem_map.mp hq
    exact closedAs_onInts he ⟨r, rfl, he.offset _ _ _ _ h1 r hr⟩ hc
  difference := by
    intro ss cs tree h n hn k hk q hc
    obtain ⟨t, h1, rfl⟩ := scaledBoolean_ok h
    exact closedAs_onInts he (he.difference _ _ _ h1 n hn k hk) hc

theorem scaled_noRepeats (he : IntKind K e) : NoRepeats e.scaled where
  offset := by
    intro path o k raw h q hq q' hc
    obtain ⟨l, rfl, hl⟩ := (scaled_kind he).offset path o k raw h q hq q' hc
    exact he.clean l hl
  difference := by
    intro ss cs tree h n hn q' hc
    obtain ⟨l, rfl, hl⟩ := (scaled_kind he).difference ss cs tree h n hn n (.self n) q' hc
    exact he.clean l hl

theorem scaled_clipper (h0 : 0 ≤ δ) {t : ℤ} (hk : IntKind K e) (hc : IntCuts K₀ K δ t e) {δ' : ℚ} (hδ : δ ≤ δ') :
    ClipperNearOn (OnInts K) δ' e.scaled where
  nonneg := h0.trans hδ
  kind := by
    intro ss cs tree hG h n hn q hq
    obtain ⟨t, h1, rfl⟩ := scaledBoolean_ok h
    exact closedAs_onInts hk (hk.union _ _ _ (onInts_args hG) h1 n hn) hq
  union := by
    intro ss cs tree hG h r hr p hp
    obtain ⟨t, h1, rfl⟩ := scaledBoolean_ok h
    have := hc.union _ _ _ (onInts_args hG) h1 r hr p (by
      rw [← List.map_append]
      exact onInts_far hG fun s hs => (hp s hs).mono (by linarith) (by linarith))
    rwa [onInts_back fun s hs => hG s (by simp [hs]), onInts_back fun s hs => hG s (by simp [hs])] at this
  difference := by
    intro ss cs tree hG h r hr p hp
    obtain ⟨t, h1, rfl⟩ := scaledBoolean_ok h
    have := hc.difference _ _ _ (onInts_args hG) h1 r hr p (by
      rw [← List.map_append]
      exact onInts_far hG fun s hs => (hp s hs).mono (by linarith) (by linarith))
    rwa [onInts_back fun s hs => hG s (by simp [hs]), onInts_back fun s hs => hG s (by simp [hs])] at this

/-- Offsetting given outlines. -/
theorem scaled_offsets (he : IntOffsets K₀ δ (scaledPrecision k) e) :
    OffsetsRight (Rounded K₀) (δ + 3 * resolution) k e.scaled where
  nonneg := by linarith [he.nonneg, resolution_pos]
  shrunk_in := by
    intro path s raw hD hs h q hq x hx
    obtain ⟨rs, h1, rfl⟩ := scaledOffset_ok h
    obtain ⟨r, hr, rfl⟩ := List.mem_map.mp hq
    rw [scaleTo_neg] at h1
    obtain ⟨y, hy, hd⟩ := he.shrunk_in _ _ _ hD (distMM_scale hs).1 h1 r hr x hx
    obtain ⟨y', hy', hd'⟩ := nudged_inOn (nudged_scale path).symm hy
    have r0 := resolution_pos
    have n0 := he.nonneg
    exact ⟨y', hy', (sqDist_via n0 (by linarith) hd hd').trans (pow_le_pow_left₀ (by linarith) (by linarith) 2)⟩
  shrunk_deep := by
    intro path s raw hD hs h q hq x hx z hz
    obtain ⟨rs, h1, rfl⟩ := scaledOffset_ok h
    obtain ⟨r, hr, rfl⟩ := List.mem_map.mp hq
    rw [scaleTo_neg] at h1
    have r0 := resolution_pos
    have n0 := he.nonneg
    obtain ⟨s1, s2, s3⟩ := distMM_scale (s := s) (by linarith)
    have deep := he.shrunk_deep _ _ _ hD (by linarith) h1 r hr x hx
    have hin := (deep z (hz.trans_le (pow_le_pow_left₀ (by linarith) (by linarith) 2))).1
    refine (inside_nudged (nudged_scale path).symm ?_).mp hin
    intro w hw
    by_contra hc
    refine (deep w ?_).2 hw
    have := sqDist_triangle_lt (a := 3 / 2 * resolution) (b := s - (δ + 3 * resolution)) (by linarith) (by linarith)
      (p := w) (q := z) (x := x) (by rw [sqDist_comm]; exact not_lt.mp hc) (by rw [sqDist_comm]; exact hz)
    rw [sqDist_comm]
    exact this.trans_le (pow_le_pow_left₀ (by linarith) (by linarith) 2)
  grown_covers := by
    intro path s raw hD hs h z hz x hx
    obtain ⟨rs, h1, rfl⟩ := scaledOffset_ok h
    have r0 := resolution_pos
    have n0 := he.nonneg
    obtain ⟨s1, s2, s3⟩ := distMM_scale (s := s) (by linarith)
    obtain ⟨z', hz', hd⟩ := nudged_inOn (nudged_scale path) hz
    refine he.grown_covers _ _ _ hD (by linarith) h1 z' hz' x ?_
    have := sqDist_triangle_lt (a := 3 / 2 * resolution) (b := s - (δ + 3 * resolution)) (by linarith) (by linarith)
      (p := z') (q := z) (x := x) (by rw [sqDist_comm]; exact hd) (by rw [sqDist_comm]; exact hx)
    rw [sqDist_comm]
    exact this.trans_le (pow_le_pow_left₀ (by linarith) (by linarith) 2)
  grown_far := by
    intro path s raw hD hs h z hz q hq x hx
    obtain ⟨rs, h1, rfl⟩ := scaledOffset_ok h
    obtain ⟨r, hr, rfl⟩ := List.mem_map.mp hq
    have r0 := resolution_pos
    have n0 := he.nonneg
    obtain ⟨s1, s2, s3⟩ := distMM_scale (s := s) (by linarith)
    obtain ⟨z', hz', hd⟩ := nudged_inOn (nudged_scale path) hz
    have far := he.grown_far _ _ _ hD (by linarith) h1 z' hz' r hr x hx
    by_contra hc
    have := sqDist_triangle_lt (a := 3 / 2 * resolution) (b := s - (δ + 3 * resolution)) (by linarith) (by linarith)
      (p := z') (q := z) (x := x) (by rw [sqDist_comm]; exact hd) (by rw [sqDist_comm]; exact not_le.mp hc)
    rw [sqDist_comm] at this
    exact absurd far (not_le.mpr (this.trans_le (pow_le_pow_left₀ (by linarith) (by linarith) 2)))

/-- A point far from an outline is far from the rounded outline. -/
theorem farFrom_nudged {ε ρ : ℚ} {path path' : List Pt} (h : Nudged ε path path') (hε : 0 ≤ ε) (hρ : 0 ≤ ρ) {p : Pt}
    (hf : FarFrom (ρ + ε) path p) : FarFrom ρ path' p := by
  intro y hy
  obtain ⟨x, hx, hd⟩ := nudged_onOutline h.symm hy
  by_contra hc
  exact absurd (hf x hx) (not_lt.mpr (sqDist_via hρ hε (not_lt.mp hc) hd))

theorem scaled_tight (he : IntOffsets K₀ δ (scaledPrecision k) e) :
    OffsetsTight (Rounded K₀) (δ + 3 * resolution) k e.scaled where
  shrunk_keeps := by
    intro path s raw hD hs h p hp hf
    obtain ⟨rs, h1, rfl⟩ := scaledOffset_ok h
    rw [scaleTo_neg] at h1
    have r0 := resolution_pos
    have n0 := he.nonneg
    obtain ⟨s1, s2, s3⟩ := distMM_scale hs
    have d0 := distMM_nonneg s1
    refine he.shrunk_keeps _ _ _ hD s1 h1 p ?_ ?_
    · exact (inside_nudged (nudged_scale path) (hf.mono (by linarith) (by linarith))).mp hp
    · exact farFrom_nudged (nudged_scale path) (by linarith) (by linarith) (hf.mono (by linarith) (by linarith))
  shrunk_near := by
    intro path s raw hD hs h q hq x hx hf
    obtain ⟨rs, h1, rfl⟩ := scaledOffset_ok h
    obtain ⟨r, hr, rfl⟩ := List.mem_map.mp hq
    rw [scaleTo_neg] at h1
    have r0 := resolution_pos
    have n0 := he.nonneg
    obtain ⟨s1, s2, s3⟩ := distMM_scale hs
    have d0 := distMM_nonneg s1
    exact he.shrunk_near _ _ _ hD s1 h1 r hr x hx
      (farFrom_nudged (nudged_scale path) (by linarith) (by linarith) (hf.mono (by linarith) (by linarith)))
  grown_only := by
    intro path s raw hD hs h p hp
    obtain ⟨rs, h1, rfl⟩ := scaledOffset_ok h
    have r0 := resolution_pos
    have n0 := he.nonneg
    obtain ⟨s1, s2, s3⟩ := distMM_scale hs
    have d0 := distMM_nonneg s1
    obtain ⟨z, hz, hd⟩ := he.grown_only _ _ _ hD s1 h1 p hp
    obtain ⟨z', hz', hd'⟩ := nudged_inOn (nudged_scale path).symm hz
    exact ⟨z', hz', (sqDist_via (by linarith) (by linarith) hd hd').trans (pow_le_pow_left₀ (by linarith) (by linarith) 2)⟩
  grown_near := by
    intro path s raw hD hs h q hq x hx
    obtain ⟨rs, h1, rfl⟩ := scaledOffset_ok h
    obtain ⟨r, hr, rfl⟩ := List.mem_map.mp hq
    have r0 := resolution_pos
    have n0 := he.nonneg
    obtain ⟨s1, s2, s3⟩ := distMM_scale hs
    have d0 := distMM_nonneg s1
    obtain ⟨z, hz, hd⟩ := he.grown_near _ _ _ hD s1 h1 r hr x hx
    obtain ⟨z', hz', hd'⟩ := nudged_inOn (nudged_scale path).symm hz
    exact ⟨z', hz', (sqDist_via (by linarith) (by linarith) hd hd').trans (pow_le_pow_left₀ (by linarith) (by linarith) 2)⟩

/-- The contours that something is cut away from, as the engine gets them. -/
theorem scaled_within {δ' : ℚ} (h0 : 0 ≤ δ) (hδ : δ ≤ δ') (hk : IntKind K e) (hc : IntCuts K₀ K δ (scaledPrecision k) e)
    {path : List Pt} {s : ℚ} {ss cs : List (List Pt)} {tree : List PolyNode} (hD : K₀ (path.map scalePt)) (hs : 0 ≤ s)
    (ho : OffsetContours e.scaled (-s) k path ss) (hG : ∀ c ∈ cs, OnInts K c) (h : e.scaled.difference ss cs = .ok tree) :
    ∀ n ∈ tree, ∀ p, InOn n.contour p → ∃ q ∈ ss, ∃ x, InOn q x ∧ sqDist p x ≤ δ' ^ 2 := by
  obtain ⟨raw, h1, h2⟩ := ho
  obtain ⟨rs, h3, rfl⟩ := scaledOffset_ok h1
  obtain ⟨t, h4, rfl⟩ := scaledBoolean_ok h
  rw [scaleTo_neg] at h3
  have hS : ∀ q ∈ ss, OnInts K q := by
    intro q hq
    obtain ⟨c, hc', hcq⟩ := forall₂_mem_right h2 hq
    obtain ⟨r, hr, rfl⟩ := List.mem_map.mp (List.mem_of_mem_filter hc')
    exact closedAs_onInts hk ⟨r, rfl, hk.offset _ _ _ _ h3 r hr⟩ hcq
  have hF : List.Forall₂ (fun c q => ClosedAs (inMM c) (inMM q)) (rs.filter (fun q => decide (q ≠ []))) (ss.map (fun s => s.map scalePt)) := by
    have e1 : (rs.map (fun q => q.map IPt.mm)).filter (fun q => decide (q ≠ [])) = (rs.filter (fun q => decide (q ≠ []))).map inMM := by
      rw [List.filter_map]
      refine congrArg _ (List.filter_congr fun q _ => ?_)
      simp
    rw [e1, List.forall₂_map_left_iff] at h2
    rw [List.forall₂_map_right_iff]
    refine forall₂_imp_right h2 fun c q hq hcq => ?_
    rw [inMM_scale (onInts_grid (hS q hq))]
    exact hcq
  intro n hn p hp
  obtain ⟨q, hq, x, hx, hd⟩ := hc.within _ _ _ _ _ _ hD (distMM_scale hs).1 h3 hF (by
    intro c hc
    obtain ⟨d, hd, rfl⟩ := List.mem_map.mp hc
    exact onInts_scale (hG d hd)) h4 n hn p hp
  obtain ⟨q', hq', rfl⟩ := List.mem_map.mp hq
  rw [inMM_scale (onInts_grid (hS q' hq'))] at hx
  exact ⟨q', hq', x, hx, hd.trans (pow_le_pow_left₀ h0 hδ 2)⟩

theorem scaled_cuts {δ' : ℚ} (h0 : 0 ≤ δ) (hδ : δ ≤ δ') (hk : IntKind K e) (hc : IntCuts K₀ K δ (scaledPrecision k) e) :
    CutsRight (Rounded K₀) (OnInts K) δ' k e.scaled where
  union_from := by
    intro ss tree hG h p hp
    obtain ⟨t, h1, rfl⟩ := scaledBoolean_ok h
    obtain ⟨s, hs, x, hx, hd⟩ := hc.union_from _ _ (by
      intro s hs
      obtain ⟨q, hq, rfl⟩ := List.mem_map.mp hs
      exact onInts_scale (hG q hq)) h1 p hp
    obtain ⟨q, hq, rfl⟩ := List.mem_map.mp hs
    rw [inMM_scale (onInts_grid (hG q hq))] at hx
    exact ⟨q, hq, x, hx, hd.trans (pow_le_pow_left₀ h0 hδ 2)⟩
  difference_from := by
    intro ss cs tree hG h p hp
    obtain ⟨t, h1, rfl⟩ := scaledBoolean_ok h
    obtain ⟨s, hs, x, hx, hd⟩ := hc.difference_from _ _ _ (onInts_args hG) h1 p hp
    obtain ⟨q, hq, rfl⟩ := List.mem_map.mp hs
    rw [inMM_scale (onInts_grid (hG q (by simp [hq])))] at hx
    exact ⟨q, hq, x, hx, hd.trans (pow_le_pow_left₀ h0 hδ 2)⟩
  difference_out := by
    intro ss cs tree hG h p hp hi
    have hG' : ∀ c ∈ cs, OnInts K c := fun c hc => hG c (by simp [hc])
    obtain ⟨t, h1, rfl⟩ := scaledBoolean_ok h
    exact hc.difference_out _ _ _ (onInts_args hG) h1 p (onInts_far hG' fun c hc => (hp c hc).mono h0 hδ) (by rwa [onInts_back hG'])
  within := fun _ _ _ _ _ hD hs ho hG h => scaled_within h0 hδ hk hc hD hs ho hG h

theorem scaled_holes {δ' : ℚ} (h0 : 0 ≤ δ) (hδ : δ ≤ δ') {t : ℤ} (hc : IntCuts K₀ K δ t e) : HolesInside (OnInts K) δ' e.scaled := by
  intro ss cs tree hG h n hn c hcn p hp hi
  obtain ⟨t, h1, rfl⟩ := scaledBoolean_ok h
  refine hc.holes _ _ _ (onInts_args hG) h1 n hn c hcn p ?_ hi
  rw [← List.map_append]
  exact onInts_far hG fun s hs => (hp s hs).mono h0 hδ

theorem scaled_shrinks (he : IntEngine K₀ K δ (scaledPrecision k) e) : ShrinksNear (OnInts K) (δ + 3 * resolution) k e.scaled where
  keeps := by
    intro path s raw hG hs h p hp hf
    obtain ⟨rs, h1, rfl⟩ := scaledOffset_ok h
    rw [scaleTo_neg] at h1
    have r0 := resolution_pos
    have n0 := he.offsets.nonneg
    obtain ⟨s1, s2, s3⟩ := distMM_scale hs.le
    have d0 := distMM_nonneg s1
    have e1 := inMM_scale (onInts_grid hG)
    refine he.one _ _ _ (onInts_scale hG) s1 h1 p (by rwa [e1]) ?_
    rw [e1]
    exact hf.mono (by linarith) (by linarith)
  near := by
    intro path s raw hG hs h q hq x hx hf
    obtain ⟨rs, h1, rfl⟩ := scaledOffset_ok h
    obtain ⟨r, hr, rfl⟩ := List.mem_map.mp hq
    rw [scaleTo_neg] at h1
    have r0 := resolution_pos
    have n0 := he.offsets.nonneg
    obtain ⟨s1, s2, s3⟩ := distMM_scale hs.le
    have d0 := distMM_nonneg s1
    refine he.offsets.shrunk_near _ _ _ (he.sub _ (onInts_scale hG)) s1 h1 r hr x hx ?_
    rw [inMM_scale (onInts_grid hG)]
    exact hf.mono (by linarith) (by linarith)

theorem scaled_inside (he : IntEngine K₀ K δ (scaledPrecision k) e) : StaysInside (OnInts K) (δ + 3 * resolution) k e.scaled where
  nonneg := by linarith [he.offsets.nonneg, resolution_pos]
  shrink := by
    intro path s raw hG hs h q hq x hx p hp
    obtain ⟨rs, h1, rfl⟩ := scaledOffset_ok h
    obtain ⟨r, hr, rfl⟩ := List.mem_map.mp hq
    rw [scaleTo_neg] at h1
    have r0 := resolution_pos
    have n0 := he.offsets.nonneg
    obtain ⟨s1, s2, s3⟩ := distMM_scale (s := s) (by linarith)
    have := (he.offsets.shrunk_deep _ _ _ (he.sub _ (onInts_scale hG)) (by linarith) h1 r hr x hx p (by
      rw [sqDist_comm]
      exact hp.trans_lt (pow_lt_pow_left₀ (by linarith) (by linarith) two_ne_zero))).1
    rwa [inMM_scale (onInts_grid hG)] at this
  within := by
    intro path s ss cs tree hG hs ho hcs h
    exact scaled_within he.offsets.nonneg (by linarith [resolution_pos]) he.kind he.cuts (he.sub _ (onInts_scale hG)) hs.le ho hcs h
  siblings := by
    intro ss cs tree hG h n hn p hp
    obtain ⟨t, h1, rfl⟩ := scaledBoolean_ok h
    exact he.cuts.siblings _ _ _ (onInts_args hG) h1 n hn p fun c hc => (hp c hc).mono he.offsets.nonneg (by linarith [resolution_pos])
  outside := by
    intro ss cs tree hG h n hn p hp hf
    have hG' : ∀ c ∈ cs, OnInts K c := fun c hc => hG c (by simp [hc])
    obtain ⟨t, h1, rfl⟩ := scaledBoolean_ok h
    have := he.cuts.outside _ _ _ (onInts_args hG) h1 n hn p hp
      (onInts_far hG' fun c hc => (hf c hc).mono he.offsets.nonneg (by linarith [resolution_pos]))
    rwa [onInts_back hG'] at this

end

/-- C113.  If the polygon engine is right up to `δ` on the integers that it is called with, then the engine that the pocket sees, with the
scaling and rounding of coordinates and distances around it, meets all contracts of the pocket theorems (C89, C90, C94, C103, C108, C109) with
`δ + 3·2⁻³¹` mm: for the outlines given by the user whatever their coordinates are, and for the outlines that the engine makes. -/
theorem C113_contracts {K₀ K : List IPt → Prop} {δ : ℚ} {k : ℕ} {e : IntClipper} (he : IntEngine K₀ K δ (scaledPrecision k) e) :
    ClipperNearOn (OnInts K) (δ + 3 * resolution) e.scaled ∧ MakesKind (OnInts K) e.scaled ∧ NoRepeats e.scaled ∧
    ShrinksNear (OnInts K) (δ + 3 * resolution) k e.scaled ∧ StaysInside (OnInts K) (δ + 3 * resolution) k e.scaled ∧
    OffsetsRight (Rounded K₀) (δ + 3 * resolution) k e.scaled ∧ OffsetsTight (Rounded K₀) (δ + 3 * resolution) k e.scaled ∧
    CutsRight (Rounded K₀) (OnInts K) (δ + 3 * resolution) k e.scaled ∧ HolesInside (OnInts K) (δ + 3 * resolution) e.scaled := by
  have h0 := he.offsets.nonneg
  have hδ : δ ≤ δ + 3 * resolution := by linarith [resolution_pos]
  exact ⟨scaled_clipper h0 he.kind he.cuts hδ, scaled_kind he.kind, scaled_noRepeats he.kind, scaled_shrinks he, scaled_inside he,
    scaled_offsets he.offsets, scaled_tight he.offsets, scaled_cuts h0 hδ he.kind he.cuts, scaled_holes h0 hδ he.cuts⟩

/-- C113, the machine does not cut where it should not: `C108_pocket_partial` for the engine as it is called. -/
theorem C113_gouge {K₀ K : List IPt → Prop} {δ δ' : ℚ} {e : IntClipper} {j0 : Job} (he : IntEngine K₀ K δ (scaledPrecision j0.precision) e)
    (hδ : δ' = δ + 3 * resolution)
    {veq : Vec → Vec → Bool} {fuel : ℕ} {opAreas avoidAreas : List CqFace}
    {a : PocketArgs} {tool : Option Tool} {j1 j2 jf : Job} {before after : List Request} (m : Machine) (h0 : InitOK j0)
    (hn : ∀ v, j0.toolNumber = some v → NumOK v)
    (hok : ChainOK j0 (before ++ pocketRequest e.scaled veq fuel opAreas avoidAreas a tool :: after))
    (h1 : j0.chain before = .ok j1) (h2 : (j1.call (pocketRequest e.scaled veq fuel opAreas avoidAreas a tool)).2 = .ok j2)
    (h3 : j2.chain after = .ok jf) (hend : m.ended = false)
    (htool : ∀ n, j0.toolNumber = some n → m.tool = some n.value) (hsafe : 0 < j0.opSafeHeight)
    (hstep : ∀ diameter, (j1.settings.inherit tool).toolDiameter = some diameter →
      2 * δ' < offsetDistance (diameter / 2) (1 / 2) a.stepover)
    (hD : ∀ c ∈ opAreas ++ avoidAreas, ∀ f, FlatFace veq j0.precision c f → f.All (Rounded K₀)) :
    ∃ t m' pre part post diameter outer inner avoidOuter avoidInner faces avoidFaces areas avoids regions, jf.toGcode = .ok t ∧
      runText m t = some (m', pre ++ part ++ post) ∧ (j1.settings.inherit tool).toolDiameter = some diameter ∧
      outer = (if avoidAreas ≠ [] ∧ a.outerOffset = none then 0 else offsetDistance (diameter / 2) (-1) a.outerOffset) ∧
      inner = offsetDistance (diameter / 2) 1 a.innerOffset ∧ avoidOuter = offsetDistance (diameter / 2) 1 a.avoidOuterOffset ∧
      avoidInner = offsetDistance (diameter / 2) (-1) a.avoidInnerOffset ∧
      List.Forall₂ (FlatFace veq j0.precision) opAreas faces ∧ List.Forall₂ (FlatFace veq j0.precision) avoidAreas avoidFaces ∧
      List.Forall₂ (OffsetFaces e.scaled outer inner j0.precision) faces areas ∧
      List.Forall₂ (OffsetFaces e.scaled avoidOuter avoidInner j0.precision) avoidFaces avoids ∧
      buildPocketOps e.scaled areas.flatten avoids.flatten = .ok regions ∧
      (outer ≤ 0 → (∀ f ∈ avoidFaces, f.inners = [] ∨ avoidOuter ≤ -avoidInner) → HolesApart e.scaled δ' inner j0.precision faces →
        (∀ r ∈ regions, NoVoid e.scaled areas r.depth ∧ Separate (2 * δ') (cutAway areas avoids r.depth)) →
        ∀ ev ∈ part, isFeedMove ev = true → ∃ r ∈ regions, ∃ d p q, r.depth ≤ d ∧ d ≤ 0 ∧ FeedsFromTo p q (rnd 3 d) ev ∧
          ToolIn faces avoidFaces (5 * δ') (-outer - 5 * δ') (inner - 5 * δ') (avoidOuter - 5 * δ') r.depth p ∧
          ToolIn faces avoidFaces (5 * δ') (-outer - 5 * δ') (inner - 5 * δ') (avoidOuter - 5 * δ') r.depth q ∧
          (StaysOver (ToolIn faces avoidFaces (5 * δ') (-outer - 5 * δ') (inner - 5 * δ') (avoidOuter - 5 * δ') r.depth) ev ∨
            sqDist p q ≤ offsetDistance (diameter / 2) (1 / 2) a.stepover ∨
            ∃ contours, Unfolds (Follows e.scaled r (offsetDistance (diameter / 2) (1 / 2) a.stepover) j0.precision) [r.outer] contours ∧
              ∃ c ∈ contours, OnOutline c p ∧ OnOutline c q)) := by
  subst hδ
  obtain ⟨c1, c2, c3, c4, c5, c6, c7, c8, c9⟩ := C113_contracts he
  exact C108_pocket_partial c1 c2 c5 c6 c8 c3 m h0 hn hok h1 h2 h3 hend htool hsafe hstep hD

/-- C113, the machine comes wherever the tool fits: `C109_pocket_partial` for the engine as it is called. -/
theorem C113_reach {K₀ K : List IPt → Prop} {δ δ' : ℚ} {e : IntClipper} {j0 : Job} (he : IntEngine K₀ K δ (scaledPrecision j0.precision) e)
    (hδ : δ' = δ + 3 * resolution)
    {veq : Vec → Vec → Bool} {fuel : ℕ} {opAreas avoidAreas : List CqFace}
    {a : PocketArgs} {tool : Option Tool} {j1 j2 jf : Job} {before after : List Request} (m : Machine) (h0 : InitOK j0)
    (hn : ∀ v, j0.toolNumber = some v → NumOK v)
    (hok : ChainOK j0 (before ++ pocketRequest e.scaled veq fuel opAreas avoidAreas a tool :: after))
    (h1 : j0.chain before = .ok j1) (h2 : (j1.call (pocketRequest e.scaled veq fuel opAreas avoidAreas a tool)).2 = .ok j2)
    (h3 : j2.chain after = .ok jf) (hend : m.ended = false)
    (htool : ∀ n, j0.toolNumber = some n → m.tool = some n.value) (hsafe : 0 < j0.opSafeHeight)
    (hD : ∀ c ∈ opAreas ++ avoidAreas, ∀ f, FlatFace veq j0.precision c f → f.All (Rounded K₀)) :
    ∃ t m' evs diameter outer inner avoidOuter faces avoidFaces areas avoids, jf.toGcode = .ok t ∧ runText m t = some (m', evs) ∧
      (j1.settings.inherit tool).toolDiameter = some diameter ∧
      outer = (if avoidAreas ≠ [] ∧ a.outerOffset = none then 0 else offsetDistance (diameter / 2) (-1) a.outerOffset) ∧
      inner = offsetDistance (diameter / 2) 1 a.innerOffset ∧ avoidOuter = offsetDistance (diameter / 2) 1 a.avoidOuterOffset ∧
      List.Forall₂ (FlatFace veq j0.precision) opAreas faces ∧ List.Forall₂ (FlatFace veq j0.precision) avoidAreas avoidFaces ∧
      List.Forall₂ (OffsetFaces e.scaled outer inner j0.precision) faces areas ∧
      List.Forall₂ (OffsetFaces e.scaled avoidOuter (offsetDistance (diameter / 2) (-1) a.avoidInnerOffset) j0.precision) avoidFaces avoids ∧
      (0 < offsetDistance (diameter / 2) (1 / 2) a.stepover → outer ≤ 0 → 0 ≤ inner → 0 ≤ avoidOuter →
        ∀ f ∈ faces, ∀ x, Inside f.outer x →
          Fits faces avoidFaces (-outer + 5 * δ') (inner + 5 * δ') (avoidOuter + 5 * δ') f.depth x →
          (∀ b ∈ avoidFaces, f.depth ≤ b.depth →
            NoVoidIn e.scaled avoidOuter (offsetDistance (diameter / 2) (-1) a.avoidInnerOffset) j0.precision b x) →
          (∀ g ∈ faces, g.depth ≤ f.depth → NoIslandIn e.scaled outer inner j0.precision g x) →
          NoIslandAt e.scaled areas.flatten avoids.flatten f.depth x →
          ∃ ev ∈ evs, ∃ q, MillsOver (rnd 3 f.depth) q ev ∧
            sqDist x q ≤ (offsetDistance (diameter / 2) (1 / 2) a.stepover + 2 * δ' + 1 / 1000) ^ 2 ∧
            ∀ n, (j1.settings.inherit tool).toolNumber = some n → ev.st.tool = some n.value) := by
  subst hδ
  obtain ⟨c1, c2, c3, c4, c5, c6, c7, c8, c9⟩ := C113_contracts he
  exact C109_pocket_partial c1 c2 c4 c6 c7 c8 c9 c3 m h0 hn hok h1 h2 h3 hend htool hsafe hD

end CQ
