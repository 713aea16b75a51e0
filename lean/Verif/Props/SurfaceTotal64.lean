import Verif.Spec.SurfaceTotal64
import Verif.Props.SurfaceTotal
import Verif.Props.Surface64

/-! # Property C154: 3D surfacing that can be made is made, in floating point -/

namespace CQ

/-! ### zigzag paths do not stand still -/

theorem weave_perm : ∀ (vs : List Pt) (bs : List (List Pt)), bs.length ≤ vs.length → (weave vs bs).Perm (bs.flatten ++ vs) := by
  intro vs
  induction vs with
  | nil =>
    intro bs h
    obtain rfl : bs = [] := by simpa using h
    exact .refl _
  | cons v vs ih =>
    intro bs h
    cases bs with
    | nil => exact .refl _
    | cons b bs =>
      have := ih bs (by simpa using h)
      simp only [weave, List.flatten_cons, List.append_assoc]
      refine ((this.append_left b).cons v).trans ?_
      rw [← List.append_assoc, ← List.append_assoc]
      exact List.perm_middle.symm

theorem b64_sub_ne {a b : ℚ} (ha : IsDouble a) (hb : IsDouble b) (h : a ≠ b) : b64 (a - b) ≠ 0 := by
  intro h0
  have h1 := b64_sub_err ha hb
  rw [h0, zero_sub, abs_neg] at h1
  have h2 : 0 < |a - b| := abs_pos.mpr (sub_ne_zero.mpr h)
  have h3 : (2 : ℚ) ^ (-53 : ℤ) ≤ 1 / 2 := by norm_num
  generalize (2 : ℚ) ^ (-53 : ℤ) = u at *
  nlinarith

/-- Different doubles are found to be different. -/
theorem doubles_apart {path : List Pt} (hd : ∀ p ∈ path, IsDouble p.x ∧ IsDouble p.y) (h : List.IsChain (· ≠ ·) path) :
    List.IsChain (fun p q : Pt => b64 (q.x - p.x) ≠ 0 ∨ b64 (q.y - p.y) ≠ 0) path := by
  induction path with
  | nil => exact .nil
  | cons p path ih =>
    cases path with
    | nil => exact List.isChain_singleton _
    | cons q path =>
      rw [List.isChain_cons_cons] at h ⊢
      refine ⟨?_, ih (fun x hx => hd x (by simp [hx])) h.2⟩
      have hp := hd p (by simp)
      have hq := hd q (by simp)
      by_cases hx : q.x = p.x
      · right
        refine b64_sub_ne hq.2 hp.2 (fun hy => h.1 (Pt.ext hx.symm hy.symm))
      · left
        exact b64_sub_ne hq.1 hp.1 hx

/-! ### passes -/

theorem firstPass64 {M s top bottom : ℚ} (hM2 : M ≤ 10 ^ 6) (hs0 : s < 0) (hs : -s ≤ M) (ht : |top| ≤ M)
    (h : bottom + 1 / 10 ^ 6 ≤ top + s) : arange64 (b64 (top + s)) bottom s ≠ [] := by
  have h1 : |top + s| ≤ 2 * 10 ^ 6 := by
    have := abs_le.mp ht
    rw [abs_le]
    constructor <;> linarith
  have h2 := (abs_le.mp (b64_err_le h1 (by norm_num))).1
  have h3 : bottom - b64 (top + s) ≤ -(1 / 2 ^ 21) := by
    have : 2 * (2 : ℚ) ^ (-53 : ℤ) * (2 * 10 ^ 6) ≤ 1 / 10 ^ 8 := by norm_num
    have e : (1 / 2 ^ 21 : ℚ) + 1 / 10 ^ 8 ≤ 1 / 10 ^ 6 := by norm_num
    generalize 2 * (2 : ℚ) ^ (-53 : ℤ) * (2 * 10 ^ 6) = u at *
    generalize (1 / 2 ^ 21 : ℚ) = w at *
    linarith
  have d1 : IsDouble (-(1 / 2 ^ 21) : ℚ) := ⟨-1, -21, by norm_num, by norm_num, by norm_num⟩
  have h4 : b64 (bottom - b64 (top + s)) ≤ -(1 / 2 ^ 21) := b64_le d1 h3
  have h5 : (1 / 2 ^ 42 : ℚ) ≤ b64 (bottom - b64 (top + s)) / s := by
    rw [le_div_iff_of_neg hs0]
    have : -(1 / 2 ^ 42 : ℚ) * 10 ^ 6 ≥ -(1 / 2 ^ 21) := by norm_num
    nlinarith
  have d2 : IsDouble (1 / 2 ^ 42 : ℚ) := ⟨1, -42, by norm_num, by norm_num, by norm_num⟩
  have h6 := le_b64 d2 h5
  unfold arange64
  rw [ne_eq, List.map_eq_nil_iff, List.range_eq_nil, Int.toNat_eq_zero, not_le, Int.ceil_pos]
  exact lt_of_lt_of_le (by norm_num) h6

/-- Passes are found. -/
theorem surfaceDepths64_total {M top bottom : ℚ} {stepdown : Option ℚ} (hM2 : M ≤ 10 ^ 6) (ht : |top| ≤ M)
    (hs : ∀ s, stepdown = some s → |s| ≤ M) (h : HasFirstPass64 stepdown top bottom) :
    ∃ ds, surfaceDepths64 stepdown top bottom = .ok ds := by
  cases stepdown with
  | none => exact ⟨_, rfl⟩
  | some s =>
    by_cases h0 : s = 0
    · exact ⟨[bottom], by simp [surfaceDepths64, h0]⟩
    · obtain ⟨h1, h2⟩ := h s rfl h0
      have ha := firstPass64 hM2 h1 (by have := abs_le.mp (hs s rfl); linarith) ht h2
      obtain ⟨l, hl⟩ : ∃ l, (arange64 (b64 (top + s)) bottom s).getLast? = some l := ⟨_, List.getLast?_eq_some_getLast ha⟩
      simp only [surfaceDepths64, if_neg h0, hl]
      split <;> exact ⟨_, rfl⟩

/-! ### one boundary -/

/-- Lines some distance apart are laid out. -/
theorem scanTemplates64_total (eng : ScanClipper) (bs : List (List Pt)) {toolDiameter stepover : ℚ}
    (h : 2 ^ (-1000 : ℤ) ≤ |toolDiameter * stepover|) : ∃ ts, scanTemplates64 eng bs toolDiameter stepover = .ok ts := by
  have h0 : b64 (toolDiameter * stepover) ≠ 0 := by
    intro h0
    have h1 := b64_err_rel (le_trans (zpow_le_zpow_right₀ (by norm_num) (by norm_num)) h)
    rw [h0, zero_sub, abs_neg] at h1
    have h2 : 0 < |toolDiameter * stepover| := lt_of_lt_of_le (two_zpow_pos _) h
    have h3 : (2 : ℚ) ^ (-53 : ℤ) ≤ 1 / 2 := by norm_num
    generalize (2 : ℚ) ^ (-53 : ℤ) = u at *
    nlinarith
  simp only [scanTemplates64, if_neg h0]
  exact ⟨_, rfl⟩

/-- C154, for one boundary: it is surfaced if it can be. -/
theorem C154_boundary_partial {sq : ℚ → ℚ} (hsq : SquaresWell sq) {M : ℚ} (hM : 1 ≤ M) (hM2 : M ≤ 10 ^ 6) {eng : SurfaceEngine}
    (ha : AnswersAll eng) {args : SurfaceArgs} {poly : List Pt} (hi : 0 < args.interpolationStep) (ht : |args.topHeight| ≤ M)
    (hs : ∀ s, args.stepdown = some s → |s| ≤ M) (hf : HasFirstPass64 args.stepdown args.topHeight eng.bottom)
    (h : CanSurface64 M eng args poly) (j : Job) : ∃ cs, surfaceBoundary64 sq eng args j poly = .ok cs := by
  obtain ⟨hb, hstep, h⟩ := h
  obtain ⟨ts, h1⟩ := scanTemplates64_total eng.scan [poly] hstep
  obtain ⟨lines, h2, hne, ho⟩ := h ts h1
  obtain ⟨blocks, ls, path, hz, hperm, hblocks, hc, hsame⟩ :=
    C145_zigzag_partial hsq hM hM2 eng.scan h1 h2 hne hb ho.ends ho.double ho.between ho.near
  have hw : (weave poly blocks).Perm (lineEnds lines ++ poly) :=
    (weave_perm poly blocks (by rw [← hblocks.length_eq]; rw [segments_length]; omega)).trans (hperm.append_right poly)
  have hch : List.IsChain (· ≠ ·) path := by
    refine cutsLines_moves ?_ (sameLines_different hsame (lineEnds_different ho.ends)) hc
    rw [hw.nodup_iff, List.nodup_append]
    refine ⟨ho.ends, hb.nodup, ?_⟩
    rintro a ha b hb rfl
    exact ho.between a ha hb
  have hpts : 2 ≤ path.length ∧ ∀ p ∈ path, IsDouble p.x ∧ IsDouble p.y := by
    have hz' := hz
    have := zigzag64_points (P := fun p => IsDouble p.x ∧ IsDouble p.y)
      (eng := { eng.scan with clip := fun _ _ => .ok lines }) (bs := [poly]) (sq := sq) (toolDiameter := args.toolDiameter)
      (stepover := args.stepover) (paths := [path]) ?_ ?_ ?_
    · exact this path (by simp)
    · intro _ ls h l hl
      cases h
      exact ⟨(ho.double _ (mem_lineEnds.mpr ⟨l, hl, .inl rfl⟩)).1, (ho.double _ (mem_lineEnds.mpr ⟨l, hl, .inr rfl⟩)).1⟩
    · intro b hbm p hp
      rw [List.mem_singleton] at hbm
      subst hbm
      exact (hb.double p hp).1
    · rw [← hz]
      have e : scanTemplates64 { eng.scan with clip := fun _ _ => .ok lines } [poly] args.toolDiameter args.stepover = .ok ts := h1
      simp only [zigzag64, e, h1, h2, ok_bind]
  have hne' : path ≠ [] := by
    rintro rfl
    simp at hpts
  obtain ⟨out, hin⟩ := C130_samples_total (eng := eng) hi hne' (doubles_apart hpts.2 hch)
  have hm : mapE (interpolateSequence64 eng args.interpolationStep) [path] = .ok [out] := mapE_ok.mpr (.cons hin .nil)
  obtain ⟨vss, hv⟩ := mergeHeights_total [out] (eng.drop [out].flatten) (by rw [ha])
  obtain ⟨ds, hd⟩ := surfaceDepths64_total hM2 ht hs hf
  simp only [surfaceBoundary64, hz, ok_bind, hm, hv, hd]
  exact ⟨_, rfl⟩

/-! ### the operation -/

theorem wirePolygon64_total {w : List Edge} (h : Flattenable w) : ∃ poly, wirePolygon64 w = .ok poly := by
  obtain ⟨vs, hv⟩ : ∃ vs, flattenEdges64 w = .ok vs := by
    induction w with
    | nil => exact ⟨[], rfl⟩
    | cons e es ih =>
      obtain ⟨vs, hv⟩ := ih (fun x hx => h x (by simp [hx]))
      rcases h e (by simp) with hl | hc
      · simp only [flattenEdges64, if_pos hl, ok_bind, hv]
        exact ⟨_, rfl⟩
      · have hnl : e.geom ≠ .line := by
          rcases hc with hc | hc | hc <;> rw [hc] <;> decide
        simp only [flattenEdges64, if_neg hnl, if_pos (show e.geom = .arc ∨ e.geom = .circle ∨ e.geom = .offset from hc), ok_bind, hv]
        exact ⟨_, rfl⟩
  exact ⟨_, by simp only [wirePolygon64, hv, ok_bind]; rfl⟩

theorem assembleFaces_total {k : FaceKernel} (hk : ∀ o hs, k.makeFace o hs = .ok ()) (inner outers : List (List Edge)) :
    ∃ fs, assembleFaces k inner outers = .ok fs := by
  cases h : assembleFaces k inner outers with
  | ok fs => exact ⟨fs, rfl⟩
  | error x =>
    obtain ⟨o, hs, h'⟩ := assembleFaces_error h
    rw [hk] at h'
    cases h'

theorem offsetBoundary64_total {k : FaceKernel} (hk : KernelWorks k) {d : ℚ} {oo io : ℚ × ℚ} {b : BoundaryFace} (hf : b.flat = true) :
    ∃ fs, offsetBoundary64 k d oo (some io) b = .ok fs := by
  obtain ⟨outers, h1⟩ := hk.1 b.outer (b64 (b64 (d * oo.1) + oo.2))
  obtain ⟨inners, h2⟩ := mapE_total (f := fun w => k.offset2D w (b64 (b64 (d * io.1) + io.2))) (as := b.inners) (fun w _ => hk.1 w _)
  obtain ⟨u, h3⟩ := mapE_total (f := fun w => k.makeFace w []) (as := outers) (fun w _ => ⟨_, hk.2 w []⟩)
  obtain ⟨u', h4⟩ := mapE_total (f := fun w => k.makeFace w []) (as := inners.flatten) (fun w _ => ⟨_, hk.2 w []⟩)
  obtain ⟨fs, h5⟩ := assembleFaces_total hk.2 inners.flatten outers
  exact ⟨fs, by simp only [offsetBoundary64, hf, Bool.not_true, Bool.false_eq_true, if_false, h1, h2, h3, h4, h5, ok_bind]⟩

theorem offsetBoundary64_outlines {k : FaceKernel} {d : ℚ} {oo : ℚ × ℚ} {io : Option (ℚ × ℚ)} {bs : List BoundaryFace}
    {faces : List (List (List Edge × List (List Edge)))} (h : mapE (offsetBoundary64 k d oo io) bs = .ok faces)
    {f : List Edge × List (List Edge)} (hf : f ∈ faces.flatten) : SurfacedOutline k (b64 (b64 (d * oo.1) + oo.2)) bs f.1 := by
  obtain ⟨fs, hfs, hf⟩ := List.mem_flatten.mp hf
  obtain ⟨b, hb, ho⟩ := mapE_mem h hfs
  unfold offsetBoundary64 at ho
  split at ho
  · cases ho
  · cases io with
    | none => cases ho
    | some io =>
      simp only at ho
      obtain ⟨outers, h1, ho⟩ := bind_ok.mp ho
      obtain ⟨inners, -, ho⟩ := bind_ok.mp ho
      obtain ⟨_, -, ho⟩ := bind_ok.mp ho
      obtain ⟨_, -, ho⟩ := bind_ok.mp ho
      refine ⟨b, hb, outers, h1, ?_⟩
      rw [← assembleFaces_outers ho]
      exact List.mem_map_of_mem hf

/-- C154 (as far as it holds, see the violation below).  With a kernel and a drop cutter that answer, flat boundaries and an inner offset,
surfacing computed in floating point succeeds if there is a first pass and every outline consists of edges that can be flattened, to a
polygon of doubles that is hit by scanlines in ordinary position.  Missing: outlines that no scanline hits, or that scanlines hit in their
first edge, and positive stepdowns. -/
theorem C154_made_partial {sq : ℚ → ℚ} (hsq : SquaresWell sq) {M : ℚ} (hM : 1 ≤ M) (hM2 : M ≤ 10 ^ 6) {eng : SurfaceEngine}
    {k : FaceKernel} {args : SurfaceArgs} {oo io : ℚ × ℚ} {bs : List BoundaryFace} (ha : AnswersAll eng) (hk : KernelWorks k)
    (hflat : ∀ b ∈ bs, b.flat = true) (hi : 0 < args.interpolationStep) (ht : |args.topHeight| ≤ M)
    (hs : ∀ s, args.stepdown = some s → |s| ≤ M) (hf : HasFirstPass64 args.stepdown args.topHeight eng.bottom)
    (hw : ∀ w, SurfacedOutline k (b64 (b64 (args.toolDiameter * oo.1) + oo.2)) bs w → Flattenable w ∧
      ∀ poly, wirePolygon64 w = .ok poly → CanSurface64 M eng args poly) (j : Job) :
    (∃ cs, surface3d64 sq eng k args oo (some io) bs j = .ok cs) ∧
      ∃ j', (j.call (surface3dRequest64 sq eng k args oo (some io) bs)).2 = .ok j' := by
  have key : ∀ j, ∃ cs, surface3d64 sq eng k args oo (some io) bs j = .ok cs := by
    intro j
    obtain ⟨faces, h1⟩ : ∃ faces, mapE (offsetBoundary64 k args.toolDiameter oo (some io)) bs = .ok faces :=
      mapE_total (fun b hb => offsetBoundary64_total hk (hflat b hb))
    obtain ⟨css, h2⟩ : ∃ css, mapE (fun f : List Edge × List (List Edge) => do
        let polygon ← wirePolygon64 f.1
        surfaceBoundary64 sq eng args j polygon) faces.flatten = .ok css := by
      refine mapE_total (fun f hfm => ?_)
      obtain ⟨g1, g2⟩ := hw _ (offsetBoundary64_outlines h1 hfm)
      obtain ⟨poly, hp⟩ := wirePolygon64_total g1
      obtain ⟨cs, hc⟩ := C154_boundary_partial hsq hM hM2 ha hi ht hs hf (g2 poly hp) j
      exact ⟨cs, by simp only [hp, ok_bind, hc]⟩
    unfold surface3d64
    rw [h1, ok_bind, h2]
    exact ⟨_, rfl⟩
  refine ⟨key j, ?_⟩
  obtain ⟨cs, hc⟩ := key (j.updateTool none).2
  exact call_made rfl hc

/-! ### Examples and violations -/

/-- Scanlines across a trapezium can be surfaced. -/
theorem zigPoly_can : CanSurface64 16 ridgeEngine64 hillArgs zigPoly := by
  have dbl : ∀ {k : ℚ}, (2 * k).den = 1 ∧ |(2 * k).num| ≤ 100 → IsDouble k := by
    rintro k ⟨hn, hb⟩
    refine ⟨(2 * k).num, -1, lt_of_le_of_lt hb (by norm_num), by norm_num, ?_⟩
    rw [(Rat.den_eq_one_iff _).mp hn]
    norm_num
    ring
  refine ⟨⟨by decide +kernel, ?_, ?_⟩, ?_, fun ts _ => ⟨zigLines, rfl, by decide, ⟨by decide +kernel, ?_, by decide +kernel, ?_⟩⟩⟩
  · intro p hp
    simp only [zigPoly, List.mem_cons, List.not_mem_nil, or_false] at hp
    rcases hp with rfl | rfl | rfl | rfl <;>
      exact ⟨⟨dbl (by decide +kernel), dbl (by decide +kernel)⟩, by norm_num, by norm_num⟩
  · have h1 : (2 : ℚ) ^ (-500 : ℤ) ≤ 1 := zpow_le_one_of_nonpos₀ (by norm_num) (by norm_num)
    intro s hs
    simp only [zigPoly, segments, List.mem_cons, List.not_mem_nil, or_false] at hs
    rcases hs with rfl | rfl | rfl
    · right; exact h1.trans (by norm_num)
    · left; exact h1.trans (by norm_num)
    · left; exact h1.trans (by norm_num)
  · refine le_trans (zpow_le_one_of_nonpos₀ (by norm_num) (by norm_num)) ?_
    norm_num [hillArgs]
  · intro q hq
    simp only [lineEnds, zigLines, List.flatMap_cons, List.flatMap_nil, List.cons_append, List.nil_append, List.append_nil,
      List.mem_cons, List.not_mem_nil, or_false] at hq
    rcases hq with rfl | rfl | rfl | rfl | rfl | rfl <;>
      exact ⟨⟨dbl (by decide +kernel), dbl (by decide +kernel)⟩, by norm_num, by norm_num⟩
  · intro q hq
    simp only [lineEnds, zigLines, List.flatMap_cons, List.flatMap_nil, List.cons_append, List.nil_append, List.append_nil,
      List.mem_cons, List.not_mem_nil, or_false] at hq
    rcases hq with rfl | rfl | rfl | rfl | rfl | rfl
    · exact ⟨(⟨2, 4⟩, ⟨0, 0⟩), by decide +kernel, ⟨⟨1/2, 1⟩, ⟨3/4, by norm_num, by norm_num, by decide +kernel⟩, by decide +kernel⟩⟩
    · exact ⟨(⟨10, 0⟩, ⟨10, 4⟩), by decide +kernel, ⟨⟨10, 1⟩, ⟨1/4, by norm_num, by norm_num, by decide +kernel⟩, by decide +kernel⟩⟩
    · exact ⟨(⟨10, 0⟩, ⟨10, 4⟩), by decide +kernel, ⟨⟨10, 2⟩, ⟨1/2, by norm_num, by norm_num, by decide +kernel⟩, by decide +kernel⟩⟩
    · exact ⟨(⟨2, 4⟩, ⟨0, 0⟩), by decide +kernel, ⟨⟨1, 2⟩, ⟨1/2, by norm_num, by norm_num, by decide +kernel⟩, by decide +kernel⟩⟩
    · exact ⟨(⟨2, 4⟩, ⟨0, 0⟩), by decide +kernel, ⟨⟨3/2, 3⟩, ⟨1/4, by norm_num, by norm_num, by decide +kernel⟩, by decide +kernel⟩⟩
    · exact ⟨(⟨10, 0⟩, ⟨10, 4⟩), by decide +kernel, ⟨⟨10, 3⟩, ⟨3/4, by norm_num, by norm_num, by decide +kernel⟩, by decide +kernel⟩⟩

/-- A case of `C154_made_partial`: the ridge over a trapezium, with three passes. -/
example (j : Job) : (∃ cs, surface3d64 ridgeSq ridgeEngine64 idleKernel hillArgs (-1, 0) (some (1, 0)) [hillFace] j = .ok cs) ∧
    ∃ j', (j.call (surface3dRequest64 ridgeSq ridgeEngine64 idleKernel hillArgs (-1, 0) (some (1, 0)) [hillFace])).2 = .ok j' := by
  have hstep : hillArgs.stepdown = some (-2) := rfl
  refine C154_made_partial squaresWell_b64 (M := 16) (by norm_num) (by norm_num) (fun ps => by simp [ridgeEngine64])
    ⟨fun w d => ⟨_, rfl⟩, fun _ _ => rfl⟩ (by simp [hillFace]) (by decide +kernel) (by decide +kernel) ?_ ?_ ?_ j
  · intro s h
    rw [hstep] at h
    cases h
    norm_num
  · intro s h _
    rw [hstep] at h
    cases h
    constructor <;> norm_num [hillArgs, ridgeEngine64, sideEngine]
  · rintro w ⟨b, hb, ws, h, hw⟩
    cases h
    rw [List.mem_singleton] at hb hw
    subst hb hw
    refine ⟨?_, ?_⟩
    · intro e he
      have : (hillFace.outer.all (fun e => decide (e.geom = .line))) = true := by decide +kernel
      exact .inl (of_decide_eq_true (List.all_eq_true.mp this e he))
    · intro poly hp
      have e2 : wirePolygon64 hillFace.outer = .ok zigPoly := by rfl
      rw [e2] at hp
      cases hp
      exact zigPoly_can

/-- A tool of diameter 4 with scanlines 2 apart. -/
def boxArgs : SurfaceArgs := { toolDiameter := 4, stepover := 1 / 2 }

/-- C154 fails, as C118 does: a face so narrow that no scanline hits it makes the whole call fail with `IndexError`, also if there are other
faces that can be surfaced without it. -/
theorem C154_violated_narrow : ∃ (eng : SurfaceEngine) (k : FaceKernel) (wide strip : BoundaryFace),
    AnswersAll eng ∧ KernelWorks k ∧ (∃ cs, surface3d64 ridgeSq eng k boxArgs (0, 0) (some (0, 0)) [wide] demoInit = .ok cs) ∧
      surface3d64 ridgeSq eng k boxArgs (0, 0) (some (0, 0)) [wide, strip] demoInit = .error .indexError :=
  ⟨boxSurface, idleKernel, rectangle 0 0 10 8 0, rectangle 20 (1/4) 30 (3/4) 0,
    fun ps => by simp [boxSurface], ⟨fun w d => ⟨_, rfl⟩, fun _ _ => rfl⟩,
    surfacing_made (by decide +kernel), surfacing_refused (by decide +kernel)⟩

/-- C154 fails, as C118 does: whether a face can be surfaced depends on the edge its outline begins with.  The same rectangle is surfaced if
the wire begins with its lower or upper side, and refused with an `AssertionError` if it begins with its left or right one. -/
theorem C154_violated_first_edge : ∃ (eng : SurfaceEngine) (k : FaceKernel), AnswersAll eng ∧ KernelWorks k ∧
    (∀ n, n = 0 ∨ n = 2 → ∃ cs, surface3d64 ridgeSq eng k boxArgs (0, 0) (some (0, 0)) [rectangle 0 0 10 8 n] demoInit = .ok cs) ∧
    (∀ n, n = 1 ∨ n = 3 → surface3d64 ridgeSq eng k boxArgs (0, 0) (some (0, 0)) [rectangle 0 0 10 8 n] demoInit = .error .assertionError) := by
  refine ⟨boxSurface, idleKernel, fun ps => by simp [boxSurface], ⟨fun w d => ⟨_, rfl⟩, fun _ _ => rfl⟩, ?_, ?_⟩
  · rintro n (rfl | rfl)
    · exact surfacing_made (by decide +kernel)
    · exact surfacing_made (by decide +kernel)
  · rintro n (rfl | rfl)
    · exact surfacing_refused (by decide +kernel)
    · exact surfacing_refused (by decide +kernel)

end CQ
