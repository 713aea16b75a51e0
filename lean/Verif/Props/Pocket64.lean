import Verif.Model.Pocket64
import Verif.Spec.Pocket64
import Verif.Props.Contours64
import Verif.Props.IntEngine
import Verif.Props.Binary64
import Verif.Props.Reach

/-! # C139: whole pockets in floating point, on the machine -/

namespace CQ

/-! ### offsets -/

theorem offset64_near {d : ℚ} {r : ℚ} (hr : r = b64 (d / 2)) (k : ℚ) (o : Option OffsetInput) :
    OffsetNear (d / 2) (offsetParts k o) (calculateOffset64 r o (some k)) := by
  have key : ∀ m c : ℚ, |b64 (b64 (r * m) + c) - (m * (d / 2) + c)| ≤
      2 ^ (-51 : ℤ) * (|m * (d / 2)| + |c|) + 2 ^ (-1072 : ℤ) * (1 + |m|) := by
    intro m c
    have h1 := b64_err (d / 2)
    rw [← hr] at h1
    have h2 := b64_err (r * m)
    have h3 := b64_err (b64 (r * m) + c)
    generalize hR : d / 2 = R at *
    have e1 : |r * m - m * R| ≤ (2 ^ (-53 : ℤ) * |R| + 2 ^ (-1075 : ℤ)) * |m| := by
      rw [show r * m - m * R = (r - R) * m by ring, abs_mul]
      exact mul_le_mul_of_nonneg_right h1 (abs_nonneg _)
    generalize hx : b64 (r * m) = x at *
    generalize hy : b64 (x + c) = y at *
    have e2 : |r * m| ≤ |m * R| + |r * m - m * R| := by
      have := abs_sub_abs_le_abs_sub (r * m) (m * R); linarith
    have e3 : |x + c| ≤ |m * R| + |c| + |r * m - m * R| + |x - r * m| := by
      have a1 := abs_add_le x c
      have a2 := abs_sub_abs_le_abs_sub x (r * m)
      linarith
    have e4 : |y - (m * R + c)| ≤ |y - (x + c)| + |x - r * m| + |r * m - m * R| := by
      have := abs_add_three (y - (x + c)) (x - r * m) (r * m - m * R)
      rwa [show y - (x + c) + (x - r * m) + (r * m - m * R) = y - (m * R + c) by ring] at this
    have e5 : |R| * |m| = |m * R| := by rw [abs_mul, mul_comm]
    have e6 : (2 : ℚ) ^ (-1072 : ℤ) = 8 * 2 ^ (-1075 : ℤ) := by
      rw [show (-1072 : ℤ) = 3 + -1075 by norm_num, zpow_add₀ (by norm_num)]; norm_num
    have hη := two_zpow_pos (-1075)
    rw [e6]
    generalize (2 : ℚ) ^ (-1075 : ℤ) = η at *
    have hm := abs_nonneg m
    have hmR := abs_nonneg (m * R)
    have hc := abs_nonneg c
    generalize |r * m - m * R| = A at *
    have e1' : A ≤ 2 ^ (-53 : ℤ) * |m * R| + η * |m| := by rw [← e5]; linarith
    generalize |m * R| = P at *
    generalize |m| = N at *
    generalize |c| = C at *
    generalize |r * m| = Q at *
    generalize |x - r * m| = D at *
    generalize |x + c| = E at *
    generalize |y - (x + c)| = F at *
    generalize |y - (m * R + c)| = G at *
    have hηN : 0 ≤ η * N := by positivity
    norm_num at h2 h3 e1' ⊢
    nlinarith
  cases o with
  | none =>
    have := key k 0
    simp only [add_zero, b64_double (b64_isDouble _)] at this
    simpa [OffsetNear, offsetParts, calculateOffset64] using this
  | some o =>
    cases o with
    | mult m =>
      have := key m 0
      simp only [add_zero, b64_double (b64_isDouble _)] at this
      simpa [OffsetNear, offsetParts, calculateOffset64] using this
    | multDist m c => exact key m c

/-! ### coordinates stay in a box -/

theorem InBox.mono {B B' : ℚ} {path : List Pt} (h : InBox B path) (hB : B ≤ B') : InBox B' path :=
  fun p hp => ⟨(h p hp).1.trans hB, (h p hp).2.trans hB⟩

theorem InBox.closedAs {B : ℚ} {c q : List Pt} (h : InBox B c) (hc : ClosedAs c q) : InBox B q := by
  obtain ⟨-, rfl | ⟨a, ha, -, rfl⟩, -⟩ := hc
  · exact h
  · intro p hp
    rcases List.mem_append.mp hp with hp | hp
    · exact h p hp
    · rw [List.mem_singleton] at hp
      subst hp
      exact h p (List.mem_of_mem_head? ha)

theorem InBox.scale {B : ℚ} {path : List Pt} (h : InBox B path) : InBox B (inMM (path.map scalePt)) := by
  intro p hp
  unfold inMM at hp
  rw [List.map_map] at hp
  obtain ⟨q, hq, rfl⟩ := List.mem_map.mp hp
  obtain ⟨-, h1, -⟩ := C88_rounding q.x
  obtain ⟨-, h2, -⟩ := C88_rounding q.y
  rw [scaleFrom_eq] at h1 h2
  exact ⟨h1.trans (h q hq).1, h2.trans (h q hq).2⟩

/-- What `IntBoxes` means for the engine that the pocket sees. -/
structure KeepsBox (k : ℕ) (eng : Clipper) : Prop where
  shrink : ∀ B path s raw, InBox B path → 0 ≤ s → eng.offset path (-s) k = .ok raw → ∀ q ∈ raw, InBox B q
  grow : ∀ B path s raw, InBox B path → 0 ≤ s → eng.offset path s k = .ok raw → ∀ q ∈ raw, InBox (B + s + 2 * resolution) q
  union : ∀ B ss tree, (∀ s ∈ ss, InBox B s) → eng.union ss [] = .ok tree → ∀ n ∈ tree, InBox B n.contour
  difference : ∀ B ss cs tree, (∀ s ∈ ss, InBox B s) → eng.difference ss cs = .ok tree → ∀ n ∈ tree, InBox B n.contour

theorem scaled_boxes {k : ℕ} {e : IntClipper} (h : IntBoxes (scaledPrecision k) e) : KeepsBox k e.scaled where
  shrink := by
    intro B path s raw hB hs h1 q hq
    obtain ⟨rs, h2, rfl⟩ := scaledOffset_ok h1
    obtain ⟨r, hr, rfl⟩ := List.mem_map.mp hq
    rw [scaleTo_neg] at h2
    exact h.shrink B _ _ _ hB.scale (distMM_scale hs).1 h2 r hr
  grow := by
    intro B path s raw hB hs h1 q hq
    obtain ⟨rs, h2, rfl⟩ := scaledOffset_ok h1
    obtain ⟨r, hr, rfl⟩ := List.mem_map.mp hq
    obtain ⟨g1, g2, -⟩ := distMM_scale hs
    exact (h.grow B _ _ _ hB.scale g1 h2 r hr).mono (by linarith)
  union := by
    intro B ss tree hB h1
    obtain ⟨t, h2, rfl⟩ := scaledBoolean_ok h1
    refine h.union B _ t ?_ h2
    intro s hs
    obtain ⟨x, hx, rfl⟩ := List.mem_map.mp hs
    exact (hB x hx).scale
  difference := by
    intro B ss cs tree hB h1
    obtain ⟨t, h2, rfl⟩ := scaledBoolean_ok h1
    refine h.difference B _ _ t ?_ h2
    intro s hs
    obtain ⟨x, hx, rfl⟩ := List.mem_map.mp hs
    exact (hB x hx).scale

section boxes
variable {eng : Clipper} {k : ℕ} (hb : KeepsBox k eng)
include hb

theorem box_offset {B o : ℚ} {path : List Pt} {qs : List (List Pt)} (hB : InBox B path) (h : OffsetContours eng o k path qs) :
    ∀ q ∈ qs, InBox (B + max o 0 + 2 * resolution) q := by
  obtain ⟨raw, h1, h2⟩ := h
  have r0 := resolution_pos
  intro q hq
  obtain ⟨c, hc, hcq⟩ := forall₂_mem_right h2 hq
  refine InBox.closedAs ?_ hcq
  have hc := List.mem_of_mem_filter hc
  by_cases ho : 0 ≤ o
  · rw [max_eq_left ho]
    exact hb.grow B path o raw hB ho h1 c hc
  · rw [max_eq_right (by linarith)]
    exact (hb.shrink B path (-o) raw hB (by linarith) (by rwa [neg_neg]) c hc).mono (by linarith)

theorem box_areas {B a b : ℚ} {f : PathFace} {gs : List PathFace} (hB : InBox B f.outer) (h : OffsetFaces eng a b k f gs) :
    ∀ g ∈ gs, InBox (B + max a 0 + 2 * resolution) g.outer := by
  obtain ⟨outlines, h1, h2⟩ := h
  have ho := box_offset hb hB h1
  intro g hg
  by_cases hi : f.inners = []
  · rw [if_pos hi] at h2
    subst h2
    obtain ⟨o, hom, rfl⟩ := List.mem_map.mp hg
    exact ho o hom
  · rw [if_neg hi] at h2
    obtain ⟨holes, tree, -, h3, h4⟩ := h2
    obtain ⟨n, hn, hng, -⟩ := forall₂_mem_right h4 hg
    exact (hb.difference _ _ _ _ ho h3 n hn).closedAs hng

theorem box_regions {B : ℚ} {areas avoids regions : List PathFace} (hB : ∀ f ∈ areas, InBox B f.outer)
    (h : buildPocketOps eng areas avoids = .ok regions) : ∀ r ∈ regions, InBox B r.outer := by
  intro o ho
  obtain ⟨-, groups, rfl, -, g2, g3⟩ := C38_order h
  obtain ⟨l, hl, ho'⟩ := List.mem_flatten.mp ho
  obtain ⟨g, hg, rfl⟩ := List.mem_map.mp hl
  have hd := (g2 o.depth).mp (by rw [g3 g hg o ho']; exact List.mem_map.mpr ⟨g, hg, rfl⟩)
  obtain ⟨outers, clips, ut, dt, us, fs, k1, -, k3, k4, k5, k6, k7⟩ := ops_from h o.depth hd
  have hout : ∀ s ∈ outers, InBox B s := by
    intro s hs
    have := k1.mem_iff.mp hs
    unfold outersAt at this
    obtain ⟨f, hf, rfl⟩ := List.mem_map.mp this
    exact hB f (List.mem_of_mem_filter hf)
  have hus : ∀ s ∈ us.map PathFace.outer, InBox B s := by
    intro s hs
    obtain ⟨u, hu, rfl⟩ := List.mem_map.mp hs
    obtain ⟨n, hn, hnu⟩ := mapE_mem k4 hu
    exact (hb.union B _ _ hout k3 n hn).closedAs (closedAs_of (nodeToPolyFace_ok hnu).1)
  obtain ⟨n, hn, hnf⟩ := mapE_mem k6 ((k7 o).mp ⟨ho, rfl⟩)
  exact (hb.difference B _ _ _ hus k5 n hn).closedAs (closedAs_of (nodeToPolyFace_ok hnf).1)

theorem box_follows {B : ℚ} {r : PathFace} {step : ℚ} (hs : 0 ≤ step) {p : List Pt} {cs : List (List Pt)} (hB : InBox B p)
    (h : Follows eng r step k p cs) : ∀ c ∈ cs, InBox B c := by
  obtain ⟨raw, shrunk, h1, h2, h3⟩ := h
  have hsh : ∀ c ∈ shrunk, InBox B c := by
    intro c hc
    obtain ⟨q, hq, hqc⟩ := forall₂_mem_right h2 hc
    exact (hb.shrink B p step raw hB hs h1 q (List.mem_of_mem_filter hq)).closedAs hqc
  by_cases hcond : shrunk = [] ∨ r.inners = []
  · rw [if_pos hcond] at h3
    rw [h3]; exact hsh
  · rw [if_neg hcond] at h3
    obtain ⟨tree, h4, h5⟩ := h3
    intro c hc
    obtain ⟨n, hn, hnc⟩ := forall₂_mem_right h5 hc
    exact (hb.difference B _ _ _ hsh h4 n hn).closedAs hnc

theorem box_unfolds {B : ℚ} {r : PathFace} {step : ℚ} (hs : 0 ≤ step) {ps xs : List (List Pt)}
    (h : Unfolds (Follows eng r step k) ps xs) (hB : ∀ p ∈ ps, InBox B p) : ∀ x ∈ xs, InBox B x := by
  induction h with
  | nil => simp
  | @cons p ps cs xs ys hn _ _ ih1 ih2 =>
    intro x hx
    rcases List.mem_cons.mp hx with rfl | hx
    · exact hB _ (by simp)
    · rcases List.mem_append.mp hx with hx | hx
      · exact ih1 (box_follows hb hs (hB p (by simp)) hn) x hx
      · exact ih2 (fun q hq => hB q (by simp [hq])) x hx

end boxes

/-! ### contours on the grid are contours of doubles -/

theorem double_grid {n : ℤ} (h : |((n : ℚ)) / 2147483648| ≤ 2 ^ 21) : IsDouble ((n : ℚ) / 2147483648) := by
  refine ⟨n, -31, ?_, by norm_num, ?_⟩
  · rw [abs_div, div_le_iff₀ (by norm_num)] at h
    have h2 : |(n : ℚ)| < 2 ^ 53 := lt_of_le_of_lt h (by norm_num)
    exact_mod_cast h2
  · rw [zpow_neg]; norm_num; ring

theorem grid_apart {a b : ℤ} (h : a ≠ b) : (2 : ℚ) ^ (-500 : ℤ) ≤ |(a : ℚ) / 2147483648 - b / 2147483648| := by
  have h1 : (1 : ℚ) ≤ |(a : ℚ) - b| := by
    have : 1 ≤ |a - b| := Int.one_le_abs (sub_ne_zero.mpr h)
    exact_mod_cast this
  have h2 : (2 : ℚ) ^ (-500 : ℤ) ≤ 1 / 2147483648 := by
    rw [show (1 : ℚ) / 2147483648 = 2 ^ (-31 : ℤ) by norm_num]
    exact zpow_le_zpow_right₀ (by norm_num) (by norm_num)
  rw [← sub_div, abs_div, abs_of_pos (by norm_num : (0 : ℚ) < 2147483648)]
  exact h2.trans (div_le_div_of_nonneg_right h1 (by norm_num))

theorem segments_mem {p : List Pt} {s : Pt × Pt} (h : s ∈ segments p) : s.1 ∈ p ∧ s.2 ∈ p := by
  induction p with
  | nil => simp [segments] at h
  | cons a p ih =>
    cases p with
    | nil => simp [segments] at h
    | cons b p =>
      simp only [segments, List.mem_cons] at h
      rcases h with rfl | h
      · simp
      · obtain ⟨h1, h2⟩ := ih h
        exact ⟨List.mem_cons_of_mem _ h1, List.mem_cons_of_mem _ h2⟩

theorem face64_of_grid {K : List IPt → Prop} {j : Job} {f : PathFace} (hc : Clean f.outer) (hk : OnInts K f.outer) (hB : InBox (2 ^ 21) f.outer)
    (hd : f.depth < j.opSafeHeight) : FaceOK64 j (2 ^ 21) f := by
  obtain ⟨l, hl, -⟩ := hk
  have hpt : ∀ p ∈ f.outer, ∃ a b : ℤ, p = ⟨(a : ℚ) / 2147483648, (b : ℚ) / 2147483648⟩ := by
    intro p hp
    rw [hl] at hp
    obtain ⟨i, -, rfl⟩ := List.mem_map.mp hp
    exact ⟨i.x, i.y, rfl⟩
  refine ⟨hc.1, ?_, hB, ?_, hd⟩
  · intro p hp
    obtain ⟨h1, h2⟩ := hB p hp
    obtain ⟨a, b, rfl⟩ := hpt p hp
    exact ⟨double_grid h1, double_grid h2⟩
  · rintro ⟨u, v⟩ hs
    have hne := hc.2 _ hs
    obtain ⟨m1, m2⟩ := segments_mem hs
    obtain ⟨a, b, rfl⟩ := hpt u m1
    obtain ⟨c, d, rfl⟩ := hpt v m2
    by_cases hac : a = c
    · right
      refine grid_apart fun hbd => hne ?_
      simp [hac, hbd]
    · exact Or.inl (grid_apart hac)

/-! ### depths -/

/-- The values of a descending `arange` are not above its start. -/
theorem arange64_below {start stop s : ℚ} (hd : IsDouble start) (hs : 0 ≤ s) {x : ℚ} (h : x ∈ arange64 start stop (-s)) : x ≤ start := by
  unfold arange64 at h
  obtain ⟨i, -, rfl⟩ := List.mem_map.mp h
  have h1 : b64 (start + -s) ≤ start := b64_le hd (by linarith)
  split
  · exact le_rfl
  · split
    · exact h1
    · refine b64_le hd ?_
      have h2 : b64 (b64 (start + -s) - start) ≤ 0 := b64_le isDouble_zero (by linarith)
      have h3 : b64 (i * b64 (b64 (start + -s) - start)) ≤ 0 :=
        b64_le isDouble_zero (mul_nonpos_of_nonneg_of_nonpos (by positivity) h2)
      linarith

theorem steps64_nonpos {start stop s : ℚ} (h0 : start ≤ 0) (hs : 0 ≤ s) {x : ℚ} (h : x ∈ steps64 start stop s) : x ≤ 0 :=
  (arange64_below (b64_isDouble _) hs h).trans (b64_le isDouble_zero (by linarith))

theorem opSequences64_spec {eng : Clipper} {fuel : ℕ} {stepover : ℚ} {stepdown : Option ℚ} {precision : ℕ}
    {shallower : List PathFace} {op : PathFace} (hsd : ∀ s, stepdown = some s → 0 ≤ s ∧ IsDouble s) {fill : List (List PathFace)}
    (hf : fillPocket eng fuel op stepover precision = .ok fill) :
    ∃ steps : List ℚ, (∀ d ∈ steps, (∀ o ∈ shallower, o.depth ≤ 0) → d ≤ 0) ∧
      opSequences64 eng fuel stepover stepdown precision shallower op =
        .ok (steps.flatMap (fun d => fill.map (fun q => q.map (fun f => f.cloneToDepth d))) ++ fill) := by
  unfold opSequences64
  rw [hf, ok_bind]
  cases stepdown with
  | none => exact ⟨[], by simp, by simp⟩
  | some s =>
    by_cases hs : s = 0
    · exact ⟨[], by simp, by simp [hs]⟩
    · obtain ⟨s0, sd⟩ := hsd s rfl
      refine ⟨steps64 ((determineStepdownStartDepth eng op shallower).getD 0) op.depth s,
        fun d hd h0 => steps64_nonpos (start_nonpos h0) s0 hd, ?_⟩
      simp only [if_neg hs]
      rw [applyStepdown64_fill hf _ sd, ok_bind]

/-- Which contours are cut in which order: for each region the filling, at some depths that are not above the stock, and at its own. -/
inductive Layers (eng : Clipper) (fuel : ℕ) (stepover : ℚ) (precision : ℕ) : List PathFace → List (List PathFace) → Prop
  | nil : Layers eng fuel stepover precision [] []
  | cons {op : PathFace} {ops : List PathFace} {fill rest : List (List PathFace)} {steps : List ℚ}
      (hf : fillPocket eng fuel op stepover precision = .ok fill) (hs : ∀ d ∈ steps, d ≤ 0)
      (t : Layers eng fuel stepover precision ops rest) :
      Layers eng fuel stepover precision (op :: ops)
        (steps.flatMap (fun d => fill.map (fun q => q.map (fun f => f.cloneToDepth d))) ++ fill ++ rest)

theorem allSequences64_layers {eng : Clipper} {fuel : ℕ} {stepover : ℚ} {stepdown : Option ℚ} {precision : ℕ}
    (hsd : ∀ s, stepdown = some s → 0 ≤ s ∧ IsDouble s) {done ops : List PathFace} (h0 : ∀ o ∈ done ++ ops, o.depth ≤ 0)
    {seqs : List (List PathFace)} (h : allSequences64 eng fuel stepover stepdown precision done ops = .ok seqs) :
    Layers eng fuel stepover precision ops seqs := by
  induction ops generalizing done seqs with
  | nil => cases h; exact .nil
  | cons op ops ih =>
    rw [allSequences64] at h
    obtain ⟨a, h1, h⟩ := bind_ok.mp h
    obtain ⟨b, h2, h⟩ := bind_ok.mp h
    cases h
    have hfill : ∃ fill, fillPocket eng fuel op stepover precision = .ok fill := by
      unfold opSequences64 at h1
      obtain ⟨fill, hf, -⟩ := bind_ok.mp h1
      exact ⟨fill, hf⟩
    obtain ⟨fill, hf⟩ := hfill
    obtain ⟨steps, k1, k2⟩ := opSequences64_spec (shallower := done) hsd hf
    rw [h1] at k2
    cases k2
    exact .cons hf (fun d hd => k1 d hd (fun o ho => h0 o (by simp [ho])))
      (ih (done := done ++ [op]) (fun o ho => h0 o (by simpa using ho)) h2)

theorem allSequences64_total {eng : Clipper} {fuel : ℕ} {stepover : ℚ} {stepdown : Option ℚ} {precision : ℕ}
    (hsd : ∀ s, stepdown = some s → 0 ≤ s ∧ IsDouble s) {ops : List PathFace}
    (h : ∀ o ∈ ops, ∃ fill, fillPocket eng fuel o stepover precision = .ok fill) (done : List PathFace) :
    ∃ seqs, allSequences64 eng fuel stepover stepdown precision done ops = .ok seqs := by
  induction ops generalizing done with
  | nil => exact ⟨[], rfl⟩
  | cons op ops ih =>
    obtain ⟨fill, hf⟩ := h op (by simp)
    obtain ⟨steps, -, k2⟩ := opSequences64_spec (shallower := done) hsd hf
    obtain ⟨rest, hr⟩ := ih (fun o ho => h o (by simp [ho])) (done ++ [op])
    exact ⟨_, by rw [allSequences64, k2, ok_bind, hr, ok_bind]⟩

theorem Layers.nonempty {eng : Clipper} {fuel : ℕ} {stepover : ℚ} {precision : ℕ} {ops : List PathFace} {seqs : List (List PathFace)}
    (h : Layers eng fuel stepover precision ops seqs) : ∀ s ∈ seqs, s ≠ [] := by
  induction h with
  | nil => simp
  | cons hf hs t ih =>
    obtain ⟨-, -, d3⟩ := fill_depths hf
    intro s hsm
    rcases List.mem_append.mp hsm with hsm | hsm
    · rcases List.mem_append.mp hsm with hsm | hsm
      · obtain ⟨d, -, hq⟩ := List.mem_flatMap.mp hsm
        obtain ⟨q', hq', rfl⟩ := List.mem_map.mp hq
        simpa using d3 q' hq'
      · exact d3 s hsm
    · exact ih s hsm

theorem Layers.faces {eng : Clipper} {fuel : ℕ} {stepover : ℚ} {precision : ℕ} {ops : List PathFace} {seqs : List (List PathFace)}
    (h : Layers eng fuel stepover precision ops seqs) (h0 : ∀ o ∈ ops, o.depth ≤ 0) : ∀ f ∈ seqs.flatten, f.depth ≤ 0 ∧
      ∃ op ∈ ops, ∃ fill, fillPocket eng fuel op stepover precision = .ok fill ∧ ∃ g ∈ fill.flatten, f.outer = g.outer := by
  induction h with
  | nil => simp
  | @cons op ops fill rest steps hf hs t ih =>
    obtain ⟨d1, -, -⟩ := fill_depths hf
    intro f hfm
    obtain ⟨q, hq, hfq⟩ := List.mem_flatten.mp hfm
    rcases List.mem_append.mp hq with hq | hq
    · rcases List.mem_append.mp hq with hq | hq
      · obtain ⟨d, hd, hq⟩ := List.mem_flatMap.mp hq
        obtain ⟨q', hq', rfl⟩ := List.mem_map.mp hq
        obtain ⟨g, hg, rfl⟩ := List.mem_map.mp hfq
        exact ⟨hs d hd, op, by simp, fill, hf, g, List.mem_flatten.mpr ⟨q', hq', hg⟩, rfl⟩
      · have hm := List.mem_flatten.mpr ⟨q, hq, hfq⟩
        exact ⟨by rw [d1 f hm]; exact h0 op (by simp), op, by simp, fill, hf, f, hm, rfl⟩
    · obtain ⟨g1, o, ho, g2⟩ := ih (fun o ho => h0 o (by simp [ho])) f (List.mem_flatten.mpr ⟨q, hq, hfq⟩)
      exact ⟨g1, o, by simp [ho], g2⟩

theorem Layers.final {eng : Clipper} {fuel : ℕ} {stepover : ℚ} {precision : ℕ} {ops : List PathFace} {seqs : List (List PathFace)}
    (h : Layers eng fuel stepover precision ops seqs) {o : PathFace} (ho : o ∈ ops) :
    ∃ fill, fillPocket eng fuel o stepover precision = .ok fill ∧ ∀ q ∈ fill, q ∈ seqs := by
  induction h with
  | nil => simp at ho
  | @cons op ops fill rest steps hf hs t ih =>
    rcases List.mem_cons.mp ho with rfl | ho
    · exact ⟨fill, hf, fun q hq => by simp [hq]⟩
    · obtain ⟨fill', h1, h2⟩ := ih ho
      exact ⟨fill', h1, fun q hq => List.mem_append_right _ (h2 q hq)⟩

/-! ### the tool path -/

theorem cutsAlong_feeds {j : Job} {d : ℚ} {p : Pt} {ps : List Pt} {cs : List Motion} (h : CutsAlong d j.feed p ps cs) :
    ∀ c ∈ cs, c.kind = .cut ∧ FeedMove j d c := by
  induction ps generalizing p cs with
  | nil => cases cs with
    | nil => simp
    | cons c cs => exact h.elim
  | cons q ps ih => cases cs with
    | nil => exact h.elim
    | cons c cs =>
      obtain ⟨⟨h1, -, h3, h4⟩, h5⟩ := h
      intro x hx
      rcases List.mem_cons.mp hx with rfl | hx
      · exact ⟨h1, by rw [h3]; rfl, Or.inl ⟨h1, h4⟩⟩
      · exact ih h5 x hx

theorem block64_path {sq : ℚ → ℚ} {M : ℚ} {j : Job} {stepover : Option ℚ} {pwe : Option Pt} {pos : AddrVec} {f : PathFace}
    {b : List Motion} {q : Pt} (h : FaceBlock64 sq M j stepover pwe pos f b q) :
    ∀ c ∈ b, SafeRapid j.rapidHeight (min j.rapidHeight j.opSafeHeight) c ∧ (c.kind.mot ≠ .rapid → FeedMove j f.depth c) := by
  have hcut : ∀ {c : Motion}, c.kind = .cut ∧ FeedMove j f.depth c →
      SafeRapid j.rapidHeight (min j.rapidHeight j.opSafeHeight) c ∧ (c.kind.mot ≠ .rapid → FeedMove j f.depth c) := by
    rintro c ⟨h1, h2⟩
    exact ⟨fun hk => by rw [h1] at hk; simp [MKind.mot] at hk, fun _ => h2⟩
  have hrap : ∀ (p0 : Pt), ∀ c ∈ rapidTo pos ⟨p0.x, p0.y, f.depth⟩ j.rapidHeight (some j.opSafeHeight) (some j.plungeFeed),
      SafeRapid j.rapidHeight (min j.rapidHeight j.opSafeHeight) c ∧ (c.kind.mot ≠ .rapid → FeedMove j f.depth c) := by
    intro p0 c hc
    refine ⟨rapidTo_safe _ _ _ _ _ c hc, fun hk => ?_⟩
    obtain ⟨h1, h2, -, h4⟩ := rapidTo_feeds _ _ _ _ _ c hc hk
    exact ⟨by rw [h4], Or.inr ⟨h1.1, h1.2, h2⟩⟩
  intro c hc
  cases h with
  | first p0 rest cuts ho hp hc' =>
    rcases List.mem_append.mp hc with hc | hc
    · exact hrap p0 c hc
    · exact hcut (cutsAlong_feeds hc' c hc)
  | link e n s cuts hp hs hb h0 hd hc' =>
    rcases List.mem_cons.mp hc with rfl | hc
    · exact hcut ⟨rfl, rfl, Or.inl ⟨rfl, rfl⟩⟩
    · exact hcut (cutsAlong_feeds hc' c hc)
  | far e p0 rest n cuts chord hp hs ho hb hc' hl =>
    rcases List.mem_append.mp hc with hc | hc
    · rcases List.mem_append.mp hc with hc | hc
      · exact hrap p0 c hc
      · exact hcut (cutsAlong_feeds hc' c hc)
    · exact hcut (cutsAlong_feeds hl c hc)

/-- What holds for the commands of some contours. -/
structure PathOK64 (M : ℚ) (j : Job) (pos : AddrVec) (faces : List PathFace) (bs : List (List Motion)) : Prop where
  connected : Connected pos bs.flatten
  safe : ∀ c ∈ bs.flatten, SafeRapid j.rapidHeight (min j.rapidHeight j.opSafeHeight) c
  feeds : ∀ c ∈ bs.flatten, c.kind.mot ≠ .rapid → ∃ f ∈ faces, FeedMove j f.depth c
  cuts : List.Forall₂ (fun f b => ∀ s ∈ segments f.outer, ∀ q, OnSegment s.1 s.2 q →
    ∃ q', PtNear (2 ^ (-49 : ℤ) * M) q q' ∧ ∃ c ∈ b, CutsThrough f.depth q' c) faces bs
  first : ∀ c, bs.flatten.head? = some c → c.kind = .retract ∧ c.start = pos ∧ c.fin = ⟨pos.x, pos.y, some j.rapidHeight⟩

theorem faceBlocks64_ok {sq : ℚ → ℚ} {M : ℚ} (hM : 1 ≤ M) {j : Job} {stepover : Option ℚ} {pwe : Option Pt} {pos : AddrVec} {faces : List PathFace}
    {bs : List (List Motion)} (h : FaceBlocks64 sq M j stepover pwe pos faces bs) (hf : ∀ f ∈ faces, FaceOK64 j M f) :
    Connected pos bs.flatten ∧
    (∀ c ∈ bs.flatten, SafeRapid j.rapidHeight (min j.rapidHeight j.opSafeHeight) c) ∧
    (∀ c ∈ bs.flatten, c.kind.mot ≠ .rapid → ∃ f ∈ faces, FeedMove j f.depth c) ∧
    List.Forall₂ (fun f b => ∀ s ∈ segments f.outer, ∀ q, OnSegment s.1 s.2 q →
      ∃ q', PtNear (2 ^ (-49 : ℤ) * M) q q' ∧ ∃ c ∈ b, CutsThrough f.depth q' c) faces bs := by
  induction h with
  | nil => exact ⟨trivial, by simp, by simp, .nil⟩
  | @cons pwe pos f fs b bs q hb hq t ih =>
    have h0 := hf f (by simp)
    obtain ⟨i1, i2, i3, i4⟩ := ih (fun g hg => hf g (by simp [hg]))
    obtain ⟨c1, c2⟩ := block64_connected h0.below hb
    obtain ⟨pre, cuts, post, he, -, hcut⟩ := block64_cuts hM h0 hb
    refine ⟨?_, ?_, ?_, .cons ?_ i4⟩
    · rw [List.flatten_cons, connected_append, c2]
      exact ⟨c1, i1⟩
    · intro c hc
      rcases List.mem_append.mp (List.flatten_cons ▸ hc) with hc | hc
      · exact (block64_path hb c hc).1
      · exact i2 c hc
    · intro c hc hk
      rcases List.mem_append.mp (List.flatten_cons ▸ hc) with hc | hc
      · exact ⟨f, by simp, (block64_path hb c hc).2 hk⟩
      · obtain ⟨g, hg, h⟩ := i3 c hc hk
        exact ⟨g, by simp [hg], h⟩
    · intro s hs x hx
      obtain ⟨q', h1, c, h2, h3⟩ := hcut s hs x hx
      exact ⟨q', h1, c, by rw [he]; simp [h2], h3⟩

theorem faceBlocks64_head {sq : ℚ → ℚ} {M : ℚ} {j : Job} {stepover : Option ℚ} {pos : AddrVec} {faces : List PathFace}
    {bs : List (List Motion)} (h : FaceBlocks64 sq M j stepover none pos faces bs) (hne : faces ≠ []) :
    ∃ c rest, bs.flatten = c :: rest ∧ c.kind = .retract ∧ c.start = pos ∧ c.fin = ⟨pos.x, pos.y, some j.rapidHeight⟩ := by
  have key : ∀ (p0 : Pt) (f : PathFace) (tail : List Motion), ∃ c rest,
      rapidTo pos ⟨p0.x, p0.y, f.depth⟩ j.rapidHeight (some j.opSafeHeight) (some j.plungeFeed) ++ tail = c :: rest ∧
        c.kind = .retract ∧ c.start = pos ∧ c.fin = ⟨pos.x, pos.y, some j.rapidHeight⟩ := by
    intro p0 f tail
    obtain ⟨up, side, down, feed, e, hup, -⟩ := C24_approach pos ⟨p0.x, p0.y, f.depth⟩ j.rapidHeight
      j.opSafeHeight (some j.plungeFeed)
    exact ⟨up, side ++ [down] ++ feed ++ tail, by rw [e]; simp, hup⟩
  cases h with
  | nil => exact absurd rfl hne
  | @cons pwe pos f fs b bs q hb hq t =>
    cases hb with
    | first p0 rest cuts ho hp hc =>
      rw [List.flatten_cons, List.append_assoc]
      exact key p0 f _
    | link e n s cuts hp => cases hp
    | far e p0 rest n cuts chord hp => cases hp

theorem routeSequences64_ok {lib : MathLib} (hl : SquaresWell lib.sq) {M : ℚ} (hM : 1 ≤ M) {j : Job} {stepover : ℚ}
    {seqs : List (List PathFace)} (hne : ∀ s ∈ seqs, s ≠ []) (hf : ∀ f ∈ seqs.flatten, FaceOK64 j M f) (acc : List Motion)
    (pos : AddrVec) (hpos : pos = finalPos {} acc) :
    ∃ bs, routeSequences64 lib j stepover acc pos seqs = .ok (acc ++ bs.flatten) ∧ PathOK64 M j pos seqs.flatten bs := by
  induction seqs generalizing acc pos with
  | nil => exact ⟨[], by simp [routeSequences64], trivial, by simp, by simp, .nil, by simp⟩
  | cons s ss ih =>
    have hfs : ∀ f ∈ s, FaceOK64 j M f := fun f h => hf f (by simp [h])
    obtain ⟨b1, h1, h2⟩ := routeFaces64_blocks hl hM (stepover := some stepover) hfs none (by simp) pos
    obtain ⟨i1, i2, i3, i4⟩ := faceBlocks64_ok hM h2 hfs
    obtain ⟨c0, rest, hc0, k1, k2, k3⟩ := faceBlocks64_head h2 (hne s (by simp))
    have hlast : (acc ++ b1.flatten).getLast? = some ((acc ++ b1.flatten).getLast (by simp [hc0])) :=
      List.getLast?_eq_some_getLast _
    have hfin : ((acc ++ b1.flatten).getLast (by simp [hc0])).fin = finalPos {} (acc ++ b1.flatten) := by
      rw [← lastFin_eq]; unfold lastFin; rw [hlast]
    obtain ⟨b2, h3, h4⟩ := ih (fun x hx => hne x (by simp [hx])) (fun f h => hf f (by simp at h ⊢; exact Or.inr h))
      (acc ++ b1.flatten) _ hfin
    refine ⟨b1 ++ b2, ?_, ?_⟩
    · unfold routeSequences64 routePolyfaceOuters64
      rw [Option.getD_some, h1, ok_bind]
      simp only [hlast, h3]
      simp
    · rw [hfin, finalPos_append, ← hpos] at h4
      refine ⟨?_, ?_, ?_, ?_, ?_⟩
      · rw [List.flatten_append, connected_append]
        exact ⟨i1, h4.connected⟩
      · intro c hc
        rcases List.mem_append.mp (List.flatten_append ▸ hc) with hc | hc
        · exact i2 c hc
        · exact h4.safe c hc
      · intro c hc hk
        rcases List.mem_append.mp (List.flatten_append ▸ hc) with hc | hc
        · obtain ⟨f, hf, h⟩ := i3 c hc hk
          exact ⟨f, by simp [hf], h⟩
        · obtain ⟨f, hf, h⟩ := h4.feeds c hc hk
          exact ⟨f, by rw [List.flatten_cons]; exact List.mem_append_right _ hf, h⟩
      · rw [List.flatten_cons]
        exact List.rel_append i4 h4.cuts
      · intro c hc
        rw [List.flatten_append, hc0] at hc
        cases hc
        exact ⟨k1, k2, k3⟩

/-! ### C139 -/

/-- The contours of the regions of a pocket are contours that the router can take. -/
theorem contours64_ok {K : List IPt → Prop} {eng : Clipper} {k : ℕ} (hk : MakesKind (OnInts K) eng) (hn : NoRepeats eng)
    (hb : KeepsBox k eng) {areas avoids regions : List PathFace} (h : buildPocketOps eng areas avoids = .ok regions)
    (hB : ∀ f ∈ areas, InBox (2 ^ 21) f.outer) {stepover : ℚ} (hs : 0 ≤ stepover) {fuel : ℕ} {seqs : List (List PathFace)} {j : Job}
    (hl : Layers eng fuel stepover k regions seqs) (hsafe : 0 < j.opSafeHeight) : ∀ f ∈ seqs.flatten, FaceOK64 j (2 ^ 21) f := by
  have hz : ∀ o ∈ regions, o.depth ≤ 0 := by
    intro o ho
    obtain ⟨f, hf, he⟩ := ops_depth h ho
    rw [← he]
    exact (C38_order h).1 f (List.mem_append_left _ hf)
  intro f hf
  obtain ⟨hd, op, hop, fill, k1, g, hg, ke⟩ := hl.faces hz f hf
  obtain ⟨xs, m1, m2, -⟩ := C42_complete k1
  have hx : f.outer ∈ xs := by rw [ke]; exact m2.mem_iff.mp (List.mem_map.mpr ⟨g, hg, rfl⟩)
  have hbox := box_unfolds hb hs m1 (by
    intro p hp
    rw [List.mem_singleton] at hp
    rw [hp]; exact box_regions hb hB h op hop) _ hx
  have hG := kind_regions hk h op hop
  have hkind : OnInts K f.outer ∧ Clean f.outer := by
    rcases unfolds_mem m1 hx with hx | ⟨p, ps, hR, hx⟩
    · rw [List.mem_singleton] at hx
      rw [hx]; exact ⟨hG.1, ops_clean hn h op hop⟩
    · refine ⟨?_, follows_clean hn hR _ hx⟩
      obtain ⟨raw, shrunk, h1, h2, h3⟩ := hR
      by_cases hcond : shrunk = [] ∨ op.inners = []
      · rw [if_pos hcond] at h3
        rw [h3] at hx
        obtain ⟨q, hq, hqc⟩ := forall₂_mem_right h2 hx
        exact hk.offset _ _ _ _ h1 q (List.mem_of_mem_filter hq) _ hqc
      · rw [if_neg hcond] at h3
        obtain ⟨tree, h4, h5⟩ := h3
        obtain ⟨n, hn', hnc⟩ := forall₂_mem_right h5 hx
        exact hk.difference _ _ _ h4 n hn' n (.self n) _ hnc
  exact face64_of_grid hkind.2 hkind.1 hbox (lt_of_le_of_lt hd hsafe)

/-- What the engine and the library give. -/
structure Engine64 (K : List IPt → Prop) (k : ℕ) (eng : Clipper) (lib : MathLib) : Prop where
  kind : MakesKind (OnInts K) eng
  noRepeats : NoRepeats eng
  boxes : KeepsBox k eng
  squares : SquaresWell lib.sq

theorem engine64_of {K₀ K : List IPt → Prop} {δ : ℚ} {k : ℕ} {e : IntClipper} {lib : MathLib} (he : IntEngine K₀ K δ (scaledPrecision k) e)
    (hb : IntBoxes (scaledPrecision k) e) (hl : SquaresWell lib.sq) : Engine64 K k e.scaled lib := by
  obtain ⟨-, c2, c3, -⟩ := C113_contracts he
  exact ⟨c2, c3, scaled_boxes hb, hl⟩

theorem areas_box {K : List IPt → Prop} {eng : Clipper} {k : ℕ} {lib : MathLib} (he : Engine64 K k eng lib) {B outer inner : ℚ}
    (hB : B + max outer 0 ≤ 2 ^ 20) {faces : List PathFace} (hf : ∀ f ∈ faces, InBox B f.outer) {areas : List (List PathFace)}
    (h : mapE (fun f => offsetPolyface eng f outer inner k) faces = .ok areas) : ∀ f ∈ areas.flatten, InBox (2 ^ 21) f.outer := by
  intro f hfm
  obtain ⟨l, hl, hfl⟩ := List.mem_flatten.mp hfm
  obtain ⟨f0, hf0, hoff⟩ := mapE_mem h hl
  refine (box_areas he.boxes (hf f0 hf0) (offsetPolyface_spec hoff) f hfl).mono ?_
  have : 2 * resolution ≤ 2 ^ 20 := by unfold resolution; norm_num
  linarith

/-- The tool path of a pocket, with the contours cut up to `2^-28` mm. -/
theorem pocket64_path {K : List IPt → Prop} {eng : Clipper} {lib : MathLib} {j : Job} (he : Engine64 K j.precision eng lib) {fuel : ℕ}
    {opAreas avoidAreas : List PathFace} {outerOffset innerOffset avoidOuterOffset avoidInnerOffset stepover : ℚ} {stepdown : Option ℚ}
    {cs : List Motion}
    (h : pocketClipper64 lib eng fuel j opAreas avoidAreas outerOffset innerOffset avoidOuterOffset avoidInnerOffset stepover
      stepdown = .ok cs) (hsafe : 0 < j.opSafeHeight) (hs : 0 ≤ stepover) (hsd : ∀ s, stepdown = some s → 0 ≤ s ∧ IsDouble s)
    {B : ℚ} (hB : B + max outerOffset 0 ≤ 2 ^ 20) (hf : ∀ f ∈ opAreas, InBox B f.outer) :
    (∀ c, cs.head? = some c → c.kind = .retract ∧ c.start = {} ∧ c.fin = ⟨none, none, some j.rapidHeight⟩) ∧
    Connected {} cs ∧
    (∀ c ∈ cs, SafeRapid j.rapidHeight (min j.rapidHeight j.opSafeHeight) c) ∧
    (∀ c ∈ cs, c.kind.mot ≠ .rapid → ∃ z ≤ 0, FeedMove j z c) ∧
    ∃ areas avoids regions,
      mapE (fun f => offsetPolyface eng f outerOffset innerOffset j.precision) opAreas = .ok areas ∧
      mapE (fun f => offsetPolyface eng f avoidOuterOffset avoidInnerOffset j.precision) avoidAreas = .ok avoids ∧
      buildPocketOps eng areas.flatten avoids.flatten = .ok regions ∧
      ∀ r ∈ regions, ∃ contours, Unfolds (Follows eng r stepover j.precision) [r.outer] contours ∧
        ∀ p ∈ contours, ∀ s ∈ segments p, ∀ q, OnSegment s.1 s.2 q →
          ∃ q', PtNear (2 ^ (-28 : ℤ)) q q' ∧ ∃ c ∈ cs, CutsThrough r.depth q' c := by
  unfold pocketClipper64 at h
  obtain ⟨areas, h1, h⟩ := bind_ok.mp h
  obtain ⟨avoids, h2, h⟩ := bind_ok.mp h
  obtain ⟨regions, h3, h⟩ := bind_ok.mp h
  obtain ⟨seqs, h4, h5⟩ := bind_ok.mp h
  have hz : ∀ o ∈ regions, o.depth ≤ 0 := by
    intro o ho
    obtain ⟨f, hf, he⟩ := ops_depth h3 ho
    rw [← he]
    exact (C38_order h3).1 f (List.mem_append_left _ hf)
  have hlay := allSequences64_layers (done := []) hsd (by simpa using hz) h4
  have hok := contours64_ok he.kind he.noRepeats he.boxes h3 (areas_box he hB hf h1) hs hlay hsafe
  obtain ⟨bs, k1, k2⟩ := routeSequences64_ok he.squares (by norm_num) (stepover := stepover) hlay.nonempty hok [] {} rfl
  rw [h5] at k1
  cases k1
  refine ⟨fun c hc => k2.first c hc, k2.connected, k2.safe, ?_, areas, avoids, regions, h1, h2, h3, ?_⟩
  · intro c hc hk
    obtain ⟨f, hf, hm⟩ := k2.feeds c hc hk
    exact ⟨f.depth, (hlay.faces hz f hf).1, hm⟩
  · intro r hr
    obtain ⟨fill, hfl, hin⟩ := hlay.final hr
    obtain ⟨xs, m1, m2, m3, -⟩ := C42_complete hfl
    refine ⟨xs, m1, ?_⟩
    intro p hp s hs q hq
    obtain ⟨f, hff, rfl⟩ := List.mem_map.mp (m2.mem_iff.mpr hp)
    have hfs : f ∈ seqs.flatten := by
      obtain ⟨l, hl, hfl⟩ := List.mem_flatten.mp hff
      exact List.mem_flatten.mpr ⟨l, hin l hl, hfl⟩
    obtain ⟨b, hb, hc⟩ := forall₂_mem_left k2.cuts hfs
    obtain ⟨q', hq', c, hc1, hc2⟩ := hc s hs q hq
    rw [(m3 f hff).1] at hc2
    refine ⟨q', ?_, c, List.mem_flatten.mpr ⟨_, hb, hc1⟩, hc2⟩
    rwa [show (2 : ℚ) ^ (-49 : ℤ) * 2 ^ 21 = 2 ^ (-28 : ℤ) by norm_num] at hq'

theorem opSequences_succeeds {eng : Clipper} {fuel : ℕ} {stepover : ℚ} {stepdown : Option ℚ} {precision : ℕ} {shallower : List PathFace}
    {op : PathFace} {fill : List (List PathFace)} (hf : fillPocket eng fuel op stepover precision = .ok fill) :
    ∃ s, opSequences eng fuel stepover stepdown precision shallower op = .ok s := by
  unfold opSequences
  rw [hf, ok_bind]
  cases stepdown with
  | none => exact ⟨_, rfl⟩
  | some s =>
    by_cases hs : s = 0
    · exact ⟨fill, by simp [hs]⟩
    · simp only [if_neg hs]
      rw [applyStepdown_fill hf, ok_bind]
      exact ⟨_, rfl⟩

theorem allSequences_succeeds {eng : Clipper} {fuel : ℕ} {stepover : ℚ} {stepdown : Option ℚ} {precision : ℕ} {ops : List PathFace}
    (h : ∀ o ∈ ops, ∃ fill, fillPocket eng fuel o stepover precision = .ok fill) (done : List PathFace) :
    ∃ seqs, allSequences eng fuel stepover stepdown precision done ops = .ok seqs := by
  induction ops generalizing done with
  | nil => exact ⟨[], rfl⟩
  | cons op ops ih =>
    obtain ⟨fill, hf⟩ := h op (by simp)
    obtain ⟨s, hs⟩ := opSequences_succeeds (stepdown := stepdown) (shallower := done) hf
    obtain ⟨rest, hr⟩ := ih (fun o ho => h o (by simp [ho])) (done ++ [op])
    exact ⟨_, by rw [allSequences, hs, ok_bind, hr, ok_bind]⟩

/-- A pocket is accepted in floating point if and only if it is with exact arithmetic and the same offsets. -/
theorem pocket64_accepted {K : List IPt → Prop} {eng : Clipper} {lib : MathLib} {j : Job} (he : Engine64 K j.precision eng lib) {fuel : ℕ}
    {opAreas avoidAreas : List PathFace} {outerOffset innerOffset avoidOuterOffset avoidInnerOffset stepover : ℚ} {stepdown : Option ℚ}
    (hsafe : 0 < j.opSafeHeight) (hs : 0 ≤ stepover) (hsd : ∀ s, stepdown = some s → 0 ≤ s ∧ IsDouble s)
    {B : ℚ} (hB : B + max outerOffset 0 ≤ 2 ^ 20) (hf : ∀ f ∈ opAreas, InBox B f.outer) :
    (∃ cs, pocketClipper64 lib eng fuel j opAreas avoidAreas outerOffset innerOffset avoidOuterOffset avoidInnerOffset stepover
      stepdown = .ok cs) ↔
    ∃ cs, pocketClipper eng fuel j opAreas avoidAreas outerOffset innerOffset avoidOuterOffset avoidInnerOffset stepover
      stepdown = .ok cs := by
  constructor
  · rintro ⟨cs, h⟩
    unfold pocketClipper64 at h
    obtain ⟨areas, h1, h⟩ := bind_ok.mp h
    obtain ⟨avoids, h2, h⟩ := bind_ok.mp h
    obtain ⟨regions, h3, h⟩ := bind_ok.mp h
    obtain ⟨seqs, h4, -⟩ := bind_ok.mp h
    have hz : ∀ o ∈ regions, o.depth ≤ 0 := by
      intro o ho
      obtain ⟨f, hf, he⟩ := ops_depth h3 ho
      rw [← he]
      exact (C38_order h3).1 f (List.mem_append_left _ hf)
    have hlay := allSequences64_layers (done := []) hsd (by simpa using hz) h4
    obtain ⟨seqs', h4'⟩ := allSequences_succeeds (stepdown := stepdown)
      (fun o ho => (hlay.final ho).imp fun fill h => h.1) []
    have hpw : regions.Pairwise (fun a b => b.depth ≤ a.depth) := by
      obtain ⟨-, groups, rfl, g1, g2, g3⟩ := C38_order h3
      exact flatten_pairwise g1 g3
    have hd := allSequences_depths (done := []) hpw (fun o ho => hz o ho) h4'
    have hok : ∀ f ∈ seqs'.flatten, FaceOK j f := by
      intro f hf
      obtain ⟨op, hop, fill, k1, g, hg, ke⟩ := allSequences_faces h4' f hf
      have hclean : Clean g.outer := by
        obtain ⟨xs, m1, m2, -⟩ := C42_complete k1
        rcases unfolds_mem m1 (m2.mem_iff.mp (List.mem_map.mpr ⟨g, hg, rfl⟩)) with hx | ⟨p, ps, hR, hx⟩
        · rw [List.mem_singleton] at hx
          rw [hx]; exact ops_clean he.noRepeats h3 op hop
        · exact follows_clean he.noRepeats hR _ hx
      rw [← ke] at hclean
      exact ⟨hclean.1, hclean.2, lt_of_le_of_lt (hd.1 f hf).2 hsafe⟩
    obtain ⟨bs, k1, -⟩ := routeSequences_blocks (stepover := stepover) hd.2 hok [] {}
    exact ⟨_, by unfold pocketClipper; rw [h1, ok_bind, h2, ok_bind, h3, ok_bind, h4', ok_bind, k1]⟩
  · rintro ⟨cs, h⟩
    unfold pocketClipper at h
    obtain ⟨areas, h1, h⟩ := bind_ok.mp h
    obtain ⟨avoids, h2, h⟩ := bind_ok.mp h
    obtain ⟨regions, h3, h⟩ := bind_ok.mp h
    obtain ⟨seqs, h4, -⟩ := bind_ok.mp h
    have hz : ∀ o ∈ regions, o.depth ≤ 0 := by
      intro o ho
      obtain ⟨f, hf, he⟩ := ops_depth h3 ho
      rw [← he]
      exact (C38_order h3).1 f (List.mem_append_left _ hf)
    obtain ⟨seqs', h4'⟩ := allSequences64_total hsd (fun o ho => (fill_infix h4 ho).imp fun fill h => h.1) []
    have hlay := allSequences64_layers (done := []) hsd (by simpa using hz) h4'
    have hok := contours64_ok he.kind he.noRepeats he.boxes h3 (areas_box he hB hf h1) hs hlay hsafe
    obtain ⟨bs, k1, -⟩ := routeSequences64_ok he.squares (by norm_num) (stepover := stepover) hlay.nonempty hok [] {} rfl
    exact ⟨_, by unfold pocketClipper64; rw [h1, ok_bind, h2, ok_bind, h3, ok_bind, h4', ok_bind, k1]⟩

/-- C139: the tool path of a pocket in floating point.  It begins with the retract, each move starts where the one before ended, rapid moves
stay at safe heights, feed moves are not above the stock, and all contours of all regions are cut, up to `2^-28` mm. -/
theorem C139_path {K₀ K : List IPt → Prop} {δ : ℚ} {e : IntClipper} {lib : MathLib} {j : Job}
    (he : IntEngine K₀ K δ (scaledPrecision j.precision) e) (hbox : IntBoxes (scaledPrecision j.precision) e) (hl : SquaresWell lib.sq)
    {fuel : ℕ} {opAreas avoidAreas : List PathFace} {outerOffset innerOffset avoidOuterOffset avoidInnerOffset stepover : ℚ}
    {stepdown : Option ℚ} {cs : List Motion}
    (h : pocketClipper64 lib e.scaled fuel j opAreas avoidAreas outerOffset innerOffset avoidOuterOffset avoidInnerOffset stepover
      stepdown = .ok cs) (hsafe : 0 < j.opSafeHeight) (hs : 0 ≤ stepover) (hsd : ∀ s, stepdown = some s → 0 ≤ s ∧ IsDouble s)
    {B : ℚ} (hB : B + max outerOffset 0 ≤ 2 ^ 20) (hf : ∀ f ∈ opAreas, InBox B f.outer) :
    (∀ c, cs.head? = some c → c.kind = .retract ∧ c.start = {} ∧ c.fin = ⟨none, none, some j.rapidHeight⟩) ∧
    Connected {} cs ∧
    (∀ c ∈ cs, SafeRapid j.rapidHeight (min j.rapidHeight j.opSafeHeight) c) ∧
    (∀ c ∈ cs, c.kind.mot ≠ .rapid → ∃ z ≤ 0, FeedMove j z c) ∧
    ∃ areas avoids regions, List.Forall₂ (OffsetFaces e.scaled outerOffset innerOffset j.precision) opAreas areas ∧
      List.Forall₂ (OffsetFaces e.scaled avoidOuterOffset avoidInnerOffset j.precision) avoidAreas avoids ∧
      buildPocketOps e.scaled areas.flatten avoids.flatten = .ok regions ∧
      ∀ r ∈ regions, ∃ contours, Unfolds (Follows e.scaled r stepover j.precision) [r.outer] contours ∧
        ∀ p ∈ contours, ∀ s ∈ segments p, ∀ q, OnSegment s.1 s.2 q →
          ∃ q', PtNear (2 ^ (-28 : ℤ)) q q' ∧ ∃ c ∈ cs, CutsThrough r.depth q' c := by
  obtain ⟨g1, g2, g3, g4, areas, avoids, regions, k1, k2, k3, k4⟩ :=
    pocket64_path (engine64_of he hbox hl) h hsafe hs hsd hB hf
  exact ⟨g1, g2, g3, g4, areas, avoids, regions, (mapE_ok.mp k1).imp fun _ _ => offsetPolyface_spec,
    (mapE_ok.mp k2).imp fun _ _ => offsetPolyface_spec, k3, k4⟩

/-- C139: a pocket is accepted in floating point if and only if it is with exact arithmetic and the same offsets. -/
theorem C139_accepted {K₀ K : List IPt → Prop} {δ : ℚ} {e : IntClipper} {lib : MathLib} {j : Job}
    (he : IntEngine K₀ K δ (scaledPrecision j.precision) e) (hbox : IntBoxes (scaledPrecision j.precision) e) (hl : SquaresWell lib.sq)
    {fuel : ℕ} {opAreas avoidAreas : List PathFace} {outerOffset innerOffset avoidOuterOffset avoidInnerOffset stepover : ℚ}
    {stepdown : Option ℚ} (hsafe : 0 < j.opSafeHeight) (hs : 0 ≤ stepover) (hsd : ∀ s, stepdown = some s → 0 ≤ s ∧ IsDouble s)
    {B : ℚ} (hB : B + max outerOffset 0 ≤ 2 ^ 20) (hf : ∀ f ∈ opAreas, InBox B f.outer) :
    (∃ cs, pocketClipper64 lib e.scaled fuel j opAreas avoidAreas outerOffset innerOffset avoidOuterOffset avoidInnerOffset stepover
      stepdown = .ok cs) ↔
    ∃ cs, pocketClipper e.scaled fuel j opAreas avoidAreas outerOffset innerOffset avoidOuterOffset avoidInnerOffset stepover
      stepdown = .ok cs :=
  pocket64_accepted (engine64_of he hbox hl) hsafe hs hsd hB hf

/-! ### the floor -/

/-- The passes of a region do not go below it, up to a hundred-thousandth of a millimetre. -/
theorem opSequences64_floor {eng : Clipper} {fuel : ℕ} {stepover : ℚ} {stepdown : Option ℚ} {precision : ℕ}
    {shallower : List PathFace} {op : PathFace} (hsd : ∀ s, stepdown = some s → IsDouble s ∧ (s = 0 ∨ 1 / 1000 ≤ s ∧ s ≤ 1000))
    (hd : ∀ o ∈ shallower, op.depth ≤ o.depth ∧ o.depth ≤ 0) (h0 : op.depth ≤ 0) (hlo : -1000 ≤ op.depth) {seqs : List (List PathFace)}
    (h : opSequences64 eng fuel stepover stepdown precision shallower op = .ok seqs) :
    ∀ f ∈ seqs.flatten, op.depth - 1 / 100000 ≤ f.depth := by
  unfold opSequences64 at h
  obtain ⟨fill, hf, h⟩ := bind_ok.mp h
  have hfill : ∀ f ∈ fill.flatten, op.depth - 1 / 100000 ≤ f.depth := by
    intro f hfm
    rw [(fill_depths hf).1 f hfm]; linarith
  cases stepdown with
  | none => cases h; exact hfill
  | some s =>
    obtain ⟨sd, hs⟩ := hsd s rfl
    by_cases hs0 : s = 0
    · simp only [if_pos hs0] at h; cases h; exact hfill
    obtain ⟨s1, s2⟩ := hs.resolve_left hs0
    simp only [if_neg hs0] at h
    rw [applyStepdown64_fill hf _ sd, ok_bind] at h
    cases h
    have hst : op.depth ≤ (determineStepdownStartDepth eng op shallower).getD 0 ∧
        (determineStepdownStartDepth eng op shallower).getD 0 ≤ 0 := by
      unfold determineStepdownStartDepth
      cases hh : (((shallower.filter (fun o => eng.contains o op)).map PathFace.depth).insertionSort (· ≤ ·)).head? with
      | none => exact ⟨h0, le_rfl⟩
      | some d =>
        have hd' := List.mem_of_mem_head? hh
        rw [List.mem_insertionSort] at hd'
        obtain ⟨o, ho, rfl⟩ := List.mem_map.mp hd'
        exact hd o (List.mem_of_mem_filter ho)
    generalize (determineStepdownStartDepth eng op shallower).getD 0 = start at *
    have hL : |start| ≤ 1000 := abs_le.mpr ⟨by linarith, by linarith⟩
    have hL2 : |op.depth| ≤ 1000 := abs_le.mpr ⟨by linarith, by linarith⟩
    have hlen := steps64_length (L := 1000) (by linarith) (by norm_num) hL hL2 s2 hst.1
    have hp0 : passError 0 (3 * 1000) ≤ 1 := by unfold passError; norm_num
    have hlen' : ((steps64 start op.depth s).length : ℚ) ≤ 1001000 := by
      have : ((steps64 start op.depth s).length : ℚ) * (1 / 1000) ≤ (steps64 start op.depth s).length * s :=
        mul_le_mul_of_nonneg_left s1 (by positivity)
      linarith
    obtain ⟨-, g, -⟩ := steps64_ok (L := 1000) (by linarith) (by norm_num) hL hL2 s2 (by
      have : (steps64 start op.depth s).length ≤ 1001000 := by exact_mod_cast hlen'
      omega) hst.1
    have htol : passError (steps64 start op.depth s).length (3 * 1000) ≤ 1 / 100000 := by
      unfold passError
      norm_num
      linarith
    intro f hfm
    obtain ⟨q, hq, hfq⟩ := List.mem_flatten.mp hfm
    rcases List.mem_append.mp hq with hq | hq
    · obtain ⟨d, hdm, hq⟩ := List.mem_flatMap.mp hq
      obtain ⟨q', hq', rfl⟩ := List.mem_map.mp hq
      obtain ⟨g', -, rfl⟩ := List.mem_map.mp hfq
      have h1 := (g d hdm).1
      exact (sub_le_sub_left htol _).trans h1
    · exact hfill f (List.mem_flatten.mpr ⟨q, hq, hfq⟩)

theorem allSequences64_floor {eng : Clipper} {fuel : ℕ} {stepover : ℚ} {stepdown : Option ℚ} {precision : ℕ}
    (hsd : ∀ s, stepdown = some s → IsDouble s ∧ (s = 0 ∨ 1 / 1000 ≤ s ∧ s ≤ 1000)) {done ops : List PathFace}
    (hd : (done ++ ops).Pairwise (fun a b => b.depth ≤ a.depth)) (h0 : ∀ o ∈ done ++ ops, o.depth ≤ 0) (hlo : ∀ o ∈ ops, -1000 ≤ o.depth)
    {seqs : List (List PathFace)} (h : allSequences64 eng fuel stepover stepdown precision done ops = .ok seqs) :
    ∀ f ∈ seqs.flatten, ∃ o ∈ ops, o.depth - 1 / 100000 ≤ f.depth := by
  induction ops generalizing done seqs with
  | nil => cases h; simp
  | cons op ops ih =>
    rw [allSequences64] at h
    obtain ⟨a, h1, h⟩ := bind_ok.mp h
    obtain ⟨b, h2, h⟩ := bind_ok.mp h
    cases h
    have i1 := opSequences64_floor hsd (fun o ho => ⟨(List.pairwise_append.mp hd).2.2 o ho op (by simp), h0 o (by simp [ho])⟩)
      (h0 op (by simp)) (hlo op (by simp)) h1
    have i2 := ih (done := done ++ [op]) (by simpa using hd) (fun o ho => h0 o (by simpa using ho))
      (fun o ho => hlo o (by simp [ho])) h2
    intro f hf
    rw [List.flatten_append] at hf
    rcases List.mem_append.mp hf with hf | hf
    · exact ⟨op, by simp, i1 f hf⟩
    · obtain ⟨o, ho, hle⟩ := i2 f hf
      exact ⟨o, by simp [ho], hle⟩

/-- C139, the floor: no feed move of a pocket in floating point goes below the deepest face by more than a hundred-thousandth of a millimetre,
for faces within a metre of the top and passes of a thousandth to a thousand millimetres. -/
theorem C139_floor {K₀ K : List IPt → Prop} {δ : ℚ} {e : IntClipper} {lib : MathLib} {j : Job}
    (he : IntEngine K₀ K δ (scaledPrecision j.precision) e) (hbox : IntBoxes (scaledPrecision j.precision) e) (hl : SquaresWell lib.sq)
    {fuel : ℕ} {opAreas avoidAreas : List PathFace} {outerOffset innerOffset avoidOuterOffset avoidInnerOffset stepover : ℚ}
    {stepdown : Option ℚ} {cs : List Motion}
    (h : pocketClipper64 lib e.scaled fuel j opAreas avoidAreas outerOffset innerOffset avoidOuterOffset avoidInnerOffset stepover
      stepdown = .ok cs) (hsafe : 0 < j.opSafeHeight) (hs : 0 ≤ stepover)
    (hsd : ∀ s, stepdown = some s → IsDouble s ∧ (s = 0 ∨ 1 / 1000 ≤ s ∧ s ≤ 1000))
    {B : ℚ} (hB : B + max outerOffset 0 ≤ 2 ^ 20) (hf : ∀ f ∈ opAreas, InBox B f.outer) (hlo : ∀ f ∈ opAreas, -1000 ≤ f.depth) :
    ∀ c ∈ cs, c.kind.mot ≠ .rapid → ∃ z, FeedMove j z c ∧ z ≤ 0 ∧ ∃ f ∈ opAreas, f.depth - 1 / 100000 ≤ z := by
  have he := engine64_of he hbox hl
  have hsd' : ∀ s, stepdown = some s → 0 ≤ s ∧ IsDouble s := by
    intro s hs
    obtain ⟨h1, rfl | ⟨h2, -⟩⟩ := hsd s hs
    · exact ⟨le_rfl, h1⟩
    · exact ⟨by linarith, h1⟩
  unfold pocketClipper64 at h
  obtain ⟨areas, h1, h⟩ := bind_ok.mp h
  obtain ⟨avoids, h2, h⟩ := bind_ok.mp h
  obtain ⟨regions, h3, h⟩ := bind_ok.mp h
  obtain ⟨seqs, h4, h5⟩ := bind_ok.mp h
  have hfrom : ∀ o ∈ regions, ∃ f ∈ opAreas, f.depth = o.depth := by
    intro o ho
    obtain ⟨f', hf', he⟩ := ops_depth h3 ho
    obtain ⟨l, hl, hfl⟩ := List.mem_flatten.mp hf'
    obtain ⟨f0, hf0, hoff⟩ := mapE_mem h1 hl
    exact ⟨f0, hf0, by rw [← offsetPolyface_depth hoff f' hfl, he]⟩
  have hz : ∀ o ∈ regions, o.depth ≤ 0 := by
    intro o ho
    obtain ⟨f, hf, he⟩ := ops_depth h3 ho
    rw [← he]
    exact (C38_order h3).1 f (List.mem_append_left _ hf)
  have hpw : regions.Pairwise (fun a b => b.depth ≤ a.depth) := by
    obtain ⟨-, groups, rfl, g1, g2, g3⟩ := C38_order h3
    exact flatten_pairwise g1 g3
  have hlay := allSequences64_layers (done := []) hsd' (by simpa using hz) h4
  have hok := contours64_ok he.kind he.noRepeats he.boxes h3 (areas_box he hB hf h1) hs hlay hsafe
  obtain ⟨bs, k1, k2⟩ := routeSequences64_ok he.squares (by norm_num) (stepover := stepover) hlay.nonempty hok [] {} rfl
  rw [h5] at k1
  cases k1
  have hfl := allSequences64_floor (done := []) hsd hpw (by simpa using hz) (by
    intro o ho
    obtain ⟨f, hf, he⟩ := hfrom o ho
    rw [← he]; exact hlo f hf) h4
  intro c hc hk
  obtain ⟨f, hf, hm⟩ := k2.feeds c hc hk
  obtain ⟨o, ho, hle⟩ := hfl f hf
  obtain ⟨f0, hf0, he⟩ := hfrom o ho
  exact ⟨f.depth, hm, (hlay.faces hz f hf).1, f0, hf0, by rw [he]; exact hle⟩

theorem sqDist_ptNear {t : ℚ} {q q' : Pt} (h : PtNear t q q') : sqDist q q' ≤ (2 * t) ^ 2 := by
  obtain ⟨h1, h2⟩ := h
  have := abs_nonneg (q.x - q'.x)
  have e1 : (q.x - q'.x) ^ 2 ≤ t ^ 2 := sq_le_sq' (by linarith [abs_le.mp h1]) (abs_le.mp h1).2
  have e2 : (q.y - q'.y) ^ 2 ≤ t ^ 2 := sq_le_sq' (by linarith [abs_le.mp h2]) (abs_le.mp h2).2
  unfold sqDist
  nlinarith [sq_nonneg t]

/-- As `region_covered`, where the contours are cut up to `tol`. -/
theorem region_covered64 {G : List Pt → Prop} {δ : ℚ} {eng : Clipper} {k : ℕ} (heng : ClipperNearOn G δ eng) (hk : MakesKind G eng)
    (hs : ShrinksNear G δ k eng) (hn : NoRepeats eng) {areas avoids regions : List PathFace}
    (h : buildPocketOps eng areas avoids = .ok regions) {r : PathFace} (hr : r ∈ regions) {stepover : ℚ} (hstep : 0 < stepover)
    {contours : List (List Pt)} (hu : Unfolds (Follows eng r stepover k) [r.outer] contours) {cs : List Motion} {d tol : ℚ}
    (htol : 0 ≤ tol)
    (hcut : ∀ p ∈ contours, ∀ s ∈ segments p, ∀ q, OnSegment s.1 s.2 q → ∃ q', PtNear tol q q' ∧ ∃ c ∈ cs, CutsThrough d q' c) {p : Pt}
    (hp : FaceRegion r p) (hfar : ∀ i ∈ r.inners, FarFrom δ i p) :
    ∃ c ∈ cs, ∃ q, CutsThrough d q c ∧ sqDist p q ≤ (2 * tol + (stepover + 2 * δ)) ^ 2 := by
  have hG := kind_regions hk h r hr
  obtain ⟨c, hc, hin, hnear⟩ := unfolds_covers heng hk hs hG hstep (fun i hi => ⟨hp.2 i hi, hfar i hi⟩) hu
    (by intro c hc; rw [List.mem_singleton] at hc; rw [hc]; exact hG.1) ⟨r.outer, by simp, hp.1⟩
  obtain ⟨q, hq, hdist⟩ := not_farFrom.mp hnear
  have hcl : IsClosedPath c := by
    rcases unfolds_mem hu hc with hx | ⟨p', ps, hR, hx⟩
    · rw [List.mem_singleton] at hx
      subst hx
      obtain ⟨_, _, _, _, _, _, -, hcl, -⟩ := region_node h hr
      exact hcl.1
    · exact (follows_clean hn hR _ hx).1
  obtain ⟨s, hs', hsq⟩ := closed_onSegment hcl hin hq
  obtain ⟨q', hq', m, hm, hm2⟩ := hcut c hc s hs' q hsq
  have h0 := heng.nonneg
  exact ⟨m, hm, q', hm2, sqDist_triangle (by linarith) (by linarith) hdist (sqDist_ptNear hq')⟩

/-- C139, end to end in floating point: whatever was done before and after in the job, the program runs, and every point of every region of the
pocket is passed, at the printed depth of the region, with the spindle running and the pocket's tool in it, at a distance of at most the
stepover, twice the tolerance of the engine as it is called, a thousandth for printing and `2^-27` for rounding. -/
theorem C139_pocket {K₀ K : List IPt → Prop} {δ δ' : ℚ} {e : IntClipper} {lib : MathLib} {j0 : Job}
    (he : IntEngine K₀ K δ (scaledPrecision j0.precision) e) (hbox : IntBoxes (scaledPrecision j0.precision) e)
    (hl : SquaresWell lib.sq) (hδ : δ' = δ + 3 * resolution)
    {veq : Vec → Vec → Bool} {fuel : ℕ} {opAreas avoidAreas : List CqFace}
    {a : PocketArgs} {tool : Option Tool} {j1 j2 jf : Job} {before after : List Request} (m : Machine) (h0 : InitOK j0)
    (hn : ∀ v, j0.toolNumber = some v → NumOK v)
    (hok : ChainOK j0 (before ++ pocketRequest64 lib e.scaled veq fuel opAreas avoidAreas a tool :: after))
    (h1 : j0.chain before = .ok j1) (h2 : (j1.call (pocketRequest64 lib e.scaled veq fuel opAreas avoidAreas a tool)).2 = .ok j2)
    (h3 : j2.chain after = .ok jf) (hend : m.ended = false)
    (htool : ∀ n, j0.toolNumber = some n → m.tool = some n.value) (hsafe : 0 < j0.opSafeHeight)
    (hsd : ∀ s, a.stepdown = some s → 0 ≤ s ∧ IsDouble s) :
    ∃ t m' evs diameter outer inner avoidOuter avoidInner stepover faces avoidFaces areas avoids regions,
      jf.toGcode = .ok t ∧ runText m t = some (m', evs) ∧
      (j1.settings.inherit tool).toolDiameter = some diameter ∧
      OffsetNear (diameter / 2) (if avoidAreas ≠ [] ∧ a.outerOffset = none then (0, 0) else offsetParts (-1) a.outerOffset) outer ∧
      OffsetNear (diameter / 2) (offsetParts 1 a.innerOffset) inner ∧
      OffsetNear (diameter / 2) (offsetParts 1 a.avoidOuterOffset) avoidOuter ∧
      OffsetNear (diameter / 2) (offsetParts (-1) a.avoidInnerOffset) avoidInner ∧
      OffsetNear (diameter / 2) (offsetParts (1 / 2) a.stepover) stepover ∧
      List.Forall₂ (FlatFace veq j0.precision) opAreas faces ∧ List.Forall₂ (FlatFace veq j0.precision) avoidAreas avoidFaces ∧
      List.Forall₂ (OffsetFaces e.scaled outer inner j0.precision) faces areas ∧
      List.Forall₂ (OffsetFaces e.scaled avoidOuter avoidInner j0.precision) avoidFaces avoids ∧
      buildPocketOps e.scaled areas.flatten avoids.flatten = .ok regions ∧
      (0 < stepover → ∀ B, B + max outer 0 ≤ 2 ^ 20 → (∀ f ∈ faces, InBox B f.outer) →
        ∀ r ∈ regions, ∀ p, FaceRegion r p → (∀ i ∈ r.inners, FarFrom δ' i p) →
          ∃ ev ∈ evs, ∃ q, MillsOver (rnd 3 r.depth) q ev ∧
            sqDist p q ≤ (stepover + 2 * δ' + 1 / 1000 + 2 ^ (-27 : ℤ)) ^ 2 ∧
            ∀ n, (j1.settings.inherit tool).toolNumber = some n → ev.st.tool = some n.value) := by
  subst hδ
  obtain ⟨c1, c2, c3, c4, -⟩ := C113_contracts he
  have heng := engine64_of he hbox hl
  obtain ⟨t, m', pre, part, post, cs, e1, e2, hcs, -, hfol, hpart⟩ := C94_followed m h0 hn hok h1 h2 h3 hend htool
  have hb : SameBase j0 (j1.updateTool tool).2 :=
    updateTool_base (chain_base (by unfold SameBase; rfl) h1) _
  have hset : (j1.updateTool tool).2.settings = j1.settings.inherit tool := by
    obtain ⟨-, -, -, h, -⟩ := updateTool_commands j1 tool
    exact h
  have hprec : (j1.updateTool tool).2.precision = j0.precision := by rw [hb]
  have hsafe' : 0 < (j1.updateTool tool).2.opSafeHeight := by rw [(sameBase_heights hb).2.1]; exact hsafe
  have hcs : pocket64 lib e.scaled veq fuel opAreas avoidAreas a (j1.updateTool tool).2 = .ok cs := hcs
  rw [← hprec] at heng c4
  rw [← hset, ← hprec]
  generalize (j1.updateTool tool).2 = J at *
  unfold pocket64 at hcs
  cases hr : J.toolRadius64 with
  | none => rw [hr] at hcs; cases hcs
  | some r =>
    rw [hr] at hcs
    obtain ⟨diameter, hd, hrd⟩ : ∃ d, J.toolDiameter = some d ∧ r = b64 (d / 2) := by
      unfold Job.toolRadius64 Job.toolRadius at hr
      cases hj : J.toolDiameter with
      | none => rw [hj] at hr; cases hr
      | some d =>
        rw [hj] at hr
        by_cases h0 : d = 0
        · simp [h0] at hr
        · simp only [h0, if_false, Option.map_some, Option.some.injEq] at hr
          exact ⟨d, rfl, hr.symm⟩
    obtain ⟨faces, g1, hcs⟩ := bind_ok.mp hcs
    obtain ⟨avoidFaces, g2, hcs⟩ := bind_ok.mp hcs
    have hclip := hcs
    unfold pocketClipper64 at hcs
    obtain ⟨areas, g3, hcs⟩ := bind_ok.mp hcs
    obtain ⟨avoids, g4, hcs⟩ := bind_ok.mp hcs
    obtain ⟨regions, g5, -⟩ := bind_ok.mp hcs
    refine ⟨t, m', _, diameter, _, _, _, _, calculateOffset64 r a.stepover (some (1 / 2)), faces, avoidFaces, areas, avoids, regions,
      e1, e2, hd, ?_, offset64_near hrd _ _, offset64_near hrd _ _, offset64_near hrd _ _, offset64_near hrd _ _,
      (mapE_ok.mp g1).imp fun _ _ => fromCqFace_spec, (mapE_ok.mp g2).imp fun _ _ => fromCqFace_spec,
      (mapE_ok.mp g3).imp fun _ _ => offsetPolyface_spec, (mapE_ok.mp g4).imp fun _ _ => offsetPolyface_spec, g5, ?_⟩
    · have := offset64_near hrd (-1) (if avoidAreas ≠ [] ∧ a.outerOffset = none then some (.mult 0) else a.outerOffset)
      by_cases hc : avoidAreas ≠ [] ∧ a.outerOffset = none
      · rw [if_pos hc] at this ⊢
        rw [if_pos hc]
        exact this
      · rw [if_neg hc] at this ⊢
        rw [if_neg hc]
        exact this
    · intro hpos B hB hf x hx p hp hfar
      obtain ⟨-, hcon, -, -, areas', avoids', regions', k3, k4, k5, hall⟩ := pocket64_path heng hclip hsafe' hpos.le hsd hB hf
      rw [g3] at k3; cases k3
      rw [g4] at k4; cases k4
      rw [g5] at k5; cases k5
      obtain ⟨contours, hu, hcut⟩ := hall x hx
      obtain ⟨c, hc, q, hq, hdist⟩ := region_covered64 c1 c2 c4 c3 g5 hx hpos hu (two_zpow_pos _).le hcut hp hfar
      obtain ⟨ev, hev, hec⟩ := forall₂_mem_right (hfol (tracks_connected hcon)) hc
      obtain ⟨hem, hmv⟩ := List.mem_filter.mp hev
      obtain ⟨q', hq', hd'⟩ := mills_of_follows hec hq (hpart ev hem).2
      refine ⟨ev, by simp [hem], q', hq', ?_, by rw [hset]; exact (hpart ev hem).1 hmv⟩
      have := c1.nonneg
      have h27 : (2 : ℚ) ^ (-27 : ℤ) = 2 * 2 ^ (-28 : ℤ) := by norm_num
      rw [h27]
      have hp28 := two_zpow_pos (-28)
      rw [show calculateOffset64 r a.stepover (some (1 / 2)) + 2 * (δ + 3 * resolution) + 1 / 1000 + 2 * 2 ^ (-28 : ℤ) =
        1 / 1000 + (2 * 2 ^ (-28 : ℤ) + (calculateOffset64 r a.stepover (some (1 / 2)) + 2 * (δ + 3 * resolution))) by ring]
      exact sqDist_triangle (by norm_num) (by linarith) hdist hd'

/-- C139, the machine comes wherever the tool fits: as `C113_reach`. -/
theorem C139_reach {K₀ K : List IPt → Prop} {δ δ' : ℚ} {e : IntClipper} {lib : MathLib} {j0 : Job}
    (he : IntEngine K₀ K δ (scaledPrecision j0.precision) e) (hbox : IntBoxes (scaledPrecision j0.precision) e)
    (hl : SquaresWell lib.sq) (hδ : δ' = δ + 3 * resolution)
    {veq : Vec → Vec → Bool} {fuel : ℕ} {opAreas avoidAreas : List CqFace}
    {a : PocketArgs} {tool : Option Tool} {j1 j2 jf : Job} {before after : List Request} (m : Machine) (h0 : InitOK j0)
    (hn : ∀ v, j0.toolNumber = some v → NumOK v)
    (hok : ChainOK j0 (before ++ pocketRequest64 lib e.scaled veq fuel opAreas avoidAreas a tool :: after))
    (h1 : j0.chain before = .ok j1) (h2 : (j1.call (pocketRequest64 lib e.scaled veq fuel opAreas avoidAreas a tool)).2 = .ok j2)
    (h3 : j2.chain after = .ok jf) (hend : m.ended = false)
    (htool : ∀ n, j0.toolNumber = some n → m.tool = some n.value) (hsafe : 0 < j0.opSafeHeight)
    (hsd : ∀ s, a.stepdown = some s → 0 ≤ s ∧ IsDouble s)
    (hD : ∀ c ∈ opAreas ++ avoidAreas, ∀ f, FlatFace veq j0.precision c f → f.All (Rounded K₀)) :
    ∃ t m' evs diameter outer inner avoidOuter avoidInner stepover faces avoidFaces areas avoids,
      jf.toGcode = .ok t ∧ runText m t = some (m', evs) ∧
      (j1.settings.inherit tool).toolDiameter = some diameter ∧
      OffsetNear (diameter / 2) (if avoidAreas ≠ [] ∧ a.outerOffset = none then (0, 0) else offsetParts (-1) a.outerOffset) outer ∧
      OffsetNear (diameter / 2) (offsetParts 1 a.innerOffset) inner ∧
      OffsetNear (diameter / 2) (offsetParts 1 a.avoidOuterOffset) avoidOuter ∧
      OffsetNear (diameter / 2) (offsetParts (-1) a.avoidInnerOffset) avoidInner ∧
      OffsetNear (diameter / 2) (offsetParts (1 / 2) a.stepover) stepover ∧
      List.Forall₂ (FlatFace veq j0.precision) opAreas faces ∧ List.Forall₂ (FlatFace veq j0.precision) avoidAreas avoidFaces ∧
      List.Forall₂ (OffsetFaces e.scaled outer inner j0.precision) faces areas ∧
      List.Forall₂ (OffsetFaces e.scaled avoidOuter avoidInner j0.precision) avoidFaces avoids ∧
      (0 < stepover → outer ≤ 0 → 0 ≤ inner → 0 ≤ avoidOuter → (∀ f ∈ faces, InBox (2 ^ 20) f.outer) →
        ∀ f ∈ faces, ∀ x, Inside f.outer x →
          Fits faces avoidFaces (-outer + 5 * δ') (inner + 5 * δ') (avoidOuter + 5 * δ') f.depth x →
          (∀ b ∈ avoidFaces, f.depth ≤ b.depth → NoVoidIn e.scaled avoidOuter avoidInner j0.precision b x) →
          (∀ g ∈ faces, g.depth ≤ f.depth → NoIslandIn e.scaled outer inner j0.precision g x) →
          NoIslandAt e.scaled areas.flatten avoids.flatten f.depth x →
          ∃ ev ∈ evs, ∃ q, MillsOver (rnd 3 f.depth) q ev ∧
            sqDist x q ≤ (stepover + 2 * δ' + 1 / 1000 + 2 ^ (-27 : ℤ)) ^ 2 ∧
            ∀ n, (j1.settings.inherit tool).toolNumber = some n → ev.st.tool = some n.value) := by
  obtain ⟨t, m', evs, diameter, outer, inner, ao, ai, stepover, faces, avoidFaces, areas, avoids, regions, e1, e2, e3, o1, o2, o3, o4, o5,
    e4, e5, e6, e7, e8, e9⟩ := C139_pocket he hbox hl hδ m h0 hn hok h1 h2 h3 hend htool hsafe hsd
  refine ⟨t, m', evs, diameter, outer, inner, ao, ai, stepover, faces, avoidFaces, areas, avoids, e1, e2, e3, o1, o2, o3, o4, o5,
    e4, e5, e6, e7, ?_⟩
  intro hpos hout hinn hao hB f hf x hx hfit hav hi1 hi2
  subst hδ
  obtain ⟨c1, c2, c3, c4, c5, c6, c7, c8, c9⟩ := C113_contracts he
  have hDf : ∀ f ∈ faces ++ avoidFaces, f.All (Rounded K₀) := by
    intro f hf
    rcases List.mem_append.mp hf with hf | hf
    · obtain ⟨c, hc, hcf⟩ := forall₂_mem_right e4 hf
      exact hD c (by simp [hc]) f hcf
    · obtain ⟨c, hc, hcf⟩ := forall₂_mem_right e5 hf
      exact hD c (by simp [hc]) f hcf
  obtain ⟨r, hr', hrd, hrp, hri⟩ := fits_region c1 c2 c6 c7 c8 c9 (s := -outer)
    (by linarith) hinn hao hDf (by rw [neg_neg]; exact e6) e7 e8 hf hx hfit hav (by rw [neg_neg]; exact hi1) hi2
  rw [← hrd]
  exact e9 hpos (2 ^ 20) (by rw [max_eq_right hout]; norm_num) hB r hr' x hrp hri

end CQ
