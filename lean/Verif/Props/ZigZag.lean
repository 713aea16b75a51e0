import Verif.Proofs.Link

/-! # C61, C64, C80: zigzag routing -/

namespace CQ

/-! ### C61 -/

/-- C61.  Routing over a single boundary to which the ends of the scanlines have been linked: the loop ends, and the result is
one path that cuts every scanline exactly once from one end to the other and goes from each scanline to the next along the
boundary. -/
theorem C61_route {poly : List Pt} {scanlines : List (Pt × Pt)} {lps : List LinkedPolygon} {owner : List (Pt × ℕ)}
    (hne : scanlines ≠ []) (hlink : linkScanpoints (scanpoints scanlines) [poly] = .ok (lps, owner)) :
    ∃ lp lines path, lps = [lp] ∧ lp.polygon.Perm (lineEnds scanlines ++ poly) ∧ poly.Sublist lp.polygon ∧
      routeZigZag lps scanlines owner (scanlineMap scanlines) = .ok [path] ∧ CutsLines lp.polygon lines path ∧
      SameLines lines scanlines := by
  obtain ⟨lp, rfl, h1, h2, h3, h4, h5⟩ := linkScanpoints_single hlink
  rw [scanpoints_eq] at h1 h2 h3 h5
  obtain ⟨l, rest, rfl⟩ := List.exists_cons_of_ne_nil hne
  obtain ⟨⟨start, cut⟩, hor⟩ : ∃ x, orientLine l = x := ⟨_, rfl⟩
  have hdir : (start, cut) = l ∨ (start, cut) = (l.2, l.1) := by
    rw [← hor]; unfold orientLine; split
    · exact .inr rfl
    · exact .inl rfl
  have hends : (lineEnds (l :: rest)).Perm (start :: cut :: lineEnds rest) := by
    simp only [lineEnds, List.flatMap_cons, List.cons_append, List.nil_append]
    rcases hdir with h | h
    · have e1 : start = l.1 := congrArg Prod.fst h
      have e2 : cut = l.2 := congrArg Prod.snd h
      rw [e1, e2]
    · have e1 : start = l.2 := congrArg Prod.fst h
      have e2 : cut = l.1 := congrArg Prod.snd h
      rw [e1, e2]; exact List.Perm.swap _ _ _
  have hstart : start ∈ lp.linked := (h1.trans hends).mem_iff.mpr List.mem_cons_self
  have hav : (lp.linked.erase start).Perm (cut :: lineEnds rest) := by
    have := (h1.trans hends).erase start
    simpa using this
  obtain ⟨lines, path, r1, r2, ls, r3, r4⟩ := routeLoop_spec (owner := owner) (lineMap := scanlineMap (l :: rest))
    (P := lp.polygon) rest.length ⟨[{ lp.reset with avail := lp.linked.erase start }], rest, cut, [start, cut], []⟩
    { lp.reset with avail := lp.linked.erase start } le_rfl rfl rfl hav ((h1.nodup_iff.mpr h2).erase _)
    (by
      intro q hq
      refine h3.mem_iff.mpr (List.mem_append_left _ (h1.mem_iff.mp (List.mem_of_mem_erase hq))))
    (by
      intro q hq
      exact h5 q (h1.mem_iff.mp (List.mem_of_mem_erase hq)))
    (by
      intro x hx
      exact scanlineMap_lookup h2 (List.mem_cons_of_mem _ hx)) rfl
  refine ⟨lp, (start, cut) :: lines, start :: cut :: path, rfl, h3, h4, ?_, ⟨path, rfl, r2⟩, l :: ls, r3.cons l,
    .cons hdir r4⟩
  unfold routeZigZag
  simp only [hor, getKey, h5 start (h1.mem_iff.mp hstart), ok_bind, List.map_cons, List.map_nil, getPolygon,
    List.getElem?_cons_zero, LinkedPolygon.drop, LinkedPolygon.reset, pyRemove_ok.mpr ⟨hstart, rfl⟩, List.set_cons_zero]
  simpa [LinkedPolygon.reset] using r1

/-! ### C64 -/

/-- C64.  Whenever linking to boundaries succeeds, every point has been linked to exactly one boundary, and each boundary is
its vertices, in their order, with its linked points inserted. -/
theorem C64_order {points : List Pt} {boundaries : List (List Pt)} {lps : List LinkedPolygon} {owner : List (Pt × ℕ)}
    (h : linkScanpoints points boundaries = .ok (lps, owner)) :
    List.Forall₂ (fun poly lp => poly.Sublist lp.polygon ∧ lp.polygon.Perm (lp.linked ++ poly)) boundaries lps ∧
      (lps.flatMap LinkedPolygon.linked).Perm points := by
  have key : ∀ (bs : List (List Pt)) (k : ℕ) (rem : List Pt) (own own' : List (Pt × ℕ)) (ls : List LinkedPolygon),
      linkBoundaries k rem own bs = .ok (ls, own') →
      List.Forall₂ (fun poly lp => poly.Sublist lp.polygon ∧ lp.polygon.Perm (lp.linked ++ poly)) bs ls ∧
        (ls.flatMap LinkedPolygon.linked).Perm rem := by
    intro bs
    induction bs with
    | nil =>
      intro k rem own own' ls h
      unfold linkBoundaries at h
      by_cases hr : rem = []
      · simp only [hr, ne_eq, not_true_eq_false, if_false, Except.ok.injEq, Prod.mk.injEq] at h
        obtain ⟨rfl, -⟩ := h
        exact ⟨.nil, by rw [hr]; exact .refl _⟩
      · simp only [ne_eq, hr, not_false_eq_true, if_true] at h
        cases h
    | cons b bs ih =>
      intro k rem own own' ls h
      unfold linkBoundaries at h
      obtain ⟨s, hs, h⟩ := bind_ok.mp h
      obtain ⟨⟨ls1, o1⟩, h1, h⟩ := bind_ok.mp h
      cases h
      have hL := linkBoundary_linking hs
      obtain ⟨i1, i2⟩ := ih _ _ _ _ _ h1
      refine ⟨.cons ⟨hL.order, hL.polygon⟩ i1, ?_⟩
      rw [List.flatMap_cons]
      exact (i2.append_left _).trans hL.split
  exact key _ _ _ _ _ _ h

/-- C64, boundaries given by lists of different vertices and points near their segments (not the closing one) and at no
vertex: linking succeeds, and every boundary is its vertices with, after each of them, the points linked to the segment
beginning there, in order of the distance from it. -/
theorem C64_sorted_partial {points : List Pt} {boundaries : List (List Pt)} (hb : ∀ b ∈ boundaries, b.Nodup)
    (hp : points.Nodup) (hd : ∀ b ∈ boundaries, ∀ q ∈ points, q ∉ b)
    (hn : ∀ q ∈ points, ∃ b ∈ boundaries, ∃ seg ∈ segments b, NearSegment seg q) :
    ∃ lps owner blocks, linkScanpoints points boundaries = .ok (lps, owner) ∧ blocks.flatten.flatten.Perm points ∧
      blocks.length = boundaries.length ∧
      List.Forall₂ (fun b lp => lp.polygon = weave b.1 b.2 ∧ lp.linked.Perm b.2.flatten ∧
        List.Forall₂ (fun seg ps => SortedFrom seg.1 ps ∧ ∀ q ∈ ps, NearSegment seg q) (segments b.1) b.2)
        (boundaries.zip blocks) lps := by
  have key : ∀ (bs : List (List Pt)) (k : ℕ) (rem : List Pt) (own : List (Pt × ℕ)), (∀ b ∈ bs, b.Nodup) → rem.Nodup →
      (∀ b ∈ bs, ∀ q ∈ rem, q ∉ b) → (∀ q ∈ rem, ∃ b ∈ bs, ∃ seg ∈ segments b, NearSegment seg q) →
      ∃ lps owner blocks, linkBoundaries k rem own bs = .ok (lps, owner) ∧ blocks.flatten.flatten.Perm rem ∧
        blocks.length = bs.length ∧
        List.Forall₂ (fun b lp => lp.polygon = weave b.1 b.2 ∧ lp.linked.Perm b.2.flatten ∧
          List.Forall₂ (fun seg ps => SortedFrom seg.1 ps ∧ ∀ q ∈ ps, NearSegment seg q) (segments b.1) b.2)
          (bs.zip blocks) lps := by
    intro bs
    induction bs with
    | nil =>
      intro k rem own _ _ _ hn
      have hr : rem = [] := by
        refine List.eq_nil_iff_forall_not_mem.mpr (fun q hq => ?_)
        obtain ⟨b, hb, -⟩ := hn q hq
        cases hb
      refine ⟨[], own, [], ?_, by rw [hr]; exact .refl _, rfl, .nil⟩
      simp [linkBoundaries, hr]
    | cons b bs ih =>
      intro k rem own hb hr hd hn
      obtain ⟨s, blocks, f1, f2, f3, f4, f5, f6⟩ : ∃ s blocks, linkBoundary k rem own b = .ok s ∧
          s.lp.polygon = weave b blocks ∧ s.lp.linked.Perm blocks.flatten ∧
          List.Forall₂ (fun seg ps => SortedFrom seg.1 ps ∧ ∀ q ∈ ps, NearSegment seg q) (segments b) blocks ∧
          rem.Perm (blocks.flatten ++ s.remaining) ∧ ∀ seg ∈ segments b, ∀ q ∈ s.remaining, ¬ NearSegment seg q := by
        cases b with
        | nil => exact ⟨_, [], rfl, rfl, .refl _, .nil, .refl _, by simp [segments]⟩
        | cons v vs =>
          obtain ⟨s, blocks, f1, f2, f3, -, f5, f6, f7⟩ := linkPolyline_sorted (k := k) (B := []) vs v []
            ⟨rem, { polygon := v :: vs }, own⟩ (by simp) (hb _ List.mem_cons_self) (by simp) hr
            (fun q hq => ⟨by simp, hd _ List.mem_cons_self q hq⟩)
          exact ⟨s, blocks, f1, by simpa using f2, by simpa using f3, f5, f6, f7⟩
      have hsub : ∀ q ∈ s.remaining, q ∈ rem := fun q hq => f5.mem_iff.mpr (List.mem_append_right _ hq)
      obtain ⟨lps, owner, bls, g1, g2, g3, g4⟩ := ih (k + 1) s.remaining s.owner
        (fun x hx => hb x (List.mem_cons_of_mem _ hx)) (List.nodup_append.mp (f5.nodup_iff.mp hr)).2.1
        (fun x hx q hq => hd x (List.mem_cons_of_mem _ hx) q (hsub q hq)) (by
          intro q hq
          obtain ⟨c, hc, seg, hseg, hnear⟩ := hn q (hsub q hq)
          rcases List.mem_cons.mp hc with rfl | hc
          · exact absurd hnear (f6 seg hseg q hq)
          · exact ⟨c, hc, seg, hseg, hnear⟩)
      refine ⟨s.lp :: lps, owner, blocks :: bls, ?_, ?_, by simp [g3], .cons ⟨f2, f3, f4⟩ g4⟩
      · simp only [linkBoundaries, f1, g1, ok_bind]
      · rw [List.flatten_cons, List.flatten_append]
        exact (g2.append_left _).trans f5.symm
  exact key _ _ _ _ hb hp hd hn

/-- C64 and C61 together: a zigzag over one boundary, given by different vertices, whose scanlines have different ends, none
of them at a vertex or on the closing segment. -/
theorem C61_zigzag_partial (eng : ScanClipper) {poly : List Pt} {step : ℚ} {scanlines templates : List (Pt × Pt)}
    (ht : scanTemplates eng [poly] step = .ok templates) (hc : eng.clip [poly] templates = .ok scanlines)
    (hne : scanlines ≠ []) (hb : poly.Nodup) (hp : (lineEnds scanlines).Nodup) (hd : ∀ q ∈ lineEnds scanlines, q ∉ poly)
    (hn : ∀ q ∈ lineEnds scanlines, ∃ seg ∈ segments poly, NearSegment seg q) :
    ∃ blocks lines path, zigzag eng [poly] step = .ok [path] ∧ blocks.flatten.Perm (lineEnds scanlines) ∧
      List.Forall₂ (fun seg ps => SortedFrom seg.1 ps ∧ ∀ q ∈ ps, NearSegment seg q) (segments poly) blocks ∧
      CutsLines (weave poly blocks) lines path ∧ SameLines lines scanlines := by
  obtain ⟨lps, owner, blocks, h1, h2, h3, h4⟩ := C64_sorted_partial (points := scanpoints scanlines) (boundaries := [poly])
    (by simpa using hb) hp (by simpa [scanpoints_eq] using hd) (by
      intro q hq
      obtain ⟨seg, hs, hq⟩ := hn q hq
      exact ⟨poly, by simp, seg, hs, hq⟩)
  obtain ⟨lp, lines, path, rfl, -, -, r1, r2, r3⟩ := C61_route hne h1
  obtain ⟨bl, rfl⟩ := List.length_eq_one_iff.mp h3
  simp only [List.zip_cons_cons, List.zip_nil_right] at h4
  cases h4 with
  | cons h _ =>
    refine ⟨bl, lines, path, ?_, by simpa [scanpoints_eq] using h2, h.2.2, h.1 ▸ r2, r3⟩
    unfold zigzag
    simp only [ht, hc, h1, ok_bind, r1]

/-! ### C80 -/

theorem mem_arange {start stop step : ℚ} {k : ℕ} (h : (k : ℚ) < (stop - start) / step) :
    start + k * step ∈ arange start stop step := by
  unfold arange
  refine List.mem_map.mpr ⟨k, List.mem_range.mpr ?_, rfl⟩
  have h1 : (k : ℚ) < (⌈(stop - start) / step⌉ : ℤ) := lt_of_lt_of_le h (Int.le_ceil _)
  have h2 : (k : ℤ) < ⌈(stop - start) / step⌉ := by exact_mod_cast h1
  omega

/-- C80.  The lines that are clipped to give the scanlines: each goes from left to right at one Y over the whole width of the
rectangle around the boundaries, and every Y of the rectangle is between two neighbouring lines, a step apart, or on one. -/
theorem C80_lines (eng : ScanClipper) {boundaries : List (List Pt)} {step left low right high : ℚ} (hs : 0 < step)
    (hb : eng.bounds boundaries = (left, low, right, high)) (hw : right - left ≤ eng.diagonal (left, low, right, high))
    (hh : high - low ≤ eng.diagonal (left, low, right, high)) :
    ∃ templates, scanTemplates eng boundaries step = .ok templates ∧
      (∀ l ∈ templates, l.1.y = l.2.y ∧ l.1.x ≤ left ∧ right ≤ l.2.x) ∧
      (∀ i : ℕ, ∀ l l', templates[i]? = some l → templates[i + 1]? = some l' → l'.1.y = l.1.y + step) ∧
      ∀ y, low ≤ y → y ≤ high → low < high → ∃ l ∈ templates, l.1.y ≤ y ∧ y ≤ l.1.y + step := by
  unfold scanTemplates
  simp only [hb, if_neg hs.ne', maxBounds]
  obtain ⟨D, hD⟩ : ∃ D, D = eng.diagonal (left, low, right, high) := ⟨_, rfl⟩
  rw [← hD] at hw hh ⊢
  obtain ⟨B, hB⟩ : ∃ B : ℚ, B = ((⌊(low + high) / 2 - D / 2⌋ : ℤ) : ℚ) := ⟨_, rfl⟩
  obtain ⟨T, hT⟩ : ∃ T : ℚ, T = ((⌈(low + high) / 2 + D / 2⌉ : ℤ) : ℚ) := ⟨_, rfl⟩
  have hB1 : B ≤ (low + high) / 2 - D / 2 := hB ▸ Int.floor_le _
  have hT1 : (low + high) / 2 + D / 2 ≤ T := hT ▸ Int.le_ceil _
  rw [← hB, ← hT]
  refine ⟨_, rfl, ?_, ?_, ?_⟩
  · intro l hl
    obtain ⟨y, -, rfl⟩ := List.mem_map.mp hl
    refine ⟨rfl, ?_, ?_⟩
    · refine (Int.floor_le _).trans ?_
      linarith
    · refine le_trans ?_ (Int.le_ceil _)
      linarith
  · intro i l l' h1 h2
    unfold arange at h1 h2
    simp only [List.getElem?_map, List.map_map, Option.map_eq_some_iff, Function.comp] at h1 h2
    obtain ⟨a, ha, rfl⟩ := h1
    obtain ⟨b, hb, rfl⟩ := h2
    have ea : a = i := by
      obtain ⟨_, rfl⟩ := List.getElem?_eq_some_iff.mp ha; simp
    have eb : b = i + 1 := by
      obtain ⟨_, rfl⟩ := List.getElem?_eq_some_iff.mp hb; simp
    subst ea eb
    simp only
    push_cast; ring
  · intro y hy1 hy2 hlt
    have hBy : B ≤ y := by linarith
    have hyT : y ≤ T := by linarith
    have hBT : B < T := by linarith
    have hq : 0 ≤ (y - B) / step := div_nonneg (by linarith) hs.le
    by_cases hlast : y = T ∧ ((⌊(y - B) / step⌋₊ : ℕ) : ℚ) = (y - B) / step
    · -- the top itself, a whole number of steps up
      have hpos : 0 < (y - B) / step := div_pos (by linarith [hlast.1]) hs
      have hfp : 0 < ⌊(y - B) / step⌋₊ := by
        have : (0 : ℚ) < (⌊(y - B) / step⌋₊ : ℕ) := by rw [hlast.2]; exact hpos
        exact_mod_cast this
      obtain ⟨k, hk⟩ : ∃ k : ℕ, ⌊(y - B) / step⌋₊ = k + 1 := ⟨_, (Nat.succ_pred_eq_of_pos hfp).symm⟩
      have hk' : ((k : ℚ) + 1) = (y - B) / step := by rw [← hlast.2, hk]; push_cast; ring
      have hk2 : ((k : ℚ) + 1) * step = y - B := by rw [hk']; field_simp
      refine ⟨_, List.mem_map.mpr ⟨_, mem_arange (k := k) ?_, rfl⟩, ?_, ?_⟩
      · rw [← hlast.1, ← hk']; linarith
      · simp only; linarith
      · simp only; linarith
    · have hf := Nat.floor_le hq
      have hf2 := Nat.lt_floor_add_one ((y - B) / step)
      rw [le_div_iff₀ hs] at hf
      rw [div_lt_iff₀ hs] at hf2
      refine ⟨_, List.mem_map.mpr ⟨_, mem_arange (k := ⌊(y - B) / step⌋₊) ?_, rfl⟩, ?_, ?_⟩
      · rw [lt_div_iff₀ hs]
        rcases lt_or_eq_of_le hyT with h | h
        · linarith
        · have hne : ((⌊(y - B) / step⌋₊ : ℕ) : ℚ) ≠ (y - B) / step := fun h' => hlast ⟨h, h'⟩
          have hlt' : ((⌊(y - B) / step⌋₊ : ℕ) : ℚ) < (y - B) / step :=
            lt_of_le_of_ne (Nat.floor_le hq) hne
          rw [lt_div_iff₀ hs] at hlt'
          linarith
      · simp only; linarith
      · simp only; linarith

/-! ### Examples -/

/-- A trapezium, left end slanted, given by its vertices; its closing segment is the lower side. -/
def zigPoly : List Pt := [⟨10, 0⟩, ⟨10, 4⟩, ⟨2, 4⟩, ⟨0, 0⟩]

/-- Three scanlines in it. -/
def zigLines : List (Pt × Pt) := [(⟨1/2, 1⟩, ⟨10, 1⟩), (⟨10, 2⟩, ⟨1, 2⟩), (⟨3/2, 3⟩, ⟨10, 3⟩)]

/-- A clipper for it. -/
def zigEngine : ScanClipper where
  bounds _ := (0, 0, 10, 4)
  diagonal _ := 11
  clip _ _ := .ok zigLines

/-- The hypotheses of `C61_zigzag_partial` and `C80_lines` hold for it. -/
example : (∃ ts, scanTemplates zigEngine [zigPoly] 1 = .ok ts ∧ zigEngine.clip [zigPoly] ts = .ok zigLines) ∧
    zigLines ≠ [] ∧ zigPoly.Nodup ∧ (lineEnds zigLines).Nodup ∧ (∀ q ∈ lineEnds zigLines, q ∉ zigPoly) ∧
    (∀ q ∈ lineEnds zigLines, ∃ seg ∈ segments zigPoly, NearSegment seg q) ∧
    zigEngine.bounds [zigPoly] = (0, 0, 10, 4) ∧ (10 : ℚ) - 0 ≤ zigEngine.diagonal (0, 0, 10, 4) ∧
    (4 : ℚ) - 0 ≤ zigEngine.diagonal (0, 0, 10, 4) := by
  refine ⟨⟨_, rfl, rfl⟩, by decide, by decide +kernel, by decide +kernel, by decide +kernel, ?_, rfl, ?_, ?_⟩
  · intro q hq
    simp only [lineEnds, zigLines, List.flatMap_cons, List.flatMap_nil, List.cons_append, List.nil_append, List.append_nil,
      List.mem_cons, List.not_mem_nil, or_false] at hq
    rcases hq with rfl | rfl | rfl | rfl | rfl | rfl
    · exact ⟨(⟨2, 4⟩, ⟨0, 0⟩), by decide +kernel, ⟨⟨1/2, 1⟩, ⟨3/4, by norm_num, by norm_num, by decide +kernel⟩, by decide +kernel⟩⟩
    · exact ⟨(⟨10, 0⟩, ⟨10, 4⟩), by decide +kernel, ⟨⟨10, 1⟩, ⟨1/4, by norm_num, by norm_num, by decide +kernel⟩, by decide +kernel⟩⟩
    · exact ⟨(⟨10, 0⟩, ⟨10, 4⟩), by decide +kernel, ⟨⟨10, 2⟩, ⟨1/2, by norm_num, by norm_num, by decide +kernel⟩, by decide +kernel⟩⟩
    · exact ⟨(⟨2, 4⟩, ⟨0, 0⟩), by decide +kernel, ⟨⟨1, 2⟩, ⟨1/2, by norm_num, by norm_num, by decide +kernel⟩, by decide +kernel⟩⟩
    · exact ⟨(⟨2, 4⟩, ⟨0, 0⟩), by decide +kernel, ⟨⟨3/2, 3⟩, ⟨1/4, by norm_num, by norm_num, by decide +kernel⟩, by decide +kernel⟩⟩
    · exact ⟨(⟨10, 0⟩, ⟨10, 4⟩), by decide +kernel, ⟨⟨10, 3⟩, ⟨3/4, by norm_num, by norm_num, by decide +kernel⟩, by decide +kernel⟩⟩
  · decide +kernel
  · decide +kernel

/-- The path found for it. -/
example : (match zigzag zigEngine [zigPoly] 1 with
    | .ok ps => decide (ps = [[⟨1/2, 1⟩, ⟨10, 1⟩, ⟨10, 2⟩, ⟨1, 2⟩, ⟨3/2, 3⟩, ⟨10, 3⟩]])
    | .error _ => false) = true := by decide +kernel

/-- A square given by its four vertices. -/
def openSquare : List Pt := [⟨0, 0⟩, ⟨4, 0⟩, ⟨4, 4⟩, ⟨0, 4⟩]

/-- A square given by its vertices, the first one repeated at the end. -/
def closedSquare : List Pt := openSquare ++ [⟨0, 0⟩]

/-- C61 and C64 fail for a boundary given by its vertices (as the flattening of a closed wire of straight edges gives it): the
segment from the last vertex to the first is not searched, and scanline ends on it make the operation crash. -/
theorem C61_violated : ∃ (eng : ScanClipper) (poly : List Pt) (scanlines : List (Pt × Pt)),
    (∀ ts, eng.clip [poly] ts = .ok scanlines) ∧ (lineEnds scanlines).Nodup ∧
      (∀ q ∈ lineEnds scanlines, q ∉ poly ∧ ∃ seg ∈ segments (poly ++ poly.take 1), OnSegment seg.1 seg.2 q) ∧
      zigzag eng [poly] 1 = .error .assertionError := by
  refine ⟨⟨fun _ => (0, 0, 4, 4), fun _ => 6, fun _ _ => .ok [(⟨0, 1⟩, ⟨4, 1⟩), (⟨0, 2⟩, ⟨4, 2⟩)]⟩, openSquare,
    [(⟨0, 1⟩, ⟨4, 1⟩), (⟨0, 2⟩, ⟨4, 2⟩)], fun _ => rfl, by decide +kernel, ?_, ?_⟩
  · intro q hq
    simp only [lineEnds, List.flatMap_cons, List.flatMap_nil, List.cons_append, List.nil_append, List.append_nil,
      List.mem_cons, List.not_mem_nil, or_false] at hq
    rcases hq with rfl | rfl | rfl | rfl
    · exact ⟨by decide +kernel, (⟨0, 4⟩, ⟨0, 0⟩), by decide +kernel, 3/4, by norm_num, by norm_num, by decide +kernel⟩
    · exact ⟨by decide +kernel, (⟨4, 0⟩, ⟨4, 4⟩), by decide +kernel, 1/4, by norm_num, by norm_num, by decide +kernel⟩
    · exact ⟨by decide +kernel, (⟨0, 4⟩, ⟨0, 0⟩), by decide +kernel, 1/2, by norm_num, by norm_num, by decide +kernel⟩
    · exact ⟨by decide +kernel, (⟨4, 0⟩, ⟨4, 4⟩), by decide +kernel, 1/2, by norm_num, by norm_num, by decide +kernel⟩
  · decide +kernel

/-- C64 fails for a boundary whose first vertex is repeated at its end (as src/cq_cam/utils/utils.py:190-191 does for a wire that is not closed): points on the
last segment are inserted in the order in which they come, so that the boundary goes back and forth. -/
theorem C64_violated : ∃ (poly points A M B : List Pt) (s e : Pt) (lps : List LinkedPolygon) (owner : List (Pt × ℕ)),
    linkScanpoints points [poly] = .ok (lps, owner) ∧ lps.map LinkedPolygon.polygon = [A ++ s :: M ++ e :: B] ∧
      (s, e) ∈ segments poly ∧ (∀ q ∈ M, OnSegment s e q) ∧ ¬ SortedFrom s M := by
  have : (match linkScanpoints [⟨0, 3⟩, ⟨0, 2⟩] [closedSquare] with
      | .ok r => decide (r.1.map LinkedPolygon.polygon = [[⟨0, 0⟩, ⟨4, 0⟩, ⟨4, 4⟩] ++ ⟨0, 4⟩ :: [⟨0, 2⟩, ⟨0, 3⟩] ++ ⟨0, 0⟩ :: []])
      | .error _ => false) = true := by decide +kernel
  cases h : linkScanpoints [⟨0, 3⟩, ⟨0, 2⟩] [closedSquare] with
  | error e => rw [h] at this; cases this
  | ok r =>
    rw [h] at this
    refine ⟨closedSquare, [⟨0, 3⟩, ⟨0, 2⟩], _, _, _, _, _, r.1, r.2, h, of_decide_eq_true this, by decide +kernel, ?_, ?_⟩
    · intro q hq
      simp only [List.mem_cons, List.not_mem_nil, or_false] at hq
      rcases hq with rfl | rfl
      · exact ⟨1/2, by norm_num, by norm_num, by decide +kernel⟩
      · exact ⟨1/4, by norm_num, by norm_num, by decide +kernel⟩
    · intro hs
      have := (List.pairwise_cons.mp hs).1 ⟨0, 3⟩ (by simp)
      revert this
      decide +kernel

/-- C64 fails for a boundary given by its vertices: a point on the segment from the last to the first is refused. -/
theorem C64_refused_violated : ∃ (poly points : List Pt), poly.Nodup ∧
    (∀ q ∈ points, OnSegment (poly.getLast?.getD ⟨0, 0⟩) (poly.head?.getD ⟨0, 0⟩) q) ∧
      linkScanpoints points [poly] = .error .assertionError := by
  refine ⟨openSquare, [⟨0, 1⟩], by decide +kernel, ?_, by decide +kernel⟩
  intro q hq
  rw [List.mem_singleton.mp hq]
  exact ⟨3/4, by norm_num, by norm_num, by decide +kernel⟩

end CQ
