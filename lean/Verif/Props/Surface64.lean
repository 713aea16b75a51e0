import Verif.Model.Op3d64
import Verif.Spec.Surface64
import Verif.Props.ZigZag64
import Verif.Props.Sample64
import Verif.Props.SurfacePath

/-! # Property C146: 3D surfacing in floating point -/

namespace CQ

/-- A polygon to which the outer wire of one of the offset boundaries is flattened. -/
def SurfacePolygon (k : FaceKernel) (args : SurfaceArgs) (oo : ℚ × ℚ) (io : Option (ℚ × ℚ)) (bs : List BoundaryFace) (poly : List Pt) : Prop :=
  ∃ faces f, mapE (offsetBoundary64 k args.toolDiameter oo io) bs = .ok faces ∧ f ∈ faces.flatten ∧ wirePolygon64 f.1 = .ok poly

/-- The moves for a boundary, once the heights are those of a height field. -/
theorem surfaceBoundary64_ok {sq : ℚ → ℚ} {eng : SurfaceEngine} {args : SurfaceArgs} {j : Job} {poly : List Pt} {cs : List Motion}
    {h : Pt → ℚ} (hd : ∀ ps, eng.drop ps = ps.map h) (hc : surfaceBoundary64 sq eng args j poly = .ok cs) :
    ∃ paths seqs depths, zigzag64 sq eng.scan [poly] args.toolDiameter args.stepover = .ok paths ∧
      List.Forall₂ (fun path s => interpolateSequence64 eng args.interpolationStep path = .ok s) paths seqs ∧
      surfaceDepths64 args.stepdown args.topHeight eng.bottom = .ok depths ∧
      cs = passesMoves j depths (seqs.map (fun s => s.map (lift h))) 0 {} depths := by
  unfold surfaceBoundary64 at hc
  obtain ⟨paths, h1, hc⟩ := bind_ok.mp hc
  obtain ⟨seqs, h2, hc⟩ := bind_ok.mp hc
  rw [hd, mergeHeights_map, ok_bind] at hc
  obtain ⟨depths, h3, hc⟩ := bind_ok.mp hc
  cases hc
  exact ⟨paths, seqs, depths, h1, mapE_ok.mp h2, h3, rfl⟩

/-- For one boundary: the moves are those of the passes, one for each depth, and in the pass at depth `d` every cutting move
ends at the greater of `d` and the height `h` that the drop cutter reports there. -/
theorem boundary64_gouge {sq : ℚ → ℚ} {eng : SurfaceEngine} {args : SurfaceArgs} {j : Job} {poly : List Pt} {cs : List Motion}
    {h : Pt → ℚ} (hd : ∀ ps, eng.drop ps = ps.map h) (hc : surfaceBoundary64 sq eng args j poly = .ok cs) :
    ∃ depths passes, surfaceDepths64 args.stepdown args.topHeight eng.bottom = .ok depths ∧ cs = passes.flatten ∧
      List.Forall₂ (CutsOnSurface h) depths passes := by
  obtain ⟨paths, seqs, depths, -, -, h3, rfl⟩ := surfaceBoundary64_ok hd hc
  obtain ⟨passes, e, hl, hp⟩ := passesMoves_split (j := j) (depths := depths)
    (seqs := seqs.map (fun s => s.map (lift h))) depths 0 {}
  refine ⟨depths, passes, h3, e, ?_⟩
  rw [List.forall₂_iff_get]
  refine ⟨hl.symm, ?_⟩
  intro k h1 h2 c hcm hk
  obtain ⟨pos, hcs⟩ := hp k _ _ (List.getElem?_eq_getElem h1) (List.getElem?_eq_getElem h2)
  simp only [List.get_eq_getElem] at hcm ⊢
  rw [hcs] at hcm
  obtain ⟨piece, hpiece, hm⟩ := mem_piecesMoves hcm
  obtain ⟨s, hs, hch⟩ := List.mem_flatMap.mp hpiece
  obtain ⟨s, -, rfl⟩ := List.mem_map.mp hs
  obtain ⟨-, hmem⟩ := mem_chopFrom (by simp) hch
  rcases hm with hm | hm | hm | ⟨p, hpp, hm⟩
  · rw [hm.1] at hk; exact absurd rfl hk
  · rw [hm.1] at hk; exact absurd rfl hk
  · rw [hm.1] at hk; exact absurd rfl hk
  · rcases (hmem p hpp).1 with hx | hx
    · cases hx
    · obtain ⟨q, -, rfl⟩ := List.mem_map.mp hx
      exact ⟨by rw [hm.1]; rfl, q, hm.2.1⟩

theorem surface3d64_ok {sq : ℚ → ℚ} {eng : SurfaceEngine} {k : FaceKernel} {args : SurfaceArgs} {oo : ℚ × ℚ} {io : Option (ℚ × ℚ)}
    {bs : List BoundaryFace} {j : Job} {cs : List Motion} (hc : surface3d64 sq eng k args oo io bs j = .ok cs) :
    ∃ css : List (List Motion), cs = css.flatten ∧ ∀ b ∈ css, ∃ poly, SurfacePolygon k args oo io bs poly ∧ surfaceBoundary64 sq eng args j poly = .ok b := by
  unfold surface3d64 at hc
  obtain ⟨faces, h1, hc⟩ := bind_ok.mp hc
  obtain ⟨css, h2, hc⟩ := bind_ok.mp hc
  cases hc
  refine ⟨css, rfl, ?_⟩
  intro b hb
  obtain ⟨f, hfm, hf⟩ := forall2_right (mapE_ok.mp h2) hb
  obtain ⟨poly, hpoly, hf⟩ := bind_ok.mp hf
  exact ⟨poly, ⟨faces, f, h1, hfm, hpoly⟩, hf⟩

/-- C146.  Every cutting move of a 3D surfacing operation ends at or above the height `h` that the drop cutter reports for its XY
position, and at or above the depth of its pass. -/
theorem C146_no_gouge {sq : ℚ → ℚ} {eng : SurfaceEngine} {k : FaceKernel} {args : SurfaceArgs} {oo : ℚ × ℚ} {io : Option (ℚ × ℚ)}
    {bs : List BoundaryFace} {j : Job} {cs : List Motion} {h : Pt → ℚ} (hd : ∀ ps, eng.drop ps = ps.map h)
    (hc : surface3d64 sq eng k args oo io bs j = .ok cs) :
    ∃ passes : List (ℚ × List Motion), cs = (passes.map Prod.snd).flatten ∧
      ∀ pass ∈ passes, (∃ depths, surfaceDepths64 args.stepdown args.topHeight eng.bottom = .ok depths ∧ pass.1 ∈ depths) ∧
        ∀ c ∈ pass.2, c.kind.mot ≠ .rapid → ∃ (q : Pt) (z : ℚ), CutsTo q z c ∧ h q ≤ z ∧ pass.1 ≤ z := by
  obtain ⟨css, rfl, hb⟩ := surface3d64_ok hc
  clear hc
  induction css with
  | nil => exact ⟨[], rfl, by simp⟩
  | cons b css ih =>
    obtain ⟨ps, e, hps⟩ := ih (fun b hb' => hb b (List.mem_cons_of_mem _ hb'))
    obtain ⟨poly, -, hpoly⟩ := hb b (by simp)
    obtain ⟨depths, passes, h1, rfl, h2⟩ := boundary64_gouge hd hpoly
    refine ⟨depths.zip passes ++ ps, ?_, ?_⟩
    · rw [List.flatten_cons, e, List.map_append, List.flatten_append, List.map_snd_zip (by rw [h2.length_eq])]
    · intro pass hp
      rcases List.mem_append.mp hp with hp | hp
      · refine ⟨⟨depths, h1, (List.of_mem_zip hp).1⟩, ?_⟩
        intro c hcm hk
        obtain ⟨hl, q, hq⟩ := (List.forall₂_iff_zip.mp h2).2 hp c hcm hk
        exact ⟨q, _, ⟨hl, hq⟩, le_max_right _ _, le_max_left _ _⟩
      · exact hps pass hp

/-- Where the rapids of a boundary can end. -/
theorem boundary64_rapids {sq : ℚ → ℚ} {eng : SurfaceEngine} {args : SurfaceArgs} {j : Job} {poly : List Pt} {cs : List Motion}
    {h : Pt → ℚ} (hd : ∀ ps, eng.drop ps = ps.map h) (hc : surfaceBoundary64 sq eng args j poly = .ok cs) :
    ∃ depths, surfaceDepths64 args.stepdown args.topHeight eng.bottom = .ok depths ∧
      ∀ c ∈ cs, c.kind.mot = .rapid →
        (c.fin.z = some j.rapidHeight ∧ (Lateral c → c.start.z = some j.rapidHeight)) ∨
        (¬ Lateral c ∧ ∃ q : Pt, c.fin = q.at j.opSafeHeight ∧ (h q ≤ 0 ∨ ∃ d ∈ depths, h q ≤ d)) := by
  obtain ⟨paths, seqs, depths, -, -, h3, rfl⟩ := surfaceBoundary64_ok hd hc
  obtain ⟨passes, e, hl, hp⟩ := passesMoves_split (j := j) (depths := depths)
    (seqs := seqs.map (fun s => s.map (lift h))) depths 0 {}
  refine ⟨depths, h3, ?_⟩
  rw [e]
  intro c hcm hk
  obtain ⟨cs, hcs, hcm⟩ := List.mem_flatten.mp hcm
  obtain ⟨k, hk2, rfl⟩ := List.mem_iff_getElem.mp hcs
  obtain ⟨pos, hcs⟩ := hp k _ _ (List.getElem?_eq_getElem (hl ▸ hk2)) (List.getElem?_eq_getElem hk2)
  rw [hcs] at hcm
  obtain ⟨piece, hpiece, hm⟩ := mem_piecesMoves hcm
  obtain ⟨s, hs, hch⟩ := List.mem_flatMap.mp hpiece
  obtain ⟨s, -, rfl⟩ := List.mem_map.mp hs
  obtain ⟨-, hmem⟩ := mem_chopFrom (by simp) hch
  rcases hm with hm | hm | hm | ⟨p, hpp, hm⟩
  · refine .inl ⟨by rw [hm.2], ?_⟩
    intro hlat
    unfold Lateral at hlat
    rw [hm.2] at hlat
    simp at hlat
  · obtain ⟨h1, h2, p, hp, h3⟩ := hm
    exact .inl ⟨by rw [h3], fun _ => h2⟩
  · obtain ⟨h1, p, hp, h2, h3⟩ := hm
    refine .inr ⟨?_, ?_⟩
    · unfold Lateral
      rw [h2, h3]
      simp
    · obtain ⟨hx, hz⟩ := hmem p hp
      rcases hx with hx | hx
      · cases hx
      · obtain ⟨q, -, rfl⟩ := List.mem_map.mp hx
        refine ⟨q, h3, ?_⟩
        unfold passLimit at hz
        split at hz
        · rename_i hi
          refine .inr ⟨depths.getD (0 + k - 2) 0, ?_, hz⟩
          rw [List.getD_eq_getElem?_getD, List.getElem?_eq_getElem (by omega), Option.getD_some]
          exact List.getElem_mem _
        · exact .inl hz
  · rw [hm.1] at hk; cases hk

/-- C146.  The rapids of 3D surfacing go sideways only at the rapid height, and never below the rapid and the safe height. -/
theorem C146_rapids {sq : ℚ → ℚ} {eng : SurfaceEngine} {k : FaceKernel} {args : SurfaceArgs} {oo : ℚ × ℚ} {io : Option (ℚ × ℚ)}
    {bs : List BoundaryFace} {j : Job} {cs : List Motion} {h : Pt → ℚ} (hd : ∀ ps, eng.drop ps = ps.map h)
    (hc : surface3d64 sq eng k args oo io bs j = .ok cs) :
    ∀ c ∈ cs, SafeRapid j.rapidHeight (min j.rapidHeight j.opSafeHeight) c := by
  obtain ⟨css, rfl, hb⟩ := surface3d64_ok hc
  intro c hcm hk
  obtain ⟨b, hbm, hcm⟩ := List.mem_flatten.mp hcm
  obtain ⟨poly, -, hpoly⟩ := hb b hbm
  obtain ⟨depths, -, h2⟩ := boundary64_rapids hd hpoly
  rcases h2 c hcm hk with ⟨h1, h2⟩ | ⟨h1, q, h2, -⟩
  · exact ⟨fun hl => ⟨h2 hl, h1⟩, _, h1, min_le_left _ _⟩
  · exact ⟨fun hl => absurd hl h1, _, by rw [h2]; rfl, min_le_right _ _⟩

/-! ### The depths of the passes -/

/-- The depths as they are computed are not above the top height. -/
theorem depths64_le {stepdown : Option ℚ} {top bottom : ℚ} {depths : List ℚ} (h : surfaceDepths64 stepdown top bottom = .ok depths)
    (ht : IsDouble top) (hs : ∀ s, stepdown = some s → s ≤ 0) (hb : bottom ≤ top) : ∀ d ∈ depths, d ≤ top := by
  have ha : ∀ s : ℚ, s ≤ 0 → ∀ d ∈ arange64 (b64 (top + s)) bottom s, d ≤ top := by
    intro s hs d hd
    have h1 : b64 (top + s) ≤ top := b64_le ht (by linarith)
    have hd1 : IsDouble (b64 (top + s)) := b64_isDouble _
    generalize b64 (top + s) = start at *
    have h2 : b64 (start + s) ≤ start := b64_le hd1 (by linarith)
    unfold arange64 at hd
    obtain ⟨i, -, rfl⟩ := List.mem_map.mp hd
    have h3 : b64 (b64 (start + s) - start) ≤ 0 := b64_le isDouble_zero (by linarith)
    have h4 : (i : ℚ) * b64 (b64 (start + s) - start) ≤ 0 := mul_nonpos_of_nonneg_of_nonpos (Nat.cast_nonneg _) h3
    have h5 : b64 (i * b64 (b64 (start + s) - start)) ≤ 0 := b64_le isDouble_zero h4
    split_ifs
    · exact h1
    · exact h2.trans h1
    · exact b64_le ht (by linarith)
  unfold surfaceDepths64 at h
  cases stepdown with
  | none => cases h; simpa using hb
  | some s =>
    simp only at h
    split at h
    · cases h; simpa using hb
    · split at h
      · cases h
      · split at h
        · cases h
          intro d hd
          rcases List.mem_append.mp hd with hd | hd
          · exact ha s (hs s rfl) d hd
          · rw [List.mem_singleton.mp hd]; exact hb
        · cases h
          exact ha s (hs s rfl)

/-- A stepdown given as a positive number makes the operation crash. -/
theorem depths64_negative {stepdown : Option ℚ} {top bottom : ℚ} {depths : List ℚ} (h : surfaceDepths64 stepdown top bottom = .ok depths)
    (ht : IsDouble top) (hb : bottom ≤ top) : ∀ s, stepdown = some s → s ≤ 0 := by
  rintro s rfl
  by_contra hpos
  rw [not_le] at hpos
  have h1 : top ≤ b64 (top + s) := le_b64 ht (by linarith)
  have h2 : b64 (bottom - b64 (top + s)) ≤ 0 := b64_le isDouble_zero (by linarith)
  have h3 : b64 (b64 (bottom - b64 (top + s)) / s) ≤ 0 := b64_le isDouble_zero (div_nonpos_of_nonpos_of_nonneg h2 hpos.le)
  have h4 : arange64 (b64 (top + s)) bottom s = [] := by
    unfold arange64
    have : ⌈b64 (b64 (bottom - b64 (top + s)) / s)⌉ ≤ 0 := Int.ceil_le.mpr (by exact_mod_cast h3)
    rw [Int.toNat_eq_zero.mpr this]
    rfl
  unfold surfaceDepths64 at h
  simp only [if_neg hpos.ne', h4, List.getLast?_nil] at h
  cases h

/-- C146, for operations whose top height is not above the job's surface (the default is at the surface): no rapid ends below
the height of the surface at its XY position, provided that no part of the shape is above the rapid height. -/
theorem C146_clear_partial {sq : ℚ → ℚ} {eng : SurfaceEngine} {k : FaceKernel} {args : SurfaceArgs} {oo : ℚ × ℚ} {io : Option (ℚ × ℚ)}
    {bs : List BoundaryFace} {j : Job} {cs : List Motion} {h : Pt → ℚ} (hd : ∀ ps, eng.drop ps = ps.map h)
    (hc : surface3d64 sq eng k args oo io bs j = .ok cs) (htd : IsDouble args.topHeight)
    (htop : args.topHeight ≤ 0) (hbot : eng.bottom ≤ args.topHeight)
    (hsafe : 0 ≤ j.opSafeHeight) (hrh : ∀ p, h p ≤ j.rapidHeight) :
    ∀ c ∈ cs, c.kind.mot = .rapid → ∀ (q : Pt) (z : ℚ), c.fin = q.at z → h q ≤ z := by
  obtain ⟨css, rfl, hb⟩ := surface3d64_ok hc
  intro c hcm hk q z hq
  obtain ⟨b, hbm, hcm⟩ := List.mem_flatten.mp hcm
  obtain ⟨poly, -, hpoly⟩ := hb b hbm
  obtain ⟨depths, h1, h2⟩ := boundary64_rapids hd hpoly
  rcases h2 c hcm hk with ⟨h3, -⟩ | ⟨-, q', h3, h4⟩
  · rw [hq] at h3
    simp only [Pt.at, Option.some.injEq] at h3
    rw [h3]; exact hrh q
  · rw [hq] at h3
    simp only [Pt.at, AddrVec.mk.injEq, Option.some.injEq] at h3
    obtain ⟨hx, hy, hz⟩ := h3
    have e : q = q' := by cases q; cases q'; simp only at hx hy; rw [hx, hy]
    subst e
    rw [hz]
    rcases h4 with h4 | ⟨d, hdm, h4⟩
    · linarith
    · have := depths64_le h1 htd (depths64_negative h1 htd hbot) hbot d hdm
      linarith

/-! ### How far the paths reach -/

theorem linksAndCutsAny_mem {bs : List (List Pt)} : ∀ {lines : List (Pt × Pt)} {b : Pt} {rest : List Pt},
    LinksAndCutsAny bs b lines rest → ∀ p ∈ rest, p ∈ lineEnds lines ∨ ∃ x ∈ bs, p ∈ x := by
  intro lines
  induction lines with
  | nil => rintro b rest ⟨⟩ p hp; cases hp
  | cons l lines ih =>
    rintro b rest ⟨link, r, rfl, -, ⟨x, hx, -, before, after, tail, hb, hrun⟩, h⟩ p hp
    rcases List.mem_append.mp hp with hp | hp
    · right
      refine ⟨x, hx, ?_⟩
      have : p ∈ after ++ before := by
        rcases hrun with h1 | h1
        · rw [h1]; exact List.mem_append_left _ hp
        · rw [← List.mem_reverse, h1]; exact List.mem_append_left _ hp
      rw [hb]
      simp only [List.mem_append, List.mem_cons] at this ⊢
      tauto
    · rcases List.mem_cons.mp hp with rfl | hp
      · left; simp [lineEnds]
      · rcases ih h p hp with h1 | h1
        · left
          unfold lineEnds at h1 ⊢
          rw [List.flatMap_cons]
          exact List.mem_append_right _ h1
        · exact .inr h1

theorem cutsLinesAny_mem {bs : List (List Pt)} {lines : List (Pt × Pt)} {path : List Pt} (h : CutsLinesAny bs lines path) :
    ∀ p ∈ path, p ∈ lineEnds lines ∨ ∃ x ∈ bs, p ∈ x := by
  cases lines with
  | nil => cases h; simp
  | cons l lines =>
    obtain ⟨rest, rfl, h⟩ := h
    intro p hp
    rcases List.mem_cons.mp hp with rfl | hp
    · left; simp [lineEnds]
    · rcases List.mem_cons.mp hp with rfl | hp
      · left; simp [lineEnds]
      · rcases linksAndCutsAny_mem h p hp with h1 | h1
        · left
          unfold lineEnds at h1 ⊢
          rw [List.flatMap_cons]
          exact List.mem_append_right _ h1
        · exact .inr h1

theorem sameLines_ends {lines scanlines : List (Pt × Pt)} (h : SameLines lines scanlines) {p : Pt} (hp : p ∈ lineEnds lines) :
    p ∈ lineEnds scanlines := by
  obtain ⟨ls, h1, h2⟩ := h
  rw [mem_lineEnds] at hp ⊢
  obtain ⟨l, hl, hp⟩ := hp
  obtain ⟨l', hl', h3⟩ := forall2_left h2 hl
  refine ⟨l', h1.mem_iff.mp hl', ?_⟩
  rcases h3 with rfl | rfl
  · exact hp
  · exact hp.symm

/-- What holds for the vertices of the boundaries and the ends of the scanlines holds for all points of the zigzag paths. -/
theorem zigzag64_points {sq : ℚ → ℚ} {eng : ScanClipper} {P : Pt → Prop} {toolDiameter stepover : ℚ} {bs paths : List (List Pt)}
    (hc : ∀ templates scanlines, eng.clip bs templates = .ok scanlines → ∀ l ∈ scanlines, P l.1 ∧ P l.2)
    (hb : ∀ b ∈ bs, ∀ p ∈ b, P p) (h : zigzag64 sq eng bs toolDiameter stepover = .ok paths) :
    ∀ path ∈ paths, 2 ≤ path.length ∧ ∀ p ∈ path, P p := by
  unfold zigzag64 at h
  obtain ⟨templates, -, h⟩ := bind_ok.mp h
  obtain ⟨scanlines, hclip, h⟩ := bind_ok.mp h
  obtain ⟨⟨lps, owner⟩, hlink, h⟩ := bind_ok.mp h
  have hends : ∀ p ∈ lineEnds scanlines, P p := by
    intro p hp
    obtain ⟨l, hl, hp⟩ := mem_lineEnds.mp hp
    have := hc templates scanlines hclip l hl
    rcases hp with rfl | rfl
    · exact this.1
    · exact this.2
  obtain ⟨ho, hperm⟩ := C145_order hlink
  obtain ⟨groups, hsame, hg⟩ := C145_several h
  intro path hpath
  obtain ⟨lines, hlines, hne, hcut⟩ := forall2_right hg hpath
  constructor
  · cases lines with
    | nil => exact absurd rfl hne
    | cons l lines =>
      obtain ⟨rest, rfl, -⟩ := hcut
      simp
  intro p hp
  rcases cutsLinesAny_mem hcut p hp with h1 | ⟨x, hx, h1⟩
  · refine hends p (sameLines_ends hsame ?_)
    unfold lineEnds at h1 ⊢
    obtain ⟨l, hl, h1⟩ := List.mem_flatMap.mp h1
    exact List.mem_flatMap.mpr ⟨l, List.mem_flatten.mpr ⟨lines, hlines, hl⟩, h1⟩
  · obtain ⟨lp, hlp, rfl⟩ := List.mem_map.mp hx
    obtain ⟨b, hbm, -, hpm⟩ := forall2_right ho hlp
    rcases List.mem_append.mp (hpm.mem_iff.mp h1) with h2 | h2
    · refine hends p ?_
      rw [← scanpoints_eq]
      exact hperm.mem_iff.mp (List.mem_flatMap.mpr ⟨lp, hlp, h2⟩)
    · exact hb b hbm p h2

/-- The zigzag paths stay within the coordinates of the boundary. -/
theorem zigzag64_upto {sq : ℚ → ℚ} {eng : ScanClipper} {L toolDiameter stepover : ℚ} {bs paths : List (List Pt)} (hc : ClipsWithin L eng)
    (hb : ∀ b ∈ bs, ∀ p ∈ b, p.Upto L) (h : zigzag64 sq eng bs toolDiameter stepover = .ok paths) :
    ∀ path ∈ paths, ∀ p ∈ path, p.Upto L :=
  fun path hp => (zigzag64_points (hc bs · · hb) hb h path hp).2

/-! ### Between the sampled points -/

theorem refinesUpTo_chain {tol gap : ℚ} {seq out : List Pt} (h : RefinesUpTo tol gap seq out) :
    List.IsChain (fun a b => sqDist a b ≤ gap ^ 2) out := by
  induction h with
  | single p => simp
  | @cons p q seq ms out along near rest ih =>
    have e : p :: (ms ++ q :: out) = (p :: ms) ++ q :: out := rfl
    rw [e, List.isChain_append]
    have near' : List.IsChain (fun a b => sqDist a b ≤ gap ^ 2) ((p :: ms) ++ [q]) := near
    rw [List.isChain_append] at near'
    refine ⟨near'.1, ih, ?_⟩
    intro x hx y hy
    exact near'.2.2 x hx y (by simpa using hy)

theorem boundary64_near {sq : ℚ → ℚ} {eng : SurfaceEngine} {args : SurfaceArgs} {j : Job} {poly : List Pt} {cs : List Motion} {h : Pt → ℚ}
    {r L : ℚ} (hd : ∀ ps, eng.drop ps = ps.map h) (hm : Measures64 r eng.norm) (hr0 : 0 ≤ r) (hr : r ≤ 2) (hL : 1 ≤ L)
    (hclip : ClipsWithin L eng.scan) (hpoly : ∀ p ∈ poly, p.Upto L) (hi : 0 < args.interpolationStep) (hiL : args.interpolationStep ≤ L)
    (hid : IsDouble args.interpolationStep) (hc : surfaceBoundary64 sq eng args j poly = .ok cs) (htd : IsDouble args.topHeight)
    (htop : args.topHeight ≤ 0) (hbot : eng.bottom ≤ args.topHeight) (hsafe : 0 ≤ j.opSafeHeight) (hrh : 0 ≤ j.rapidHeight) :
    ∀ c ∈ cs, Rises j.rapidHeight c ∨ TravelsAt j.rapidHeight c ∨ NearAbove h (r * args.interpolationStep + L / 10 ^ 13) c := by
  obtain ⟨paths, seqs, depths, h1, h2, h3, rfl⟩ := surfaceBoundary64_ok hd hc
  have hs := depths64_negative h3 htd hbot
  have hup := zigzag64_upto (bs := [poly]) hclip (by simpa using hpoly) h1
  obtain ⟨passes, e, hl, hp⟩ := passesMoves_split (j := j) (depths := depths)
    (seqs := seqs.map (fun s => s.map (lift h))) depths 0 {}
  rw [e]
  intro c hcm
  obtain ⟨cs, hcs, hcm⟩ := List.mem_flatten.mp hcm
  obtain ⟨k, hk2, rfl⟩ := List.mem_iff_getElem.mp hcs
  obtain ⟨pos, hcs⟩ := hp k _ _ (List.getElem?_eq_getElem (hl ▸ hk2)) (List.getElem?_eq_getElem hk2)
  rw [hcs] at hcm
  obtain ⟨piece, hpiece, pos', hm'⟩ := mem_piecesMoves' hcm
  obtain ⟨s, hs', hch⟩ := List.mem_flatMap.mp hpiece
  obtain ⟨s, hsm, rfl⟩ := List.mem_map.mp hs'
  obtain ⟨path, hpm, hpath⟩ := forall2_right h2 hsm
  have hchain := refinesUpTo_chain (C130_samples hm hL hr0 hr hi hiL hid (hup path hpm) hpath)
  obtain ⟨ps, rfl, hps⟩ := chop_lifted hch
  have hlim : passLimit depths (0 + k) ≤ 0 := by
    unfold passLimit
    split
    · rw [List.getD_eq_getElem?_getD, List.getElem?_eq_getElem (by omega), Option.getD_some]
      exact (depths64_le h3 htd hs hbot _ (List.getElem_mem _)).trans htop
    · exact le_refl _
  have hc2 : List.IsChain (fun a b : Vec => sqDist ⟨a.x, a.y⟩ ⟨b.x, b.y⟩ ≤ (r * args.interpolationStep + L / 10 ^ 13) ^ 2)
      (s.map (lift h)) := by
    rw [List.isChain_map]
    exact hchain
  have hc3 := chopFrom_isChain (cur := []) hc2 hch
  rw [List.isChain_map] at hc3
  refine pieceMoves_near hc3 (fun p hp => ?_) c hm'
  have := (hps p hp).trans hlim
  exact ⟨this.trans hsafe, this.trans hrh⟩

/-- C146.  3D surfacing in floating point, on the whole way of every move.  The drop cutter reports heights `h` that are at most `η` below the
shape `H`, which rises by at most `K` per unit of length; the coordinates are up to `L`, the interpolation step and the top height
are doubles.  Then a move rises straight to the rapid height, travels rapidly at it, or is nowhere below the shape by more than half of `K`
times the interpolation step, plus `η`, up to rounding.  (`r` allows for lengths that are measured only nearly.) -/
theorem C146_between_partial {sq : ℚ → ℚ} {eng : SurfaceEngine} {k : FaceKernel} {args : SurfaceArgs} {oo : ℚ × ℚ} {io : Option (ℚ × ℚ)}
    {bs : List BoundaryFace} {j : Job} {cs : List Motion} {h H : Pt → ℚ} {K r L η : ℚ} (hd : ∀ ps, eng.drop ps = ps.map h)
    (hη : ∀ p, H p ≤ h p + η) (hK : SlopeUpTo K H) (hK0 : 0 ≤ K) (hm : Measures64 r eng.norm) (hr0 : 0 ≤ r) (hr : r ≤ 2) (hL : 1 ≤ L)
    (hclip : ClipsWithin L eng.scan) (hpoly : ∀ poly, SurfacePolygon k args oo io bs poly → ∀ p ∈ poly, p.Upto L)
    (hi : 0 < args.interpolationStep) (hiL : args.interpolationStep ≤ L) (hid : IsDouble args.interpolationStep)
    (htd : IsDouble args.topHeight) (htop : args.topHeight ≤ 0) (hbot : eng.bottom ≤ args.topHeight)
    (hsafe : 0 ≤ j.opSafeHeight) (hrh : 0 ≤ j.rapidHeight) (hc : surface3d64 sq eng k args oo io bs j = .ok cs) :
    Tracks {} cs ∧ ∀ c ∈ cs, Rises j.rapidHeight c ∨ TravelsAt j.rapidHeight c ∨
      ((c.kind.mot = .rapid ∨ c.kind.mot = .linear) ∧ ∃ a b : Vec, c.start = .fromVec a ∧ c.fin = .fromVec b ∧
        ClearWay H (K * (r * args.interpolationStep + L / 10 ^ 13) / 2 + η) a b) := by
  obtain ⟨css, rfl, hb⟩ := surface3d64_ok hc
  constructor
  · refine tracks_flatten (fun a ha => ?_) _
    obtain ⟨poly, -, hpoly⟩ := hb a ha
    obtain ⟨paths, seqs, depths, -, -, -, rfl⟩ := surfaceBoundary64_ok hd hpoly
    exact tracks_connected passesMoves_connected
  · intro c hcm
    obtain ⟨b, hbm, hcm⟩ := List.mem_flatten.mp hcm
    obtain ⟨poly, hsp, hpc⟩ := hb b hbm
    rcases boundary64_near hd hm hr0 hr hL hclip (hpoly poly hsp) hi hiL hid hpc htd htop hbot hsafe hrh c hcm with
      h1 | h1 | ⟨h1, a, b, ha, hb, ha', hb', hab⟩
    · exact .inl h1
    · exact .inr (.inl h1)
    · refine .inr (.inr ⟨h1, a, b, ha, hb, ?_⟩)
      have hK' : SlopeUpTo K (fun p => H p - η) := by
        intro p q ρ hρ hpq
        have := hK p q ρ hρ hpq
        dsimp only
        linarith
      have hL0 : 0 ≤ L / 10 ^ 13 := by positivity
      have := clearWay_chord hK' hK0 (add_nonneg (mul_nonneg hr0 hi.le) hL0) hab
        (by have := hη ⟨a.x, a.y⟩; linarith) (by have := hη ⟨b.x, b.y⟩; linarith)
      intro t t0 t1
      have := this t t0 t1
      dsimp only at this ⊢
      linarith

/-- C146 on the machine.  In the program of any job with a 3D surfacing operation computed in floating point, all moves of the machine in the
part of the operation are clear of the shape on their whole way: they rise straight to the rapid height, travel rapidly at it, or stay above
the shape up to half of the steepest slope `K` times the interpolation step, the error `η` of the drop cutter and the rounding. -/
theorem C146_machine_partial {sq : ℚ → ℚ} {eng : SurfaceEngine} {k : FaceKernel} {args : SurfaceArgs} {oo : ℚ × ℚ} {io : Option (ℚ × ℚ)}
    {bs : List BoundaryFace} {h H : Pt → ℚ} {K r L η : ℚ} (hd : ∀ ps, eng.drop ps = ps.map h)
    (hη : ∀ p, H p ≤ h p + η) (hK : SlopeUpTo K H) (hK0 : 0 ≤ K) (hm : Measures64 r eng.norm) (hr0 : 0 ≤ r) (hr : r ≤ 2) (hL : 1 ≤ L)
    (hclip : ClipsWithin L eng.scan) (hpoly : ∀ poly, SurfacePolygon k args oo io bs poly → ∀ p ∈ poly, p.Upto L)
    (hi : 0 < args.interpolationStep) (hiL : args.interpolationStep ≤ L) (hid : IsDouble args.interpolationStep)
    (htd : IsDouble args.topHeight) (htop : args.topHeight ≤ 0) (hbot : eng.bottom ≤ args.topHeight)
    {j0 j1 j2 jf : Job} {before after : List Request} (m : Machine) (h0 : InitOK j0) (hsafe : 0 ≤ j0.opSafeHeight)
    (hrh : 0 ≤ j0.rapidHeight) (hn : ∀ v, j0.toolNumber = some v → NumOK v)
    (hok : ChainOK j0 (before ++ surface3dRequest64 sq eng k args oo io bs :: after))
    (h1 : j0.chain before = .ok j1) (h2 : (j1.call (surface3dRequest64 sq eng k args oo io bs)).2 = .ok j2)
    (h3 : j2.chain after = .ok jf) (hend : m.ended = false) (htool : ∀ n, j0.toolNumber = some n → m.tool = some n.value) :
    ∃ t m' pre part post cs, jf.toGcode = .ok t ∧ runText m t = some (m', pre ++ part ++ post) ∧
      surface3d64 sq eng k args oo io bs (j1.updateTool none).2 = .ok cs ∧ (part.filter isMove).length = cs.length ∧
      ∀ e ∈ part, isMove e = true →
        ClearOf H (K * (r * args.interpolationStep + L / 10 ^ 13) / 2 + η + (1 + 2 * K) / 2000) (rnd 3 j0.rapidHeight) e := by
  obtain ⟨t, m', pre, part, post, cs, ht, hrun, hgen, hperf, hfol, -⟩ := C94_followed m h0 hn hok h1 h2 h3 hend htool
  have hbase : SameBase j0 (j1.updateTool none).2 := updateTool_base (chain_base (show SameBase j0 j0 from rfl) h1) _
  have hsafe' : j0.opSafeHeight = (j1.updateTool none).2.opSafeHeight := by rw [hbase]
  have hrapid' : j0.rapidHeight = (j1.updateTool none).2.rapidHeight := by rw [hbase]
  have hgen' : surface3d64 sq eng k args oo io bs (j1.updateTool none).2 = .ok cs := hgen
  obtain ⟨htr, hcs⟩ := C146_between_partial hd hη hK hK0 hm hr0 hr hL hclip hpoly hi hiL hid htd htop hbot (by rw [← hsafe']; exact hsafe)
    (by rw [← hrapid']; exact hrh) hgen'
  refine ⟨t, m', pre, part, post, cs, ht, hrun, hgen', hperf.length_eq, ?_⟩
  intro e he hme
  obtain ⟨c, hc, hfc⟩ := forall2_left (hfol htr) (List.mem_filter.mpr ⟨he, hme⟩)
  have := clearOf_follows hK hfc (hcs c hc)
  rw [← hrapid'] at this
  exact this

/-! ### A ridge -/

/-- The ridge with a drop cutter that reports heights a thousandth too low, and lengths measured by the longer side. -/
def ridgeEngine64 : SurfaceEngine := { sideEngine with scan := zigEngine, drop := fun ps => ps.map (fun p => ridge p - 1 / 1000) }

/-- Squares, rounded. -/
def ridgeSq (x : ℚ) : ℚ := b64 (x * x)

theorem zig_within : ClipsWithin 10 zigEngine := by
  intro b t s _ h l hl
  cases h
  simp only [zigLines, List.mem_cons, List.not_mem_nil, or_false] at hl
  unfold Pt.Upto
  rcases hl with rfl | rfl | rfl <;> norm_num

theorem ridge_polygon : ∀ poly, SurfacePolygon idleKernel hillArgs (-1, 0) (some (1, 0)) [hillFace] poly → ∀ p ∈ poly, p.Upto 10 := by
  rintro poly ⟨faces, f, h1, h2, h3⟩
  have e : mapE (offsetBoundary64 idleKernel hillArgs.toolDiameter (-1, 0) (some (1, 0))) [hillFace] = .ok [[(hillFace.outer, [])]] := rfl
  rw [e] at h1
  cases h1
  simp only [List.flatten_cons, List.flatten_nil, List.append_nil, List.mem_singleton] at h2
  subst h2
  have e2 : wirePolygon64 hillFace.outer = .ok zigPoly := by rfl
  rw [e2] at h3
  cases h3
  intro p hp
  simp only [zigPoly, List.mem_cons, List.not_mem_nil, or_false] at hp
  unfold Pt.Upto
  rcases hp with rfl | rfl | rfl | rfl <;> norm_num

/-- The hypotheses of C146, and that the shape itself is cut in floating point: with slope 1 and interpolation step 1 a cut over the ridge is
half a unit below it, and the error of the drop cutter comes on top of that. -/
theorem C146_violated : ∃ (eng : SurfaceEngine) (args : SurfaceArgs) (b : BoundaryFace) (h H : Pt → ℚ) (cs : List Motion),
    (∀ ps, eng.drop ps = ps.map h) ∧ (∀ p, H p ≤ h p + 1 / 1000) ∧ SlopeUpTo 1 H ∧ Measures64 (3 / 2) eng.norm ∧ ClipsWithin 10 eng.scan ∧
      (∀ poly, SurfacePolygon idleKernel args (-1, 0) (some (1, 0)) [b] poly → ∀ p ∈ poly, p.Upto 10) ∧
      args.interpolationStep = 1 ∧ IsDouble args.interpolationStep ∧ IsDouble args.topHeight ∧ args.topHeight ≤ 0 ∧
      eng.bottom ≤ args.topHeight ∧ 0 ≤ demoInit.opSafeHeight ∧ 0 ≤ demoInit.rapidHeight ∧
      surface3d64 ridgeSq eng idleKernel args (-1, 0) (some (1, 0)) [b] demoInit = .ok cs ∧
      ∃ c ∈ cs, ∃ a b : Vec, c.kind.mot = .linear ∧ c.start = .fromVec a ∧ c.fin = .fromVec b ∧
        ∀ g, ClearWay H g a b → 1 / 2 + 1 / 1000 ≤ g := by
  have h : (match surface3d64 ridgeSq ridgeEngine64 idleKernel hillArgs (-1, 0) (some (1, 0)) [hillFace] demoInit with
      | .ok cs => decide (∃ c ∈ cs, c.kind.mot = .linear ∧ c.start = .fromVec ⟨7/2, 1, -3/2 - 1/1000⟩ ∧
          c.fin = .fromVec ⟨9/2, 1, -3/2 - 1/1000⟩)
      | .error _ => false) = true := by decide +kernel
  cases hr : surface3d64 ridgeSq ridgeEngine64 idleKernel hillArgs (-1, 0) (some (1, 0)) [hillFace] demoInit with
  | error e => rw [hr] at h; cases h
  | ok cs =>
    rw [hr] at h
    obtain ⟨c, hc, h1, h2, h3⟩ := of_decide_eq_true h
    refine ⟨ridgeEngine64, hillArgs, hillFace, fun p => ridge p - 1 / 1000, ridge, cs, fun _ => rfl, fun p => by simp, ridge_slope,
      side_measures, zig_within, ridge_polygon, rfl, ?_, isDouble_zero, by decide +kernel,
      by decide +kernel, by decide +kernel, by decide +kernel, hr, c, hc, _, _, h1, h2, h3, ?_⟩
    · exact ⟨1, 0, by norm_num, by norm_num, by norm_num [hillArgs]⟩
    · intro g hg
      have := hg (1 / 2) (by norm_num) (by norm_num)
      have e : ridge ((⟨7 / 2, 1⟩ : Pt).lerp ⟨9 / 2, 1⟩ (1 / 2)) = -1 := by decide +kernel
      dsimp only at this
      rw [e] at this
      linarith

/-- The other hypotheses of `C146_machine_partial`: the ridge surfaced in a program. -/
example : InitOK demoInit ∧ ∃ j2,
    ChainOK demoInit ([] ++ surface3dRequest64 ridgeSq ridgeEngine64 idleKernel hillArgs (-1, 0) (some (1, 0)) [hillFace] :: []) ∧
    demoInit.chain [] = .ok demoInit ∧
    (demoInit.call (surface3dRequest64 ridgeSq ridgeEngine64 idleKernel hillArgs (-1, 0) (some (1, 0)) [hillFace])).2 = .ok j2 := by
  refine ⟨demo_reach.1, ?_⟩
  obtain ⟨cs, -, hr, hc⟩ := call_good (j := demoInit)
    (r := surface3dRequest64 ridgeSq ridgeEngine64 idleKernel hillArgs (-1, 0) (some (1, 0)) [hillFace]) rfl rfl (by unfold SafeName; decide)
    (by decide +kernel)
  exact ⟨_, ⟨hr, fun _ _ => trivial⟩, rfl, hc⟩

end CQ
