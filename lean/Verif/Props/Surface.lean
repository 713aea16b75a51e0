import Verif.Proofs.Surface
import Verif.Props.ZigZag
import Verif.Props.PocketPasses
import Verif.Props.Program

/-! # C56–C59, C78, C79: 3D surfacing -/

namespace CQ

/-! ### C57 -/

/-- C57.  Splitting a sequence of points at the height `limit` gives its maximal runs of points at or below the limit, in
order; splitting several sequences gives the pieces of the first, of the second, and so on. -/
theorem C57_pieces (sequences : List (List Vec)) (limit : ℚ) :
    ∃ pieces, chopSequences sequences limit = pieces.flatten ∧
      List.Forall₂ (Chopped (fun p => p.z ≤ limit)) sequences pieces := by
  refine ⟨sequences.map (chopFrom limit []), by rw [chopSequences, List.flatMap_def], ?_⟩
  induction sequences with
  | nil => exact .nil
  | cons s ss ih => exact .cons (by simpa using chopFrom_chopped limit s [] (by simp)) ih

/-- What `Chopped` means: the pieces together are the kept points, and none is empty. -/
theorem Chopped.kept {keep : Vec → Prop} [DecidablePred keep] {seq : List Vec} {pieces : List (List Vec)}
    (h : Chopped keep seq pieces) : pieces.flatten = seq.filter (fun p => keep p) ∧ ∀ p ∈ pieces, p ≠ [] := by
  have gap : ∀ {g : List Vec}, (∀ p ∈ g, ¬ keep p) → g.filter (fun p => keep p) = [] := by
    intro g hg
    simpa [List.filter_eq_nil_iff] using hg
  have all : ∀ {g : List Vec}, (∀ p ∈ g, keep p) → g.filter (fun p => keep p) = g := by
    intro g hg
    simpa [List.filter_eq_self] using hg
  induction h with
  | none h => exact ⟨(gap h).symm, by simp⟩
  | last h hne hk => exact ⟨by rw [List.filter_append, gap h, all hk]; simp, by simpa using hne⟩
  | cons h hne hk hc hr ih =>
    refine ⟨?_, ?_⟩
    · rw [List.filter_append, List.filter_append, gap h, all hk, List.filter_cons_of_neg (by simpa using hc),
        List.flatten_cons, ih.1]
      simp
    · intro p hp
      rcases List.mem_cons.mp hp with rfl | hp
      · exact hne
      · exact ih.2 p hp

example : chopSequences [[⟨0, 0, 5⟩, ⟨1, 0, -1⟩, ⟨2, 0, -2⟩, ⟨3, 0, 1⟩, ⟨4, 0, 0⟩]] 0 =
    [[⟨1, 0, -1⟩, ⟨2, 0, -2⟩], [⟨4, 0, 0⟩]] := by decide +kernel

/-! ### C58 -/

/-- C58.  Interpolating a sequence of points keeps its points in order and puts further points only on the segments between
neighbours, going from one to the next, so that no two neighbours of the result are more than the interpolation step apart.
`r` allows for a length that is measured only nearly (`r = 1` for exact lengths). -/
theorem C58_refines {eng : SurfaceEngine} {r step : ℚ} (hs : 0 < step) (hm : Measures r eng.norm) {seq out : List Pt}
    (h : interpolateSequence eng step seq = .ok out) : Refines (r * step) seq out := by
  cases seq with
  | nil => cases h
  | cons p seq =>
    obtain ⟨rest, h1, h⟩ := bind_ok.mp h
    cases h
    exact interpolateFrom_refines hs hm h1

/-- C58.  It succeeds for every sequence that does not stand still. -/
theorem C58_total {eng : SurfaceEngine} {step : ℚ} (hs : 0 < step) {seq : List Pt} (hne : seq ≠ [])
    (h : List.IsChain (· ≠ ·) seq) : ∃ out, interpolateSequence eng step seq = .ok out := by
  cases seq with
  | nil => exact absurd rfl hne
  | cons p seq =>
    obtain ⟨out, h⟩ := interpolateFrom_total (eng := eng) hs.ne' (.inl h)
    exact ⟨p :: out, by rw [interpolateSequence, h]; rfl⟩

/-! ### C59 -/

/-- C59, for stepdowns given as negative numbers that do not reach the lowest point in one pass (smaller than the depth): the
passes descend from the top height by at most the stepdown each and end at the lowest point. -/
theorem C59_passes_partial {s top bottom : ℚ} (hs : 0 < s) (h : bottom < top - s) :
    ∃ depths, surfaceDepths (some (-s)) top bottom = .ok depths ∧ List.IsChain (NextPass s) (top :: depths) ∧
      depths.getLast? = some bottom := by
  have hc := (arange_passes hs top bottom).1 (by linarith)
  have hb : ∀ x ∈ arange (top - s) bottom (-s), bottom < x := by
    intro x hx
    unfold arange at hx
    obtain ⟨i, hi, rfl⟩ := List.mem_map.mp hx
    have hi' := List.mem_range.mp hi
    have hlt : (i : ℤ) < ⌈(bottom - (top - s)) / -s⌉ := by omega
    rw [Int.lt_ceil] at hlt
    have e : (bottom - (top - s)) / -s = (top - s - bottom) / s := by field_simp; ring
    rw [e, lt_div_iff₀ hs] at hlt
    push_cast at hlt
    linarith
  have hne : arange (top - s) bottom (-s) ≠ [] := by
    have := mem_arange (start := top - s) (stop := bottom) (step := -s) (k := 0) (by
      rw [Nat.cast_zero]
      exact div_pos_of_neg_of_neg (by linarith) (by linarith))
    exact List.ne_nil_of_mem this
  refine ⟨arange (top - s) bottom (-s) ++ [bottom], ?_, hc, by simp⟩
  unfold surfaceDepths
  simp only [neg_eq_zero, if_neg hs.ne', ← sub_eq_add_neg]
  rw [List.getLast?_eq_some_getLast hne]
  simp only
  rw [if_pos]
  exact (hb _ (List.getLast_mem hne)).ne'

/-- Without a stepdown, or with stepdown 0, there is one pass at the lowest point. -/
theorem C59_single (top bottom : ℚ) : surfaceDepths none top bottom = .ok [bottom] ∧
    surfaceDepths (some 0) top bottom = .ok [bottom] := ⟨rfl, by simp [surfaceDepths]⟩

/-- C59 fails: every stepdown given as a positive number (as for pockets and profiles) crashes, and so does every negative one
that reaches the lowest point in one pass. -/
theorem C59_violated (top bottom s : ℚ) (hs : 0 < s) :
    (bottom ≤ top + s → surfaceDepths (some s) top bottom = .error .indexError) ∧
    (top - s ≤ bottom → surfaceDepths (some (-s)) top bottom = .error .indexError) := by
  constructor
  · intro h
    have : arange (top + s) bottom s = [] := by
      unfold arange
      rw [Int.toNat_of_nonpos]
      · rfl
      · rw [Int.ceil_le]
        push_cast
        exact div_nonpos_of_nonpos_of_nonneg (by linarith) hs.le
    simp [surfaceDepths, hs.ne', this]
  · intro h
    have : arange (top + -s) bottom (-s) = [] := by
      unfold arange
      rw [Int.toNat_of_nonpos]
      · rfl
      · rw [Int.ceil_le]
        push_cast
        exact div_nonpos_of_nonneg_of_nonpos (by linarith) (by linarith)
    simp [surfaceDepths, hs.ne', this]

example : surfaceDepths (some (-2)) 0 (-5) = .ok [-2, -4, -5] := by decide +kernel
example : surfaceDepths (some 2) 0 (-5) = .error .indexError := by decide +kernel

/-! ### C56 -/

/-- One pass at depth `d`: every feed move ends at the greater of `d` and the height of the surface there. -/
def CutsOnSurface (h : Pt → ℚ) (d : ℚ) (cs : List Motion) : Prop :=
  ∀ c ∈ cs, c.kind.mot ≠ .rapid → c.kind.mot = .linear ∧ ∃ q : Pt, c.fin = q.at (max d (h q))

/-- C56 for one boundary: the moves are those of the passes, one for each depth, and in the pass at depth `d` every cutting move
ends at the greater of `d` and the height `h` that the drop cutter reports there. -/
theorem C56_boundary {eng : SurfaceEngine} {args : SurfaceArgs} {j : Job} {poly : List Pt} {cs : List Motion}
    {h : Pt → ℚ} (hd : ∀ ps, eng.drop ps = ps.map h) (hc : surfaceBoundary eng args j poly = .ok cs) :
    ∃ depths passes, surfaceDepths args.stepdown args.topHeight eng.bottom = .ok depths ∧ cs = passes.flatten ∧
      List.Forall₂ (CutsOnSurface h) depths passes := by
  obtain ⟨paths, seqs, depths, -, -, h3, rfl⟩ := surfaceBoundary_ok hd hc
  obtain ⟨passes, e, hl, hp⟩ := passesMoves_split (j := j) (depths := depths)
    (seqs := seqs.map (fun s => s.map (lift h))) depths 0 {}
  refine ⟨depths, passes, h3, e, ?_⟩
  rw [List.forall₂_iff_get]
  refine ⟨hl.symm, ?_⟩
  intro k h1 h2 c hcm hk
  obtain ⟨pos, hcs⟩ := hp k _ _ (List.getElem?_eq_getElem h1) (List.getElem?_eq_getElem h2)
  simp only [List.get_eq_getElem] at hcm ⊢
  rw [hcs] at hcm
  obtain ⟨piece, hpiece, hm⟩ := mem_piecesMoves hcm
  obtain ⟨s, hs, hch⟩ := List.mem_flatMap.mp hpiece
  obtain ⟨s, -, rfl⟩ := List.mem_map.mp hs
  obtain ⟨-, hmem⟩ := mem_chopFrom (by simp) hch
  rcases hm with hm | hm | hm | ⟨p, hpp, hm⟩
  · rw [hm.1] at hk; exact absurd rfl hk
  · rw [hm.1] at hk; exact absurd rfl hk
  · rw [hm.1] at hk; exact absurd rfl hk
  · rcases (hmem p hpp).1 with hx | hx
    · cases hx
    · obtain ⟨q, -, rfl⟩ := List.mem_map.mp hx
      exact ⟨by rw [hm.1]; rfl, q, hm.2.1⟩

theorem forall2_left {α β} {R : α → β → Prop} {as : List α} {bs : List β} (h : List.Forall₂ R as bs) {a : α} (ha : a ∈ as) :
    ∃ b ∈ bs, R a b := by
  induction h with
  | nil => cases ha
  | cons h1 _ ih =>
    rcases List.mem_cons.mp ha with rfl | ha
    · exact ⟨_, List.mem_cons_self, h1⟩
    · obtain ⟨b, hb, h⟩ := ih ha
      exact ⟨b, List.mem_cons_of_mem _ hb, h⟩

theorem forall2_right {α β} {R : α → β → Prop} {as : List α} {bs : List β} (h : List.Forall₂ R as bs) {b : β} (hb : b ∈ bs) :
    ∃ a ∈ as, R a b := by
  induction h with
  | nil => cases hb
  | cons h1 _ ih =>
    rcases List.mem_cons.mp hb with rfl | hb
    · exact ⟨_, List.mem_cons_self, h1⟩
    · obtain ⟨b, hb, h⟩ := ih hb
      exact ⟨b, List.mem_cons_of_mem _ hb, h⟩

theorem surface3d_ok {eng : SurfaceEngine} {k : FaceKernel} {args : SurfaceArgs} {oo : ℚ × ℚ} {io : Option (ℚ × ℚ)}
    {bs : List BoundaryFace} {j : Job} {cs : List Motion} (hc : surface3d eng k args oo io bs j = .ok cs) :
    ∃ css : List (List Motion), cs = css.flatten ∧ ∀ b ∈ css, ∃ poly, surfaceBoundary eng args j poly = .ok b := by
  unfold surface3d at hc
  obtain ⟨faces, -, hc⟩ := bind_ok.mp hc
  obtain ⟨css, h2, hc⟩ := bind_ok.mp hc
  cases hc
  refine ⟨css, rfl, ?_⟩
  intro b hb
  obtain ⟨f, -, hf⟩ := forall2_right (mapE_ok.mp h2) hb
  obtain ⟨poly, -, hf⟩ := bind_ok.mp hf
  exact ⟨poly, hf⟩

/-- C56.  Every cutting move of a 3D surfacing operation ends at or above the height `h` that the drop cutter reports for its XY
position, and at or above the depth of its pass. -/
theorem C56_no_gouge {eng : SurfaceEngine} {k : FaceKernel} {args : SurfaceArgs} {oo : ℚ × ℚ} {io : Option (ℚ × ℚ)}
    {bs : List BoundaryFace} {j : Job} {cs : List Motion} {h : Pt → ℚ} (hd : ∀ ps, eng.drop ps = ps.map h)
    (hc : surface3d eng k args oo io bs j = .ok cs) :
    ∃ passes : List (ℚ × List Motion), cs = (passes.map Prod.snd).flatten ∧
      ∀ pass ∈ passes, (∃ depths, surfaceDepths args.stepdown args.topHeight eng.bottom = .ok depths ∧ pass.1 ∈ depths) ∧
        ∀ c ∈ pass.2, c.kind.mot ≠ .rapid → ∃ (q : Pt) (z : ℚ), CutsTo q z c ∧ h q ≤ z ∧ pass.1 ≤ z := by
  obtain ⟨css, rfl, hb⟩ := surface3d_ok hc
  clear hc
  induction css with
  | nil => exact ⟨[], rfl, by simp⟩
  | cons b css ih =>
    obtain ⟨ps, e, hps⟩ := ih (fun b hb' => hb b (List.mem_cons_of_mem _ hb'))
    obtain ⟨poly, hpoly⟩ := hb b (by simp)
    obtain ⟨depths, passes, h1, rfl, h2⟩ := C56_boundary hd hpoly
    refine ⟨depths.zip passes ++ ps, ?_, ?_⟩
    · rw [List.flatten_cons, e, List.map_append, List.flatten_append, List.map_snd_zip (by rw [h2.length_eq])]
    · intro pass hp
      rcases List.mem_append.mp hp with hp | hp
      · refine ⟨⟨depths, h1, (List.of_mem_zip hp).1⟩, ?_⟩
        intro c hcm hk
        obtain ⟨hl, q, hq⟩ := (List.forall₂_iff_zip.mp h2).2 hp c hcm hk
        exact ⟨q, _, ⟨hl, hq⟩, le_max_right _ _, le_max_left _ _⟩
      · exact hps pass hp

/-! ### C78 -/

/-- Where the rapids of a boundary can end. -/
theorem boundary_rapids {eng : SurfaceEngine} {args : SurfaceArgs} {j : Job} {poly : List Pt} {cs : List Motion}
    {h : Pt → ℚ} (hd : ∀ ps, eng.drop ps = ps.map h) (hc : surfaceBoundary eng args j poly = .ok cs) :
    ∃ depths, surfaceDepths args.stepdown args.topHeight eng.bottom = .ok depths ∧
      ∀ c ∈ cs, c.kind.mot = .rapid →
        (c.fin.z = some j.rapidHeight ∧ (Lateral c → c.start.z = some j.rapidHeight)) ∨
        (¬ Lateral c ∧ ∃ q : Pt, c.fin = q.at j.opSafeHeight ∧ (h q ≤ 0 ∨ ∃ d ∈ depths, h q ≤ d)) := by
  obtain ⟨paths, seqs, depths, -, -, h3, rfl⟩ := surfaceBoundary_ok hd hc
  obtain ⟨passes, e, hl, hp⟩ := passesMoves_split (j := j) (depths := depths)
    (seqs := seqs.map (fun s => s.map (lift h))) depths 0 {}
  refine ⟨depths, h3, ?_⟩
  rw [e]
  intro c hcm hk
  obtain ⟨cs, hcs, hcm⟩ := List.mem_flatten.mp hcm
  obtain ⟨k, hk2, rfl⟩ := List.mem_iff_getElem.mp hcs
  obtain ⟨pos, hcs⟩ := hp k _ _ (List.getElem?_eq_getElem (hl ▸ hk2)) (List.getElem?_eq_getElem hk2)
  rw [hcs] at hcm
  obtain ⟨piece, hpiece, hm⟩ := mem_piecesMoves hcm
  obtain ⟨s, hs, hch⟩ := List.mem_flatMap.mp hpiece
  obtain ⟨s, -, rfl⟩ := List.mem_map.mp hs
  obtain ⟨-, hmem⟩ := mem_chopFrom (by simp) hch
  rcases hm with hm | hm | hm | ⟨p, hpp, hm⟩
  · refine .inl ⟨by rw [hm.2], ?_⟩
    intro hlat
    unfold Lateral at hlat
    rw [hm.2] at hlat
    simp at hlat
  · obtain ⟨h1, h2, p, hp, h3⟩ := hm
    exact .inl ⟨by rw [h3], fun _ => h2⟩
  · obtain ⟨h1, p, hp, h2, h3⟩ := hm
    refine .inr ⟨?_, ?_⟩
    · unfold Lateral
      rw [h2, h3]
      simp
    · obtain ⟨hx, hz⟩ := hmem p hp
      rcases hx with hx | hx
      · cases hx
      · obtain ⟨q, -, rfl⟩ := List.mem_map.mp hx
        refine ⟨q, h3, ?_⟩
        unfold passLimit at hz
        split at hz
        · rename_i hi
          refine .inr ⟨depths.getD (0 + k - 2) 0, ?_, hz⟩
          rw [List.getD_eq_getElem?_getD, List.getElem?_eq_getElem (by omega), Option.getD_some]
          exact List.getElem_mem _
        · exact .inl hz
  · rw [hm.1] at hk; cases hk

/-- C78.  The rapids of 3D surfacing go sideways only at the rapid height, and never below the rapid and the safe height. -/
theorem C78_rapids {eng : SurfaceEngine} {k : FaceKernel} {args : SurfaceArgs} {oo : ℚ × ℚ} {io : Option (ℚ × ℚ)}
    {bs : List BoundaryFace} {j : Job} {cs : List Motion} {h : Pt → ℚ} (hd : ∀ ps, eng.drop ps = ps.map h)
    (hc : surface3d eng k args oo io bs j = .ok cs) :
    ∀ c ∈ cs, SafeRapid j.rapidHeight (min j.rapidHeight j.opSafeHeight) c := by
  obtain ⟨css, rfl, hb⟩ := surface3d_ok hc
  intro c hcm hk
  obtain ⟨b, hbm, hcm⟩ := List.mem_flatten.mp hcm
  obtain ⟨poly, hpoly⟩ := hb b hbm
  obtain ⟨depths, -, h2⟩ := boundary_rapids hd hpoly
  rcases h2 c hcm hk with ⟨h1, h2⟩ | ⟨h1, q, h2, -⟩
  · exact ⟨fun hl => ⟨h2 hl, h1⟩, _, h1, min_le_left _ _⟩
  · exact ⟨fun hl => absurd hl h1, _, by rw [h2]; rfl, min_le_right _ _⟩

/-- The depths are not above the top height. -/
theorem depths_le {stepdown : Option ℚ} {top bottom : ℚ} {depths : List ℚ} (h : surfaceDepths stepdown top bottom = .ok depths)
    (hs : ∀ s, stepdown = some s → s ≤ 0) (hb : bottom ≤ top) : ∀ d ∈ depths, d ≤ top := by
  have ha : ∀ s : ℚ, s ≤ 0 → ∀ d ∈ arange (top + s) bottom s, d ≤ top := by
    intro s hs d hd
    unfold arange at hd
    obtain ⟨i, -, rfl⟩ := List.mem_map.mp hd
    have : (i : ℚ) * s ≤ 0 := mul_nonpos_of_nonneg_of_nonpos (Nat.cast_nonneg _) hs
    linarith
  unfold surfaceDepths at h
  cases stepdown with
  | none => cases h; simpa using hb
  | some s =>
    simp only at h
    split at h
    · cases h; simpa using hb
    · split at h
      · cases h
      · split at h
        · cases h
          intro d hd
          rcases List.mem_append.mp hd with hd | hd
          · exact ha s (hs s rfl) d hd
          · rw [List.mem_singleton.mp hd]; exact hb
        · cases h
          exact ha s (hs s rfl)

/-- C78, for operations whose top height is not above the job's surface (the default is at the surface): no rapid ends below
the height of the surface at its XY position, provided that no part of the shape is above the rapid height. -/
theorem C78_clear_partial {eng : SurfaceEngine} {k : FaceKernel} {args : SurfaceArgs} {oo : ℚ × ℚ} {io : Option (ℚ × ℚ)}
    {bs : List BoundaryFace} {j : Job} {cs : List Motion} {h : Pt → ℚ} (hd : ∀ ps, eng.drop ps = ps.map h)
    (hc : surface3d eng k args oo io bs j = .ok cs) (htop : args.topHeight ≤ 0) (hbot : eng.bottom ≤ args.topHeight)
    (hs : ∀ s, args.stepdown = some s → s ≤ 0) (hsafe : 0 ≤ j.opSafeHeight) (hrh : ∀ p, h p ≤ j.rapidHeight) :
    ∀ c ∈ cs, c.kind.mot = .rapid → ∀ (q : Pt) (z : ℚ), c.fin = q.at z → h q ≤ z := by
  obtain ⟨css, rfl, hb⟩ := surface3d_ok hc
  intro c hcm hk q z hq
  obtain ⟨b, hbm, hcm⟩ := List.mem_flatten.mp hcm
  obtain ⟨poly, hpoly⟩ := hb b hbm
  obtain ⟨depths, h1, h2⟩ := boundary_rapids hd hpoly
  rcases h2 c hcm hk with ⟨h3, -⟩ | ⟨-, q', h3, h4⟩
  · rw [hq] at h3
    simp only [Pt.at, Option.some.injEq] at h3
    rw [h3]; exact hrh q
  · rw [hq] at h3
    simp only [Pt.at, AddrVec.mk.injEq, Option.some.injEq] at h3
    obtain ⟨hx, hy, hz⟩ := h3
    have e : q = q' := by cases q; cases q'; simp only at hx hy; rw [hx, hy]
    subst e
    rw [hz]
    rcases h4 with h4 | ⟨d, hdm, h4⟩
    · linarith
    · have := depths_le h1 hs hbot d hdm
      linarith

/-! ### C79 -/

theorem seq_first {eng : SurfaceEngine} {step : ℚ} {a b : Pt} {path out : List Pt}
    (h : interpolateSequence eng step (a :: b :: path) = .ok out) (hl : 0 < eng.norm ⟨b.x - a.x, b.y - a.y⟩)
    (hs : 0 < step) : ∃ B, out = a :: a :: B := by
  obtain ⟨rest, h1, h⟩ := bind_ok.mp h
  cases h
  unfold interpolateFrom at h1
  dsimp only at h1
  split at h1
  · cases h1
  · rw [if_neg hs.ne'] at h1
    obtain ⟨r, -, h1⟩ := bind_ok.mp h1
    cases h1
    have hp : 0 < ⌈(eng.norm ⟨b.x - a.x, b.y - a.y⟩ - 0) / step⌉.toNat := by
      rw [sub_zero]
      have : 0 < ⌈eng.norm ⟨b.x - a.x, b.y - a.y⟩ / step⌉ := Int.ceil_pos.mpr (div_pos hl hs)
      omega
    obtain ⟨n, hn⟩ : ∃ n, ⌈(eng.norm ⟨b.x - a.x, b.y - a.y⟩ - 0) / step⌉.toNat = n + 1 :=
      ⟨_, (Nat.succ_pred_eq_of_pos hp).symm⟩
    unfold arange
    rw [hn, List.range_succ_eq_map]
    simp

/-- The pass in which a point is cut at its height. -/
theorem pass_for {stepdown : Option ℚ} {top bottom : ℚ} {depths : List ℚ} (h : surfaceDepths stepdown top bottom = .ok depths)
    {hp hq : ℚ} (hs : ∀ s, stepdown = some s → s < 0 ∧ hp ≤ hq - s) (hb : bottom ≤ hq) (hp0 : hp ≤ 0) (hq0 : hq ≤ 0) :
    ∃ (i : ℕ) (d : ℚ), depths[i]? = some d ∧ d ≤ hq ∧ hp ≤ passLimit depths i ∧ hq ≤ passLimit depths i := by
  have single : depths = [bottom] → ∃ (i : ℕ) (d : ℚ), depths[i]? = some d ∧ d ≤ hq ∧ hp ≤ passLimit depths i ∧
      hq ≤ passLimit depths i := by
    rintro rfl
    exact ⟨0, bottom, rfl, hb, by simpa [passLimit] using hp0, by simpa [passLimit] using hq0⟩
  unfold surfaceDepths at h
  cases stepdown with
  | none => cases h; exact single rfl
  | some s =>
    obtain ⟨hs0, hs1⟩ := hs s rfl
    simp only [if_neg hs0.ne] at h
    obtain ⟨ds, hds⟩ : ∃ ds, ds = arange (top + s) bottom s := ⟨_, rfl⟩
    rw [← hds] at h
    have hget : ∀ i : ℕ, i < ds.length → ds[i]? = some (top + s + i * s) := by
      intro i hi
      rw [hds] at hi ⊢
      unfold arange at hi ⊢
      simp only [List.length_map, List.length_range] at hi
      simp [hi]
    have hex : ∃ d ∈ depths, d ≤ hq := by
      cases hg : ds.getLast? with
      | none => rw [hg] at h; cases h
      | some last =>
        rw [hg] at h
        simp only at h
        split at h
        · cases h; exact ⟨bottom, by simp, hb⟩
        · rename_i he
          cases h
          exact ⟨last, List.mem_of_getLast? hg, by rw [not_not.mp he]; exact hb⟩
    have hpre : ∀ i : ℕ, i < ds.length → depths[i]? = ds[i]? := by
      intro i hi
      cases hg : ds.getLast? with
      | none => rw [hg] at h; cases h
      | some last =>
        rw [hg] at h
        simp only at h
        split at h
        · cases h; rw [List.getElem?_append_left hi]
        · cases h; rfl
    have hlen : depths.length ≤ ds.length + 1 := by
      cases hg : ds.getLast? with
      | none => rw [hg] at h; cases h
      | some last =>
        rw [hg] at h
        simp only at h
        split at h
        · cases h; simp
        · cases h; omega
    clear h
    obtain ⟨d0, hd0, hd0q⟩ := hex
    obtain ⟨i0, hi0, rfl⟩ := List.mem_iff_getElem.mp hd0
    have hP : ∃ i : ℕ, ∃ d, depths[i]? = some d ∧ d ≤ hq := ⟨i0, _, List.getElem?_eq_getElem hi0, hd0q⟩
    classical
    obtain ⟨d, hd, hdq⟩ := Nat.find_spec hP
    have hmin : ∀ m : ℕ, m < Nat.find hP → ¬ ∃ d, depths[m]? = some d ∧ d ≤ hq := fun m hm => Nat.find_min hP hm
    obtain ⟨i, hi⟩ : ∃ i, i = Nat.find hP := ⟨_, rfl⟩
    rw [← hi] at hd hmin
    refine ⟨i, d, hd, hdq, ?_⟩
    unfold passLimit
    split
    · rename_i h1
      have hil : i < depths.length := (List.getElem?_eq_some_iff.mp hd).1
      have h2 : i - 1 < ds.length := by omega
      have h3 : i - 2 < ds.length := by omega
      have e1 := hget (i - 1) h2
      have e2 := hget (i - 2) h3
      rw [← hpre _ h2] at e1
      rw [← hpre _ h3] at e2
      have hgt : hq < top + s + (i - 1 : ℕ) * s := by
        by_contra hle
        exact hmin (i - 1) (by omega) ⟨_, e1, not_lt.mp hle⟩
      rw [List.getD_eq_getElem?_getD, e2, Option.getD_some]
      have hc : ((i - 1 : ℕ) : ℚ) = ((i - 2 : ℕ) : ℚ) + 1 := by
        rw [show i - 1 = (i - 2) + 1 by omega]; push_cast; ring
      rw [hc] at hgt
      constructor <;> nlinarith
    · exact ⟨hp0, hq0⟩

/-- C79, for points that are not much lower than the point before.  Let `q` follow `p` on an interpolated scan path, both not
above the job's surface; with a stepdown, `p` must not be more than the stepdown higher than `q`.  Then some pass cuts to `q`
at exactly the height of the surface there. -/
theorem C79_reached_partial {eng : SurfaceEngine} {args : SurfaceArgs} {j : Job} {poly : List Pt} {cs : List Motion}
    {h : Pt → ℚ} (hd : ∀ ps, eng.drop ps = ps.map h) (hc : surfaceBoundary eng args j poly = .ok cs)
    (hbot : ∀ p, eng.bottom ≤ h p) :
    ∃ paths, zigzag eng.scan [poly] (args.toolDiameter * args.stepover) = .ok paths ∧
      ∀ path ∈ paths, ∃ out, interpolateSequence eng args.interpolationStep path = .ok out ∧
        ∀ (A B : List Pt) (p q : Pt), out = A ++ p :: q :: B → h p ≤ 0 → h q ≤ 0 →
          (∀ s, args.stepdown = some s → s < 0 ∧ h p ≤ h q - s) → ∃ c ∈ cs, CutsTo q (h q) c := by
  obtain ⟨paths, seqs, depths, h1, h2, h3, rfl⟩ := surfaceBoundary_ok hd hc
  refine ⟨paths, h1, ?_⟩
  intro path hpath
  obtain ⟨out, hout, ho⟩ := forall2_left h2 hpath
  refine ⟨out, ho, ?_⟩
  rintro A B p q rfl hp hq hs
  obtain ⟨i, d, hi, hdq, l1, l2⟩ := pass_for h3 hs (hbot q) hp hq
  obtain ⟨passes, e, hl, hps⟩ := passesMoves_split (j := j) (depths := depths)
    (seqs := seqs.map (fun s => s.map (lift h))) depths 0 {}
  have hil : i < depths.length := (List.getElem?_eq_some_iff.mp hi).1
  obtain ⟨pos, hpos⟩ := hps i d _ hi (List.getElem?_eq_getElem (hl ▸ hil))
  rw [Nat.zero_add] at hpos
  obtain ⟨X, Y, hXY⟩ := chopFrom_pair (p := lift h p) (q := lift h q) l1 l2 (B.map (lift h)) (A.map (lift h)) []
  have hpiece : X ++ lift h p :: lift h q :: Y ∈
      chopSequences (seqs.map (fun s => s.map (lift h))) (passLimit depths i) := by
    refine List.mem_flatMap.mpr ⟨_, List.mem_map.mpr ⟨_, hout, rfl⟩, ?_⟩
    simpa using hXY
  obtain ⟨pos', hmem⟩ := piecesMoves_mem (j := j) (d := d) (pos := pos) hpiece
  have hcut : ∃ c ∈ pieceMoves j d pos' (X ++ lift h p :: lift h q :: Y),
      c.kind = .cut ∧ c.fin = ⟨some q.x, some q.y, some (max d (h q))⟩ := by
    have key : ∀ (a : Vec) (L : List Vec), lift h q ∈ L → ∃ c ∈ pieceMoves j d pos' (a :: L),
        c.kind = .cut ∧ c.fin = ⟨some q.x, some q.y, some (max d (h q))⟩ := by
      intro a L hL
      obtain ⟨c, hc, h'⟩ := surfaceCuts_mem (d := d)
        (pos := (rapidAbs { z := some j.opSafeHeight } (some (rapidAbs { x := some a.x, y := some a.y }
          (some (rapidAbs { z := some j.rapidHeight } (some pos')).fin)).fin)).fin) hL
      exact ⟨c, List.mem_append_right _ hc, h'⟩
    cases X with
    | nil => exact key _ _ (by simp)
    | cons x X => exact key _ _ (by simp)
  obtain ⟨c, hcm, hk, hf⟩ := hcut
  refine ⟨c, ?_, by rw [hk]; rfl, ?_⟩
  · rw [e]
    refine List.mem_flatten.mpr ⟨passes[i]'(hl ▸ hil), List.getElem_mem _, ?_⟩
    rw [hpos]
    exact hmem c hcm
  · rw [hf, max_eq_right hdq]; rfl

/-- C79 for the first point of a path: interpolation gives it twice, so it is always reached if it is not above the surface. -/
theorem C79_first {eng : SurfaceEngine} {args : SurfaceArgs} {j : Job} {poly : List Pt} {cs : List Motion}
    {h : Pt → ℚ} {r : ℚ} (hd : ∀ ps, eng.drop ps = ps.map h) (hc : surfaceBoundary eng args j poly = .ok cs)
    (hbot : ∀ p, eng.bottom ≤ h p) (hm : Measures r eng.norm) (hi : 0 < args.interpolationStep)
    (hs : ∀ s, args.stepdown = some s → s < 0) :
    ∃ paths, zigzag eng.scan [poly] (args.toolDiameter * args.stepover) = .ok paths ∧
      ∀ (a b : Pt) (path : List Pt), (a :: b :: path) ∈ paths → a ≠ b → h a ≤ 0 → ∃ c ∈ cs, CutsTo a (h a) c := by
  obtain ⟨paths, h1, h2⟩ := C79_reached_partial hd hc hbot
  refine ⟨paths, h1, ?_⟩
  intro a b path hp hab ha
  obtain ⟨out, ho, h3⟩ := h2 _ hp
  obtain ⟨B, rfl⟩ := seq_first ho (hm.pos _ (by
    intro hv
    injection hv with hx hy
    apply hab
    cases a; cases b
    simp only at hx hy ⊢
    congr 1 <;> linarith)) hi
  exact h3 [] B a a rfl ha ha (fun s he => ⟨hs s he, by have := hs s he; linarith⟩)

/-! ### Examples -/

/-- The trapezium of the zigzag example, with its scanlines; a hill of height 2 to the left of `x = 3`, a ramp down to -5 to
the right of it; lengths measured along the axes. -/
def hill (p : Pt) : ℚ := if p.x ≤ 3 then 2 else max (-5) (-p.x / 2)

def hillEngine : SurfaceEngine where
  scan := zigEngine
  norm v := |v.x| + |v.y|
  strict := true
  bottom := -5
  drop ps := ps.map hill

theorem hill_measures : Measures 1 hillEngine.norm where
  zero := by simp [hillEngine]
  pos := by
    intro v hv
    simp only [hillEngine]
    rcases (abs_nonneg v.x).lt_or_eq with hx | hx
    · have := abs_nonneg v.y; linarith
    · rcases (abs_nonneg v.y).lt_or_eq with hy | hy
      · linarith
      · exfalso
        apply hv
        cases v
        simp only at hx hy ⊢
        rw [abs_eq_zero.mp hx.symm, abs_eq_zero.mp hy.symm]
  near := by
    intro v
    simp only [hillEngine, one_mul]
    have h1 := abs_mul_abs_self v.x
    have h2 := abs_mul_abs_self v.y
    have := mul_nonneg (abs_nonneg v.x) (abs_nonneg v.y)
    nlinarith

/-- A straight edge. -/
def sideEdge (a b : Vec) : Edge where
  id := 0
  geom := .line
  startPoint := a
  endPoint := b
  posParam t := ⟨a.x + t * (b.x - a.x), a.y + t * (b.y - a.y), a.z + t * (b.z - a.z)⟩
  posLen t := ⟨a.x + t * (b.x - a.x), a.y + t * (b.y - a.y), a.z + t * (b.z - a.z)⟩
  paramAt t := t
  length := |b.x - a.x| + |b.y - a.y|

/-- The trapezium as a face: its polygon is that of the zigzag example. -/
def hillFace : BoundaryFace where
  flat := true
  outer := [sideEdge ⟨0, 0, 0⟩ ⟨10, 0, 0⟩, sideEdge ⟨10, 0, 0⟩ ⟨10, 4, 0⟩, sideEdge ⟨10, 4, 0⟩ ⟨2, 4, 0⟩,
    sideEdge ⟨2, 4, 0⟩ ⟨0, 0, 0⟩]
  inners := []

/-- A kernel that leaves wires as they are. -/
def idleKernel : FaceKernel where
  offset2D w _ := .ok [w]
  makeFace _ _ := .ok ()
  inside _ _ := false

/-- Two boundaries, stepping down by 2, a point every unit. -/
def hillArgs : SurfaceArgs := { interpolationStep := 1, stepdown := some (-2) }

/-- The operation succeeds on it and has feed moves in every pass: the hypotheses of C56 and C78. -/
example : (match surface3d hillEngine idleKernel hillArgs (-1, 0) (some (1, 0)) [hillFace, hillFace] demoInit with
    | .ok cs => decide (cs.length = 170 ∧ (cs.filter (fun c => c.kind = .cut)).length = 134)
    | .error _ => false) = true := by decide +kernel

example : (∀ ps, hillEngine.drop ps = ps.map hill) ∧ hillArgs.topHeight ≤ 0 ∧ hillEngine.bottom ≤ hillArgs.topHeight ∧
    (∀ s, hillArgs.stepdown = some s → s ≤ 0) ∧ 0 ≤ demoInit.opSafeHeight ∧ ∀ p, hill p ≤ demoInit.rapidHeight := by
  refine ⟨fun _ => rfl, by decide +kernel, by decide +kernel, ?_, by decide +kernel, ?_⟩
  · rintro s ⟨⟩; norm_num
  · intro p
    have : demoInit.rapidHeight = 10 := rfl
    rw [this]
    unfold hill
    split
    · norm_num
    · exact max_le (by norm_num) (by linarith)

example : interpolateSequence hillEngine 1 [⟨0, 0⟩, ⟨5/2, 0⟩, ⟨5/2, 1⟩] =
    .ok [⟨0, 0⟩, ⟨0, 0⟩, ⟨1, 0⟩, ⟨2, 0⟩, ⟨5/2, 0⟩, ⟨5/2, 0⟩, ⟨5/2, 1⟩] := by decide +kernel

/-- The hypotheses of `C79_reached_partial` and `C79_first`, with neighbours on the ramp. -/
example : (∀ p : Pt, hillEngine.bottom ≤ hill p) ∧ 0 < hillArgs.interpolationStep ∧
    (∀ s, hillArgs.stepdown = some s → s < 0) ∧ hill ⟨9/2, 1⟩ ≤ 0 ∧ hill ⟨11/2, 1⟩ ≤ 0 ∧
    (∀ s, hillArgs.stepdown = some s → s < 0 ∧ hill ⟨9/2, 1⟩ ≤ hill ⟨11/2, 1⟩ - s) := by
  refine ⟨?_, by decide +kernel, ?_, by decide +kernel, by decide +kernel, ?_⟩
  · intro p
    simp only [hillEngine, hill]
    split
    · norm_num
    · exact le_max_left _ _
  · rintro s ⟨⟩; norm_num
  · rintro s ⟨⟩; exact ⟨by norm_num, by decide +kernel⟩

/-- C59 fails for the whole operation: with stepdown 2 it raises `IndexError` and gives no program. -/
theorem C59_operation_violated : ∃ (eng : SurfaceEngine) (k : FaceKernel) (args : SurfaceArgs) (b : BoundaryFace),
    args.stepdown = some 2 ∧ surface3d eng k args (-1, 0) (some (1, 0)) [b] demoInit = .error .indexError ∧
      ∃ cs, surface3d eng k { args with stepdown := none } (-1, 0) (some (1, 0)) [b] demoInit = .ok cs := by
  refine ⟨hillEngine, idleKernel, { hillArgs with stepdown := some 2 }, hillFace, rfl, ?_, ?_⟩
  · have h : (match surface3d hillEngine idleKernel { hillArgs with stepdown := some 2 } (-1, 0) (some (1, 0)) [hillFace]
        demoInit with
      | .ok _ => false
      | .error e => decide (e = .indexError)) = true := by decide +kernel
    cases hr : surface3d hillEngine idleKernel { hillArgs with stepdown := some 2 } (-1, 0) (some (1, 0)) [hillFace]
        demoInit with
    | ok cs => rw [hr] at h; cases h
    | error e => rw [hr] at h; rw [of_decide_eq_true h]
  · have h : (match surface3d hillEngine idleKernel { hillArgs with stepdown := none } (-1, 0) (some (1, 0)) [hillFace]
        demoInit with
      | .ok _ => true
      | .error _ => false) = true := by decide +kernel
    cases hr : surface3d hillEngine idleKernel { hillArgs with stepdown := none } (-1, 0) (some (1, 0)) [hillFace]
        demoInit with
    | ok cs => exact ⟨cs, rfl⟩
    | error e => rw [hr] at h; cases h

/-- C78 fails for a top height above the job's surface: a rapid goes down to the safe height inside a hill of the shape. -/
theorem C78_violated : ∃ (eng : SurfaceEngine) (k : FaceKernel) (args : SurfaceArgs) (b : BoundaryFace) (h : Pt → ℚ)
    (cs : List Motion), (∀ ps, eng.drop ps = ps.map h) ∧ (∀ p, h p ≤ demoInit.rapidHeight) ∧
      surface3d eng k args (-1, 0) (some (1, 0)) [b] demoInit = .ok cs ∧
      ∃ c ∈ cs, c.kind.mot = .rapid ∧ ∃ (q : Pt) (z : ℚ), c.fin = q.at z ∧ z < h q := by
  have h : (match surface3d hillEngine idleKernel { hillArgs with topHeight := 5 } (-1, 0) (some (1, 0)) [hillFace]
        demoInit with
      | .ok cs => decide (∃ c ∈ cs, c.kind.mot = .rapid ∧ c.fin = (⟨1/2, 1⟩ : Pt).at 1)
      | .error _ => false) = true := by decide +kernel
  cases hr : surface3d hillEngine idleKernel { hillArgs with topHeight := 5 } (-1, 0) (some (1, 0)) [hillFace]
        demoInit with
  | error e => rw [hr] at h; cases h
  | ok cs =>
    rw [hr] at h
    obtain ⟨c, hc, h1, h2⟩ := of_decide_eq_true h
    refine ⟨hillEngine, idleKernel, _, hillFace, hill, cs, fun _ => rfl, ?_, hr, c, hc, h1, _, _, h2, by decide +kernel⟩
    intro p
    have : demoInit.rapidHeight = 10 := rfl
    rw [this]
    unfold hill
    split
    · norm_num
    · exact max_le (by norm_num) (by linarith)

/-- C79 fails behind a steep step: the first point after it is never cut to, at any height, although the surface there is below
the job's surface. -/
theorem C79_violated : ∃ (eng : SurfaceEngine) (args : SurfaceArgs) (poly : List Pt) (h : Pt → ℚ) (cs : List Motion)
    (path out : List Pt) (q : Pt), (∀ ps, eng.drop ps = ps.map h) ∧ surfaceBoundary eng args demoInit poly = .ok cs ∧
      zigzag eng.scan [poly] (args.toolDiameter * args.stepover) = .ok [path] ∧
      interpolateSequence eng args.interpolationStep path = .ok out ∧ q ∈ out ∧ h q < 0 ∧ ∀ c ∈ cs, ∀ z, ¬ CutsTo q z c := by
  have h : (match surfaceBoundary hillEngine hillArgs demoInit zigPoly,
        zigzag hillEngine.scan [zigPoly] (hillArgs.toolDiameter * hillArgs.stepover) with
      | .ok cs, .ok [path] =>
          (match interpolateSequence hillEngine hillArgs.interpolationStep path with
            | .ok out => decide ((⟨7/2, 1⟩ : Pt) ∈ out ∧
              ∀ c ∈ cs, ¬ (c.kind.mot = .linear ∧ c.fin.x = some (7/2) ∧ c.fin.y = some 1))
            | .error _ => false)
      | _, _ => false) = true := by decide +kernel
  split at h
  · rename_i cs path h1 h2
    split at h
    · rename_i out h3
      obtain ⟨h4, h5⟩ := of_decide_eq_true h
      refine ⟨hillEngine, hillArgs, zigPoly, hill, cs, path, out, ⟨7/2, 1⟩, fun _ => rfl, h1, h2, h3, h4,
        by decide +kernel, ?_⟩
      rintro c hc z ⟨hk, hf⟩
      exact h5 c hc ⟨hk, by rw [hf]; rfl, by rw [hf]; rfl⟩
    · cases h
  · cases h

end CQ
