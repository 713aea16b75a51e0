import Verif.Spec.DepthOfCut
import Verif.Props.DepthOfCut
import Verif.Props.Gouge64

/-! # C142: how deep a pocket computed in floating point cuts at once -/

namespace CQ

/-- Before a sequence of a region, the sequences at the depth before have been run; or it starts at most a stepdown below the start. -/
theorem opSequences64_passes {eng : Clipper} {fuel : ℕ} {stepover s : ℚ} {precision : ℕ} {shallower : List PathFace} {op : PathFace}
    {own : List (List PathFace)} (hsd : IsDouble s) (s1 : 1 / 1000 ≤ s) (s2 : s ≤ 1000)
    (hd : ∀ o ∈ shallower, op.depth ≤ o.depth ∧ o.depth ≤ 0) (h0 : op.depth ≤ 0) (hlo : -1000 ≤ op.depth)
    (h : opSequences64 eng fuel stepover (some s) precision shallower op = .ok own) :
    ∃ fill, fillPocket eng fuel op stepover precision = .ok fill ∧ ∀ A q B, own = A ++ q :: B → ∃ z, (∀ f ∈ q, f.depth = z) ∧
      op.depth - 1 / 100000 ≤ z ∧ (∃ g ∈ fill, q.map PathFace.outer = g.map PathFace.outer) ∧
      ((determineStepdownStartDepth eng op shallower).getD 0 - s - 1 / 100000 ≤ z ∨ ∃ d, d ≤ z + s + 1 / 100000 ∧ PassIn fill d A) := by
  have hs : 0 < s := by linarith
  unfold opSequences64 at h
  obtain ⟨fill, hf, h⟩ := bind_ok.mp h
  simp only [if_neg hs.ne'] at h
  rw [applyStepdown64_fill hf _ hsd, ok_bind] at h
  cases h
  refine ⟨fill, hf, ?_⟩
  intro A q B hsplit
  have hst : op.depth ≤ (determineStepdownStartDepth eng op shallower).getD 0 ∧
      (determineStepdownStartDepth eng op shallower).getD 0 ≤ 0 := by
    unfold determineStepdownStartDepth
    cases hh : (((shallower.filter (fun o => eng.contains o op)).map PathFace.depth).insertionSort (· ≤ ·)).head? with
    | none => exact ⟨h0, le_rfl⟩
    | some d =>
      have hd' := List.mem_of_mem_head? hh
      rw [List.mem_insertionSort] at hd'
      obtain ⟨o, ho, rfl⟩ := List.mem_map.mp hd'
      exact hd o (List.mem_of_mem_filter ho)
  generalize (determineStepdownStartDepth eng op shallower).getD 0 = start at *
  have hL : |start| ≤ 1000 := abs_le.mpr ⟨by linarith, by linarith⟩
  have hL2 : |op.depth| ≤ 1000 := abs_le.mpr ⟨by linarith, by linarith⟩
  have hlen := steps64_length (L := 1000) hs (by norm_num) hL hL2 s2 hst.1
  have hp0 : passError 0 (3 * 1000) ≤ 1 := by unfold passError; norm_num
  have hlen' : ((steps64 start op.depth s).length : ℚ) ≤ 1001000 := by
    have : ((steps64 start op.depth s).length : ℚ) * (1 / 1000) ≤ (steps64 start op.depth s).length * s :=
      mul_le_mul_of_nonneg_left s1 (by positivity)
    linarith
  obtain ⟨hc, hlow, -⟩ := steps64_ok (L := 1000) hs (by norm_num) hL hL2 s2 (by
    have : (steps64 start op.depth s).length ≤ 1001000 := by exact_mod_cast hlen'
    omega) hst.1
  have htol : passError (steps64 start op.depth s).length (3 * 1000) ≤ 1 / 100000 := by
    unfold passError
    norm_num
    linarith
  clear hlen
  generalize passError (steps64 start op.depth s).length (3 * 1000) = tol at *
  have hlast : fill = [op.depth].flatMap (fun d => fill.map (fun q => q.map (fun f => f.cloneToDepth d))) := by
    simp only [List.flatMap_cons, List.flatMap_nil, List.append_nil]
    conv_lhs => rw [← List.map_id fill]
    apply List.map_congr_left
    intro q hq
    conv_lhs => rw [id, ← List.map_id q]
    apply List.map_congr_left
    intro f hfq
    have := (fill_depths hf).1 f (List.mem_flatten.mpr ⟨q, hq, hfq⟩)
    simp [PathFace.cloneToDepth, ← this]
  rw [show ((steps64 start op.depth s).flatMap (fun d => fill.map (fun q => q.map (fun f => f.cloneToDepth d)))) ++ fill =
      (steps64 start op.depth s ++ [op.depth]).flatMap (fun d => fill.map (fun q => q.map (fun f => f.cloneToDepth d))) by
    rw [List.flatMap_append, ← hlast]] at hsplit
  obtain ⟨ds1, d, ds2, A', B', hds, rfl, hdq⟩ := flatMap_split hsplit
  have hq : q ∈ fill.map (fun q => q.map (fun f => f.cloneToDepth d)) := by rw [hdq]; simp
  obtain ⟨g, hg, rfl⟩ := List.mem_map.mp hq
  refine ⟨d, ?_, ?_, ⟨g, hg, by rw [List.map_map]; rfl⟩, ?_⟩
  · intro f hfq
    obtain ⟨f', -, rfl⟩ := List.mem_map.mp hfq
    rfl
  · have hm : d ∈ steps64 start op.depth s ++ [op.depth] := by rw [hds]; simp
    rcases List.mem_append.mp hm with hm | hm
    · linarith [(hlow d hm).1]
    · rw [List.mem_singleton] at hm
      linarith
  rw [hds] at hc
  rcases List.eq_nil_or_concat ds1 with rfl | ⟨ds0, d', rfl⟩
  · left
    have := (List.isChain_cons_cons.mp hc).1.2
    linarith
  · right
    simp only [List.concat_eq_append, List.append_assoc, List.cons_append, List.nil_append] at hc
    rw [show start :: (ds0 ++ d' :: d :: ds2) = (start :: ds0) ++ d' :: d :: ds2 by simp] at hc
    have := (List.isChain_append.mp hc).2.1
    have := (List.isChain_cons_cons.mp this).1.2
    refine ⟨d', by linarith, ?_⟩
    intro g' hg'
    obtain ⟨q', hq', hgq⟩ := List.mem_flatten.mp hg'
    refine ⟨q'.map (fun f => f.cloneToDepth d'), ?_, g'.cloneToDepth d', List.mem_map.mpr ⟨g', hgq, rfl⟩, rfl, rfl⟩
    apply List.mem_append_left
    refine List.mem_flatMap.mpr ⟨d', by simp, List.mem_map.mpr ⟨q', hq', rfl⟩⟩

/-- The region a sequence belongs to, and what comes before. -/
theorem allSequences64_locate {eng : Clipper} {fuel : ℕ} {stepover : ℚ} {stepdown : Option ℚ} {precision : ℕ}
    {done ops : List PathFace} {seqs A B : List (List PathFace)} {q : List PathFace}
    (h : allSequences64 eng fuel stepover stepdown precision done ops = .ok seqs) (hs : seqs = A ++ q :: B) :
    ∃ p op p', ops = p ++ op :: p' ∧ ∃ s1 own A' B', allSequences64 eng fuel stepover stepdown precision done p = .ok s1 ∧
      opSequences64 eng fuel stepover stepdown precision (done ++ p) op = .ok own ∧ A = s1 ++ A' ∧ own = A' ++ q :: B' := by
  induction ops generalizing done seqs A with
  | nil => cases h; simp at hs
  | cons op ops ih =>
    rw [allSequences64] at h
    obtain ⟨a, h1, h⟩ := bind_ok.mp h
    obtain ⟨b, h2, h⟩ := bind_ok.mp h
    cases h
    have hb : ∀ A2, A = a ++ A2 → b = A2 ++ q :: B → ∃ p op' p', op :: ops = p ++ op' :: p' ∧ ∃ s1 own A' B',
        allSequences64 eng fuel stepover stepdown precision done p = .ok s1 ∧
        opSequences64 eng fuel stepover stepdown precision (done ++ p) op' = .ok own ∧ A = s1 ++ A' ∧ own = A' ++ q :: B' := by
      rintro A2 rfl hb
      obtain ⟨p, op', p', rfl, s1, own, A', B', k1, k2, rfl, k4⟩ := ih h2 hb
      refine ⟨op :: p, op', p', rfl, a ++ s1, own, A', B', ?_, by simpa using k2, by simp, k4⟩
      rw [allSequences64, h1, ok_bind, k1, ok_bind]
    rcases List.append_eq_append_iff.mp hs with ⟨u, e1, e2⟩ | ⟨u, e1, e2⟩
    · exact hb u e1 e2
    · cases u with
      | nil => exact hb [] (by simpa using e1.symm) (by simpa using e2.symm)
      | cons y u =>
        simp only [List.cons_append, List.cons.injEq] at e2
        obtain ⟨rfl, rfl⟩ := e2
        exact ⟨[], op, ops, rfl, [], a, A, u, rfl, by simpa using h1, rfl, e1⟩

/-- The commands of the sequences, in order: those of one sequence cut all of its contours and feed only between points of them. -/
theorem routeSequences64_parts {lib : MathLib} (hl : SquaresWell lib.sq) {M : ℚ} (hM : 1 ≤ M) {j : Job} {step : ℚ}
    {seqs : List (List PathFace)} (hf : ∀ f ∈ seqs.flatten, FaceOK64 j M f)
    {acc cs : List Motion} {pos : AddrVec} (h : routeSequences64 lib j step acc pos seqs = .ok cs) :
    ∃ bs, cs = acc ++ List.flatten bs ∧ List.Forall₂ (fun (s : List PathFace) (b : List Motion) =>
      (∀ f ∈ s, ∀ t ∈ segments f.outer, ∀ x, OnSegment t.1 t.2 x →
        ∃ x', PtNear (2 ^ (-49 : ℤ) * M) x x' ∧ ∃ c ∈ b, CutsThrough f.depth x' c) ∧
      ∀ d, (∀ f ∈ s, f.depth = d) → ∀ c ∈ b, c.kind.mot ≠ .rapid →
        FeedNear64 (2 ^ (-49 : ℤ) * M) ((1 + 2 ^ (-48 : ℤ)) * step + 2 ^ (-1070 : ℤ)) j.opSafeHeight d s c) seqs bs := by
  induction seqs generalizing acc pos with
  | nil => cases h; exact ⟨[], by simp, .nil⟩
  | cons s ss ih =>
    have hfs : ∀ f ∈ s, FaceOK64 j M f := fun f h => hf f (by simp [h])
    obtain ⟨b1, h1, h2⟩ := routeFaces64_blocks hl hM (stepover := some step) hfs none (by simp) pos
    obtain ⟨-, -, -, hcuts⟩ := faceBlocks64_ok hM h2 hfs
    unfold routeSequences64 routePolyfaceOuters64 at h
    rw [Option.getD_some, h1, ok_bind] at h
    cases hlast : (acc ++ b1.flatten).getLast? with
    | none => simp only [hlast] at h; cases h
    | some cmd =>
      simp only [hlast] at h
      obtain ⟨bs, rfl, k⟩ := ih (fun f h => hf f (by simp at h ⊢; exact Or.inr h)) h
      refine ⟨b1.flatten :: bs, by simp, .cons ⟨?_, ?_⟩ k⟩
      · intro f hfm t ht x hx
        obtain ⟨b', hb', k3⟩ := forall₂_mem_left hcuts hfm
        obtain ⟨x', hx', c, hc, hcut⟩ := k3 t ht x hx
        exact ⟨x', hx', c, List.mem_flatten.mpr ⟨_, hb', hc⟩, hcut⟩
      · intro d hsd
        exact faceBlocks64_near hl.err hM h2 hfs (prev := none) trivial (fun f hf => ⟨hf, hsd f hf⟩) (by simp)

/-- The filling of a region that comes before, at its depth. -/
theorem fill_before64 {eng : Clipper} {fuel : ℕ} {stepover : ℚ} {precision : ℕ} {ops : List PathFace} {seqs : List (List PathFace)}
    (h : Layers eng fuel stepover precision ops seqs) {o : PathFace} (ho : o ∈ ops) :
    ∃ fill, fillPocket eng fuel o stepover precision = .ok fill ∧ PassIn fill o.depth seqs := by
  induction h with
  | nil => cases ho
  | @cons op ops fill rest steps hf hs t ih =>
    rcases List.mem_cons.mp ho with rfl | ho
    · refine ⟨fill, hf, fun g hg => ?_⟩
      obtain ⟨q, hq, hgq⟩ := List.mem_flatten.mp hg
      exact ⟨q, by simp [hq], g, hgq, rfl, (fill_depths hf).1 g hg⟩
    · obtain ⟨fl, h1, h2⟩ := ih ho
      refine ⟨fl, h1, fun g hg => ?_⟩
      obtain ⟨q, hq, r⟩ := h2 g hg
      exact ⟨q, by simp [hq], r⟩

/-- Commands: before every feed move the region has been cleared to a stepdown above it. -/
theorem pocket64_passes {K : List IPt → Prop} {δ : ℚ} {eng : Clipper} {lib : MathLib} {j : Job} (he : Engine64 K j.precision eng lib)
    (heng : ClipperNearOn (OnInts K) δ eng) (hsh : ShrinksNear (OnInts K) δ j.precision eng) (hcon : ContainsRight (OnInts K) eng) {fuel : ℕ}
    {opAreas avoidAreas : List PathFace} {outerOffset innerOffset avoidOuterOffset avoidInnerOffset stepover s : ℚ} {cs : List Motion}
    (h : pocketClipper64 lib eng fuel j opAreas avoidAreas outerOffset innerOffset avoidOuterOffset avoidInnerOffset stepover
      (some s) = .ok cs) (hsafe : 0 < j.opSafeHeight) (hstep : 0 < stepover) (hsd : IsDouble s) (s1 : 1 / 1000 ≤ s) (s2 : s ≤ 1000)
    {B : ℚ} (hB : B + max outerOffset 0 ≤ 2 ^ 20) (hf : ∀ f ∈ opAreas, InBox B f.outer) (hlo : ∀ f ∈ opAreas, -1000 ≤ f.depth) :
    ∃ areas avoids regions,
      mapE (fun f => offsetPolyface eng f outerOffset innerOffset j.precision) opAreas = .ok areas ∧
      mapE (fun f => offsetPolyface eng f avoidOuterOffset avoidInnerOffset j.precision) avoidAreas = .ok avoids ∧
      buildPocketOps eng areas.flatten avoids.flatten = .ok regions ∧
      ∀ pre c post, cs = pre ++ c :: post → c.kind.mot ≠ .rapid → ∃ r ∈ regions, ∃ contours z,
        Unfolds (Follows eng r stepover j.precision) [r.outer] contours ∧ r.depth - 1 / 100000 ≤ z ∧ z ≤ 0 ∧
        FeedsOver64 (2 ^ (-28 : ℤ)) ((1 + 2 ^ (-48 : ℤ)) * stepover + 2 ^ (-1070 : ℤ)) (fun x => ∃ k ∈ contours, OnOutline k x)
          (fun _ _ => True) j.opSafeHeight z c ∧
        (-s - 1 / 100000 ≤ z ∨ ∃ d, d ≤ z + s + 1 / 100000 ∧ ∀ p, FaceRegion r p → (∀ o ∈ regions, ∀ i ∈ o.inners, FarFrom δ i p) →
          ∃ c' ∈ pre, ∃ q, CutsThrough d q c' ∧ sqDist p q ≤ (2 * 2 ^ (-28 : ℤ) + (stepover + 2 * δ)) ^ 2) := by
  have hsd' : ∀ x, some s = some x → 0 ≤ x ∧ IsDouble x := by rintro x ⟨⟩; exact ⟨by linarith, hsd⟩
  unfold pocketClipper64 at h
  obtain ⟨areas, h1, h⟩ := bind_ok.mp h
  obtain ⟨avoids, h2, h⟩ := bind_ok.mp h
  obtain ⟨regions, h3, h⟩ := bind_ok.mp h
  obtain ⟨seqs, h4, h5⟩ := bind_ok.mp h
  refine ⟨areas, avoids, regions, h1, h2, h3, ?_⟩
  have hfrom : ∀ o ∈ regions, -1000 ≤ o.depth := by
    intro o ho
    obtain ⟨f', hf', he⟩ := ops_depth h3 ho
    obtain ⟨l, hl, hfl⟩ := List.mem_flatten.mp hf'
    obtain ⟨f0, hf0, hoff⟩ := mapE_mem h1 hl
    rw [← he, offsetPolyface_depth hoff f' hfl]
    exact hlo f0 hf0
  have hz : ∀ o ∈ regions, o.depth ≤ 0 := by
    intro o ho
    obtain ⟨f, hf, he⟩ := ops_depth h3 ho
    rw [← he]
    exact (C38_order h3).1 f (List.mem_append_left _ hf)
  have hpw : regions.Pairwise (fun a b => b.depth ≤ a.depth) := by
    obtain ⟨-, groups, rfl, g1, g2, g3⟩ := C38_order h3
    exact flatten_pairwise g1 g3
  have hlay := allSequences64_layers (done := []) hsd' (by simpa using hz) h4
  have hok := contours64_ok he.kind he.noRepeats he.boxes h3 (areas_box he hB hf h1) hstep.le hlay hsafe
  obtain ⟨bs, hbs, hparts⟩ := routeSequences64_parts he.squares (by norm_num) hok h5
  rw [List.nil_append] at hbs
  have htol : (2 : ℚ) ^ (-49 : ℤ) * 2 ^ 21 = 2 ^ (-28 : ℤ) := by norm_num
  rw [htol] at hparts
  intro pre c post hsplit hfeed
  rw [hbs] at hsplit
  obtain ⟨bs1, b, bs2, A', B', hb, rfl, hbb⟩ := flatten_split hsplit
  obtain ⟨seqs1, q, seqs2, rfl, m1, ⟨-, m2⟩, -⟩ := forall₂_split_right hparts hb
  obtain ⟨p, op, p', rfl, s1', own, A2, B2, n1, n2, rfl, n4⟩ := allSequences64_locate h4 rfl
  rw [List.nil_append] at n2
  have hop : op ∈ p ++ op :: p' := by simp
  obtain ⟨fill, hff, hpass⟩ := opSequences64_passes hsd s1 s2
    (fun o ho => ⟨(List.pairwise_append.mp hpw).2.2 o ho op (by simp), hz o (by simp [ho])⟩) (hz op hop) (hfrom op hop) n2
  obtain ⟨z, hzq, hzlo, ⟨g, hg, hgq⟩, hprev⟩ := hpass _ _ _ n4
  obtain ⟨xs, hu, hperm, -⟩ := C42_complete hff
  -- a pass that has been run has cleared the region
  have hcleared : ∀ o ∈ p ++ op :: p', ∀ fl, fillPocket eng fuel o stepover j.precision = .ok fl → ∀ d, PassIn fl d (s1' ++ A2) →
      ∀ x, FaceRegion o x → (∀ i ∈ o.inners, FarFrom δ i x) →
        ∃ c' ∈ bs1.flatten, ∃ y, CutsThrough d y c' ∧ sqDist x y ≤ (2 * 2 ^ (-28 : ℤ) + (stepover + 2 * δ)) ^ 2 := by
    intro o ho fl hfl d hin x hx hfar
    obtain ⟨ys, hu', hperm', -⟩ := C42_complete hfl
    refine region_covered64 heng he.kind hsh he.noRepeats h3 ho hstep hu' (two_zpow_pos _).le ?_ hx hfar
    intro k hky t ht y hy
    obtain ⟨g', hg', rfl⟩ := List.mem_map.mp (hperm'.mem_iff.mpr hky)
    obtain ⟨q', hq', f', hf', e1, rfl⟩ := hin g' hg'
    obtain ⟨b', hb', r1, -⟩ := forall₂_mem_left m1 hq'
    obtain ⟨y', hy', c', hc', hcut⟩ := r1 f' hf' t (by rw [e1]; exact ht) y hy
    exact ⟨y', hy', c', List.mem_flatten.mpr ⟨b', hb', hc'⟩, hcut⟩
  have hmem : ∀ f ∈ q, f.outer ∈ xs := by
    intro f hfq
    obtain ⟨f', hf', e2⟩ := List.mem_map.mp (hgq ▸ List.mem_map.mpr ⟨f, hfq, rfl⟩ : f.outer ∈ g.map PathFace.outer)
    rw [← e2]
    exact hperm.mem_iff.mp (List.mem_map.mpr ⟨f', List.mem_flatten.mpr ⟨g, hg, hf'⟩, rfl⟩)
  obtain ⟨g0, hg0, f0, hf0, a, b', a', b'', c1, c2, c3, c4, c5, c6, c7⟩ := m2 z hzq c (by rw [hbb]; simp) hfeed
  refine ⟨op, hop, xs, z, hu, hzlo, ?_, ⟨a, b', a', b'', ⟨_, hmem g0 hg0, onOutline_of_path c1⟩, ⟨_, hmem f0 hf0, onOutline_of_path c2⟩,
    c3, c4, c5, c6, ?_⟩, ?_⟩
  · rw [← hzq f0 hf0]
    exact (hlay.faces hz f0 (List.mem_flatten.mpr ⟨q, by simp, hf0⟩)).1
  · rcases c7 with ⟨-, k1, k2, k3⟩ | ⟨k1, -⟩
    · exact .inl ⟨k1, k2, k3⟩
    · exact .inr ⟨k1, .inr (.inr trivial)⟩
  rcases hprev with hst | ⟨d, hdz, hin⟩
  · obtain ⟨c1, c2⟩ := C44_start eng op p
    cases hdet : determineStepdownStartDepth eng op p with
    | none => rw [hdet] at hst; left; simpa using hst
    | some d =>
      rw [hdet] at hst
      obtain ⟨⟨o, ho, hc, rfl⟩, -⟩ := (c1 d).mp hdet
      obtain ⟨fl, hfl, hin⟩ := fill_before64 (allSequences64_layers (done := []) hsd' (by
        intro o ho
        exact hz o (by simp at ho; simp [ho])) n1) ho
      have hoo : o ∈ p ++ op :: p' := by simp [ho]
      refine .inr ⟨o.depth, by simp at hst; linarith, fun x hx hfar => ?_⟩
      obtain ⟨c', hc', y, hy⟩ := hcleared o hoo fl hfl _ (fun g' hg' => by
          obtain ⟨q', hq', r⟩ := hin g' hg'
          exact ⟨q', List.mem_append_left _ hq', r⟩) x
        (hcon o op (kind_regions he.kind h3 o hoo) (kind_regions he.kind h3 op hop) hc x hx) (hfar o hoo)
      exact ⟨c', List.mem_append_left _ hc', y, hy⟩
  · refine .inr ⟨d, hdz, fun x hx hfar => ?_⟩
    obtain ⟨c', hc', y, hy⟩ := hcleared op hop fill hff d (fun g' hg' => by
      obtain ⟨q', hq', r⟩ := hin g' hg'
      exact ⟨q', List.mem_append_right _ hq', r⟩) x hx (hfar op hop)
    exact ⟨c', List.mem_append_left _ hc', y, hy⟩

/-- C142.  `C106_pocket` in floating point: take the part of a pocket with a stepdown `s` in the program of any job.  Every feed move of the
machine is at (or down to) the printed depth of a depth `z` that is, up to a hundred-thousandth, not below a region of the pocket, between
points near contours of this region.  And either `z` is at most `s` below the surface of the stock, or before this move the machine has
already milled everywhere over the region at a height that is at most `s` above `z`, up to printing and a hundred-thousandth, reaching as
far as a step, twice the tolerance of the engine, a thousandth and `2^-27`. -/
theorem C142_pocket {K₀ K : List IPt → Prop} {δ δ' : ℚ} {e : IntClipper} {lib : MathLib} {j0 : Job}
    (he : IntEngine K₀ K δ (scaledPrecision j0.precision) e) (hbox : IntBoxes (scaledPrecision j0.precision) e)
    (hcon : ContainsRight (OnInts K) e.scaled) (hl : SquaresWell lib.sq) (hδ : δ' = δ + 3 * resolution)
    {veq : Vec → Vec → Bool} {fuel : ℕ} {opAreas avoidAreas : List CqFace}
    {a : PocketArgs} {s : ℚ} {tool : Option Tool} {j1 j2 jf : Job} {before after : List Request} (m : Machine) (h0 : InitOK j0)
    (hn : ∀ v, j0.toolNumber = some v → NumOK v)
    (hok : ChainOK j0 (before ++ pocketRequest64 lib e.scaled veq fuel opAreas avoidAreas a tool :: after))
    (h1 : j0.chain before = .ok j1) (h2 : (j1.call (pocketRequest64 lib e.scaled veq fuel opAreas avoidAreas a tool)).2 = .ok j2)
    (h3 : j2.chain after = .ok jf) (hend : m.ended = false)
    (htool : ∀ n, j0.toolNumber = some n → m.tool = some n.value) (hsafe : 0 < j0.opSafeHeight)
    (hs : a.stepdown = some s) (hsd : IsDouble s) (s1 : 1 / 1000 ≤ s) (s2 : s ≤ 1000) :
    ∃ t m' pre part post diameter outer inner avoidOuter avoidInner stepover faces avoidFaces areas avoids regions,
      jf.toGcode = .ok t ∧ runText m t = some (m', pre ++ part ++ post) ∧
      (j1.settings.inherit tool).toolDiameter = some diameter ∧
      OffsetNear (diameter / 2) (if avoidAreas ≠ [] ∧ a.outerOffset = none then (0, 0) else offsetParts (-1) a.outerOffset) outer ∧
      OffsetNear (diameter / 2) (offsetParts 1 a.innerOffset) inner ∧
      OffsetNear (diameter / 2) (offsetParts 1 a.avoidOuterOffset) avoidOuter ∧
      OffsetNear (diameter / 2) (offsetParts (-1) a.avoidInnerOffset) avoidInner ∧
      OffsetNear (diameter / 2) (offsetParts (1 / 2) a.stepover) stepover ∧
      List.Forall₂ (FlatFace veq j0.precision) opAreas faces ∧ List.Forall₂ (FlatFace veq j0.precision) avoidAreas avoidFaces ∧
      List.Forall₂ (OffsetFaces e.scaled outer inner j0.precision) faces areas ∧
      List.Forall₂ (OffsetFaces e.scaled avoidOuter avoidInner j0.precision) avoidFaces avoids ∧
      buildPocketOps e.scaled areas.flatten avoids.flatten = .ok regions ∧
      (0 < stepover → ∀ B, B + max outer 0 ≤ 2 ^ 20 → (∀ f ∈ faces, InBox B f.outer ∧ -1000 ≤ f.depth) →
        ∀ earlier ev later, part = earlier ++ ev :: later → isFeedMove ev = true → ∃ r ∈ regions, ∃ contours z,
          Unfolds (Follows e.scaled r stepover j0.precision) [r.outer] contours ∧ r.depth - 1 / 100000 ≤ z ∧ z ≤ 0 ∧
          (∃ p q, (∃ c ∈ contours, OnOutline c p) ∧ (∃ c ∈ contours, OnOutline c q) ∧
            FeedsNear (1 / 2000 + 2 ^ (-28 : ℤ)) p q (rnd 3 z) ev) ∧
          (-s - 1 / 100000 ≤ z ∨ ∃ d, d ≤ z + s + 1 / 2000 + 1 / 100000 ∧
            ClearedAt d (stepover + 2 * δ' + 1 / 1000 + 2 ^ (-27 : ℤ)) δ' regions r earlier)) := by
  subst hδ
  obtain ⟨c1, c2, c3, c4, -⟩ := C113_contracts he
  have heng := engine64_of he hbox hl
  have hsd' : ∀ x, a.stepdown = some x → 0 ≤ x ∧ IsDouble x := by
    intro x hx
    rw [hs] at hx
    cases hx
    exact ⟨by linarith, hsd⟩
  obtain ⟨t, m', pre, part, post, cs, e1, e2, hcs, -, hfol, hpart⟩ := C94_followed m h0 hn hok h1 h2 h3 hend htool
  have hb : SameBase j0 (j1.updateTool tool).2 :=
    updateTool_base (chain_base (by unfold SameBase; rfl) h1) _
  have hset : (j1.updateTool tool).2.settings = j1.settings.inherit tool := by
    obtain ⟨-, -, -, h, -⟩ := updateTool_commands j1 tool
    exact h
  have hprec : (j1.updateTool tool).2.precision = j0.precision := by rw [hb]
  have hsafe' : 0 < (j1.updateTool tool).2.opSafeHeight := by rw [(sameBase_heights hb).2.1]; exact hsafe
  have hcs : pocket64 lib e.scaled veq fuel opAreas avoidAreas a (j1.updateTool tool).2 = .ok cs := hcs
  rw [← hprec] at heng c4
  rw [← hset, ← hprec]
  generalize (j1.updateTool tool).2 = J at *
  unfold pocket64 at hcs
  cases hr : J.toolRadius64 with
  | none => rw [hr] at hcs; cases hcs
  | some r =>
    rw [hr] at hcs
    obtain ⟨diameter, hd, hrd⟩ : ∃ d, J.toolDiameter = some d ∧ r = b64 (d / 2) := by
      unfold Job.toolRadius64 Job.toolRadius at hr
      cases hj : J.toolDiameter with
      | none => rw [hj] at hr; cases hr
      | some d =>
        rw [hj] at hr
        by_cases h0 : d = 0
        · simp [h0] at hr
        · simp only [h0, if_false, Option.map_some, Option.some.injEq] at hr
          exact ⟨d, rfl, hr.symm⟩
    obtain ⟨faces, g1, hcs⟩ := bind_ok.mp hcs
    obtain ⟨avoidFaces, g2, hcs⟩ := bind_ok.mp hcs
    have hclip := hcs
    unfold pocketClipper64 at hcs
    obtain ⟨areas, g3, hcs⟩ := bind_ok.mp hcs
    obtain ⟨avoids, g4, hcs⟩ := bind_ok.mp hcs
    obtain ⟨regions, g5, -⟩ := bind_ok.mp hcs
    refine ⟨t, m', pre, part, post, diameter, _, _, _, _, calculateOffset64 r a.stepover (some (1 / 2)), faces, avoidFaces, areas, avoids,
      regions, e1, e2, hd, ?_, offset64_near hrd _ _, offset64_near hrd _ _, offset64_near hrd _ _, offset64_near hrd _ _,
      (mapE_ok.mp g1).imp fun _ _ => fromCqFace_spec, (mapE_ok.mp g2).imp fun _ _ => fromCqFace_spec,
      (mapE_ok.mp g3).imp fun _ _ => offsetPolyface_spec, (mapE_ok.mp g4).imp fun _ _ => offsetPolyface_spec, g5, ?_⟩
    · have := offset64_near hrd (-1) (if avoidAreas ≠ [] ∧ a.outerOffset = none then some (.mult 0) else a.outerOffset)
      by_cases hc : avoidAreas ≠ [] ∧ a.outerOffset = none
      · rw [if_pos hc] at this ⊢
        rw [if_pos hc]
        exact this
      · rw [if_neg hc] at this ⊢
        rw [if_neg hc]
        exact this
    · rintro hpos B hB hbx earlier ev later rfl hf
      obtain ⟨-, hconn, -⟩ := pocket64_path heng hclip hsafe' hpos.le hsd' hB (fun f hf => (hbx f hf).1)
      rw [hs] at hclip
      obtain ⟨areas', avoids', regions', k3, k4, k5, hall⟩ := pocket64_passes heng c1 c4 hcon hclip hsafe' hpos hsd s1 s2 hB
        (fun f hf => (hbx f hf).1) (fun f hf => (hbx f hf).2)
      rw [g3] at k3; cases k3
      rw [g4] at k4; cases k4
      rw [g5] at k5; cases k5
      have hfol := hfol (tracks_connected hconn)
      rw [List.filter_append, List.filter_cons_of_pos (isMove_of_isFeedMove hf)] at hfol
      obtain ⟨cs1, c, cs2, rfl, f1, hec, -⟩ := forall₂_split_right hfol.flip rfl
      obtain ⟨x, hx, contours, z, hu, d1, d2, hover, hprev⟩ := hall cs1 c cs2 rfl (by
        intro hr
        obtain ⟨⟨tgt, ctr, hact, -⟩, -⟩ := hec
        rw [hr] at hact
        simp [isFeedMove, hact] at hf)
      obtain ⟨p, q, hp, hq, hfeed, -⟩ := feeds64_of_follows hec hover (by linarith) (hpart ev (by simp)).2
      refine ⟨x, hx, contours, z, hu, d1, d2, ⟨p, q, hp, hq, hfeed⟩, ?_⟩
      rcases hprev with hprev | ⟨d, hdz, hcl⟩
      · exact .inl hprev
      · refine .inr ⟨rnd 3 d, ?_, ?_⟩
        · have := abs_le.mp (abs_rnd3 d)
          linarith
        · intro y hy hfar
          obtain ⟨c', hc', w, hw, hyw⟩ := hcl y hy hfar
          obtain ⟨e', he', hec'⟩ := forall₂_mem_left f1 hc'
          obtain ⟨hem, hmv⟩ := List.mem_filter.mp he'
          obtain ⟨w', hw', hd'⟩ := mills_of_follows hec' hw (hpart e' (by simp [hem])).2
          refine ⟨e', hem, w', hw', ?_⟩
          have := c1.nonneg
          have h27 : (2 : ℚ) ^ (-27 : ℤ) = 2 * 2 ^ (-28 : ℤ) := by norm_num
          rw [h27]
          have hp28 := two_zpow_pos (-28)
          rw [show calculateOffset64 r a.stepover (some (1 / 2)) + 2 * (δ + 3 * resolution) + 1 / 1000 + 2 * 2 ^ (-28 : ℤ) =
            1 / 1000 + (2 * 2 ^ (-28 : ℤ) + (calculateOffset64 r a.stepover (some (1 / 2)) + 2 * (δ + 3 * resolution))) by ring]
          exact sqDist_triangle (by norm_num) (by linarith) hyw hd'

/-! ### A stepdown below zero -/

theorem opSequences64_negative {eng : Clipper} {fuel : ℕ} {stepover s : ℚ} {precision : ℕ} {shallower : List PathFace} {op : PathFace}
    (hs : s < 0) (hsd : IsDouble s) (hdd : IsDouble op.depth) (hd : ∀ o ∈ shallower, op.depth ≤ o.depth) (h0 : op.depth ≤ 0) :
    opSequences64 eng fuel stepover (some s) precision shallower op = opSequences64 eng fuel stepover none precision shallower op := by
  unfold opSequences64
  cases hf : fillPocket eng fuel op stepover precision with
  | error e => rfl
  | ok fill =>
    simp only [ok_bind, if_neg hs.ne]
    rw [applyStepdown64_fill hf _ hsd, ok_bind]
    have hst : op.depth ≤ (determineStepdownStartDepth eng op shallower).getD 0 := by
      cases hdet : determineStepdownStartDepth eng op shallower with
      | none => simpa using h0
      | some d =>
        obtain ⟨⟨o, ho, -, rfl⟩, -⟩ := ((C44_start eng op shallower).1 d).mp hdet
        exact hd o ho
    have : steps64 ((determineStepdownStartDepth eng op shallower).getD 0) op.depth s = [] := by
      generalize (determineStepdownStartDepth eng op shallower).getD 0 = S at *
      have h1 : op.depth ≤ b64 (S - s) := le_b64 hdd (by linarith)
      have h2 : b64 (op.depth - b64 (S - s)) ≤ 0 := b64_le isDouble_zero (by linarith)
      have h3 : b64 (b64 (op.depth - b64 (S - s)) / -s) ≤ 0 :=
        b64_le isDouble_zero (div_nonpos_of_nonpos_of_nonneg h2 (by linarith))
      unfold steps64 arange64
      rw [Int.toNat_of_nonpos (Int.ceil_le.mpr (by exact_mod_cast h3))]
      rfl
    rw [this]
    rfl

theorem allSequences64_negative {eng : Clipper} {fuel : ℕ} {stepover s : ℚ} {precision : ℕ} {done ops : List PathFace} (hs : s < 0)
    (hsd : IsDouble s) (hdd : ∀ o ∈ ops, IsDouble o.depth)
    (hd : (done ++ ops).Pairwise (fun a b => b.depth ≤ a.depth)) (h0 : ∀ o ∈ ops, o.depth ≤ 0) :
    allSequences64 eng fuel stepover (some s) precision done ops = allSequences64 eng fuel stepover none precision done ops := by
  induction ops generalizing done with
  | nil => rfl
  | cons op ops ih =>
    rw [allSequences64, allSequences64, opSequences64_negative hs hsd (hdd op (by simp))
      (fun o ho => (List.pairwise_append.mp hd).2.2 o ho op (by simp)) (h0 op (by simp)),
      ih (fun o ho => hdd o (by simp [ho])) (by simpa using hd) (fun o ho => h0 o (by simp [ho]))]

/-- C142 needs a positive stepdown, as C106 does: with a negative one the pocket is made as if no stepdown had been given, each region to
its full depth at once. -/
theorem C142_negative {lib : MathLib} {eng : Clipper} {fuel : ℕ} {j : Job} {opAreas avoidAreas : List PathFace}
    {outerOffset innerOffset avoidOuterOffset avoidInnerOffset stepover s : ℚ} (hs : s < 0) (hsd : IsDouble s)
    (hdd : ∀ f ∈ opAreas, IsDouble f.depth) :
    pocketClipper64 lib eng fuel j opAreas avoidAreas outerOffset innerOffset avoidOuterOffset avoidInnerOffset stepover (some s) =
      pocketClipper64 lib eng fuel j opAreas avoidAreas outerOffset innerOffset avoidOuterOffset avoidInnerOffset stepover none := by
  unfold pocketClipper64
  cases h1 : mapE (fun f => offsetPolyface eng f outerOffset innerOffset j.precision) opAreas with
  | error e => rfl
  | ok areas =>
    rw [ok_bind, ok_bind]
    congr 1
    funext avs
    cases h3 : buildPocketOps eng areas.flatten avs.flatten with
    | error e => rfl
    | ok regions =>
      rw [ok_bind, ok_bind, allSequences64_negative hs hsd]
      · intro o ho
        obtain ⟨f', hf', he⟩ := ops_depth h3 ho
        obtain ⟨l, hl, hfl⟩ := List.mem_flatten.mp hf'
        obtain ⟨f0, hf0, hoff⟩ := mapE_mem h1 hl
        rw [← he, offsetPolyface_depth hoff f' hfl]
        exact hdd f0 hf0
      · obtain ⟨-, groups, rfl, g1, g2, g3⟩ := C38_order h3
        exact flatten_pairwise g1 g3
      · intro o ho
        obtain ⟨f, hf, he⟩ := ops_depth h3 ho
        rw [← he]
        exact (C38_order h3).1 f (List.mem_append_left _ hf)

end CQ
