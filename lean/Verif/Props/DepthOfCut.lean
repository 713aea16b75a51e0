import Verif.Spec.DepthOfCut
import Verif.Props.PocketRun

/-! # C106: how deep a pocket cuts at once -/

namespace CQ

theorem flatMap_split {α β : Type} {F : β → List α} {ds : List β} {A B : List α} {x : α} (h : ds.flatMap F = A ++ x :: B) :
    ∃ ds1 d ds2 A' B', ds = ds1 ++ d :: ds2 ∧ A = ds1.flatMap F ++ A' ∧ F d = A' ++ x :: B' := by
  induction ds generalizing A with
  | nil => simp at h
  | cons d ds ih =>
    rw [List.flatMap_cons] at h
    rcases List.append_eq_append_iff.mp h with ⟨u, rfl, h2⟩ | ⟨u, h1, h2⟩
    · obtain ⟨ds1, d', ds2, A', B', rfl, rfl, h3⟩ := ih h2
      exact ⟨d :: ds1, d', ds2, A', B', rfl, by simp, h3⟩
    · cases u with
      | nil =>
        rw [List.nil_append] at h2
        obtain ⟨ds1, d', ds2, A', B', rfl, h4, h3⟩ := ih (A := []) h2.symm
        simp only [List.append_nil] at h1
        refine ⟨d :: ds1, d', ds2, A', B', rfl, ?_, h3⟩
        rw [List.flatMap_cons, List.append_assoc, ← h4, h1, List.append_nil]
      | cons y u =>
        simp only [List.cons_append, List.cons.injEq] at h2
        obtain ⟨rfl, rfl⟩ := h2
        exact ⟨[], d, ds, A, u, rfl, by simp, h1⟩

/-- All contours of the sequences are in the list, at the given depth. -/
def PassIn (fill : List (List PathFace)) (d : ℚ) (A : List (List PathFace)) : Prop :=
  ∀ g ∈ fill.flatten, ∃ s ∈ A, ∃ f ∈ s, f.outer = g.outer ∧ f.depth = d

/-- Before a sequence of a region, the sequences at the depth before have been run; or it starts at most a stepdown below the start. -/
theorem opSequences_layers {eng : Clipper} {fuel : ℕ} {stepover s : ℚ} {precision : ℕ} {shallower : List PathFace} {op : PathFace}
    {own : List (List PathFace)} (hs : 0 < s) (h : opSequences eng fuel stepover (some s) precision shallower op = .ok own) :
    ∃ fill, fillPocket eng fuel op stepover precision = .ok fill ∧ ∀ A q B, own = A ++ q :: B → ∃ z, (∀ f ∈ q, f.depth = z) ∧
      (∃ g ∈ fill, q.map PathFace.outer = g.map PathFace.outer) ∧
      ((determineStepdownStartDepth eng op shallower).getD 0 - s ≤ z ∨ ∃ d, d ≤ z + s ∧ PassIn fill d A) := by
  unfold opSequences at h
  obtain ⟨fill, hf, h⟩ := bind_ok.mp h
  simp only [if_neg hs.ne'] at h
  obtain ⟨stepped, h1, h⟩ := bind_ok.mp h
  rw [applyStepdown_fill hf] at h1
  cases h1
  cases h
  refine ⟨fill, hf, ?_⟩
  intro A q B hsplit
  set start := (determineStepdownStartDepth eng op shallower).getD 0 with hst
  have hlast : fill = [op.depth].flatMap (fun d => fill.map (fun q => q.map (fun f => f.cloneToDepth d))) := by
    simp only [List.flatMap_cons, List.flatMap_nil, List.append_nil]
    conv_lhs => rw [← List.map_id fill]
    apply List.map_congr_left
    intro q hq
    conv_lhs => rw [id, ← List.map_id q]
    apply List.map_congr_left
    intro f hfq
    have := (fill_depths hf).1 f (List.mem_flatten.mpr ⟨q, hq, hfq⟩)
    simp [PathFace.cloneToDepth, ← this]
  rw [show ((arange (start - s) op.depth (-s)).flatMap (fun d => fill.map (fun q => q.map (fun f => f.cloneToDepth d)))) ++ fill =
      (arange (start - s) op.depth (-s) ++ [op.depth]).flatMap (fun d => fill.map (fun q => q.map (fun f => f.cloneToDepth d))) by
    rw [List.flatMap_append, ← hlast]] at hsplit
  obtain ⟨ds1, d, ds2, A', B', hds, rfl, hd⟩ := flatMap_split hsplit
  have hq : q ∈ fill.map (fun q => q.map (fun f => f.cloneToDepth d)) := by rw [hd]; simp
  obtain ⟨g, hg, rfl⟩ := List.mem_map.mp hq
  refine ⟨d, ?_, ⟨g, hg, by rw [List.map_map]; rfl⟩, ?_⟩
  · intro f hfq
    obtain ⟨f', -, rfl⟩ := List.mem_map.mp hfq
    rfl
  have ha := arange_passes hs start op.depth
  by_cases hlt : op.depth < start
  · have hc := ha.1 hlt
    rw [hds] at hc
    rcases List.eq_nil_or_concat ds1 with rfl | ⟨ds0, d', rfl⟩
    · left
      have := (List.isChain_cons_cons.mp hc).1.2
      linarith
    · right
      simp only [List.concat_eq_append, List.append_assoc, List.cons_append, List.nil_append] at hc
      rw [show start :: (ds0 ++ d' :: d :: ds2) = (start :: ds0) ++ d' :: d :: ds2 by simp] at hc
      have := (List.isChain_append.mp hc).2.1
      have := (List.isChain_cons_cons.mp this).1.2
      refine ⟨d', by linarith, ?_⟩
      intro g' hg'
      obtain ⟨q', hq', hgq⟩ := List.mem_flatten.mp hg'
      refine ⟨q'.map (fun f => f.cloneToDepth d'), ?_, g'.cloneToDepth d', List.mem_map.mpr ⟨g', hgq, rfl⟩, rfl, rfl⟩
      apply List.mem_append_left
      refine List.mem_flatMap.mpr ⟨d', by simp, List.mem_map.mpr ⟨q', hq', rfl⟩⟩
  · left
    rw [not_lt] at hlt
    rw [ha.2 hlt, List.nil_append] at hds
    have : d = op.depth := by
      have : d ∈ [op.depth] := by rw [hds]; simp
      simpa using this
    linarith

/-- The region a sequence belongs to, and what comes before. -/
theorem allSequences_locate {eng : Clipper} {fuel : ℕ} {stepover : ℚ} {stepdown : Option ℚ} {precision : ℕ}
    {done ops : List PathFace} {seqs A B : List (List PathFace)} {q : List PathFace}
    (h : allSequences eng fuel stepover stepdown precision done ops = .ok seqs) (hs : seqs = A ++ q :: B) :
    ∃ p op p', ops = p ++ op :: p' ∧ ∃ s1 own A' B', allSequences eng fuel stepover stepdown precision done p = .ok s1 ∧
      opSequences eng fuel stepover stepdown precision (done ++ p) op = .ok own ∧ A = s1 ++ A' ∧ own = A' ++ q :: B' := by
  induction ops generalizing done seqs A with
  | nil => cases h; simp at hs
  | cons op ops ih =>
    rw [allSequences] at h
    obtain ⟨a, h1, h⟩ := bind_ok.mp h
    obtain ⟨b, h2, h⟩ := bind_ok.mp h
    cases h
    have hb : ∀ A2, A = a ++ A2 → b = A2 ++ q :: B → ∃ p op' p', op :: ops = p ++ op' :: p' ∧ ∃ s1 own A' B',
        allSequences eng fuel stepover stepdown precision done p = .ok s1 ∧
        opSequences eng fuel stepover stepdown precision (done ++ p) op' = .ok own ∧ A = s1 ++ A' ∧ own = A' ++ q :: B' := by
      rintro A2 rfl hb
      obtain ⟨p, op', p', rfl, s1, own, A', B', k1, k2, rfl, k4⟩ := ih h2 hb
      refine ⟨op :: p, op', p', rfl, a ++ s1, own, A', B', ?_, by simpa using k2, by simp, k4⟩
      rw [allSequences, h1, ok_bind, k1, ok_bind]
    rcases List.append_eq_append_iff.mp hs with ⟨u, e1, e2⟩ | ⟨u, e1, e2⟩
    · exact hb u e1 e2
    · cases u with
      | nil => exact hb [] (by simpa using e1.symm) (by simpa using e2.symm)
      | cons y u =>
        simp only [List.cons_append, List.cons.injEq] at e2
        obtain ⟨rfl, rfl⟩ := e2
        exact ⟨[], op, ops, rfl, [], a, A, u, rfl, by simpa using h1, rfl, e1⟩

/-- The feed moves of one contour, with those that lead to it. -/
theorem block_feeds_on {j : Job} {step : ℚ} {pwe : Option Pt} {pos : AddrVec} {f : PathFace} {b : List Motion}
    {q : Pt} {P : Pt → Prop} (hf : FaceOK j f) (hP : ∀ x, OnPath f.outer x → P x)
    (hprev : ∀ e, pwe = some e → P e ∧ pos = e.at f.depth) (h : FaceBlock j (some step) pwe pos f b q) :
    (∀ c ∈ b, c.kind.mot ≠ .rapid → FeedsOver P (fun _ => True) (fun _ _ => True) step j.opSafeHeight f.depth c) ∧ OnPath f.outer q := by
  have hcon : ∀ {p0 rest cuts}, (∀ s ∈ segments (p0 :: rest), ∀ x, OnSegment s.1 s.2 x → P x) →
      CutsAlong f.depth j.feed p0 rest cuts → ∀ c ∈ cuts, FeedsOver P (fun _ => True) (fun _ _ => True) step j.opSafeHeight f.depth c := by
    intro p0 rest cuts ho hc c hm
    obtain ⟨hk, s, hs, h1, h2⟩ := cutsAlong_mem hc hm
    exact ⟨s.1, s.2, ho s hs _ (onSegment_left _ _), ho s hs _ (onSegment_right _ _), by rw [hk]; rfl, h2, .inr ⟨h1, .inl (ho s hs)⟩⟩
  have hseg : ∀ s ∈ segments f.outer, ∀ x, OnSegment s.1 s.2 x → P x := fun s hs x hx => hP _ (onPath_of_segment hs hx)
  have happ : ∀ {p0 rest}, f.outer = p0 :: rest →
      ∀ c ∈ rapidTo pos ⟨p0.x, p0.y, f.depth⟩ j.rapidHeight (some j.opSafeHeight) (some j.plungeFeed), c.kind.mot ≠ .rapid →
        FeedsOver P (fun _ => True) (fun _ _ => True) step j.opSafeHeight f.depth c := by
    intro p0 rest ho c hm hk
    obtain ⟨h1, -, h3, h4⟩ := rapidTo_feeds _ _ _ _ _ c hm hk
    have := hP p0 (.inl (by rw [ho]; simp))
    exact ⟨p0, p0, this, this, by rw [h1.1]; rfl, h4, .inl ⟨rfl, h3⟩⟩
  cases h with
  | first p0 rest cuts ho hp hc =>
    refine ⟨?_, .inl (by rw [ho]; exact List.getLast_mem _)⟩
    intro c hm hk
    rcases List.mem_append.mp hm with hm | hm
    · exact happ ho c hm hk
    · exact hcon (by rw [← ho]; exact hseg) hc c hm
  | far e p0 rest n cuts chord hp hs ho hb hc hl =>
    refine ⟨?_, best_onPath hb⟩
    intro c hm hk
    rcases List.mem_append.mp hm with hm | hm
    · rcases List.mem_append.mp hm with hm | hm
      · exact happ ho c hm hk
      · exact hcon (by rw [← ho]; exact hseg) hc c hm
    · obtain ⟨hk', s, hs', h1, h2⟩ := cutsAlong_mem hl hm
      simp only [segments, List.mem_singleton] at hs'
      subst hs'
      have e1 : OnPath f.outer ((p0 :: rest).getLast (by simp)) := .inl (by rw [ho]; exact List.getLast_mem _)
      exact ⟨_, _, hP _ e1, hP _ (best_onPath hb), by rw [hk']; rfl, h2, .inr ⟨h1, .inr (.inr trivial)⟩⟩
  | link e n s cuts hp hs hb h0 hd hc =>
    refine ⟨?_, best_onPath hb⟩
    obtain ⟨a, b, g1, g2⟩ := hb.at_index
    have hon : OnSegment a b n.point := ⟨n.param, hb.param0, hb.param1, g2⟩
    have hlen : 2 ≤ f.outer.length := by
      rw [segments_get] at g1
      have := (List.getElem?_eq_some_iff.mp g1.2).1
      omega
    obtain ⟨v, mid, hform⟩ := closed_form hf.closed hlen
    have hkk : n.index ≤ mid.length := by
      have := (List.getElem?_eq_some_iff.mp g1).1
      rw [segments_length, hform] at this
      simp at this
      omega
    intro c hm hk
    rcases List.mem_cons.mp hm with rfl | hm
    · obtain ⟨k1, k2⟩ := hprev e hp
      exact ⟨e, n.point, k1, hP _ (best_onPath hb), rfl, rfl, .inr ⟨k2, .inr (.inr trivial)⟩⟩
    · refine hcon ?_ hc c hm
      intro s' hs' x hx
      rw [hform] at hs' g1
      obtain ⟨t, ht, h3, h4⟩ := around_segments hkk ⟨a, b, g1, hon⟩ s' hs'
      rw [← hform] at ht
      exact hP _ (onPath_of_segment ht (onSegment_trans h3 h4 hx))

theorem blocks_feeds_on {j : Job} {step : ℚ} {pwe : Option Pt} {pos : AddrVec} {faces : List PathFace}
    {bs : List (List Motion)} {P : Pt → Prop} {d : ℚ}
    (hf : ∀ f ∈ faces, FaceOK j f ∧ f.depth = d ∧ ∀ x, OnPath f.outer x → P x)
    (hprev : ∀ e, pwe = some e → P e ∧ pos = e.at d) (h : FaceBlocks j (some step) pwe pos faces bs) :
    ∀ c ∈ bs.flatten, c.kind.mot ≠ .rapid → FeedsOver P (fun _ => True) (fun _ _ => True) step j.opSafeHeight d c := by
  induction h with
  | nil => simp
  | @cons pwe pos f fs b bs q hb t ih =>
    obtain ⟨k1, k2, k3⟩ := hf f (by simp)
    subst k2
    obtain ⟨h1, h2⟩ := block_feeds_on k1 k3 hprev hb
    intro c hc hk
    rw [List.flatten_cons] at hc
    rcases List.mem_append.mp hc with hc | hc
    · exact h1 c hc hk
    · exact ih (fun g hg => hf g (by simp [hg])) (by rintro e ⟨⟩; exact ⟨k3 _ h2, rfl⟩) c hc hk

/-- The commands of the sequences, in order: those of one sequence cut all of its contours and feed only between points of them. -/
theorem routeSequences_parts {j : Job} {step : ℚ} {seqs : List (List PathFace)} (hok : ∀ s ∈ seqs, ∀ f ∈ s, FaceOK j f)
    {acc cs : List Motion} {pos : AddrVec} (h : routeSequences j step acc pos seqs = .ok cs) :
    ∃ bs, cs = acc ++ List.flatten bs ∧ List.Forall₂ (fun (s : List PathFace) (b : List Motion) =>
      (∀ f ∈ s, ∀ t ∈ segments f.outer, ∀ x, OnSegment t.1 t.2 x → ∃ c ∈ b, CutsThrough f.depth x c) ∧
      ∀ d (P : Pt → Prop), (∀ f ∈ s, f.depth = d ∧ ∀ x, OnPath f.outer x → P x) → ∀ c ∈ b, c.kind.mot ≠ .rapid →
        FeedsOver P (fun _ => True) (fun _ _ => True) step j.opSafeHeight d c) seqs bs := by
  induction seqs generalizing acc pos with
  | nil => cases h; exact ⟨[], by simp, .nil⟩
  | cons s ss ih =>
    unfold routeSequences at h
    obtain ⟨b, h1, h⟩ := bind_ok.mp h
    cases hl : (acc ++ b).getLast? with
    | none => rw [hl] at h; cases h
    | some cmd =>
      rw [hl] at h
      obtain ⟨bs, rfl, k⟩ := ih (fun x hx => hok x (by simp [hx])) h
      refine ⟨b :: bs, by simp, .cons ⟨?_, ?_⟩ k⟩
      · obtain ⟨b1, g1, g2⟩ := C27_contours_cut j s (some step) (some pos) (hok s (by simp))
        rw [h1] at g1
        cases g1
        intro f hf t ht x hx
        obtain ⟨b', hb', pre, cuts, post, rfl, -, k3⟩ := forall₂_mem_left g2 hf
        obtain ⟨c, hc, hcut⟩ := k3 t ht x hx
        exact ⟨c, List.mem_flatten.mpr ⟨_, hb', by simp [hc]⟩, hcut⟩
      · obtain ⟨b2, g3, g4⟩ := routeFaces_blocks (stepover := some step) (hok s (by simp)) none pos
        have h1' : routeFaces j (some step) none pos s = .ok b := h1
        rw [g3] at h1'
        cases h1'
        intro d P hP
        exact blocks_feeds_on (fun f hf => ⟨hok s (by simp) f hf, hP f hf⟩) (by rintro e ⟨⟩) g4

theorem flatten_split {α : Type} {bs : List (List α)} {A B : List α} {x : α} (h : bs.flatten = A ++ x :: B) :
    ∃ bs1 b bs2 A' B', bs = bs1 ++ b :: bs2 ∧ A = bs1.flatten ++ A' ∧ b = A' ++ x :: B' := by
  have h' : bs.flatMap id = A ++ x :: B := by rw [List.flatMap_id]; exact h
  obtain ⟨ds1, d, ds2, A', B', h1, h2, h3⟩ := flatMap_split h'
  exact ⟨ds1, d, ds2, A', B', h1, by rw [h2, List.flatMap_id], h3⟩

theorem forall₂_split_right {α β : Type} {R : α → β → Prop} {as : List α} {bs bs1 bs2 : List β} {b : β} (h : List.Forall₂ R as bs)
    (hb : bs = bs1 ++ b :: bs2) : ∃ as1 a as2, as = as1 ++ a :: as2 ∧ List.Forall₂ R as1 bs1 ∧ R a b ∧ List.Forall₂ R as2 bs2 := by
  induction h generalizing bs1 with
  | nil => simp at hb
  | @cons a0 b0 as bs h1 h2 ih =>
    cases bs1 with
    | nil =>
      simp only [List.nil_append, List.cons.injEq] at hb
      obtain ⟨rfl, rfl⟩ := hb
      exact ⟨[], a0, as, rfl, .nil, h1, h2⟩
    | cons b1 bs1 =>
      simp only [List.cons_append, List.cons.injEq] at hb
      obtain ⟨rfl, hb⟩ := hb
      obtain ⟨as1, a, as2, rfl, k1, k2, k3⟩ := ih hb
      exact ⟨a0 :: as1, a, as2, rfl, .cons h1 k1, k2, k3⟩

/-- Commands: before every feed move the region has been cleared to a stepdown above it. -/
theorem pocket_layers {G : List Pt → Prop} {δ : ℚ} {eng : Clipper} {j : Job} (heng : ClipperNearOn G δ eng) (hk : MakesKind G eng)
    (hsh : ShrinksNear G δ j.precision eng) (he : NoRepeats eng) (hcon : ContainsRight G eng) {fuel : ℕ}
    {opAreas avoidAreas : List PathFace}
    {outerOffset innerOffset avoidOuterOffset avoidInnerOffset stepover s : ℚ} {cs : List Motion}
    (h : pocketClipper eng fuel j opAreas avoidAreas outerOffset innerOffset avoidOuterOffset avoidInnerOffset stepover
      (some s) = .ok cs) (hsafe : 0 < j.opSafeHeight) (hstep : 0 < stepover) (hs : 0 < s) :
    ∃ areas avoids regions,
      mapE (fun f => offsetPolyface eng f outerOffset innerOffset j.precision) opAreas = .ok areas ∧
      mapE (fun f => offsetPolyface eng f avoidOuterOffset avoidInnerOffset j.precision) avoidAreas = .ok avoids ∧
      buildPocketOps eng areas.flatten avoids.flatten = .ok regions ∧
      ∀ pre c post, cs = pre ++ c :: post → c.kind.mot ≠ .rapid → ∃ r ∈ regions, ∃ contours z,
        Unfolds (Follows eng r stepover j.precision) [r.outer] contours ∧ r.depth ≤ z ∧ z ≤ 0 ∧
        FeedsOver (fun x => ∃ k ∈ contours, OnOutline k x) (fun _ => True) (fun _ _ => True) stepover j.opSafeHeight z c ∧
        (-s ≤ z ∨ ∃ d, d ≤ z + s ∧ ∀ p, FaceRegion r p → (∀ o ∈ regions, ∀ i ∈ o.inners, FarFrom δ i p) →
          ∃ c' ∈ pre, ∃ q, CutsThrough d q c' ∧ sqDist p q ≤ (stepover + 2 * δ) ^ 2) := by
  unfold pocketClipper at h
  obtain ⟨areas, h1, h⟩ := bind_ok.mp h
  obtain ⟨avoids, h2, h⟩ := bind_ok.mp h
  obtain ⟨regions, h3, h⟩ := bind_ok.mp h
  obtain ⟨seqs, h4, h5⟩ := bind_ok.mp h
  refine ⟨areas, avoids, regions, h1, h2, h3, ?_⟩
  have hz : ∀ o ∈ regions, o.depth ≤ 0 := by
    intro o ho
    obtain ⟨f, hf, he⟩ := ops_depth h3 ho
    rw [← he]
    exact (C38_order h3).1 f (List.mem_append_left _ hf)
  have hpw : regions.Pairwise (fun a b => b.depth ≤ a.depth) := by
    obtain ⟨-, groups, rfl, g1, g2, g3⟩ := C38_order h3
    exact flatten_pairwise g1 g3
  have hclean := ops_clean he h3
  have hd := allSequences_depths (done := []) hpw (fun o ho => hz o ho) h4
  have hfill : ∀ op ∈ regions, ∀ fill, fillPocket eng fuel op stepover j.precision = .ok fill →
      ∀ g ∈ fill.flatten, Clean g.outer := by
    intro op hop fill hf g hg
    obtain ⟨xs, k1, k2, -⟩ := C42_complete hf
    rcases unfolds_mem k1 (k2.mem_iff.mp (List.mem_map.mpr ⟨g, hg, rfl⟩)) with hx | ⟨p, ps, hR, hx⟩
    · rw [List.mem_singleton] at hx
      rw [hx]; exact hclean op hop
    · exact follows_clean he hR _ hx
  have hok : ∀ q ∈ seqs, ∀ f ∈ q, FaceOK j f := by
    intro q hq f hf
    have hf := List.mem_flatten.mpr ⟨q, hq, hf⟩
    obtain ⟨op, hop, fill, k1, g, hg, ke⟩ := allSequences_faces h4 f hf
    have := hfill op hop fill k1 g hg
    rw [← ke] at this
    exact ⟨this.1, this.2, lt_of_le_of_lt (hd.1 f hf).2 hsafe⟩
  obtain ⟨bs, hbs, hparts⟩ := routeSequences_parts hok h5
  rw [List.nil_append] at hbs
  intro pre c post hsplit hfeed
  rw [hbs] at hsplit
  obtain ⟨bs1, b, bs2, A', B', hb, rfl, hbb⟩ := flatten_split hsplit
  obtain ⟨seqs1, q, seqs2, rfl, m1, ⟨-, m2⟩, -⟩ := forall₂_split_right hparts hb
  obtain ⟨p, op, p', rfl, s1, own, A2, B2, n1, n2, rfl, n4⟩ := allSequences_locate h4 rfl
  rw [List.nil_append] at n2
  obtain ⟨fill, hf, hlay⟩ := opSequences_layers hs n2
  obtain ⟨z, hzq, ⟨g, hg, hgq⟩, hprev⟩ := hlay _ _ _ n4
  have hop : op ∈ p ++ op :: p' := by simp
  obtain ⟨xs, hu, hperm, -⟩ := C42_complete hf
  -- a pass that has been run has cleared the region
  have hcleared : ∀ o ∈ p ++ op :: p', ∀ fl, fillPocket eng fuel o stepover j.precision = .ok fl → ∀ d, PassIn fl d (s1 ++ A2) →
      ∀ x, FaceRegion o x → (∀ i ∈ o.inners, FarFrom δ i x) →
        ∃ c' ∈ bs1.flatten, ∃ y, CutsThrough d y c' ∧ sqDist x y ≤ (stepover + 2 * δ) ^ 2 := by
    intro o ho fl hfl d hin x hx hfar
    obtain ⟨ys, hu', hperm', -⟩ := C42_complete hfl
    refine region_covered heng hk hsh he h3 ho hstep hu' ?_ hx hfar
    intro k hky t ht y hy
    obtain ⟨g', hg', rfl⟩ := List.mem_map.mp (hperm'.mem_iff.mpr hky)
    obtain ⟨q', hq', f', hf', e1, rfl⟩ := hin g' hg'
    obtain ⟨b', hb', r1, -⟩ := forall₂_mem_left m1 hq'
    obtain ⟨c', hc', hcut⟩ := r1 f' hf' t (by rw [e1]; exact ht) y hy
    exact ⟨c', List.mem_flatten.mpr ⟨b', hb', hc'⟩, hcut⟩
  have hmem : ∀ f ∈ q, f.outer ∈ xs := by
    intro f hfq
    obtain ⟨f', hf', e2⟩ := List.mem_map.mp (hgq ▸ List.mem_map.mpr ⟨f, hfq, rfl⟩ : f.outer ∈ g.map PathFace.outer)
    rw [← e2]
    exact hperm.mem_iff.mp (List.mem_map.mpr ⟨f', List.mem_flatten.mpr ⟨g, hg, hf'⟩, rfl⟩)
  have hbounds : op.depth ≤ z ∧ z ≤ 0 := by
    have hq : q ≠ [] := hd.2 q (by simp)
    obtain ⟨f, fs, rfl⟩ := List.exists_cons_of_ne_nil hq
    have i1 := opSequences_depths (fun o ho => (List.pairwise_append.mp hpw).2.2 o ho op (by simp))
      (fun o ho => hz o (by simp [ho])) (hz op hop) n2
    have := i1.1 f (List.mem_flatten.mpr ⟨f :: fs, by rw [n4]; simp, by simp⟩)
    rw [hzq f (by simp)] at this
    exact this
  refine ⟨op, hop, xs, z, hu, hbounds.1, hbounds.2, ?_, ?_⟩
  · refine m2 z _ (fun f hfq => ⟨hzq f hfq, fun x hx => ⟨f.outer, hmem f hfq, onOutline_of_path hx⟩⟩) c (by rw [hbb]; simp) hfeed
  rcases hprev with hst | ⟨d, hdz, hin⟩
  · obtain ⟨c1, c2⟩ := C44_start eng op p
    cases hdet : determineStepdownStartDepth eng op p with
    | none => rw [hdet] at hst; left; simpa using hst
    | some d =>
      rw [hdet] at hst
      obtain ⟨⟨o, ho, hc, rfl⟩, -⟩ := (c1 d).mp hdet
      obtain ⟨fl, hfl, hin⟩ := fill_infix n1 ho
      have hoo : o ∈ p ++ op :: p' := by simp [ho]
      refine .inr ⟨o.depth, by simp at hst; linarith, fun x hx hfar => ?_⟩
      have hpass : PassIn fl o.depth (s1 ++ A2) := by
        intro g' hg'
        obtain ⟨q', hq', hgq⟩ := List.mem_flatten.mp hg'
        exact ⟨q', List.mem_append_left _ (hin.subset hq'), g', hgq, rfl, (fill_depths hfl).1 g' hg'⟩
      obtain ⟨c', hc', y, hy⟩ := hcleared o hoo fl hfl _ hpass x
        (hcon o op (kind_regions hk h3 o hoo) (kind_regions hk h3 op hop) hc x hx) (hfar o hoo)
      exact ⟨c', List.mem_append_left _ hc', y, hy⟩
  · refine .inr ⟨d, hdz, fun x hx hfar => ?_⟩
    obtain ⟨c', hc', y, hy⟩ := hcleared op hop fill hf d (fun g' hg' => by
      obtain ⟨q', hq', r⟩ := hin g' hg'
      exact ⟨q', List.mem_append_right _ hq', r⟩) x hx (hfar op hop)
    exact ⟨c', List.mem_append_left _ hc', y, hy⟩

/-- C106.  A pocket never cuts more than a stepdown at once: take the part of a pocket with a positive stepdown `s` in the program of any
job.  Every feed move of the machine is at (or down to) a printed depth `z` of a region of the pocket that is at least as deep as the
move, from and to points on contours of that region.  And either `z` is at most `s` below the surface of the stock, or before this move
the machine has already milled everywhere over the region at a height that is at most `s` above `z` (up to the rounding of the
coordinates; reaching as far as a step, twice the tolerance of the polygon engine, and a thousandth). -/
theorem C106_pocket {G : List Pt → Prop} {δ : ℚ} {eng : Clipper} {j0 : Job} (heng : ClipperNearOn G δ eng) (hk : MakesKind G eng)
    (hsh : ShrinksNear G δ j0.precision eng) (hr : NoRepeats eng) (hcon : ContainsRight G eng) {veq : Vec → Vec → Bool} {fuel : ℕ}
    {opAreas avoidAreas : List CqFace} {a : PocketArgs} {s : ℚ} {tool : Option Tool} {j1 j2 jf : Job} {before after : List Request}
    (m : Machine) (h0 : InitOK j0) (hn : ∀ v, j0.toolNumber = some v → NumOK v)
    (hok : ChainOK j0 (before ++ pocketRequest eng veq fuel opAreas avoidAreas a tool :: after))
    (h1 : j0.chain before = .ok j1) (h2 : (j1.call (pocketRequest eng veq fuel opAreas avoidAreas a tool)).2 = .ok j2)
    (h3 : j2.chain after = .ok jf) (hend : m.ended = false)
    (htool : ∀ n, j0.toolNumber = some n → m.tool = some n.value) (hsafe : 0 < j0.opSafeHeight)
    (hs : a.stepdown = some s) (hpos : 0 < s)
    (hstep : ∀ diameter, (j1.settings.inherit tool).toolDiameter = some diameter →
      0 < offsetDistance (diameter / 2) (1 / 2) a.stepover) :
    ∃ t m' pre part post diameter faces avoidFaces areas avoids regions, jf.toGcode = .ok t ∧
      runText m t = some (m', pre ++ part ++ post) ∧ (j1.settings.inherit tool).toolDiameter = some diameter ∧
      List.Forall₂ (FlatFace veq j0.precision) opAreas faces ∧
      List.Forall₂ (FlatFace veq j0.precision) avoidAreas avoidFaces ∧
      List.Forall₂ (OffsetFaces eng
          (if avoidAreas ≠ [] ∧ a.outerOffset = none then 0 else offsetDistance (diameter / 2) (-1) a.outerOffset)
          (offsetDistance (diameter / 2) 1 a.innerOffset) j0.precision) faces areas ∧
      List.Forall₂ (OffsetFaces eng (offsetDistance (diameter / 2) 1 a.avoidOuterOffset)
          (offsetDistance (diameter / 2) (-1) a.avoidInnerOffset) j0.precision) avoidFaces avoids ∧
      buildPocketOps eng areas.flatten avoids.flatten = .ok regions ∧
      ∀ earlier e later, part = earlier ++ e :: later → isFeedMove e = true → ∃ r ∈ regions, ∃ contours z,
        Unfolds (Follows eng r (offsetDistance (diameter / 2) (1 / 2) a.stepover) j0.precision) [r.outer] contours ∧
        rnd 3 r.depth ≤ z ∧ z ≤ 0 ∧
        (∃ p q, (∃ c ∈ contours, OnOutline c p) ∧ (∃ c ∈ contours, OnOutline c q) ∧ FeedsFromTo p q z e) ∧
        (-s - 1 / 2000 ≤ z ∨ ∃ d, d ≤ z + s + 1 / 1000 ∧
          ClearedAt d (offsetDistance (diameter / 2) (1 / 2) a.stepover + 2 * δ + 1 / 1000) δ regions r earlier) := by
  obtain ⟨t, m', pre, part, post, cs, e1, e2, hcs, -, hfol, hpart⟩ := C94_followed m h0 hn hok h1 h2 h3 hend htool
  have hb : SameBase j0 (j1.updateTool tool).2 :=
    updateTool_base (chain_base (by unfold SameBase; rfl) h1) _
  have hset : (j1.updateTool tool).2.settings = j1.settings.inherit tool := by
    obtain ⟨-, -, -, h, -⟩ := updateTool_commands j1 tool
    exact h
  have hprec : (j1.updateTool tool).2.precision = j0.precision := by rw [hb]
  have hsh' : (j1.updateTool tool).2.opSafeHeight = j0.opSafeHeight := (sameBase_heights hb).2.1
  have hcs : pocket eng veq fuel opAreas avoidAreas a (j1.updateTool tool).2 = .ok cs := hcs
  have hfol := hfol (tracks_connected (C26_pocket hcs))
  obtain ⟨diameter, faces, avoidFaces, g1, g3, g4, g5⟩ := pocket_open hcs
  have hd : (j1.settings.inherit tool).toolDiameter = some diameter := by rw [← hset]; exact g1
  rw [hs] at g5
  obtain ⟨areas, avoids, regions, k1, k2, k3, k4⟩ := pocket_layers heng hk (hprec ▸ hsh) hr hcon g5 (by rw [hsh']; exact hsafe) (by
    rw [calculateOffset_distance]; exact hstep _ hd) hpos
  rw [hprec] at g3 g4 k1 k2
  have hδ := heng.nonneg
  refine ⟨t, m', pre, part, post, diameter, faces, avoidFaces, areas, avoids, regions, e1, e2, hd, g3, g4, ?_, ?_, k3, ?_⟩
  · refine (mapE_ok.mp k1).imp fun f gs hf => ?_
    have := offsetPolyface_spec hf
    rw [calculateOffset_distance, calculateOffset_distance] at this
    by_cases hc : avoidAreas ≠ [] ∧ a.outerOffset = none
    · rw [if_pos hc] at this ⊢
      simpa [offsetDistance] using this
    · rw [if_neg hc] at this ⊢
      exact this
  · refine (mapE_ok.mp k2).imp fun f gs hf => ?_
    have := offsetPolyface_spec hf
    rwa [calculateOffset_distance, calculateOffset_distance] at this
  · rintro earlier e later rfl hf
    rw [List.filter_append, List.filter_cons_of_pos (isMove_of_isFeedMove hf)] at hfol
    obtain ⟨cs1, c, cs2, rfl, f1, hec, -⟩ := forall₂_split_right hfol.flip rfl
    obtain ⟨r, hr', contours, z, hu, d1, d2, hover, hprev⟩ := k4 cs1 c cs2 rfl (by
      intro hr
      obtain ⟨⟨tgt, ctr, hact, -⟩, -⟩ := hec
      rw [hr] at hact
      simp [isFeedMove, hact] at hf)
    rw [hprec, calculateOffset_distance] at hu
    obtain ⟨p, q, hp, hq, hfeed, -⟩ := feeds_of_follows hec hover (by rw [hsh']; linarith) (hpart e (by simp)).2
    have hz := abs_le.mp (abs_rnd3 z)
    refine ⟨r, hr', contours, rnd 3 z, hu, rnd_mono d1, by rw [← rnd_zero]; exact rnd_mono d2, ⟨p, q, hp, hq, hfeed⟩, ?_⟩
    rcases hprev with hprev | ⟨d, hdz, hcl⟩
    · left; linarith
    · refine .inr ⟨rnd 3 d, ?_, ?_⟩
      · have := abs_le.mp (abs_rnd3 d)
        linarith
      · intro x hx hfar
        obtain ⟨c', hc', y, hy, hxy⟩ := hcl x hx hfar
        obtain ⟨e', he', hec'⟩ := forall₂_mem_left f1 hc'
        obtain ⟨hem, hmv⟩ := List.mem_filter.mp he'
        obtain ⟨y', hy', hd'⟩ := mills_of_follows hec' hy (hpart e' (by simp [hem])).2
        refine ⟨e', hem, y', hy', ?_⟩
        rw [calculateOffset_distance] at hxy
        rw [add_comm _ (1 / 1000 : ℚ)]
        have := hstep _ hd
        exact sqDist_triangle (by norm_num) (by linarith) hxy hd'

/-! ### Two pockets beside each other -/

/-- Both are rectangles, one to the left of the other. -/
def apartRects (s t : List Pt) : Bool :=
  match rectOf s, rectOf t with
  | some (a, b), some (u, v) => decide (b.x < u.x ∨ v.x < a.x)
  | _, _ => false

def rectsApart (ss cs : List (List Pt)) : Except Err (List PolyNode) :=
  if cs = [] ∧ (ss.all fun s => (rectOf s).isSome) = true ∧ ss.Pairwise (fun s t => apartRects s t = true) then .ok (ss.map (.node · []))
  else .error .valueError

/-- An engine for rectangles beside each other. -/
def apartEngine : Clipper where
  offset := boxEngine.offset
  union := rectsApart
  difference := rectsApart
  contains o r := match rectOf o.outer, rectOf r.outer with
    | some (a, b), some (u, v) => decide (a.x ≤ u.x ∧ a.y ≤ u.y ∧ v.x ≤ b.x ∧ v.y ≤ b.y ∧ o.inners = [])
    | _, _ => false

theorem rectsApart_ok {ss cs : List (List Pt)} {tree : List PolyNode} (h : rectsApart ss cs = .ok tree) :
    cs = [] ∧ (∀ s ∈ ss, IsRect s) ∧ tree = ss.map (.node · []) ∧ ss.Pairwise (fun s t => ∀ p, ¬ (Inside s p ∧ Inside t p)) := by
  unfold rectsApart at h
  split at h
  · rename_i hc
    obtain ⟨h1, h2, h3⟩ := hc
    cases h
    have hrect : ∀ s ∈ ss, IsRect s := by
      intro s hs
      obtain ⟨⟨a, b⟩, hab⟩ := Option.isSome_iff_exists.mp (List.all_eq_true.mp h2 s hs)
      obtain ⟨k1, k2, k3⟩ := rectOf_some hab
      exact ⟨_, _, _, _, k1, k2, k3⟩
    refine ⟨h1, hrect, rfl, h3.imp ?_⟩
    intro s t hst p hp
    unfold apartRects at hst
    split at hst
    · rename_i a b u v e1 e2
      obtain ⟨k1, k2, k3⟩ := rectOf_some e1
      obtain ⟨m1, m2, m3⟩ := rectOf_some e2
      rw [k3, m3, inside_rect k1.le k2.le, inside_rect m1.le m2.le] at hp
      obtain ⟨⟨⟨p1, p2⟩, -⟩, ⟨p3, p4⟩, -⟩ := hp
      rcases of_decide_eq_true hst with h | h <;> linarith
    · cases hst
  · cases h

theorem insideCount_apart {ss : List (List Pt)} {p : Pt} (h : ss.Pairwise (fun s t => ∀ p, ¬ (Inside s p ∧ Inside t p))) :
    insideCount ss p ≤ 1 := by
  induction ss with
  | nil => simp [insideCount]
  | cons s ss ih =>
    obtain ⟨h1, h2⟩ := List.pairwise_cons.mp h
    unfold insideCount at ih ⊢
    rw [List.countP_cons]
    by_cases hs : Inside s p
    · have : ss.countP (fun s => decide (Inside s p)) = 0 := by
        rw [List.countP_eq_zero]
        intro t ht hp
        exact h1 t ht p ⟨hs, of_decide_eq_true hp⟩
      simp [this, hs]
    · simpa [hs] using ih h2

theorem rectsApart_right {ss cs : List (List Pt)} {tree : List PolyNode} (h : rectsApart ss cs = .ok tree) {r : ℚ} {p : Pt}
    (hp : ∀ s ∈ ss ++ cs, FarFrom (r + 0) s p) : cs = [] ∧ RightNear r tree p (insideCount ss p % 2 = 1) := by
  obtain ⟨rfl, -, rfl, hap⟩ := rectsApart_ok h
  have hmap : (ss.map (PolyNode.node · [])).map PolyNode.contour = ss := by
    rw [List.map_map]
    conv_rhs => rw [← List.map_id ss]
    rfl
  refine ⟨rfl, ?_, by rw [hmap]; exact insideCount_apart hap, ?_⟩
  · intro n hn k hk
    obtain ⟨s, hs, rfl⟩ := List.mem_map.mp hn
    rw [below_leaf hk]
    have := hp s (by simp [hs])
    rwa [add_zero] at this
  · rw [insideCount_odd (insideCount_apart hap)]
    constructor
    · rintro ⟨n, hn, hin⟩
      obtain ⟨s, hs, rfl⟩ := List.mem_map.mp hn
      exact ⟨s, hs, (nodeRegion_iff.mp hin).1⟩
    · rintro ⟨s, hs, hin⟩
      exact ⟨_, List.mem_map.mpr ⟨s, hs, rfl⟩, nodeRegion_iff.mpr ⟨hin, by simp [PolyNode.childs]⟩⟩

theorem rectsApart_kind {ss cs : List (List Pt)} {tree : List PolyNode} (h : rectsApart ss cs = .ok tree) :
    ∀ n ∈ tree, ∀ k, n.Below k → ∀ q, ClosedAs k.contour q → IsRect q := by
  obtain ⟨rfl, hr, rfl, -⟩ := rectsApart_ok h
  intro n hn k hk q hq
  obtain ⟨s, hs, rfl⟩ := List.mem_map.mp hn
  rw [below_leaf hk] at hq
  obtain ⟨x0, y0, x1, y1, hx, hy, rfl⟩ := hr s hs
  exact ⟨_, _, _, _, hx, hy, IsRect.closed hq⟩

theorem apartEngine_near : ClipperNearOn IsRect 0 apartEngine where
  nonneg := le_rfl
  kind := by
    intro ss cs tree _ h n hn q hq
    exact rectsApart_kind h n hn n (.self n) q hq
  union := by
    intro ss cs tree _ h r _ p hp
    obtain ⟨rfl, k⟩ := rectsApart_right h hp
    simpa [insideCount] using k
  difference := by
    intro ss cs tree _ h r _ p hp
    obtain ⟨rfl, k⟩ := rectsApart_right h hp
    simpa [insideCount] using k

theorem apartEngine_kind : MakesKind IsRect apartEngine where
  offset := boxEngine_kind.offset
  difference := fun _ _ _ h => rectsApart_kind h

theorem apartEngine_shrinks {k : ℕ} : ShrinksNear IsRect 0 k apartEngine where
  keeps := (boxEngine_shrinks (k := k)).keeps
  near := (boxEngine_shrinks (k := k)).near

theorem apartEngine_noRepeats : NoRepeats apartEngine where
  offset := boxEngine_noRepeats.offset
  difference := by
    intro ss cs tree h n hn q' hc
    obtain ⟨x0, y0, x1, y1, hx, hy, rfl⟩ := apartEngine_kind.difference _ _ _ h n hn n (.self n) q' hc
    exact rect_segments hx hy

theorem apartEngine_contains : ContainsRight IsRect apartEngine := by
  intro o r _ _ h p hp
  simp only [apartEngine] at h
  split at h
  · rename_i a b u v e1 e2
    obtain ⟨k1, k2, k3⟩ := rectOf_some e1
    obtain ⟨m1, m2, m3⟩ := rectOf_some e2
    obtain ⟨c1, c2, c3, c4, c5⟩ := of_decide_eq_true h
    have := hp.1
    rw [m3, inside_rect m1.le m2.le] at this
    obtain ⟨⟨p1, p2⟩, p3, p4⟩ := this
    refine ⟨?_, by rw [c5]; simp⟩
    rw [k3, inside_rect k1.le k2.le]
    exact ⟨⟨c1.trans p1, p2.trans_le c3⟩, c2.trans p3, p4.trans_le c4⟩
  · cases h

/-- A square of side 6 beside the other one, three deeper. -/
def deepFace : CqFace := ⟨outline [(1, ⟨10, 0⟩, ⟨16, 0⟩, 6), (2, ⟨16, 0⟩, ⟨16, 6⟩, 6), (3, ⟨16, 6⟩, ⟨10, 6⟩, 6), (4, ⟨10, 6⟩, ⟨10, 0⟩, 6)],
  [], -4, -4⟩

def deepPocket : Request := pocketRequest apartEngine exactEq 9 [squareFace, deepFace] [] { stepdown := some 2 }

theorem deepPocket_call : ∃ cs, deepPocket.gen twoJob = .ok cs ∧ RequestOK twoJob deepPocket ∧
    (twoJob.call deepPocket).2 = .ok (twoJob.addOperation "Pocket".toList (cs.map .motion)) :=
  call_good rfl rfl (by unfold SafeName; decide) (by decide +kernel)

/-- The passes of the two pockets with a stepdown of 2: first both at depth 1, then the deep one at depth 3 (two below the first
pass) and at depth 4. -/
example : (match deepPocket.gen twoJob with
    | .ok cs => decide ((cs.filter (fun c => decide (c.kind = .plungeCut))).map (fun c => c.fin.z) = [some (-1), some (-1), some (-3), some (-4)])
    | .error _ => false) = true := by decide +kernel

/-- The hypotheses of `C106_pocket`. -/
example : ∃ j2 t m' pre part post diameter regions, (twoJob.call deepPocket).2 = .ok j2 ∧ j2.toGcode = .ok t ∧
    runText {} t = some (m', pre ++ part ++ post) ∧ twoJob.toolDiameter = some diameter ∧
    ∀ earlier e later, part = earlier ++ e :: later → isFeedMove e = true → ∃ r ∈ regions, ∃ z, rnd 3 r.depth ≤ z ∧ z ≤ 0 ∧
      (∃ p q, FeedsFromTo p q z e) ∧
      (-2 - 1 / 2000 ≤ z ∨ ∃ d, d ≤ z + 2 + 1 / 1000 ∧ ClearedAt d (1 / 2 + 2 * 0 + 1 / 1000) 0 regions r earlier) := by
  obtain ⟨cs, -, hr, h⟩ := deepPocket_call
  obtain ⟨t, m', pre, part, post, d, faces, avoidFaces, areas, avoids, regions, h1, h2, h3, -, -, -, -, -, h9⟩ :=
    C106_pocket (before := []) (after := []) (s := 2) apartEngine_near apartEngine_kind apartEngine_shrinks apartEngine_noRepeats
      apartEngine_contains {} twoJob_ok (by rintro v ⟨⟩) ⟨hr, fun _ _ => trivial⟩ rfl h rfl rfl (by rintro n ⟨⟩) (by decide +kernel)
      rfl (by norm_num) (by rintro d ⟨⟩; norm_num [offsetDistance])
  cases h3
  refine ⟨_, t, m', pre, part, post, 2, regions, h, h1, h2, rfl, fun earlier e later he hf => ?_⟩
  obtain ⟨r, hr', contours, z, -, k1, k2, ⟨p, q, -, -, k3⟩, k4⟩ := h9 earlier e later he hf
  refine ⟨r, hr', z, k1, k2, ⟨p, q, k3⟩, ?_⟩
  simpa [offsetDistance] using k4

/-! ### A stepdown below zero -/

theorem opSequences_negative {eng : Clipper} {fuel : ℕ} {stepover s : ℚ} {precision : ℕ} {shallower : List PathFace} {op : PathFace}
    (hs : s < 0) (hd : ∀ o ∈ shallower, op.depth ≤ o.depth) (h0 : op.depth ≤ 0) :
    opSequences eng fuel stepover (some s) precision shallower op = opSequences eng fuel stepover none precision shallower op := by
  unfold opSequences
  cases hf : fillPocket eng fuel op stepover precision with
  | error e => rfl
  | ok fill =>
    simp only [ok_bind, if_neg hs.ne]
    rw [applyStepdown_fill hf, ok_bind]
    have hst : op.depth ≤ (determineStepdownStartDepth eng op shallower).getD 0 := by
      cases hdet : determineStepdownStartDepth eng op shallower with
      | none => simpa using h0
      | some d =>
        obtain ⟨⟨o, ho, -, rfl⟩, -⟩ := ((C44_start eng op shallower).1 d).mp hdet
        exact hd o ho
    have : arange ((determineStepdownStartDepth eng op shallower).getD 0 - s) op.depth (-s) = [] := by
      unfold arange
      have : ⌈(op.depth - ((determineStepdownStartDepth eng op shallower).getD 0 - s)) / -s⌉ ≤ 0 := by
        rw [Int.ceil_le]
        push_cast
        apply div_nonpos_of_nonpos_of_nonneg <;> linarith
      rw [Int.toNat_of_nonpos this]
      rfl
    rw [this]
    rfl

theorem allSequences_negative {eng : Clipper} {fuel : ℕ} {stepover s : ℚ} {precision : ℕ} {done ops : List PathFace} (hs : s < 0)
    (hd : (done ++ ops).Pairwise (fun a b => b.depth ≤ a.depth)) (h0 : ∀ o ∈ ops, o.depth ≤ 0) :
    allSequences eng fuel stepover (some s) precision done ops = allSequences eng fuel stepover none precision done ops := by
  induction ops generalizing done with
  | nil => rfl
  | cons op ops ih =>
    rw [allSequences, allSequences, opSequences_negative hs (fun o ho => (List.pairwise_append.mp hd).2.2 o ho op (by simp))
      (h0 op (by simp)), ih (by simpa using hd) (fun o ho => h0 o (by simp [ho]))]

/-- C106 needs a positive stepdown: a negative one (as a distance downwards) is taken without complaint, and the pocket is made as if no
stepdown had been given, each region to its full depth at once. -/
theorem C106_negative {eng : Clipper} {veq : Vec → Vec → Bool} {fuel : ℕ} {opAreas avoidAreas : List CqFace} {a : PocketArgs} {s : ℚ}
    {j : Job} (hs : s < 0) :
    pocket eng veq fuel opAreas avoidAreas { a with stepdown := some s } j =
      pocket eng veq fuel opAreas avoidAreas { a with stepdown := none } j := by
  unfold pocket
  cases j.toolRadius with
  | none => rfl
  | some r =>
    simp only
    congr 1
    funext ops
    congr 1
    funext avoids
    unfold pocketClipper
    congr 1
    funext areas
    congr 1
    funext avs
    cases h3 : buildPocketOps eng areas.flatten avs.flatten with
    | error e => rfl
    | ok regions =>
      rw [ok_bind, ok_bind, allSequences_negative hs]
      · obtain ⟨-, groups, rfl, g1, g2, g3⟩ := C38_order h3
        exact flatten_pairwise g1 g3
      · intro o ho
        obtain ⟨f, hf, he⟩ := ops_depth h3 ho
        rw [← he]
        exact (C38_order h3).1 f (List.mem_append_left _ hf)

/-- The same two pockets with a stepdown of -2: the deep one is cut at once. -/
example : (match pocket apartEngine exactEq 9 [squareFace, deepFace] [] { stepdown := some (-2) } twoJob with
    | .ok cs => decide ((cs.filter (fun c => decide (c.kind = .plungeCut))).map (fun c => c.fin.z) = [some (-1), some (-1), some (-4)])
    | .error _ => false) = true := by decide +kernel

end CQ
