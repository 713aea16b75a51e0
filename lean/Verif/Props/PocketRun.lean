import Verif.Props.Arcs
import Verif.Props.PocketWitness
import Verif.Proofs.Parity
import Verif.Props.CoverageExample

/-! # C103: where the machine feeds in a pocket -/

namespace CQ

/-- A feed move at height `d`: straight down from height `sh` at a point with `P`, or sideways between points with `P`, on a way over points
with `P`, or no longer than a step (squared) over points with `Q`, or between points in the relation `C`. -/
def FeedsOver (P Q : Pt → Prop) (C : Pt → Pt → Prop) (step sh d : ℚ) (c : Motion) : Prop :=
  ∃ a b, P a ∧ P b ∧ c.kind.mot = .linear ∧ c.fin = b.at d ∧ ((a = b ∧ c.start = b.at sh) ∨
    (c.start = a.at d ∧ ((∀ x, OnSegment a b x → P x) ∨ (sqDist a b ≤ step ∧ ∀ x, OnSegment a b x → Q x) ∨ C a b)))

theorem onPath_of_segment {path : List Pt} {s : Pt × Pt} {q : Pt} (hs : s ∈ segments path) (hq : OnSegment s.1 s.2 q) : OnPath path q :=
  .inr ⟨s, hs, hq⟩

theorem segments_prefix {a b : List Pt} {s : Pt × Pt} (h : s ∈ segments a) : s ∈ segments (a ++ b) := by
  induction a with
  | nil => cases h
  | cons x a ih =>
    cases a with
    | nil => cases h
    | cons y a =>
      simp only [List.cons_append, segments, List.mem_cons] at h ih ⊢
      exact h.imp id ih

theorem onOutline_of_path {path : List Pt} {p : Pt} (h : OnPath path p) : OnOutline path p := by
  rcases h with h | ⟨s, hs, hp⟩
  · exact .inl (List.mem_append_left _ h)
  · exact .inr ⟨s, segments_prefix hs, hp⟩

/-- The way from a point inside a contour to the nearest point of the contour stays inside. -/
theorem nearest_inside {path : List Pt} (hc : IsClosedPath path) {e : Pt} {n : Nearest} (hb : BestOf e (segments path) n)
    (h0 : n.dist ≠ 0) (he : Inside path e) : ∀ x, OnSegment e n.point x → Inside path x ∨ OnOutline path x := by
  rintro x ⟨t, t0, t1, rfl⟩
  rcases t1.eq_or_lt with rfl | t1
  · refine .inr (onOutline_of_path ?_)
    have : e.lerp n.point 1 = n.point := by ext <;> simp [Pt.lerp]
    rw [this]
    exact best_onPath hb
  · refine .inl ((inside_of_avoid ?_).mp he)
    rintro y ⟨u, u0, u1, rfl⟩ hy
    obtain ⟨s, hs, hsy⟩ := closed_onSegment hc he hy
    obtain ⟨k, hk⟩ := List.getElem?_of_mem hs
    have hmin := hb.min k s.1 s.2 hk _ hsy
    have hpos : 0 < n.dist := lt_of_le_of_ne (by rw [hb.dist]; simp only [sqDist]; nlinarith [sq_nonneg (e.x - n.point.x), sq_nonneg (e.y - n.point.y)]) h0.symm
    have heq : sqDist e (e.lerp (e.lerp n.point t) u) = (u * t) ^ 2 * n.dist := by
      rw [hb.dist]; simp only [sqDist, Pt.lerp]; ring
    rw [heq] at hmin
    have h1 : u * t < 1 := by nlinarith
    have h2 : 0 ≤ u * t := mul_nonneg u0 t0
    nlinarith [mul_nonneg h2 hpos.le]

theorem block_over {j : Job} {step : ℚ} {pwe : Option Pt} {pos : AddrVec} {f : PathFace} {b : List Motion}
    {q : Pt} {P Q : Pt → Prop} {C : Pt → Pt → Prop} (hf : FaceOK j f) (hP : ∀ x, OnPath f.outer x → P x)
    (hQ : ∀ x, Inside f.outer x ∨ OnOutline f.outer x → Q x) (hC : ∀ a b, OnPath f.outer a → OnPath f.outer b → C a b)
    (hprev : ∀ e, pwe = some e → P e ∧ pos = e.at f.depth ∧ Inside f.outer e) (h : FaceBlock j (some step) pwe pos f b q) :
    (∀ c ∈ b, c.kind.mot ≠ .rapid → FeedsOver P Q C step j.opSafeHeight f.depth c) ∧ OnPath f.outer q := by
  have hcon : ∀ {p0 rest cuts}, (∀ s ∈ segments (p0 :: rest), ∀ x, OnSegment s.1 s.2 x → P x) →
      CutsAlong f.depth j.feed p0 rest cuts → ∀ c ∈ cuts, FeedsOver P Q C step j.opSafeHeight f.depth c := by
    intro p0 rest cuts ho hc c hm
    obtain ⟨hk, s, hs, h1, h2⟩ := cutsAlong_mem hc hm
    exact ⟨s.1, s.2, ho s hs _ (onSegment_left _ _), ho s hs _ (onSegment_right _ _), by rw [hk]; rfl, h2, .inr ⟨h1, .inl (ho s hs)⟩⟩
  have hseg : ∀ s ∈ segments f.outer, ∀ x, OnSegment s.1 s.2 x → P x := fun s hs x hx => hP _ (onPath_of_segment hs hx)
  have happ : ∀ {p0 rest}, f.outer = p0 :: rest →
      ∀ c ∈ rapidTo pos ⟨p0.x, p0.y, f.depth⟩ j.rapidHeight (some j.opSafeHeight) (some j.plungeFeed), c.kind.mot ≠ .rapid →
        FeedsOver P Q C step j.opSafeHeight f.depth c := by
    intro p0 rest ho c hm hk
    obtain ⟨h1, -, h3, h4⟩ := rapidTo_feeds _ _ _ _ _ c hm hk
    have := hP p0 (.inl (by rw [ho]; simp))
    exact ⟨p0, p0, this, this, by rw [h1.1]; rfl, h4, .inl ⟨rfl, h3⟩⟩
  cases h with
  | first p0 rest cuts ho hp hc =>
    refine ⟨?_, .inl (by rw [ho]; exact List.getLast_mem _)⟩
    intro c hm hk
    rcases List.mem_append.mp hm with hm | hm
    · exact happ ho c hm hk
    · exact hcon (by rw [← ho]; exact hseg) hc c hm
  | far e p0 rest n cuts chord hp hs ho hb hc hl =>
    refine ⟨?_, best_onPath hb⟩
    intro c hm hk
    rcases List.mem_append.mp hm with hm | hm
    · rcases List.mem_append.mp hm with hm | hm
      · exact happ ho c hm hk
      · exact hcon (by rw [← ho]; exact hseg) hc c hm
    · obtain ⟨hk', s, hs', h1, h2⟩ := cutsAlong_mem hl hm
      simp only [segments, List.mem_singleton] at hs'
      subst hs'
      have e1 : OnPath f.outer ((p0 :: rest).getLast (by simp)) := .inl (by rw [ho]; exact List.getLast_mem _)
      exact ⟨_, _, hP _ e1, hP _ (best_onPath hb), by rw [hk']; rfl, h2, .inr ⟨h1, .inr (.inr (hC _ _ e1 (best_onPath hb)))⟩⟩
  | link e n s cuts hp hs hb h0 hd hc =>
    refine ⟨?_, best_onPath hb⟩
    obtain ⟨a, b, g1, g2⟩ := hb.at_index
    have hon : OnSegment a b n.point := ⟨n.param, hb.param0, hb.param1, g2⟩
    have hlen : 2 ≤ f.outer.length := by
      rw [segments_get] at g1
      have := (List.getElem?_eq_some_iff.mp g1.2).1
      omega
    obtain ⟨v, mid, hform⟩ := closed_form hf.closed hlen
    have hkk : n.index ≤ mid.length := by
      have := (List.getElem?_eq_some_iff.mp g1).1
      rw [segments_length, hform] at this
      simp at this
      omega
    cases hs
    intro c hm hk
    rcases List.mem_cons.mp hm with rfl | hm
    · obtain ⟨k1, k2, k3⟩ := hprev e hp
      refine ⟨e, n.point, k1, hP _ (best_onPath hb), rfl, rfl, .inr ⟨k2, .inr (.inl ⟨by rw [← hb.dist]; exact hd, fun x hx => ?_⟩)⟩⟩
      exact hQ x (nearest_inside hf.closed hb h0 k3 x hx)
    · refine hcon ?_ hc c hm
      intro s' hs' x hx
      rw [hform] at hs' g1
      obtain ⟨t, ht, h3, h4⟩ := around_segments hkk ⟨a, b, g1, hon⟩ s' hs'
      rw [← hform] at ht
      exact hP _ (onPath_of_segment ht (onSegment_trans h3 h4 hx))

theorem blocks_over {j : Job} {step : ℚ} {pwe : Option Pt} {pos : AddrVec} {faces : List PathFace}
    {bs : List (List Motion)} {P Q : Pt → Prop} {C : Pt → Pt → Prop} {d : ℚ}
    (hf : ∀ f ∈ faces, FaceOK j f ∧ f.depth = d ∧ (∀ x, OnPath f.outer x → P x) ∧
      (∀ x, Inside f.outer x ∨ OnOutline f.outer x → Q x) ∧ ∀ a b, OnPath f.outer a → OnPath f.outer b → C a b)
    (hch : List.IsChain (fun a b : PathFace => ∀ x, OnPath a.outer x → Inside b.outer x) faces)
    (hprev : ∀ e, pwe = some e → P e ∧ pos = e.at d ∧ ∀ f, faces.head? = some f → Inside f.outer e)
    (h : FaceBlocks j (some step) pwe pos faces bs) :
    ∀ c ∈ bs.flatten, c.kind.mot ≠ .rapid → FeedsOver P Q C step j.opSafeHeight d c := by
  induction h with
  | nil => simp
  | @cons pwe pos f fs b bs q hb t ih =>
    obtain ⟨k1, k2, k3, k4, k5⟩ := hf f (by simp)
    subst k2
    obtain ⟨h1, h2⟩ := block_over k1 k3 k4 k5 (fun e he => by
      obtain ⟨m1, m2, m3⟩ := hprev e he
      exact ⟨m1, m2, m3 f rfl⟩) hb
    intro c hc hk
    rw [List.flatten_cons] at hc
    rcases List.mem_append.mp hc with hc | hc
    · exact h1 c hc hk
    · refine ih (fun g hg => hf g (by simp [hg])) hch.tail ?_ c hc hk
      rintro e ⟨⟩
      refine ⟨k3 _ h2, rfl, fun g hg => ?_⟩
      cases fs with
      | nil => cases hg
      | cons g' fs =>
        cases hg
        exact (List.isChain_cons_cons.mp hch).1 _ h2

theorem routeSequences_over {j : Job} {step : ℚ} {seqs : List (List PathFace)} {R : Motion → Prop}
    (hs : ∀ s ∈ seqs, ∃ P Q C d, (∀ f ∈ s, FaceOK j f ∧ f.depth = d ∧ (∀ x, OnPath f.outer x → P x) ∧
        (∀ x, Inside f.outer x ∨ OnOutline f.outer x → Q x) ∧ ∀ a b, OnPath f.outer a → OnPath f.outer b → C a b) ∧
      List.IsChain (fun a b : PathFace => ∀ x, OnPath a.outer x → Inside b.outer x) s ∧
      ∀ c, FeedsOver P Q C step j.opSafeHeight d c → R c)
    {acc cs : List Motion} {pos : AddrVec} (ha : ∀ c ∈ acc, c.kind.mot ≠ .rapid → R c)
    (h : routeSequences j step acc pos seqs = .ok cs) : ∀ c ∈ cs, c.kind.mot ≠ .rapid → R c := by
  induction seqs generalizing acc pos with
  | nil => cases h; exact ha
  | cons s ss ih =>
    unfold routeSequences at h
    obtain ⟨b, h1, h⟩ := bind_ok.mp h
    have hacc : ∀ c ∈ acc ++ b, c.kind.mot ≠ .rapid → R c := by
      intro c hc hk
      rcases List.mem_append.mp hc with hc | hc
      · exact ha c hc hk
      · obtain ⟨P, Q, C, d, k1, k2, k3⟩ := hs s (by simp)
        obtain ⟨bs, g1, g2⟩ := routeFaces_blocks (stepover := some step) (fun f hf => (k1 f hf).1) none pos
        have h1' : routeFaces j (some step) none pos s = .ok b := h1
        rw [g1] at h1'
        cases h1'
        exact k3 c (blocks_over k1 k2 (by rintro e ⟨⟩) g2 c hc hk)
    cases hl : (acc ++ b).getLast? with
    | none => rw [hl] at h; cases h
    | some cmd =>
      rw [hl] at h
      exact ih (fun x hx => hs x (by simp [hx])) hacc h

/-- The passes of a region: each sequence is at one depth and consists of the contours of a sequence of the region. -/
theorem opSequences_uniform {eng : Clipper} {fuel : ℕ} {stepover : ℚ} {stepdown : Option ℚ} {precision : ℕ}
    {shallower : List PathFace} {op : PathFace} {seqs : List (List PathFace)}
    (h : opSequences eng fuel stepover stepdown precision shallower op = .ok seqs) :
    ∃ fill, fillPocket eng fuel op stepover precision = .ok fill ∧
      ∀ s ∈ seqs, ∃ d, (∀ f ∈ s, f.depth = d) ∧ ∃ g ∈ fill, s.map PathFace.outer = g.map PathFace.outer := by
  unfold opSequences at h
  obtain ⟨fill, hf, h⟩ := bind_ok.mp h
  obtain ⟨d1, -, -⟩ := fill_depths hf
  have hfill : ∀ s ∈ fill, ∃ d, (∀ f ∈ s, f.depth = d) ∧ ∃ g ∈ fill, s.map PathFace.outer = g.map PathFace.outer := fun s hs =>
    ⟨op.depth, fun f hfs => d1 f (List.mem_flatten.mpr ⟨s, hs, hfs⟩), s, hs, rfl⟩
  refine ⟨fill, hf, ?_⟩
  cases stepdown with
  | none => cases h; exact hfill
  | some s =>
    by_cases hs : s = 0
    · simp only [if_pos hs] at h; cases h; exact hfill
    · simp only [if_neg hs] at h
      obtain ⟨st, h1, h8⟩ := bind_ok.mp h
      rw [applyStepdown_fill hf] at h1
      cases h1
      cases h8
      intro q hq
      rcases List.mem_append.mp hq with hq | hq
      · obtain ⟨d, hd', hq⟩ := List.mem_flatMap.mp hq
        obtain ⟨q', hq', rfl⟩ := List.mem_map.mp hq
        refine ⟨d, fun f hfq => ?_, q', hq', ?_⟩
        · obtain ⟨g, hg, rfl⟩ := List.mem_map.mp hfq
          rfl
        · rw [List.map_map]; rfl
      · exact hfill q hq

theorem allSequences_uniform {eng : Clipper} {fuel : ℕ} {stepover : ℚ} {stepdown : Option ℚ} {precision : ℕ}
    {done ops : List PathFace} {seqs : List (List PathFace)}
    (hd : (done ++ ops).Pairwise (fun a b => b.depth ≤ a.depth)) (h0 : ∀ o ∈ done ++ ops, o.depth ≤ 0)
    (h : allSequences eng fuel stepover stepdown precision done ops = .ok seqs) :
    ∀ s ∈ seqs, ∃ op ∈ ops, ∃ fill, fillPocket eng fuel op stepover precision = .ok fill ∧
      ∃ d, (∀ f ∈ s, f.depth = d ∧ op.depth ≤ d ∧ d ≤ 0) ∧ ∃ g ∈ fill, s.map PathFace.outer = g.map PathFace.outer := by
  induction ops generalizing done seqs with
  | nil => cases h; simp
  | cons op ops ih =>
    rw [allSequences] at h
    obtain ⟨a, h1, h⟩ := bind_ok.mp h
    obtain ⟨b, h2, h⟩ := bind_ok.mp h
    cases h
    intro s hs
    rcases List.mem_append.mp hs with hs | hs
    · obtain ⟨fill, k1, k2⟩ := opSequences_uniform h1
      have i1 := opSequences_depths (fun o ho => (List.pairwise_append.mp hd).2.2 o ho op (by simp))
        (fun o ho => h0 o (by simp [ho])) (h0 op (by simp)) h1
      obtain ⟨d, k3, k4⟩ := k2 s hs
      refine ⟨op, by simp, fill, k1, d, fun f hf => ?_, k4⟩
      obtain rfl := k3 f hf
      obtain ⟨m1, m2⟩ := i1.1 f (List.mem_flatten.mpr ⟨s, hs, hf⟩)
      exact ⟨rfl, m1, m2⟩
    · obtain ⟨o, ho, r⟩ := ih (done := done ++ [op]) (by simpa using hd) (fun o ho => h0 o (by simpa using ho)) h2 s hs
      exact ⟨o, by simp [ho], r⟩

/-- What follows a contour is of the engine's kind. -/
theorem follows_kind {G : List Pt → Prop} {eng : Clipper} (hk : MakesKind G eng) {r : PathFace} {step : ℚ} {k : ℕ} {c : List Pt}
    {cs : List (List Pt)} (h : Follows eng r step k c cs) : ∀ x ∈ cs, G x := by
  obtain ⟨raw, shrunk, h1, h2, h3⟩ := h
  intro x hx
  split at h3
  · subst h3
    obtain ⟨q, hq, hqs⟩ := forall₂_mem_right h2 hx
    exact hk.offset _ _ _ _ h1 q (List.mem_of_mem_filter hq) _ hqs
  · obtain ⟨tree, h4, h5⟩ := h3
    obtain ⟨n, hn, hnx⟩ := forall₂_mem_right h5 hx
    exact hk.difference _ _ _ h4 n hn n (.self n) _ hnx

/-- In a sequence every contour lies inside the next. -/
theorem fill_chain {G : List Pt → Prop} {δ : ℚ} {eng : Clipper} {k : ℕ} (hk : MakesKind G eng) (hi : StaysInside G δ k eng)
    {r : PathFace} (hr : r.All G) {fuel : ℕ} {stepover : ℚ} (hstep : 2 * δ < stepover) {fill : List (List PathFace)}
    (hf : fillPocket eng fuel r stepover k = .ok fill) {g : List PathFace} (hg : g ∈ fill) {s : List PathFace}
    (hs : s.map PathFace.outer = g.map PathFace.outer) :
    List.IsChain (fun a b : PathFace => ∀ x, OnPath a.outer x → Inside b.outer x) s := by
  obtain ⟨xs, hu, k2, -, k4⟩ := C42_complete hf
  have hGx : ∀ x ∈ xs, G x := by
    intro x hx
    rcases unfolds_mem hu hx with hx | ⟨c, ys, hR, hxy⟩
    · rw [List.mem_singleton] at hx; rw [hx]; exact hr.1
    · exact follows_kind hk hR x hxy
  have hch : List.IsChain (fun a b : List Pt => ∀ x, OnPath a x → Inside b x) (g.map PathFace.outer) := by
    rw [List.isChain_map]
    refine ((k4 g hg).2.imp_of_mem_imp ?_)
    rintro a b ha hb ⟨cs, hR, hm⟩ x hx
    exact (follows_inside hk hi hr hstep (hGx _ (k2.mem_iff.mp (List.mem_map.mpr ⟨b, List.mem_flatten.mpr ⟨g, hg, hb⟩, rfl⟩))) hR _ hm).2 x
      (.inr (onOutline_of_path hx))
  rw [← hs, List.isChain_map] at hch
  exact hch

/-- The contours of a region run over its outline or in it. -/
theorem fill_region {G : List Pt → Prop} {δ : ℚ} {eng : Clipper} {k : ℕ} (heng : ClipperNearOn G δ eng) (hk : MakesKind G eng)
    (hi : StaysInside G δ k eng) {areas avoids regions : List PathFace} (hG : ∀ f ∈ areas ++ avoids, f.All G)
    (h : buildPocketOps eng areas avoids = .ok regions) {r : PathFace} (hr : r ∈ regions) {fuel : ℕ} {stepover : ℚ}
    (hstep : 2 * δ < stepover) {fill : List (List PathFace)} (hf : fillPocket eng fuel r stepover k = .ok fill) :
    ∀ g ∈ fill.flatten, ∀ x, OnPath g.outer x → InRegion δ r x := by
  have hδ := heng.nonneg
  have hGr := kind_regions hk h r hr
  obtain ⟨xs, hu, k2, -⟩ := C42_complete hf
  intro g hg x hx
  have hx := onOutline_of_path hx
  have hgx : g.outer ∈ xs := k2.mem_iff.mp (List.mem_map.mpr ⟨g, hg, rfl⟩)
  by_cases hne : g.outer = r.outer
  · exact .inl (hne ▸ hx)
  refine .inr ?_
  have hin : Inside r.outer x := by
    rcases unfolds_inside hk hi hGr hstep hu (by intro c hc; rw [List.mem_singleton] at hc; rw [hc]; exact hGr.1) _ hgx with
      h | ⟨c, hc, h⟩
    · rw [List.mem_singleton] at h; exact absurd h hne
    · rw [List.mem_singleton] at hc; subst hc; exact h x (.inr hx)
  refine ⟨hin, fun hfar => ⟨hin, ?_⟩⟩
  rcases unfolds_mem hu hgx with hx' | ⟨c, ys, hR, hxy⟩
  · rw [List.mem_singleton] at hx'; exact absurd hx' hne
  · exact follows_outside hk hi hGr hR _ hxy x hx
      (region_holes heng hi hG h hr hfar) hfar

/-- The contours of a region, with what they enclose, are inside its outline or are the outline. -/
theorem fill_inside {G : List Pt → Prop} {δ : ℚ} {eng : Clipper} {k : ℕ} (hk : MakesKind G eng) (hi : StaysInside G δ k eng)
    {r : PathFace} (hr : r.All G) {stepover : ℚ} (hstep : 2 * δ < stepover) {xs : List (List Pt)}
    (hu : Unfolds (Follows eng r stepover k) [r.outer] xs) :
    ∀ c ∈ xs, ∀ x, Inside c x ∨ OnOutline c x → Inside r.outer x ∨ OnOutline r.outer x := by
  intro c hc x hx
  rcases unfolds_inside hk hi hr hstep hu (by intro c hc; rw [List.mem_singleton] at hc; rw [hc]; exact hr.1) c hc with h | ⟨c', hc', h⟩
  · rw [List.mem_singleton] at h; rw [h] at hx; exact hx
  · rw [List.mem_singleton] at hc'; subst hc'; exact .inl (h x hx)

/-- Every feed move of a pocket is in one region that is at least as deep, or a chord of one of its contours. -/
theorem pocket_feeds {G : List Pt → Prop} {δ : ℚ} {eng : Clipper} {j : Job} (heng : ClipperNearOn G δ eng) (hk : MakesKind G eng)
    (hi : StaysInside G δ j.precision eng) (he : NoRepeats eng) {fuel : ℕ} {opAreas avoidAreas : List PathFace}
    {outerOffset innerOffset avoidOuterOffset avoidInnerOffset stepover : ℚ} {stepdown : Option ℚ} {cs : List Motion}
    (h : pocketClipper eng fuel j opAreas avoidAreas outerOffset innerOffset avoidOuterOffset avoidInnerOffset stepover
      stepdown = .ok cs) (hsafe : 0 < j.opSafeHeight) (hstep : 2 * δ < stepover) :
    ∃ areas avoids regions,
      mapE (fun f => offsetPolyface eng f outerOffset innerOffset j.precision) opAreas = .ok areas ∧
      mapE (fun f => offsetPolyface eng f avoidOuterOffset avoidInnerOffset j.precision) avoidAreas = .ok avoids ∧
      buildPocketOps eng areas.flatten avoids.flatten = .ok regions ∧
      ∀ c ∈ cs, c.kind.mot ≠ .rapid → ∃ r ∈ regions, ∃ contours d, Unfolds (Follows eng r stepover j.precision) [r.outer] contours ∧
        r.depth ≤ d ∧ d ≤ 0 ∧ FeedsOver (InRegion δ r) (fun x => Inside r.outer x ∨ OnOutline r.outer x)
          (fun a b => ∃ c ∈ contours, OnOutline c a ∧ OnOutline c b) stepover j.opSafeHeight d c := by
  unfold pocketClipper at h
  obtain ⟨areas, h1, h⟩ := bind_ok.mp h
  obtain ⟨avoids, h2, h⟩ := bind_ok.mp h
  obtain ⟨regions, h3, h⟩ := bind_ok.mp h
  obtain ⟨seqs, h4, h5⟩ := bind_ok.mp h
  refine ⟨areas, avoids, regions, h1, h2, h3, ?_⟩
  have hz : ∀ o ∈ regions, o.depth ≤ 0 := by
    intro o ho
    obtain ⟨f, hf, he⟩ := ops_depth h3 ho
    rw [← he]
    exact (C38_order h3).1 f (List.mem_append_left _ hf)
  have hpw : regions.Pairwise (fun a b => b.depth ≤ a.depth) := by
    obtain ⟨-, groups, rfl, g1, g2, g3⟩ := C38_order h3
    exact flatten_pairwise g1 g3
  have hG : ∀ f ∈ areas.flatten ++ avoids.flatten, f.All G := by
    intro f hf
    rcases List.mem_append.mp hf with hf | hf
    · exact kind_areas hk h1 f hf
    · exact kind_areas hk h2 f hf
  have hclean := ops_clean he h3
  have hfill : ∀ op ∈ regions, ∀ fill, fillPocket eng fuel op stepover j.precision = .ok fill →
      ∀ g ∈ fill.flatten, Clean g.outer := by
    intro op hop fill hf g hg
    obtain ⟨xs, k1, k2, -⟩ := C42_complete hf
    rcases unfolds_mem k1 (k2.mem_iff.mp (List.mem_map.mpr ⟨g, hg, rfl⟩)) with hx | ⟨p, ps, hR, hx⟩
    · rw [List.mem_singleton] at hx
      rw [hx]; exact hclean op hop
    · exact follows_clean he hR _ hx
  refine routeSequences_over (fun s hs => ?_) (by simp) h5
  obtain ⟨op, hop, fill, hff, d, hd, g, hg, hsg⟩ := allSequences_uniform (done := []) hpw (fun o ho => hz o ho) h4 s hs
  obtain ⟨xs, hu, k2, -⟩ := C42_complete hff
  have hGr := kind_regions hk h3 op hop
  cases s with
  | nil => exact ⟨fun _ => False, fun _ => False, fun _ _ => False, 0, by simp, List.isChain_nil, fun c ⟨a, b, hb, _⟩ => hb.elim⟩
  | cons f0 fs =>
    obtain ⟨-, d1, d2⟩ := hd f0 (by simp)
    refine ⟨_, _, _, d, fun f hf => ?_, fill_chain hk hi hGr hstep hff hg hsg, fun c hc => ⟨op, hop, xs, d, hu, d1, d2, hc⟩⟩
    obtain ⟨e1, -, -⟩ := hd f hf
    obtain ⟨f', hf', e2⟩ := List.mem_map.mp (hsg ▸ List.mem_map.mpr ⟨f, hf, rfl⟩ : f.outer ∈ g.map PathFace.outer)
    have hfl : f' ∈ fill.flatten := List.mem_flatten.mpr ⟨g, hg, hf'⟩
    have hx : f.outer ∈ xs := by rw [← e2]; exact k2.mem_iff.mp (List.mem_map.mpr ⟨f', hfl, rfl⟩)
    refine ⟨?_, e1, ?_, fun x hx' => fill_inside hk hi hGr hstep hu _ hx x hx', fun a b ha hb =>
      ⟨_, hx, onOutline_of_path ha, onOutline_of_path hb⟩⟩
    · have := hfill op hop fill hff f' hfl
      rw [e2] at this
      exact ⟨this.1, this.2, by rw [e1]; linarith⟩
    · rw [← e2]
      exact fill_region heng hk hi hG h3 hop hstep hff f' hfl

/-- A feed move over such points is performed as one. -/
theorem feeds_of_follows {e : Event} {c : Motion} {P Q : Pt → Prop} {C : Pt → Pt → Prop} {step sh d : ℚ} (h : FollowsMove e c)
    (hc : FeedsOver P Q C step sh d c) (hd : d ≤ sh) (hs : isFeedMove e = true → e.st.spindle = .cw) :
    ∃ a b, P a ∧ P b ∧ FeedsFromTo a b (rnd 3 d) e ∧
      ((∀ x, OnSegment a b x → P x) ∨ (sqDist a b ≤ step ∧ ∀ x, OnSegment a b x → Q x) ∨ C a b) := by
  obtain ⟨a, b, ha, hb, hk, hfin, hst⟩ := hc
  obtain ⟨⟨tgt, ctr, hact, hx, hy, hz, -, -⟩, hpos⟩ := h
  rw [hfin] at hx hy hz
  rw [hk] at hact
  have htgt : tgt = Pt.pos ⟨rnd 3 b.x, rnd 3 b.y⟩ (rnd 3 d) := by
    ext1
    · exact hx.1 _ rfl
    · exact hy.1 _ rfl
    · exact hz.1 _ rfl
  rw [htgt] at hact
  have hcw := hs (by simp [isFeedMove, hact])
  refine ⟨a, b, ha, hb, ?_⟩
  rcases hst with ⟨rfl, h1⟩ | ⟨h1, hway⟩
  · rw [h1] at hpos
    refine ⟨⟨hcw, _, _, _, ctr, pos_of_agrees hpos, hact, ⟨abs_rnd3 _, abs_rnd3 _⟩, ⟨abs_rnd3 _, abs_rnd3 _⟩, .inr ⟨rfl, rnd_mono hd⟩⟩, ?_⟩
    refine .inl ?_
    rintro x ⟨t, -, -, rfl⟩
    rwa [show a.lerp a t = a by ext <;> simp [Pt.lerp]]
  · rw [h1] at hpos
    exact ⟨⟨hcw, _, _, _, ctr, pos_of_agrees hpos, hact, ⟨abs_rnd3 _, abs_rnd3 _⟩, ⟨abs_rnd3 _, abs_rnd3 _⟩, .inl rfl⟩, hway⟩

theorem near_mix {u v a b t : ℚ} (t0 : 0 ≤ t) (t1 : t ≤ 1) (h1 : |u - a| ≤ 1 / 2000) (h2 : |v - b| ≤ 1 / 2000) :
    |(u + t * (v - u)) - (a + t * (b - a))| ≤ 1 / 2000 := by
  rw [abs_le] at *
  constructor <;> nlinarith

/-- A feed from over one point to over another stays over what is between them. -/
theorem stays_of_feeds {K : Pt → Prop} {a b : Pt} {z : ℚ} {e : Event} (hK : ∀ x, OnSegment a b x → K x)
    (h : FeedsFromTo a b z e) : StaysOver K e := by
  obtain ⟨-, a', b', z', ctr, h1, h2, ⟨ax, ay⟩, ⟨bx, b_y⟩, -⟩ := h
  refine ⟨a', b', z', z, .linear, ctr, h1, h2, .inr rfl, ?_⟩
  rintro q ⟨t, t0, t1, rfl⟩
  exact ⟨_, hK _ ⟨t, t0, t1, rfl⟩, near_mix t0 t1 ax bx, near_mix t0 t1 ay b_y⟩

/-- A pocket, opened up to `pocketClipper`. -/
theorem pocket_open {eng : Clipper} {veq : Vec → Vec → Bool} {fuel : ℕ} {opAreas avoidAreas : List CqFace}
    {a : PocketArgs} {j : Job} {cs : List Motion} (h : pocket eng veq fuel opAreas avoidAreas a j = .ok cs) :
    ∃ diameter faces avoidFaces, j.toolDiameter = some diameter ∧
      List.Forall₂ (FlatFace veq j.precision) opAreas faces ∧
      List.Forall₂ (FlatFace veq j.precision) avoidAreas avoidFaces ∧
      pocketClipper eng fuel j faces avoidFaces
        (calculateOffset (diameter / 2) (if avoidAreas ≠ [] ∧ a.outerOffset = none then some (.mult 0) else a.outerOffset) (some (-1)))
        (calculateOffset (diameter / 2) a.innerOffset (some 1)) (calculateOffset (diameter / 2) a.avoidOuterOffset (some 1))
        (calculateOffset (diameter / 2) a.avoidInnerOffset (some (-1))) (calculateOffset (diameter / 2) a.stepover (some (1 / 2)))
        a.stepdown = .ok cs := by
  unfold pocket at h
  cases hr : j.toolRadius with
  | none => rw [hr] at h; cases h
  | some r =>
    rw [hr] at h
    obtain ⟨diameter, hd, rfl⟩ : ∃ d, j.toolDiameter = some d ∧ d / 2 = r := by
      unfold Job.toolRadius at hr
      cases hj : j.toolDiameter with
      | none => rw [hj] at hr; cases hr
      | some d =>
        rw [hj] at hr
        by_cases h0 : d = 0
        · simp [h0] at hr
        · simp only [h0, if_false, Option.some.injEq] at hr
          exact ⟨d, rfl, hr⟩
    obtain ⟨ops, h1, h⟩ := bind_ok.mp h
    obtain ⟨avoids, h2, h⟩ := bind_ok.mp h
    exact ⟨diameter, ops, avoids, hd, (mapE_ok.mp h1).imp fun _ _ => fromCqFace_spec,
      (mapE_ok.mp h2).imp fun _ _ => fromCqFace_spec, h⟩

/-- C103, partial.  In the part of a pocket in the program of any job every feed move of the machine belongs to a region of the
pocket that is at least as deep as the move.  It starts and ends (as printed) on the outline of that region or in it, and runs
1. only over points in the region or on its outline (along a contour, or straight down), or
2. from one contour to the next, no farther than a step (squared), inside the outline of the region, or
3. from one point of a contour to another point of that contour.
In cases 1 and 2 it does not leave the outline of the region by more than half a thousandth, and in case 3 not if the contour is
convex.  Missing: holes in case 2 and the way in case 3, see `C103_violated`. -/
theorem C103_pocket_partial {G : List Pt → Prop} {δ : ℚ} {eng : Clipper} {j0 : Job} (heng : ClipperNearOn G δ eng) (hk : MakesKind G eng)
    (hi : StaysInside G δ j0.precision eng) (hr : NoRepeats eng) {veq : Vec → Vec → Bool} {fuel : ℕ} {opAreas avoidAreas : List CqFace}
    {a : PocketArgs} {tool : Option Tool} {j1 j2 jf : Job} {before after : List Request} (m : Machine) (h0 : InitOK j0)
    (hn : ∀ v, j0.toolNumber = some v → NumOK v)
    (hok : ChainOK j0 (before ++ pocketRequest eng veq fuel opAreas avoidAreas a tool :: after))
    (h1 : j0.chain before = .ok j1) (h2 : (j1.call (pocketRequest eng veq fuel opAreas avoidAreas a tool)).2 = .ok j2)
    (h3 : j2.chain after = .ok jf) (hend : m.ended = false)
    (htool : ∀ n, j0.toolNumber = some n → m.tool = some n.value) (hsafe : 0 < j0.opSafeHeight)
    (hstep : ∀ diameter, (j1.settings.inherit tool).toolDiameter = some diameter →
      2 * δ < offsetDistance (diameter / 2) (1 / 2) a.stepover) :
    ∃ t m' pre part post diameter faces avoidFaces areas avoids regions, jf.toGcode = .ok t ∧
      runText m t = some (m', pre ++ part ++ post) ∧ (j1.settings.inherit tool).toolDiameter = some diameter ∧
      List.Forall₂ (FlatFace veq j0.precision) opAreas faces ∧
      List.Forall₂ (FlatFace veq j0.precision) avoidAreas avoidFaces ∧
      List.Forall₂ (OffsetFaces eng
          (if avoidAreas ≠ [] ∧ a.outerOffset = none then 0 else offsetDistance (diameter / 2) (-1) a.outerOffset)
          (offsetDistance (diameter / 2) 1 a.innerOffset) j0.precision) faces areas ∧
      List.Forall₂ (OffsetFaces eng (offsetDistance (diameter / 2) 1 a.avoidOuterOffset)
          (offsetDistance (diameter / 2) (-1) a.avoidInnerOffset) j0.precision) avoidFaces avoids ∧
      buildPocketOps eng areas.flatten avoids.flatten = .ok regions ∧
      ∀ e ∈ part, isFeedMove e = true → ∃ r ∈ regions, ∃ contours d,
        Unfolds (Follows eng r (offsetDistance (diameter / 2) (1 / 2) a.stepover) j0.precision) [r.outer] contours ∧
        r.depth ≤ d ∧ d ≤ 0 ∧
        (∃ p q, InRegion δ r p ∧ InRegion δ r q ∧ FeedsFromTo p q (rnd 3 d) e ∧
          ((∀ x, OnSegment p q x → InRegion δ r x) ∨
            (sqDist p q ≤ offsetDistance (diameter / 2) (1 / 2) a.stepover ∧
              ∀ x, OnSegment p q x → Inside r.outer x ∨ OnOutline r.outer x) ∨
            ∃ c ∈ contours, OnOutline c p ∧ OnOutline c q)) ∧
        (StaysOver (fun p => Inside r.outer p ∨ OnOutline r.outer p) e ∨
          ∃ c ∈ contours, ∀ K, ConvexSet K → (∀ p, OnOutline c p → K p) → StaysOver K e) ∧
        (∀ c ∈ contours, ∀ p, Inside c p ∨ OnOutline c p → Inside r.outer p ∨ OnOutline r.outer p) ∧
        ∀ n, (j1.settings.inherit tool).toolNumber = some n → e.st.tool = some n.value := by
  obtain ⟨t, m', pre, part, post, cs, e1, e2, hcs, -, hfol, hpart⟩ := C94_followed m h0 hn hok h1 h2 h3 hend htool
  have hb : SameBase j0 (j1.updateTool tool).2 :=
    updateTool_base (chain_base (by unfold SameBase; rfl) h1) _
  have hset : (j1.updateTool tool).2.settings = j1.settings.inherit tool := by
    obtain ⟨-, -, -, h, -⟩ := updateTool_commands j1 tool
    exact h
  have hprec : (j1.updateTool tool).2.precision = j0.precision := by rw [hb]
  have hsh : (j1.updateTool tool).2.opSafeHeight = j0.opSafeHeight := (sameBase_heights hb).2.1
  have hcs : pocket eng veq fuel opAreas avoidAreas a (j1.updateTool tool).2 = .ok cs := hcs
  have hfol := hfol (tracks_connected (C26_pocket hcs))
  obtain ⟨diameter, faces, avoidFaces, g1, g3, g4, g5⟩ := pocket_open hcs
  have hd : (j1.settings.inherit tool).toolDiameter = some diameter := by rw [← hset]; exact g1
  obtain ⟨areas, avoids, regions, k1, k2, k3, k4⟩ := pocket_feeds heng hk (hprec ▸ hi) hr g5 (by rw [hsh]; exact hsafe) (by
    rw [calculateOffset_distance]; exact hstep _ hd)
  rw [hprec] at g3 g4 k1 k2
  refine ⟨t, m', pre, part, post, diameter, faces, avoidFaces, areas, avoids, regions, e1, e2, hd, g3, g4, ?_, ?_, k3, ?_⟩
  · refine (mapE_ok.mp k1).imp fun f gs hf => ?_
    have := offsetPolyface_spec hf
    rw [calculateOffset_distance, calculateOffset_distance] at this
    by_cases hc : avoidAreas ≠ [] ∧ a.outerOffset = none
    · rw [if_pos hc] at this ⊢
      simpa [offsetDistance] using this
    · rw [if_neg hc] at this ⊢
      exact this
  · refine (mapE_ok.mp k2).imp fun f gs hf => ?_
    have := offsetPolyface_spec hf
    rwa [calculateOffset_distance, calculateOffset_distance] at this
  · intro e he hf
    obtain ⟨c, hc, hec⟩ := forall₂_mem_left hfol (List.mem_filter.mpr ⟨he, isMove_of_isFeedMove hf⟩)
    obtain ⟨r, hr', contours, d, hu, d1, d2, hover⟩ := k4 c hc (by
      intro hr
      obtain ⟨⟨tgt, ctr, hact, -⟩, -⟩ := hec
      rw [hr] at hact
      simp [isFeedMove, hact] at hf)
    rw [hprec, calculateOffset_distance] at hu
    rw [calculateOffset_distance] at hover
    obtain ⟨p, q, hp, hq, hfeed, hway⟩ := feeds_of_follows hec hover (by rw [hsh]; linarith) (hpart e he).2
    refine ⟨r, hr', contours, d, hu, d1, d2, ⟨p, q, hp, hq, hfeed, hway⟩, ?_,
      fill_inside hk hi (kind_regions hk k3 r hr') (hstep _ hd) hu, (hpart e he).1 (isMove_of_isFeedMove hf)⟩
    rcases hway with hway | ⟨-, hway⟩ | ⟨c, hc, h5, h6⟩
    · exact .inl (stays_of_feeds (fun x hx => (hway x hx).elim .inr (fun h => .inl h.1)) hfeed)
    · exact .inl (stays_of_feeds hway hfeed)
    · exact .inr ⟨c, hc, fun K hK hin => stays_of_feeds (fun x hx => hK p q x (hin p h5) (hin q h6) hx) hfeed⟩

/-! ### The counterexample -/

/-- A square of side 10 with a bent leg of width 2. -/
def legPath : List Pt := [⟨30, 20⟩, ⟨28, 20⟩, ⟨28, 2⟩, ⟨10, 2⟩, ⟨10, 10⟩, ⟨0, 10⟩, ⟨0, 0⟩, ⟨30, 0⟩, ⟨30, 20⟩]

theorem inside_leg (p : Pt) : Inside legPath p ↔ ((0 ≤ p.x ∧ p.x < 30) ∧ 0 ≤ p.y ∧ p.y < 2) ∨
    ((0 ≤ p.x ∧ p.x < 10) ∧ 2 ≤ p.y ∧ p.y < 10) ∨ ((28 ≤ p.x ∧ p.x < 30) ∧ 2 ≤ p.y ∧ p.y < 20) := by
  unfold Inside crossings legPath closedOutline
  simp only [List.head?_cons, Option.toList_some, List.cons_append, List.nil_append, segments, List.countP_cons,
    List.countP_nil, crosses_horizontal, crosses_vertical, crosses_point]
  rcases lt_or_ge p.x 0 with a | a <;> rcases lt_or_ge p.x 10 with b | b <;> rcases lt_or_ge p.x 28 with b' | b' <;>
    rcases lt_or_ge p.x 30 with b'' | b'' <;>
    rcases lt_or_ge p.y 0 with c | c <;> rcases lt_or_ge p.y 2 with e | e <;> rcases lt_or_ge p.y 10 with f | f <;>
    rcases lt_or_ge p.y 20 with g | g <;>
    first
    | (exfalso; linarith)
    | simp [a, b, b', b'', c, e, f, g, not_lt.mpr, not_le.mpr]

/-- Shrunk by 3 only the middle of the square remains, and of that nothing. -/
def legEngine : Clipper where
  offset path o _ :=
    if path = legPath ∧ o = 0 then .ok [legPath]
    else if path = legPath ∧ o = -3 then .ok [rect 3 3 7 7]
    else if path = rect 3 3 7 7 ∧ o = -3 then .ok []
    else .error .valueError
  union ss cs := if ss = [legPath] ∧ cs = [] then .ok [.node legPath []] else .error .valueError
  difference ss cs := if ss = [legPath] ∧ cs = [] then .ok [.node legPath []] else .error .valueError
  contains _ _ := false

def LegKind (p : List Pt) : Prop := p = legPath ∨ p = rect 3 3 7 7

theorem legPath_closed {q : List Pt} (h : ClosedAs legPath q) : q = legPath := by
  obtain ⟨-, h | ⟨x, h1, h2, -⟩, -⟩ := h
  · exact h
  · simp only [legPath, List.head?_cons, Option.some.injEq] at h1
    subst h1
    exact absurd rfl h2

theorem legEngine_offset {p : List Pt} {o : ℚ} {k : ℕ} {raw : List (List Pt)} (h : legEngine.offset p o k = .ok raw) :
    (p = legPath ∧ o = 0 ∧ raw = [legPath]) ∨ (p = legPath ∧ o = -3 ∧ raw = [rect 3 3 7 7]) ∨ raw = [] := by
  simp only [legEngine] at h
  split at h
  · rename_i h'; cases h; exact .inl ⟨h'.1, h'.2, rfl⟩
  · split at h
    · rename_i h'; cases h; exact .inr (.inl ⟨h'.1, h'.2, rfl⟩)
    · split at h
      · cases h; exact .inr (.inr rfl)
      · cases h

theorem legEngine_union {ss cs : List (List Pt)} {tree : List PolyNode} (h : legEngine.union ss cs = .ok tree) :
    ss = [legPath] ∧ cs = [] ∧ tree = [.node legPath []] := by
  simp only [legEngine] at h
  split at h
  · rename_i h'; cases h; exact ⟨h'.1, h'.2, rfl⟩
  · cases h

theorem legEngine_difference {ss cs : List (List Pt)} {tree : List PolyNode} (h : legEngine.difference ss cs = .ok tree) :
    ss = [legPath] ∧ cs = [] ∧ tree = [.node legPath []] := by
  simp only [legEngine] at h
  split at h
  · rename_i h'; cases h; exact ⟨h'.1, h'.2, rfl⟩
  · cases h

theorem legTree {r : ℚ} {p : Pt} {w : Prop} (hfar : FarFrom (r + 0) legPath p) (hw : Inside legPath p ↔ w) :
    RightNear r [.node legPath []] p w where
  off := by
    intro n hn k hk
    rw [List.mem_singleton] at hn
    subst hn
    rw [below_leaf hk]
    rwa [add_zero] at hfar
  apart := insideCount_one_le
  region := treeRegion_leaf.trans hw

theorem legEngine_near : ClipperNearOn LegKind 0 legEngine where
  nonneg := le_rfl
  kind := by
    intro ss cs tree _ h n hn q hq
    obtain ⟨-, -, rfl⟩ := legEngine_union h
    rw [List.mem_singleton] at hn
    subst hn
    exact .inl (legPath_closed hq)
  union := by
    intro ss cs tree _ h r _ p hp
    obtain ⟨rfl, rfl, rfl⟩ := legEngine_union h
    refine legTree (hp _ (by simp)) ?_
    rw [insideCount_one]
    simp [insideCount]
  difference := by
    intro ss cs tree _ h r _ p hp
    obtain ⟨rfl, rfl, rfl⟩ := legEngine_difference h
    refine legTree (hp _ (by simp)) ?_
    rw [insideCount_one]
    simp [insideCount]

theorem legEngine_kind : MakesKind LegKind legEngine where
  offset := by
    intro p o k raw h q hq q' hc
    rcases legEngine_offset h with ⟨-, -, rfl⟩ | ⟨-, -, rfl⟩ | rfl
    · rw [List.mem_singleton] at hq; subst hq; exact .inl (legPath_closed hc)
    · rw [List.mem_singleton] at hq; subst hq; exact .inr (IsRect.closed hc)
    · cases hq
  difference := by
    intro ss cs tree h n hn k hk q hq
    obtain ⟨-, -, rfl⟩ := legEngine_difference h
    rw [List.mem_singleton] at hn
    subst hn
    rw [below_leaf hk] at hq
    exact .inl (legPath_closed hq)

theorem legEngine_inside {k : ℕ} : StaysInside LegKind 0 k legEngine where
  nonneg := le_rfl
  shrink := by
    intro p s raw _ hs h q hq x hx y hy
    obtain rfl := eq_of_sqDist hy
    rcases legEngine_offset h with ⟨-, h0, -⟩ | ⟨rfl, -, rfl⟩ | rfl
    · linarith
    · rw [List.mem_singleton] at hq
      subst hq
      rw [inside_rect (by norm_num) (by norm_num), onOutline_rect (by norm_num) (by norm_num)] at hx
      rw [inside_leg]
      rcases hx with ⟨⟨a, b⟩, c, d⟩ | hx
      · exact .inr (.inl ⟨⟨by linarith, by linarith⟩, by linarith, by linarith⟩)
      · obtain ⟨⟨a, b⟩, ⟨c, d⟩⟩ : (3 ≤ y.x ∧ y.x ≤ 7) ∧ (3 ≤ y.y ∧ y.y ≤ 7) := by
          rcases hx with ⟨⟨a, b⟩, c | c⟩ | ⟨⟨a, b⟩, c | c⟩ <;> exact ⟨⟨by linarith, by linarith⟩, by linarith, by linarith⟩
        exact .inr (.inl ⟨⟨by linarith, by linarith⟩, by linarith, by linarith⟩)
    · cases hq
  within := by
    intro _ _ ss cs tree _ _ _ _ h n hn p hp
    obtain ⟨rfl, -, rfl⟩ := legEngine_difference h
    rw [List.mem_singleton] at hn
    subst hn
    exact ⟨legPath, by simp, p, hp, by simp [sqDist]⟩
  siblings := by
    intro ss cs tree _ h n hn p _
    obtain ⟨-, -, rfl⟩ := legEngine_difference h
    rw [List.mem_singleton] at hn
    subst hn
    simp [PolyNode.childs, insideCount]
  outside := by
    intro ss cs tree _ h n hn p _ _
    obtain ⟨-, rfl, -⟩ := legEngine_difference h
    rfl

theorem legEngine_noRepeats : NoRepeats legEngine where
  offset := by
    intro p o k raw h q hq q' hc
    rcases legEngine_kind.offset _ _ _ _ h q hq q' hc with rfl | rfl
    · decide +kernel
    · exact rect_segments (by norm_num) (by norm_num)
  difference := by
    intro ss cs tree h n hn q' hc
    rcases legEngine_kind.difference _ _ _ h n hn n (.self n) q' hc with rfl | rfl
    · decide +kernel
    · exact rect_segments (by norm_num) (by norm_num)

/-- The outline as a face at depth 1. -/
def legFace : CqFace := ⟨outline [(1, ⟨30, 20⟩, ⟨28, 20⟩, 2), (2, ⟨28, 20⟩, ⟨28, 2⟩, 18), (3, ⟨28, 2⟩, ⟨10, 2⟩, 18), (4, ⟨10, 2⟩, ⟨10, 10⟩, 8),
  (5, ⟨10, 10⟩, ⟨0, 10⟩, 10), (6, ⟨0, 10⟩, ⟨0, 0⟩, 10), (7, ⟨0, 0⟩, ⟨30, 0⟩, 30), (8, ⟨30, 0⟩, ⟨30, 20⟩, 20)], [], -1, -1⟩

def legJob : Job := Job.init Frame.xy (.int 500) (toolDiameter := some 12)

theorem legJob_ok : InitOK legJob := ⟨rfl, by unfold SafeName; decide, numOK_int _, by rintro v ⟨⟩⟩

def legPocket : Request := pocketRequest legEngine exactEq 9 [legFace] [] { outerOffset := some (.mult 0) }

/-- The machine feeds at height -1 from (30, 20) to (0, 3). -/
def crossesOver (e : Event) : Bool :=
  decide (e.st.spindle = .cw) && decide (e.st.pos = Pt.pos ⟨30, 20⟩ (-1)) &&
  match e.act with
  | .move .linear tgt _ => decide (tgt = Pt.pos ⟨0, 3⟩ (-1))
  | _ => false

theorem onSegment_bounds {a b p : Pt} (h : OnSegment a b p) (c : ℚ) :
    (a.x ≤ c → b.x ≤ c → p.x ≤ c) ∧ (c ≤ a.x → c ≤ b.x → c ≤ p.x) ∧ (a.y ≤ c → b.y ≤ c → p.y ≤ c) := by
  obtain ⟨t, t0, t1, rfl⟩ := h
  refine ⟨fun h1 h2 => ?_, fun h1 h2 => ?_, fun h1 h2 => ?_⟩ <;> simp only [Pt.lerp] <;> nlinarith

theorem leg_within {p : Pt} (h : Inside legPath p ∨ OnOutline legPath p) : p.x ≤ 10 ∨ 28 ≤ p.x ∨ p.y ≤ 2 := by
  rcases h with h | h | ⟨s, hs, hp⟩
  · rw [inside_leg] at h
    rcases h with ⟨-, -, h⟩ | ⟨⟨-, h⟩, -⟩ | ⟨⟨h, -⟩, -⟩
    · exact .inr (.inr h.le)
    · exact .inl h.le
    · exact .inr (.inl h)
  · simp only [closedOutline, legPath, List.head?_cons, Option.toList_some, List.cons_append, List.nil_append, List.mem_cons,
      List.not_mem_nil, or_false] at h
    rcases h with rfl | rfl | rfl | rfl | rfl | rfl | rfl | rfl | rfl | rfl <;> norm_num
  · simp only [closedOutline, legPath, List.head?_cons, Option.toList_some, List.cons_append, List.nil_append, segments, List.mem_cons,
      List.not_mem_nil, or_false] at hs
    have h1 := (onSegment_bounds hp 10).1
    have h2 := (onSegment_bounds hp 28).2.1
    have h3 := (onSegment_bounds hp 2).2.2
    rcases hs with rfl | rfl | rfl | rfl | rfl | rfl | rfl | rfl | rfl
    · exact .inr (.inl (h2 (by norm_num) (by norm_num)))
    · exact .inr (.inl (h2 (by norm_num) (by norm_num)))
    · exact .inr (.inr (h3 (by norm_num) (by norm_num)))
    · exact .inl (h1 (by norm_num) (by norm_num))
    · exact .inl (h1 (by norm_num) (by norm_num))
    · exact .inl (h1 (by norm_num) (by norm_num))
    · exact .inr (.inr (h3 (by norm_num) (by norm_num)))
    · exact .inr (.inl (h2 (by norm_num) (by norm_num)))
    · exact .inr (.inl (h2 (by norm_num) (by norm_num)))

/-- C103 is violated: the pocket of a square with a bent leg, with a tool of diameter 12, the default stepover of 3 and outer offset 0.
The middle is cleared first.  The outline is farther from there than a step, so the tool is raised and cuts the outline from its
first point, the end of the leg, and then goes straight back to the point nearest to the end of the previous contour: at full depth
across material that is 8 away from the only region of the pocket, more than the radius of the tool. -/
theorem C103_violated :
    ClipperNearOn LegKind 0 legEngine ∧ MakesKind LegKind legEngine ∧ StaysInside LegKind 0 twoJob.precision legEngine ∧ NoRepeats legEngine ∧
    (∃ f, FlatFace exactEq legJob.precision legFace f ∧ f = ⟨legPath, [], -1⟩ ∧
      OffsetFaces legEngine (offsetDistance (12 / 2) (-1) (some (.mult 0))) (offsetDistance (12 / 2) 1 none) legJob.precision f [f] ∧
      buildPocketOps legEngine [f] [] = .ok [f]) ∧
    ∃ j2 t m' evs, (legJob.call legPocket).2 = .ok j2 ∧ j2.toGcode = .ok t ∧ runText {} t = some (m', evs) ∧
      ∃ e ∈ evs, ∃ q, MillsOver (-1) q e ∧ ∀ p, Inside legPath p ∨ OnOutline legPath p → 8 ^ 2 ≤ sqDist q p := by
  refine ⟨legEngine_near, legEngine_kind, legEngine_inside, legEngine_noRepeats, ⟨_, ?_, rfl, ?_, ?_⟩, ?_⟩
  · refine ⟨rfl, ?_, .nil, rfl⟩
    have : (match wireToPath exactEq legFace.outerWire legJob.precision with
        | .ok p => decide (p = legPath) | .error _ => false) = true := by decide +kernel
    cases h : wireToPath exactEq legFace.outerWire legJob.precision with
    | error e => rw [h] at this; cases this
    | ok p => rw [h] at this; rw [of_decide_eq_true this]
  · exact offsetPolyface_spec (by decide +kernel)
  · have : (match buildPocketOps legEngine [⟨legPath, [], -1⟩] [] with
        | .ok a => decide (a = [⟨legPath, [], -1⟩]) | .error _ => false) = true := by decide +kernel
    cases h : buildPocketOps legEngine [⟨legPath, [], -1⟩] [] with
    | error e => rw [h] at this; cases this
    | ok a => rw [h] at this; rw [of_decide_eq_true this]
  · obtain ⟨j2, t, m', evs, h1, h2, h3, e, he, hbad⟩ := run_witness (j := legJob) (r := legPocket) (bad := crossesOver) legJob_ok
      (by rintro v ⟨⟩) rfl rfl (by unfold SafeName; decide) (by decide +kernel)
    refine ⟨j2, t, m', evs, h1, h2, h3, e, he, ⟨18, 66 / 5⟩, ?_, ?_⟩
    · simp only [crossesOver, Bool.and_eq_true, decide_eq_true_eq] at hbad
      obtain ⟨⟨k1, k2⟩, k3⟩ := hbad
      split at k3
      · rename_i tgt ctr hact
        rw [of_decide_eq_true k3] at hact
        exact ⟨k1, _, _, ctr, k2, hact, 2 / 5, by norm_num, by norm_num, by decide +kernel⟩
      · cases k3
    · intro p hp
      rcases leg_within hp with h | h | h <;> simp only [sqDist] <;> nlinarith [sq_nonneg (18 - p.x), sq_nonneg (66 / 5 - p.y)]


/-- The hypotheses of `C103_pocket_partial`: pocketing a square of side 6 with a tool of diameter 2, the machine feeds only over the square
of side 4 in it (up to half a thousandth). -/
example : ∃ j2 t m' pre part post, (twoJob.call squarePocket).2 = .ok j2 ∧ j2.toGcode = .ok t ∧
    runText {} t = some (m', pre ++ part ++ post) ∧
    ∀ e ∈ part, isFeedMove e = true → StaysOver (fun p => (1 ≤ p.x ∧ p.x ≤ 5) ∧ 1 ≤ p.y ∧ p.y ≤ 5) e := by
  obtain ⟨cs, -, hr, h⟩ := squarePocket_call
  obtain ⟨t, m', pre, part, post, d, faces, avoidFaces, areas, avoids, regions, h1, h2, h3, h4, h5, h6, h7, h8, h9⟩ :=
    C103_pocket_partial (before := []) (after := []) boxEngine_near boxEngine_kind boxEngine_inside boxEngine_noRepeats {} twoJob_ok
      (by rintro v ⟨⟩) ⟨hr, fun _ _ => trivial⟩ rfl h rfl rfl (by rintro n ⟨⟩) (by decide +kernel)
      (by rintro d ⟨⟩; norm_num [offsetDistance])
  refine ⟨_, t, m', pre, part, post, h, h1, h2, fun e he hf => ?_⟩
  cases h3
  cases h4 with
  | cons a b =>
  cases b
  cases squarePocket_faces a
  cases h5
  cases h7
  cases h6 with
  | cons a b =>
  cases b
  have hd : (if ([] : List CqFace) ≠ [] ∧ ({} : PocketArgs).outerOffset = none then (0 : ℚ)
      else offsetDistance (2 / 2) (-1) ({} : PocketArgs).outerOffset) = -1 := by simp [offsetDistance]
  rw [hd] at a
  cases squarePocket_areas a
  have hreg : buildPocketOps boxEngine [⟨rect 1 1 5 5, [], -1⟩] [] = .ok [⟨rect 1 1 5 5, [], -1⟩] := by
    have : (match buildPocketOps boxEngine [⟨rect 1 1 5 5, [], -1⟩] [] with
        | .ok a => decide (a = [⟨rect 1 1 5 5, [], -1⟩]) | .error _ => false) = true := by decide +kernel
    cases h : buildPocketOps boxEngine [⟨rect 1 1 5 5, [], -1⟩] [] with
    | error e => rw [h] at this; cases this
    | ok a => rw [h] at this; rw [of_decide_eq_true this]
  rw [show [[(⟨rect 1 1 5 5, [], -1⟩ : PathFace)]].flatten = [⟨rect 1 1 5 5, [], -1⟩] from rfl, List.flatten_nil, hreg] at h8
  cases h8
  obtain ⟨r, hr', contours, d, -, -, -, -, hst, hin, -⟩ := h9 e he hf
  rw [List.mem_singleton] at hr'
  subst hr'
  have hsq : ∀ p : Pt, Inside (rect 1 1 5 5) p ∨ OnOutline (rect 1 1 5 5) p → (1 ≤ p.x ∧ p.x ≤ 5) ∧ 1 ≤ p.y ∧ p.y ≤ 5 := by
    intro p hp
    rw [inside_rect (by norm_num) (by norm_num), onOutline_rect (by norm_num) (by norm_num)] at hp
    rcases hp with ⟨⟨a, b⟩, c, d⟩ | ⟨⟨a, b⟩, c | c⟩ | ⟨⟨a, b⟩, c | c⟩ <;>
      exact ⟨⟨by linarith, by linarith⟩, by linarith, by linarith⟩
  rcases hst with ⟨a, b, z, z', k, ctr, h1, h2, h3, h4⟩ | ⟨c, hc, hK⟩
  · refine ⟨a, b, z, z', k, ctr, h1, h2, h3, fun q hq => ?_⟩
    obtain ⟨p, hp, hn⟩ := h4 q hq
    exact ⟨p, hsq p hp, hn⟩
  · refine hK _ ?_ (fun p hp => hsq p (hin c hc p (.inr hp)))
    rintro a b q ⟨⟨a1, a2⟩, a3, a4⟩ ⟨⟨b1, b2⟩, b3, b4⟩ ⟨t, t0, t1, rfl⟩
    simp only [Pt.lerp]
    refine ⟨⟨?_, ?_⟩, ?_, ?_⟩ <;> nlinarith

end CQ
