import Verif.Spec.Gouge64
import Verif.Props.Pocket64
import Verif.Props.Gouge

/-! # C141: while pocketing in floating point, the tool stays in the given faces -/

namespace CQ

/-! ### the feed moves of a sequence of contours -/

/-- A feed move down to a contour of the sequence, along it, from the contour before to it, or across it, up to `tol`. -/
def FeedNear64 (tol l2 sh d : ℚ) (s : List PathFace) (c : Motion) : Prop :=
  ∃ g ∈ s, ∃ f ∈ s, ∃ a b a' b', OnPath g.outer a ∧ OnPath f.outer b ∧ PtNear tol a' a ∧ PtNear tol b' b ∧ c.kind.mot = .linear ∧
    c.fin = b'.at d ∧ ((g = f ∧ a = b ∧ a' = b' ∧ c.start = a'.at sh) ∨
      (c.start = a'.at d ∧ ((g = f ∧ ∀ x, OnSegment a b x → OnPath f.outer x) ∨ sqDist a' b' ≤ l2 ∨ g = f)))

theorem onSegment_inside {p q a b x : Pt} (ha : OnSegment p q a) (hb : OnSegment p q b) (hx : OnSegment a b x) : OnSegment p q x := by
  obtain ⟨s, s0, s1, rfl⟩ := ha
  obtain ⟨t, t0, t1, rfl⟩ := hb
  obtain ⟨u, u0, u1, rfl⟩ := hx
  refine ⟨s + u * (t - s), by nlinarith, by nlinarith, ?_⟩
  ext <;> simp only [Pt.lerp] <;> ring

theorem block64_near {sq : ℚ → ℚ} (hsq : SquaresUpToUlp sq) {M : ℚ} (hM : 1 ≤ M) {j : Job} {step : ℚ} {pwe : Option Pt}
    {pos : AddrVec} {f : PathFace} {b : List Motion} {q : Pt} {prev : Option (PathFace × Pt)} (hf : FaceOK64 j M f)
    (hprev : PrevOK64 M pwe pos prev) (h : FaceBlock64 sq M j (some step) pwe pos f b q) {s : List PathFace} {d : ℚ} (hfs : f ∈ s)
    (hd : f.depth = d) (hps : ∀ x ∈ prev, x.1 ∈ s ∧ x.1.depth = d) :
    ∀ c ∈ b, c.kind.mot ≠ .rapid →
      FeedNear64 (2 ^ (-49 : ℤ) * M) ((1 + 2 ^ (-48 : ℤ)) * step + 2 ^ (-1070 : ℤ)) j.opSafeHeight d s c := by
  have h0 : 0 ≤ 2 ^ (-49 : ℤ) * M := by have := two_zpow_pos (-49); nlinarith
  obtain ⟨hfeed, -⟩ := block64_feeds hsq hM hf hprev h
  have happ : ∀ {p0 rest}, f.outer = p0 :: rest →
      ∀ c ∈ rapidTo pos ⟨p0.x, p0.y, f.depth⟩ j.rapidHeight (some j.opSafeHeight) (some j.plungeFeed), c.kind.mot ≠ .rapid →
        FeedNear64 (2 ^ (-49 : ℤ) * M) ((1 + 2 ^ (-48 : ℤ)) * step + 2 ^ (-1070 : ℤ)) j.opSafeHeight d s c := by
    intro p0 rest ho c hm hk
    obtain ⟨h1, -, h3, h4⟩ := rapidTo_feeds _ _ _ _ _ c hm hk
    have : OnPath f.outer p0 := .inl (by rw [ho]; simp)
    exact ⟨f, hfs, f, hfs, p0, p0, p0, p0, this, this, ptNear_refl h0 _, ptNear_refl h0 _, by rw [h1.1]; rfl, by rw [h4, ← hd]; rfl,
      .inl ⟨rfl, rfl, rfl, h3⟩⟩
  have hcut : ∀ c ∈ b, c.kind = .cut →
      FeedNear64 (2 ^ (-49 : ℤ) * M) ((1 + 2 ^ (-48 : ℤ)) * step + 2 ^ (-1070 : ℤ)) j.opSafeHeight d s c := by
    intro c hc hk
    rcases hfeed c hc (by rw [hk]; simp [MKind.mot]) with ⟨h1, -⟩ | ⟨-, sg, hsg, a', b', ⟨a, ha, haa⟩, ⟨b, hb, hbb⟩, h1, h2⟩ |
      ⟨g, p, st, rfl, hst, -, ⟨a, ha, haa⟩, n, ⟨⟨b, hb, hbb⟩, -⟩, h1, h2, h3⟩ | ⟨g, p, rfl, n, ⟨⟨b, hb, hbb⟩, -⟩, -, l, hl, -, h1, h2⟩
    · rw [hk] at h1; cases h1
    · exact ⟨f, hfs, f, hfs, a, b, a', b', onPath_of_segment hsg ha, onPath_of_segment hsg hb, haa, hbb, by rw [hk]; rfl, by rw [h2, hd],
        .inr ⟨by rw [h1, hd], .inl ⟨rfl, fun x hx => onPath_of_segment hsg (onSegment_inside ha hb hx)⟩⟩⟩
    · cases hst
      obtain ⟨k1, k2⟩ := hps (g, p) rfl
      exact ⟨g, k1, f, hfs, a, b, p, n, ha, hb, haa, hbb, by rw [hk]; rfl, by rw [h2, hd], .inr ⟨by rw [h1, k2], .inr (.inl h3)⟩⟩
    · exact ⟨f, hfs, f, hfs, l, b, l, n, .inl (List.mem_of_getLast? hl), hb, ptNear_refl h0 _, hbb, by rw [hk]; rfl, by rw [h2, hd],
        .inr ⟨by rw [h1, hd], .inr (.inr rfl)⟩⟩
  intro c hc hk
  cases h with
  | first p0 rest cuts ho hp hc' =>
    rcases List.mem_append.mp hc with hm | hm
    · exact happ ho c hm hk
    · exact hcut c hc (cutsAlong_feeds hc' c hm).1
  | link e n st cuts hp hs hb h0 hd' hc' =>
    rcases List.mem_cons.mp hc with rfl | hm
    · exact hcut _ hc rfl
    · exact hcut c hc (cutsAlong_feeds hc' c hm).1
  | far e p0 rest n cuts chord hp hs ho hb hc' hl =>
    rcases List.mem_append.mp hc with hm | hm
    · rcases List.mem_append.mp hm with hm | hm
      · exact happ ho c hm hk
      · exact hcut c hc (cutsAlong_feeds hc' c hm).1
    · exact hcut c hc (cutsAlong_feeds hl c hm).1

theorem faceBlocks64_near {sq : ℚ → ℚ} (hsq : SquaresUpToUlp sq) {M : ℚ} (hM : 1 ≤ M) {j : Job} {step : ℚ} {pwe : Option Pt}
    {pos : AddrVec} {faces : List PathFace} {bs : List (List Motion)} (h : FaceBlocks64 sq M j (some step) pwe pos faces bs)
    (hf : ∀ f ∈ faces, FaceOK64 j M f) {prev : Option (PathFace × Pt)} (hprev : PrevOK64 M pwe pos prev) {s : List PathFace} {d : ℚ}
    (hfs : ∀ f ∈ faces, f ∈ s ∧ f.depth = d) (hps : ∀ x ∈ prev, x.1 ∈ s ∧ x.1.depth = d) :
    ∀ c ∈ bs.flatten, c.kind.mot ≠ .rapid →
      FeedNear64 (2 ^ (-49 : ℤ) * M) ((1 + 2 ^ (-48 : ℤ)) * step + 2 ^ (-1070 : ℤ)) j.opSafeHeight d s c := by
  generalize hst : some step = stepover at h
  induction h generalizing prev with
  | nil => simp
  | @cons pwe pos f fs b bs q hb hq t ih =>
    subst hst
    obtain ⟨k1, k2⟩ := hfs f (by simp)
    obtain ⟨-, h4⟩ := block64_feeds hsq hM (hf f (by simp)) hprev hb
    intro c hc hk
    rw [List.flatten_cons] at hc
    rcases List.mem_append.mp hc with hc | hc
    · exact block64_near hsq hM (hf f (by simp)) hprev hb k1 k2 hps c hc hk
    · exact ih (fun g hg => hf g (by simp [hg])) (prev := some (f, q)) ⟨rfl, rfl, h4, hq⟩ (fun g hg => hfs g (by simp [hg]))
        (by rintro x hx; cases hx; exact ⟨k1, k2⟩) c hc hk

theorem routeSequences64_near {lib : MathLib} (hl : SquaresWell lib.sq) {M : ℚ} (hM : 1 ≤ M) {j : Job} {step : ℚ}
    {seqs : List (List PathFace)} (hf : ∀ f ∈ seqs.flatten, FaceOK64 j M f) (hd : ∀ s ∈ seqs, ∃ d, ∀ f ∈ s, f.depth = d)
    {R : Motion → Prop} (hR : ∀ s ∈ seqs, ∀ d, (∀ f ∈ s, f.depth = d) → ∀ c,
      FeedNear64 (2 ^ (-49 : ℤ) * M) ((1 + 2 ^ (-48 : ℤ)) * step + 2 ^ (-1070 : ℤ)) j.opSafeHeight d s c → R c)
    {acc cs : List Motion} {pos : AddrVec} (ha : ∀ c ∈ acc, c.kind.mot ≠ .rapid → R c)
    (h : routeSequences64 lib j step acc pos seqs = .ok cs) : ∀ c ∈ cs, c.kind.mot ≠ .rapid → R c := by
  induction seqs generalizing acc pos with
  | nil => cases h; exact ha
  | cons s ss ih =>
    have hfs : ∀ f ∈ s, FaceOK64 j M f := fun f h => hf f (by simp [h])
    obtain ⟨b1, h1, h2⟩ := routeFaces64_blocks hl hM (stepover := some step) hfs none (by simp) pos
    obtain ⟨d, hsd⟩ := hd s (by simp)
    have hnear := faceBlocks64_near hl.err hM h2 hfs (prev := none) trivial (fun f hf => ⟨hf, hsd f hf⟩) (by simp)
    unfold routeSequences64 routePolyfaceOuters64 at h
    rw [Option.getD_some, h1, ok_bind] at h
    have hacc : ∀ c ∈ acc ++ b1.flatten, c.kind.mot ≠ .rapid → R c := by
      intro c hc hk
      rcases List.mem_append.mp hc with hc | hc
      · exact ha c hc hk
      · exact hR s (by simp) d hsd c (hnear c hc hk)
    cases hlast : (acc ++ b1.flatten).getLast? with
    | none => simp only [hlast] at h; cases h
    | some cmd =>
      simp only [hlast] at h
      exact ih (fun f h => hf f (by simp at h ⊢; exact Or.inr h)) (fun x hx => hd x (by simp [hx])) (fun x hx => hR x (by simp [hx])) hacc h

/-! ### which contours at which depths -/

theorem opSequences64_uniform {eng : Clipper} {fuel : ℕ} {stepover : ℚ} {stepdown : Option ℚ} {precision : ℕ}
    {shallower : List PathFace} {op : PathFace} (hsd : ∀ s, stepdown = some s → 0 ≤ s ∧ IsDouble s) {seqs : List (List PathFace)}
    (h : opSequences64 eng fuel stepover stepdown precision shallower op = .ok seqs) :
    ∃ fill, fillPocket eng fuel op stepover precision = .ok fill ∧
      ∀ s ∈ seqs, ∃ d, (∀ f ∈ s, f.depth = d) ∧ ∃ g ∈ fill, s.map PathFace.outer = g.map PathFace.outer := by
  have hfill : ∃ fill, fillPocket eng fuel op stepover precision = .ok fill := by
    unfold opSequences64 at h
    obtain ⟨fill, hf, -⟩ := bind_ok.mp h
    exact ⟨fill, hf⟩
  obtain ⟨fill, hf⟩ := hfill
  obtain ⟨steps, -, h2⟩ := opSequences64_spec (shallower := shallower) hsd hf
  rw [h] at h2
  cases h2
  refine ⟨fill, hf, fun s hs => ?_⟩
  rcases List.mem_append.mp hs with hs | hs
  · obtain ⟨d, -, hq⟩ := List.mem_flatMap.mp hs
    obtain ⟨q', hq', rfl⟩ := List.mem_map.mp hq
    refine ⟨d, fun f hfq => ?_, q', hq', ?_⟩
    · obtain ⟨g, -, rfl⟩ := List.mem_map.mp hfq
      rfl
    · rw [List.map_map]; rfl
  · exact ⟨op.depth, fun f hfs => (fill_depths hf).1 f (List.mem_flatten.mpr ⟨s, hs, hfs⟩), s, hs, rfl⟩

theorem allSequences64_uniform {eng : Clipper} {fuel : ℕ} {stepover : ℚ} {stepdown : Option ℚ} {precision : ℕ}
    (hsd : ∀ s, stepdown = some s → IsDouble s ∧ (s = 0 ∨ 1 / 1000 ≤ s ∧ s ≤ 1000)) {done ops : List PathFace}
    (hd : (done ++ ops).Pairwise (fun a b => b.depth ≤ a.depth)) (h0 : ∀ o ∈ done ++ ops, o.depth ≤ 0) (hlo : ∀ o ∈ ops, -1000 ≤ o.depth)
    {seqs : List (List PathFace)} (h : allSequences64 eng fuel stepover stepdown precision done ops = .ok seqs) :
    ∀ s ∈ seqs, ∃ op ∈ ops, ∃ fill, fillPocket eng fuel op stepover precision = .ok fill ∧
      ∃ d, (∀ f ∈ s, f.depth = d ∧ op.depth - 1 / 100000 ≤ d) ∧ ∃ g ∈ fill, s.map PathFace.outer = g.map PathFace.outer := by
  have hsd' : ∀ s, stepdown = some s → 0 ≤ s ∧ IsDouble s := by
    intro s hs
    obtain ⟨h1, rfl | ⟨h2, -⟩⟩ := hsd s hs
    · exact ⟨le_rfl, h1⟩
    · exact ⟨by linarith, h1⟩
  induction ops generalizing done seqs with
  | nil => cases h; simp
  | cons op ops ih =>
    rw [allSequences64] at h
    obtain ⟨a, h1, h⟩ := bind_ok.mp h
    obtain ⟨b, h2, h⟩ := bind_ok.mp h
    cases h
    intro s hs
    rcases List.mem_append.mp hs with hs | hs
    · obtain ⟨fill, k1, k2⟩ := opSequences64_uniform hsd' h1
      have i1 := opSequences64_floor hsd (fun o ho => ⟨(List.pairwise_append.mp hd).2.2 o ho op (by simp), h0 o (by simp [ho])⟩)
        (h0 op (by simp)) (hlo op (by simp)) h1
      obtain ⟨d, k3, k4⟩ := k2 s hs
      refine ⟨op, by simp, fill, k1, d, fun f hf => ?_, k4⟩
      obtain rfl := k3 f hf
      exact ⟨rfl, i1 f (List.mem_flatten.mpr ⟨s, hs, hf⟩)⟩
    · obtain ⟨o, ho, r⟩ := ih (done := done ++ [op]) (by simpa using hd) (fun o ho => h0 o (by simpa using ho))
        (fun o ho => hlo o (by simp [ho])) h2 s hs
      exact ⟨o, by simp [ho], r⟩

/-- A feed move over points of a set, up to `tol`: down to one, over points of the set only, over a short distance, or as allowed by `C`. -/
def FeedsOver64 (tol l2 : ℚ) (P : Pt → Prop) (C : Pt → Pt → Prop) (sh d : ℚ) (c : Motion) : Prop :=
  ∃ a b a' b', P a ∧ P b ∧ PtNear tol a' a ∧ PtNear tol b' b ∧ c.kind.mot = .linear ∧ c.fin = b'.at d ∧
    ((a = b ∧ a' = b' ∧ c.start = a'.at sh) ∨
      (c.start = a'.at d ∧ ((∀ x, OnSegment a b x → P x) ∨ sqDist a' b' ≤ l2 ∨ C a b)))

/-- Every feed move of a pocket is in one region that is at least as deep, or links two of its contours, or is a chord of one. -/
theorem pocket64_feeds {K : List IPt → Prop} {δ : ℚ} {eng : Clipper} {lib : MathLib} {j : Job} (he : Engine64 K j.precision eng lib)
    (heng : ClipperNearOn (OnInts K) δ eng) (hi : StaysInside (OnInts K) δ j.precision eng) {fuel : ℕ}
    {opAreas avoidAreas : List PathFace} {outerOffset innerOffset avoidOuterOffset avoidInnerOffset stepover : ℚ} {stepdown : Option ℚ}
    {cs : List Motion}
    (h : pocketClipper64 lib eng fuel j opAreas avoidAreas outerOffset innerOffset avoidOuterOffset avoidInnerOffset stepover
      stepdown = .ok cs) (hsafe : 0 < j.opSafeHeight) (hstep : 2 * δ < stepover)
    (hsd : ∀ s, stepdown = some s → IsDouble s ∧ (s = 0 ∨ 1 / 1000 ≤ s ∧ s ≤ 1000))
    {B : ℚ} (hB : B + max outerOffset 0 ≤ 2 ^ 20) (hf : ∀ f ∈ opAreas, InBox B f.outer) (hlo : ∀ f ∈ opAreas, -1000 ≤ f.depth) :
    ∃ areas avoids regions,
      mapE (fun f => offsetPolyface eng f outerOffset innerOffset j.precision) opAreas = .ok areas ∧
      mapE (fun f => offsetPolyface eng f avoidOuterOffset avoidInnerOffset j.precision) avoidAreas = .ok avoids ∧
      buildPocketOps eng areas.flatten avoids.flatten = .ok regions ∧
      ∀ c ∈ cs, c.kind.mot ≠ .rapid → ∃ r ∈ regions, ∃ contours d, Unfolds (Follows eng r stepover j.precision) [r.outer] contours ∧
        r.depth - 1 / 100000 ≤ d ∧ d ≤ 0 ∧
        FeedsOver64 (2 ^ (-28 : ℤ)) ((1 + 2 ^ (-48 : ℤ)) * stepover + 2 ^ (-1070 : ℤ)) (InRegion δ r)
          (fun a b => ∃ c ∈ contours, OnOutline c a ∧ OnOutline c b) j.opSafeHeight d c := by
  have hs : 0 ≤ stepover := by linarith [heng.nonneg]
  have hsd' : ∀ s, stepdown = some s → 0 ≤ s ∧ IsDouble s := by
    intro s hs
    obtain ⟨h1, rfl | ⟨h2, -⟩⟩ := hsd s hs
    · exact ⟨le_rfl, h1⟩
    · exact ⟨by linarith, h1⟩
  unfold pocketClipper64 at h
  obtain ⟨areas, h1, h⟩ := bind_ok.mp h
  obtain ⟨avoids, h2, h⟩ := bind_ok.mp h
  obtain ⟨regions, h3, h⟩ := bind_ok.mp h
  obtain ⟨seqs, h4, h5⟩ := bind_ok.mp h
  refine ⟨areas, avoids, regions, h1, h2, h3, ?_⟩
  have hfrom : ∀ o ∈ regions, ∃ f ∈ opAreas, f.depth = o.depth := by
    intro o ho
    obtain ⟨f', hf', he⟩ := ops_depth h3 ho
    obtain ⟨l, hl, hfl⟩ := List.mem_flatten.mp hf'
    obtain ⟨f0, hf0, hoff⟩ := mapE_mem h1 hl
    exact ⟨f0, hf0, by rw [← offsetPolyface_depth hoff f' hfl, he]⟩
  have hz : ∀ o ∈ regions, o.depth ≤ 0 := by
    intro o ho
    obtain ⟨f, hf, he⟩ := ops_depth h3 ho
    rw [← he]
    exact (C38_order h3).1 f (List.mem_append_left _ hf)
  have hpw : regions.Pairwise (fun a b => b.depth ≤ a.depth) := by
    obtain ⟨-, groups, rfl, g1, g2, g3⟩ := C38_order h3
    exact flatten_pairwise g1 g3
  have hG : ∀ f ∈ areas.flatten ++ avoids.flatten, f.All (OnInts K) := by
    intro f hf
    rcases List.mem_append.mp hf with hf | hf
    · exact kind_areas he.kind h1 f hf
    · exact kind_areas he.kind h2 f hf
  have hlay := allSequences64_layers (done := []) hsd' (by simpa using hz) h4
  have hok := contours64_ok he.kind he.noRepeats he.boxes h3 (areas_box he hB hf h1) hs hlay hsafe
  have huni := allSequences64_uniform (done := []) hsd hpw (by simpa using hz) (by
    intro o ho
    obtain ⟨f, hf, he⟩ := hfrom o ho
    rw [← he]; exact hlo f hf) h4
  refine routeSequences64_near he.squares (by norm_num) hok (fun s hs => ?_) (fun s hs d hd c hc => ?_) (by simp) h5
  · obtain ⟨op, hop, fill, hff, d, hd, _⟩ := huni s hs
    exact ⟨d, fun f hf => (hd f hf).1⟩
  · obtain ⟨op, hop, fill, hff, d', hd', g, hg, hsg⟩ := huni s hs
    obtain ⟨xs, hu, k2, -⟩ := C42_complete hff
    have hmem : ∀ f ∈ s, f.outer ∈ xs ∧ ∀ x, OnPath f.outer x → InRegion δ op x := by
      intro f hfs
      obtain ⟨f', hf', e2⟩ := List.mem_map.mp (hsg ▸ List.mem_map.mpr ⟨f, hfs, rfl⟩ : f.outer ∈ g.map PathFace.outer)
      have hfl : f' ∈ fill.flatten := List.mem_flatten.mpr ⟨g, hg, hf'⟩
      rw [← e2]
      exact ⟨k2.mem_iff.mp (List.mem_map.mpr ⟨f', hfl, rfl⟩), fill_region heng he.kind hi hG h3 hop hstep hff f' hfl⟩
    obtain ⟨g0, hg0, f0, hf0, a, b, a', b', c1, c2, c3, c4, c5, c6, c7⟩ := hc
    have htol : (2 : ℚ) ^ (-49 : ℤ) * 2 ^ 21 = 2 ^ (-28 : ℤ) := by norm_num
    rw [htol] at c3 c4
    have hdd : d = d' := by rw [← hd f0 hf0, (hd' f0 hf0).1]
    refine ⟨op, hop, xs, d, hu, by rw [hdd]; exact (hd' f0 hf0).2, ?_, a, b, a', b', (hmem g0 hg0).2 a c1, (hmem f0 hf0).2 b c2, c3, c4, c5,
      c6, ?_⟩
    · rw [← hd f0 hf0]; exact (hlay.faces hz f0 (List.mem_flatten.mpr ⟨s, hs, hf0⟩)).1
    · rcases c7 with ⟨-, k1, k2, k3⟩ | ⟨k1, ⟨-, k2⟩ | k2 | rfl⟩
      · exact .inl ⟨k1, k2, k3⟩
      · exact .inr ⟨k1, .inl fun x hx => (hmem f0 hf0).2 x (k2 x hx)⟩
      · exact .inr ⟨k1, .inr (.inl k2)⟩
      · exact .inr ⟨k1, .inr (.inr ⟨_, (hmem g0 hg0).1, onOutline_of_path c1, onOutline_of_path c2⟩)⟩

/-! ### on the machine -/

theorem ptNear_trans {s t : ℚ} {p q r : Pt} (h1 : PtNear s p q) (h2 : PtNear t q r) : PtNear (s + t) p r := by
  obtain ⟨a1, a2⟩ := h1
  obtain ⟨b1, b2⟩ := h2
  exact ⟨(abs_sub_le _ q.x _).trans (add_le_add a1 b1), (abs_sub_le _ q.y _).trans (add_le_add a2 b2)⟩

/-- A feed move over such points is performed as one. -/
theorem feeds64_of_follows {e : Event} {c : Motion} {tol l2 : ℚ} {P : Pt → Prop} {C : Pt → Pt → Prop} {sh d : ℚ} (h : FollowsMove e c)
    (hc : FeedsOver64 tol l2 P C sh d c) (hd : d ≤ sh) (hs : isFeedMove e = true → e.st.spindle = .cw) :
    ∃ a b, P a ∧ P b ∧ FeedsNear (1 / 2000 + tol) a b (rnd 3 d) e ∧
      ((∀ x, OnSegment a b x → P x) ∨ LinkedUpTo tol l2 a b ∨ C a b) := by
  obtain ⟨a, b, a', b', ha, hb, hna, hnb, hk, hfin, hst⟩ := hc
  obtain ⟨⟨tgt, ctr, hact, hx, hy, hz, -, -⟩, hpos⟩ := h
  rw [hfin] at hx hy hz
  rw [hk] at hact
  have htgt : tgt = Pt.pos ⟨rnd 3 b'.x, rnd 3 b'.y⟩ (rnd 3 d) := by
    ext1
    · exact hx.1 _ rfl
    · exact hy.1 _ rfl
    · exact hz.1 _ rfl
  rw [htgt] at hact
  have hcw := hs (by simp [isFeedMove, hact])
  have hp : ∀ p : Pt, PtNear (1 / 2000) ⟨rnd 3 p.x, rnd 3 p.y⟩ p := fun p => ⟨abs_rnd3 _, abs_rnd3 _⟩
  refine ⟨a, b, ha, hb, ?_⟩
  rcases hst with ⟨rfl, rfl, h1⟩ | ⟨h1, hway⟩
  · rw [h1] at hpos
    refine ⟨⟨hcw, _, _, _, ctr, pos_of_agrees hpos, hact, ptNear_trans (hp _) hna, ptNear_trans (hp _) hnb, .inr ⟨rfl, rnd_mono hd⟩⟩, ?_⟩
    refine .inl ?_
    rintro x ⟨t, -, -, rfl⟩
    rwa [show a.lerp a t = a by ext <;> simp [Pt.lerp]]
  · rw [h1] at hpos
    exact ⟨⟨hcw, _, _, _, ctr, pos_of_agrees hpos, hact, ptNear_trans (hp _) hna, ptNear_trans (hp _) hnb, .inl rfl⟩,
      hway.imp id (Or.imp (fun h => ⟨a', b', hna, hnb, h⟩) id)⟩

/-- A feed from near one point to near another stays near what is between them. -/
theorem stays64_of_feeds {tol : ℚ} {K : Pt → Prop} {a b : Pt} {z : ℚ} {e : Event} (hK : ∀ x, OnSegment a b x → K x)
    (h : FeedsNear tol a b z e) : StaysNear tol K e := by
  obtain ⟨-, a', b', z', ctr, h1, h2, ha, hb, -⟩ := h
  refine ⟨a', b', z', z, .linear, ctr, h1, h2, .inr rfl, ?_⟩
  rintro q ⟨t, t0, t1, rfl⟩
  exact ⟨_, hK _ ⟨t, t0, t1, rfl⟩, lerp_near ha hb t0 t1⟩

/-- C141, partial: `C113_gouge` in floating point.  Every feed move of the machine in the part of a pocket belongs to a region that is, up to a
hundred-thousandth, at least as deep.  It starts and ends, up to printing and `2^-28` mm, over points where the tool is in the given faces
with the disc of the size of the offsets that are used (the requested ones up to rounding), up to five times the tolerance of the engine; and
so it is everywhere on the way, if it is not a link between two contours, over a squared length of at most the stepover, or the closing cut
across a contour.  Missing: the links and the closing cuts, see `C108_violated` and `C138_violated_chord`. -/
theorem C141_pocket_partial {K₀ K : List IPt → Prop} {δ δ' : ℚ} {e : IntClipper} {lib : MathLib} {j0 : Job}
    (he : IntEngine K₀ K δ (scaledPrecision j0.precision) e) (hbox : IntBoxes (scaledPrecision j0.precision) e)
    (hl : SquaresWell lib.sq) (hδ : δ' = δ + 3 * resolution)
    {veq : Vec → Vec → Bool} {fuel : ℕ} {opAreas avoidAreas : List CqFace}
    {a : PocketArgs} {tool : Option Tool} {j1 j2 jf : Job} {before after : List Request} (m : Machine) (h0 : InitOK j0)
    (hn : ∀ v, j0.toolNumber = some v → NumOK v)
    (hok : ChainOK j0 (before ++ pocketRequest64 lib e.scaled veq fuel opAreas avoidAreas a tool :: after))
    (h1 : j0.chain before = .ok j1) (h2 : (j1.call (pocketRequest64 lib e.scaled veq fuel opAreas avoidAreas a tool)).2 = .ok j2)
    (h3 : j2.chain after = .ok jf) (hend : m.ended = false)
    (htool : ∀ n, j0.toolNumber = some n → m.tool = some n.value) (hsafe : 0 < j0.opSafeHeight)
    (hsd : ∀ s, a.stepdown = some s → IsDouble s ∧ (s = 0 ∨ 1 / 1000 ≤ s ∧ s ≤ 1000))
    (hD : ∀ c ∈ opAreas ++ avoidAreas, ∀ f, FlatFace veq j0.precision c f → f.All (Rounded K₀)) :
    ∃ t m' pre part post diameter outer inner avoidOuter avoidInner stepover faces avoidFaces areas avoids regions,
      jf.toGcode = .ok t ∧ runText m t = some (m', pre ++ part ++ post) ∧
      (j1.settings.inherit tool).toolDiameter = some diameter ∧
      OffsetNear (diameter / 2) (if avoidAreas ≠ [] ∧ a.outerOffset = none then (0, 0) else offsetParts (-1) a.outerOffset) outer ∧
      OffsetNear (diameter / 2) (offsetParts 1 a.innerOffset) inner ∧
      OffsetNear (diameter / 2) (offsetParts 1 a.avoidOuterOffset) avoidOuter ∧
      OffsetNear (diameter / 2) (offsetParts (-1) a.avoidInnerOffset) avoidInner ∧
      OffsetNear (diameter / 2) (offsetParts (1 / 2) a.stepover) stepover ∧
      List.Forall₂ (FlatFace veq j0.precision) opAreas faces ∧ List.Forall₂ (FlatFace veq j0.precision) avoidAreas avoidFaces ∧
      List.Forall₂ (OffsetFaces e.scaled outer inner j0.precision) faces areas ∧
      List.Forall₂ (OffsetFaces e.scaled avoidOuter avoidInner j0.precision) avoidFaces avoids ∧
      buildPocketOps e.scaled areas.flatten avoids.flatten = .ok regions ∧
      (2 * δ' < stepover → outer ≤ 0 → (∀ f ∈ faces, InBox (2 ^ 20) f.outer ∧ -1000 ≤ f.depth) →
        (∀ f ∈ avoidFaces, f.inners = [] ∨ avoidOuter ≤ -avoidInner) → HolesApart e.scaled δ' inner j0.precision faces →
        (∀ r ∈ regions, NoVoid e.scaled areas r.depth ∧ Separate (2 * δ') (cutAway areas avoids r.depth)) →
        ∀ ev ∈ part, isFeedMove ev = true →
          (∀ n, (j1.settings.inherit tool).toolNumber = some n → ev.st.tool = some n.value) ∧
          ∃ r ∈ regions, ∃ d p q, r.depth - 1 / 100000 ≤ d ∧ d ≤ 0 ∧
          FeedsNear (1 / 2000 + 2 ^ (-28 : ℤ)) p q (rnd 3 d) ev ∧
          ToolIn faces avoidFaces (5 * δ') (-outer - 5 * δ') (inner - 5 * δ') (avoidOuter - 5 * δ') r.depth p ∧
          ToolIn faces avoidFaces (5 * δ') (-outer - 5 * δ') (inner - 5 * δ') (avoidOuter - 5 * δ') r.depth q ∧
          (StaysNear (1 / 2000 + 2 ^ (-28 : ℤ))
              (ToolIn faces avoidFaces (5 * δ') (-outer - 5 * δ') (inner - 5 * δ') (avoidOuter - 5 * δ') r.depth) ev ∨
            LinkedUpTo (2 ^ (-28 : ℤ)) ((1 + 2 ^ (-48 : ℤ)) * stepover + 2 ^ (-1070 : ℤ)) p q ∨
            ∃ contours, Unfolds (Follows e.scaled r stepover j0.precision) [r.outer] contours ∧
              ∃ c ∈ contours, OnOutline c p ∧ OnOutline c q)) := by
  subst hδ
  obtain ⟨c1, c2, c3, c4, c5, c6, c7, c8, c9⟩ := C113_contracts he
  have heng := engine64_of he hbox hl
  have hsd' : ∀ s, a.stepdown = some s → 0 ≤ s ∧ IsDouble s := by
    intro s hs
    obtain ⟨h1, rfl | ⟨h2, -⟩⟩ := hsd s hs
    · exact ⟨le_rfl, h1⟩
    · exact ⟨by linarith, h1⟩
  obtain ⟨t, m', pre, part, post, cs, e1, e2, hcs, -, hfol, hpart⟩ := C94_followed m h0 hn hok h1 h2 h3 hend htool
  have hb : SameBase j0 (j1.updateTool tool).2 :=
    updateTool_base (chain_base (by unfold SameBase; rfl) h1) _
  have hset : (j1.updateTool tool).2.settings = j1.settings.inherit tool := by
    obtain ⟨-, -, -, h, -⟩ := updateTool_commands j1 tool
    exact h
  have hprec : (j1.updateTool tool).2.precision = j0.precision := by rw [hb]
  have hsafe' : 0 < (j1.updateTool tool).2.opSafeHeight := by rw [(sameBase_heights hb).2.1]; exact hsafe
  have hcs : pocket64 lib e.scaled veq fuel opAreas avoidAreas a (j1.updateTool tool).2 = .ok cs := hcs
  rw [← hprec] at heng c5 c6 c8 hD
  rw [← hset, ← hprec]
  generalize (j1.updateTool tool).2 = J at *
  unfold pocket64 at hcs
  cases hr : J.toolRadius64 with
  | none => rw [hr] at hcs; cases hcs
  | some r =>
    rw [hr] at hcs
    obtain ⟨diameter, hd, hrd⟩ : ∃ d, J.toolDiameter = some d ∧ r = b64 (d / 2) := by
      unfold Job.toolRadius64 Job.toolRadius at hr
      cases hj : J.toolDiameter with
      | none => rw [hj] at hr; cases hr
      | some d =>
        rw [hj] at hr
        by_cases h0 : d = 0
        · simp [h0] at hr
        · simp only [h0, if_false, Option.map_some, Option.some.injEq] at hr
          exact ⟨d, rfl, hr.symm⟩
    obtain ⟨faces, g1, hcs⟩ := bind_ok.mp hcs
    obtain ⟨avoidFaces, g2, hcs⟩ := bind_ok.mp hcs
    have hclip := hcs
    unfold pocketClipper64 at hcs
    obtain ⟨areas, g3, hcs⟩ := bind_ok.mp hcs
    obtain ⟨avoids, g4, hcs⟩ := bind_ok.mp hcs
    obtain ⟨regions, g5, -⟩ := bind_ok.mp hcs
    have f1 : List.Forall₂ (FlatFace veq J.precision) opAreas faces := (mapE_ok.mp g1).imp fun _ _ => fromCqFace_spec
    have f2 : List.Forall₂ (FlatFace veq J.precision) avoidAreas avoidFaces := (mapE_ok.mp g2).imp fun _ _ => fromCqFace_spec
    have f3 := (mapE_ok.mp g3).imp fun _ _ h => offsetPolyface_spec h
    have f4 := (mapE_ok.mp g4).imp fun _ _ h => offsetPolyface_spec h
    refine ⟨t, m', pre, part, post, diameter, _, _, _, _, calculateOffset64 r a.stepover (some (1 / 2)), faces, avoidFaces, areas, avoids,
      regions, e1, e2, hd, ?_, offset64_near hrd _ _, offset64_near hrd _ _, offset64_near hrd _ _, offset64_near hrd _ _,
      f1, f2, f3, f4, g5, ?_⟩
    · have := offset64_near hrd (-1) (if avoidAreas ≠ [] ∧ a.outerOffset = none then some (.mult 0) else a.outerOffset)
      by_cases hc : avoidAreas ≠ [] ∧ a.outerOffset = none
      · rw [if_pos hc] at this ⊢
        rw [if_pos hc]
        exact this
      · rw [if_neg hc] at this ⊢
        rw [if_neg hc]
        exact this
    · intro hstep hout hbx hin hholes hsep ev hev hf
      have hB : (2 : ℚ) ^ 20 + max (calculateOffset64 r (if avoidAreas ≠ [] ∧ a.outerOffset = none then some (.mult 0) else a.outerOffset)
          (some (-1))) 0 ≤ 2 ^ 20 := by rw [max_eq_right hout]; norm_num
      have hpos : 0 ≤ calculateOffset64 r a.stepover (some (1 / 2)) := by linarith [c1.nonneg]
      obtain ⟨-, hcon, -⟩ := pocket64_path heng hclip hsafe' hpos hsd' hB (fun f hf => (hbx f hf).1)
      obtain ⟨areas', avoids', regions', k3, k4, k5, hall⟩ := pocket64_feeds heng c1 c5 hclip hsafe' hstep hsd hB
        (fun f hf => (hbx f hf).1) (fun f hf => (hbx f hf).2)
      rw [g3] at k3; cases k3
      rw [g4] at k4; cases k4
      rw [g5] at k5; cases k5
      have hDf : ∀ f ∈ faces ++ avoidFaces, f.All (Rounded K₀) := by
        intro f hf
        rcases List.mem_append.mp hf with hf | hf
        · obtain ⟨c, hc, hcf⟩ := forall₂_mem_right f1 hf
          exact hD c (by simp [hc]) f hcf
        · obtain ⟨c, hc, hcf⟩ := forall₂_mem_right f2 hf
          exact hD c (by simp [hc]) f hcf
      obtain ⟨c, hc, hec⟩ := forall₂_mem_left (hfol (tracks_connected hcon)) (List.mem_filter.mpr ⟨hev, isMove_of_isFeedMove hf⟩)
      obtain ⟨x, hx, contours, d, hu, d1, d2, hover⟩ := hall c hc (by
        intro hr
        obtain ⟨⟨tgt, ctr, hact, -⟩, -⟩ := hec
        rw [hr] at hact
        simp [isFeedMove, hact] at hf)
      obtain ⟨p, q, hp, hq, hfeed, hway⟩ := feeds64_of_follows hec hover (by linarith) (hpart ev hev).2
      have key : ∀ y, InRegion (δ + 3 * resolution) x y → ToolIn faces avoidFaces (5 * (δ + 3 * resolution)) _ _ _ x.depth y := fun y hy =>
        region_tool c1 c2 c6 c8 (s := -calculateOffset64 r
            (if avoidAreas ≠ [] ∧ a.outerOffset = none then some (.mult 0) else a.outerOffset) (some (-1)))
          (si := -calculateOffset64 r a.avoidInnerOffset (some (-1)))
          (by linarith) hDf (by rw [neg_neg]; exact f3) (by rw [neg_neg]; exact f4) g5 hin hx (hsep x hx).1 hholes (hsep x hx).2 hy
      refine ⟨by rw [hset]; exact (hpart ev hev).1 (isMove_of_isFeedMove hf), x, hx, d, p, q, d1, d2, hfeed, key p hp, key q hq, ?_⟩
      rcases hway with hway | hway | hway
      · exact .inl (stays64_of_feeds (fun y hy => key y (hway y hy)) hfeed)
      · exact .inr (.inl hway)
      · exact .inr (.inr ⟨contours, hu, hway⟩)

end CQ
