import Verif.Props.PocketAreas
import Verif.Props.PocketWitness
import Verif.Spec.Coverage

/-! # C89, C90: the contours of a pocket clear its regions and stay in them -/

namespace CQ

theorem not_farFrom {r : ℚ} {path : List Pt} {p : Pt} : ¬ FarFrom r path p ↔ ∃ q, OnOutline path q ∧ sqDist p q ≤ r ^ 2 := by
  unfold FarFrom
  push Not
  rfl

/-- The triangle inequality, in squares. -/
theorem sqDist_triangle {p q x : Pt} {a b : ℚ} (ha : 0 ≤ a) (hb : 0 ≤ b) (h1 : sqDist p q ≤ b ^ 2) (h2 : sqDist q x ≤ a ^ 2) :
    sqDist p x ≤ (a + b) ^ 2 := by
  unfold sqDist at *
  set u1 := p.x - q.x with hu1
  set u2 := p.y - q.y with hu2
  set v1 := q.x - x.x with hv1
  set v2 := q.y - x.y with hv2
  have e1 : p.x - x.x = u1 + v1 := by rw [hu1, hv1]; ring
  have e2 : p.y - x.y = u2 + v2 := by rw [hu2, hv2]; ring
  rw [e1, e2]
  have hc : (u1 * v1 + u2 * v2) ^ 2 ≤ (a * b) ^ 2 := by
    have h3 : (u1 * v1 + u2 * v2) ^ 2 ≤ (u1 * u1 + u2 * u2) * (v1 * v1 + v2 * v2) := by
      nlinarith [sq_nonneg (u1 * v2 - u2 * v1)]
    have h4 : (u1 * u1 + u2 * u2) * (v1 * v1 + v2 * v2) ≤ b ^ 2 * a ^ 2 :=
      mul_le_mul h1 h2 (add_nonneg (mul_self_nonneg _) (mul_self_nonneg _)) (by positivity)
    calc _ ≤ _ := h3
      _ ≤ _ := h4
      _ = _ := by ring
  have := abs_le_of_sq_le_sq' hc (mul_nonneg ha hb)
  nlinarith [this.2]

/-- Far from an outline whose points are near another one. -/
theorem FarFrom.shift {a b : ℚ} (ha : 0 ≤ a) (hb : 0 ≤ b) {path q : List Pt} {p : Pt} (h : FarFrom (a + b) path p)
    (hq : ∀ x, OnOutline q x → ¬ FarFrom a path x) : FarFrom b q p := by
  intro x hx
  by_contra hc
  obtain ⟨y, hy, hxy⟩ := not_farFrom.mp (hq x hx)
  exact absurd (h y hy) (not_lt.mpr (sqDist_triangle ha hb (not_lt.mp hc) hxy))

theorem ClosedAs.onOutline {c q : List Pt} (h : ClosedAs c q) (p : Pt) : OnOutline q p ↔ OnOutline c p := by
  obtain ⟨-, rfl | ⟨a, h1, h2, rfl⟩, -⟩ := h
  · rfl
  · cases c with
    | nil => cases h1
    | cons b c =>
      cases h1
      have : closePath (a :: c) = .ok (a :: c ++ [a]) := by
        unfold closePath
        rw [List.getLast?_eq_some_getLast (by simp)] at h2 ⊢
        simp only [List.head?_cons]
        rw [if_pos]
        intro hab
        exact h2 (by rw [← hab])
      exact (closePath_spec this).2.2.1 p

theorem FarFrom.closedAs {r : ℚ} {c q : List Pt} {p : Pt} (h : ClosedAs c q) : FarFrom r q p ↔ FarFrom r c p := by
  unfold FarFrom
  simp only [h.onOutline]

theorem insideCount_closed {cs qs : List (List Pt)} (h : List.Forall₂ ClosedAs cs qs) (p : Pt) : insideCount qs p = insideCount cs p := by
  induction h with
  | nil => rfl
  | cons hc _ ih =>
    unfold insideCount at ih ⊢
    rw [List.countP_cons, List.countP_cons, ih]
    simp only [hc.2.2 p]

theorem not_inside_nil (p : Pt) : ¬ Inside [] p := by
  simp [Inside, crossings, closedOutline, segments]

theorem insideCount_filter (raw : List (List Pt)) (p : Pt) : insideCount (raw.filter (fun q => decide (q ≠ []))) p = insideCount raw p := by
  unfold insideCount
  rw [List.countP_filter]
  apply List.countP_congr
  intro q _
  by_cases hq : q = []
  · subst hq; simp [not_inside_nil]
  · simp [hq]

/-- Where a region's holes are not in the way, every point inside a contour is near that contour or a later one. -/
theorem unfolds_covers {G : List Pt → Prop} {δ : ℚ} {eng : Clipper} {k : ℕ} (heng : ClipperNearOn G δ eng) (hk : MakesKind G eng)
    (hs : ShrinksNear G δ k eng) {r : PathFace} (hr : r.All G) {step : ℚ} (hstep : 0 < step) {p : Pt}
    (hp : ∀ i ∈ r.inners, ¬ Inside i p ∧ FarFrom δ i p) {ps xs : List (List Pt)}
    (h : Unfolds (Follows eng r step k) ps xs) (hG : ∀ c ∈ ps, G c) (hin : ∃ c ∈ ps, Inside c p) :
    ∃ c ∈ xs, Inside c p ∧ ¬ FarFrom (step + 2 * δ) c p := by
  have hδ := heng.nonneg
  induction h with
  | nil => obtain ⟨c, hc, -⟩ := hin; simp at hc
  | @cons c ps cs xs ys hf hcs hps ih1 ih2 =>
    by_cases hc : Inside c p
    · by_cases hfar : FarFrom (step + 2 * δ) c p
      · obtain ⟨raw, shrunk, h1, h2, h3⟩ := hf
        have hGc := hG c (by simp)
        have hone := hs.keeps c step raw hGc hstep h1 p hc (hfar.mono (by linarith) (by linarith))
        rw [← insideCount_filter, ← insideCount_closed h2] at hone
        have hGs : ∀ s ∈ shrunk, G s := by
          intro s hs'
          obtain ⟨q, hq, hqs⟩ := forall₂_mem_right h2 hs'
          exact hk.offset c (-step) k raw h1 q (List.mem_of_mem_filter hq) s hqs
        have hfs : ∀ s ∈ shrunk, FarFrom δ s p := by
          intro s hs'
          obtain ⟨q, hq, hqs⟩ := forall₂_mem_right h2 hs'
          rw [FarFrom.closedAs hqs]
          refine FarFrom.shift (a := step + δ) (by linarith) hδ (by convert hfar using 1; ring) ?_
          exact hs.near c step raw hGc hstep h1 q (List.mem_of_mem_filter hq)
        have hcin : (∃ q ∈ cs, Inside q p) ∧ ∀ q ∈ cs, G q := by
          by_cases hsm : shrunk = [] ∨ r.inners = []
          · rw [if_pos hsm] at h3
            subst h3
            exact ⟨(insideCount_odd (by omega)).mp (by omega), hGs⟩
          · rw [if_neg hsm] at h3
            obtain ⟨tree, h4, h5⟩ := h3
            have hGall : ∀ s ∈ shrunk ++ r.inners, G s := by
              intro s hs'
              rcases List.mem_append.mp hs' with hs' | hs'
              · exact hGs s hs'
              · exact hr.2 s hs'
            have hd := heng.difference _ _ _ hGall h4 0 le_rfl p (by
              intro s hs'
              rw [zero_add]
              rcases List.mem_append.mp hs' with hs' | hs'
              · exact hfs s hs'
              · exact (hp s hs').2)
            have hno : ¬ insideCount r.inners p % 2 = 1 := by
              intro ho
              obtain ⟨s, hs', hin'⟩ := insideCount_odd_mem ho
              exact (hp s hs').1 hin'
            obtain ⟨n, hn, hnr⟩ := hd.region.mpr ⟨by omega, hno⟩
            obtain ⟨q, hq, hnq⟩ := forall₂_mem_left h5 hn
            refine ⟨⟨q, hq, (hnq.2.2 p).mpr (nodeRegion_iff.mp hnr).1⟩, ?_⟩
            intro q hq
            obtain ⟨n, hn, hnq⟩ := forall₂_mem_right h5 hq
            exact hk.difference _ _ _ h4 n hn n (.self n) q hnq
        obtain ⟨x, hx, hx2⟩ := ih1 hcin.2 hcin.1
        exact ⟨x, by simp [hx], hx2⟩
      · exact ⟨c, by simp, hc, hfar⟩
    · obtain ⟨c', hc', hin'⟩ := hin
      rcases List.mem_cons.mp hc' with rfl | hc'
      · exact absurd hin' hc
      · obtain ⟨x, hx, hx2⟩ := ih2 (fun c hc => hG c (by simp [hc])) ⟨c', hc', hin'⟩
        exact ⟨x, by simp [hx], hx2⟩

theorem kind_offsetFaces {G : List Pt → Prop} {eng : Clipper} (hk : MakesKind G eng) {a b : ℚ} {k : ℕ} {f : PathFace}
    {gs : List PathFace} (h : OffsetFaces eng a b k f gs) : ∀ g ∈ gs, g.All G := by
  obtain ⟨outlines, ⟨raw, h1, h1'⟩, h2⟩ := h
  intro g hg
  split at h2
  · subst h2
    obtain ⟨o, ho, rfl⟩ := List.mem_map.mp hg
    obtain ⟨q, hq, hqo⟩ := forall₂_mem_right h1' ho
    exact ⟨hk.offset _ _ _ _ h1 q (List.mem_of_mem_filter hq) _ hqo, fun i hi => by simp at hi⟩
  · obtain ⟨holes, tree, -, h3, h4⟩ := h2
    obtain ⟨n, hn, k1, -, k2⟩ := forall₂_mem_right h4 hg
    refine ⟨hk.difference _ _ _ h3 n hn n (.self n) _ k1, fun i hi => ?_⟩
    obtain ⟨c, hc, hci⟩ := forall₂_mem_right k2 hi
    exact hk.difference _ _ _ h3 n hn c (.child hc (.self c)) _ hci

theorem kind_areas {G : List Pt → Prop} {eng : Clipper} (hk : MakesKind G eng) {a b : ℚ} {k : ℕ} {fs : List PathFace}
    {gs : List (List PathFace)} (h : mapE (fun f => offsetPolyface eng f a b k) fs = .ok gs) : ∀ g ∈ gs.flatten, g.All G := by
  intro g hg
  obtain ⟨l, hl, hg⟩ := List.mem_flatten.mp hg
  obtain ⟨f, -, hf⟩ := forall₂_mem_right (mapE_ok.mp h) hl
  exact kind_offsetFaces hk (offsetPolyface_spec hf) g hg

/-- The node of the difference behind a region. -/
theorem region_node {eng : Clipper} {areas avoids regions : List PathFace}
    (h : buildPocketOps eng areas avoids = .ok regions) {r : PathFace} (hr : r ∈ regions) :
    ∃ subjects clips tree, ∃ n ∈ tree, eng.difference subjects clips = .ok tree ∧
      clips.Perm (holesAt areas r.depth ++ avoidAt avoids r.depth) ∧ ClosedAs n.contour r.outer ∧
      List.Forall₂ (fun c q => ClosedAs c.contour q) n.childs r.inners := by
  obtain ⟨-, groups, rfl, -, g2, g3⟩ := C38_order h
  obtain ⟨l, hl, ho'⟩ := List.mem_flatten.mp hr
  obtain ⟨g, hg, rfl⟩ := List.mem_map.mp hl
  have hd := (g2 r.depth).mp (by rw [g3 g hg r ho']; exact List.mem_map.mpr ⟨g, hg, rfl⟩)
  obtain ⟨_, clips, ut, dt, us, fs, -, hc, -, -, k5, k6, k7⟩ := ops_from h r.depth hd
  have hof := (k7 r).mp ⟨hr, rfl⟩
  obtain ⟨n, hn, hnf⟩ := mapE_mem k6 hof
  obtain ⟨m1, m2, -⟩ := nodeToPolyFace_ok hnf
  exact ⟨_, clips, dt, n, hn, k5, hc, closedAs_of m1, m2.imp fun _ _ => closedAs_of⟩

theorem kind_regions {G : List Pt → Prop} {eng : Clipper} (hk : MakesKind G eng) {areas avoids regions : List PathFace}
    (h : buildPocketOps eng areas avoids = .ok regions) : ∀ r ∈ regions, r.All G := by
  intro r hr
  obtain ⟨_, _, tree, n, hn, h1, -, h2, h3⟩ := region_node h hr
  refine ⟨hk.difference _ _ _ h1 n hn n (.self n) _ h2, fun i hi => ?_⟩
  obtain ⟨c, hc, hci⟩ := forall₂_mem_right h3 hi
  exact hk.difference _ _ _ h1 n hn c (.child hc (.self c)) _ hci

/-- On a closed outline that contains a point, every point is on a segment. -/
theorem closed_onSegment {c : List Pt} (hc : IsClosedPath c) {p q : Pt} (hp : Inside c p) (hq : OnOutline c q) :
    ∃ s ∈ segments c, OnSegment s.1 s.2 q := by
  obtain ⟨hne, hcl⟩ := hc
  cases c with
  | nil => exact absurd rfl hne
  | cons a c =>
    cases c with
    | nil => simp [Inside, crossings, closedOutline, segments, crosses] at hp
    | cons b c =>
      have hv : ∀ v ∈ a :: b :: c, ∃ s ∈ segments (a :: b :: c), OnSegment s.1 s.2 v := by
        intro v hv
        have aux : ∀ (l : List Pt) (a b : Pt), ∀ v ∈ a :: b :: l, ∃ s ∈ segments (a :: b :: l), OnSegment s.1 s.2 v := by
          intro l
          induction l with
          | nil =>
            intro a b v hv
            simp only [List.mem_cons, List.not_mem_nil, or_false] at hv
            refine ⟨(a, b), by simp [segments], ?_⟩
            rcases hv with rfl | rfl
            · exact ⟨0, le_rfl, zero_le_one, by simp [Pt.lerp]⟩
            · exact ⟨1, zero_le_one, le_rfl, by simp [Pt.lerp]⟩
          | cons d l ih =>
            intro a b v hv
            rcases List.mem_cons.mp hv with rfl | hv
            · exact ⟨(v, b), by simp [segments], 0, le_rfl, zero_le_one, by simp [Pt.lerp]⟩
            · obtain ⟨s, hs, h⟩ := ih b d v hv
              exact ⟨s, by rw [segments]; exact List.mem_cons_of_mem _ hs, h⟩
        exact aux c a b v hv
      unfold OnOutline OnPath closedOutline at hq
      have hlast : (a :: b :: c).getLast? = some a := by rw [← hcl]; rfl
      obtain ⟨init, hinit⟩ : ∃ init, a :: b :: c = init ++ [a] := by
        rw [List.getLast?_eq_some_iff] at hlast
        exact hlast
      have hsegs : segments ((a :: b :: c) ++ [a]) = segments (a :: b :: c) ++ [(a, a)] := by
        rw [hinit, List.append_assoc]
        change segments (init ++ a :: [a]) = _
        rw [segments_append]
        simp [segments]
      simp only [List.head?_cons, Option.toList_some] at hq
      rw [hsegs] at hq
      rcases hq with hq | ⟨s, hs, hsq⟩
      · rcases List.mem_append.mp hq with hq | hq
        · exact hv q hq
        · rw [List.mem_singleton] at hq
          subst hq
          exact hv q (by simp)
      · rcases List.mem_append.mp hs with hs | hs
        · exact ⟨s, hs, hsq⟩
        · rw [List.mem_singleton] at hs
          subst hs
          obtain ⟨t, -, -, rfl⟩ := hsq
          have : a.lerp a t = a := by ext <;> simp [Pt.lerp]
          rw [this]
          exact hv a (by simp)

/-- If the contours of a region are cut completely, every point of the region is near a cut. -/
theorem region_covered {G : List Pt → Prop} {δ : ℚ} {eng : Clipper} {k : ℕ} (heng : ClipperNearOn G δ eng) (hk : MakesKind G eng)
    (hs : ShrinksNear G δ k eng) (hn : NoRepeats eng) {areas avoids regions : List PathFace}
    (h : buildPocketOps eng areas avoids = .ok regions) {r : PathFace} (hr : r ∈ regions) {stepover : ℚ} (hstep : 0 < stepover)
    {contours : List (List Pt)} (hu : Unfolds (Follows eng r stepover k) [r.outer] contours) {cs : List Motion} {d : ℚ}
    (hcut : ∀ p ∈ contours, ∀ s ∈ segments p, ∀ q, OnSegment s.1 s.2 q → ∃ c ∈ cs, CutsThrough d q c) {p : Pt}
    (hp : FaceRegion r p) (hfar : ∀ i ∈ r.inners, FarFrom δ i p) :
    ∃ c ∈ cs, ∃ q, CutsThrough d q c ∧ sqDist p q ≤ (stepover + 2 * δ) ^ 2 := by
  have hG := kind_regions hk h r hr
  obtain ⟨c, hc, hin, hnear⟩ := unfolds_covers heng hk hs hG hstep (fun i hi => ⟨hp.2 i hi, hfar i hi⟩) hu
    (by intro c hc; rw [List.mem_singleton] at hc; rw [hc]; exact hG.1) ⟨r.outer, by simp, hp.1⟩
  obtain ⟨q, hq, hdist⟩ := not_farFrom.mp hnear
  have hcl : IsClosedPath c := by
    rcases unfolds_mem hu hc with hx | ⟨p', ps, hR, hx⟩
    · rw [List.mem_singleton] at hx
      subst hx
      obtain ⟨_, _, _, _, _, _, -, hcl, -⟩ := region_node h hr
      exact hcl.1
    · exact (follows_clean hn hR _ hx).1
  obtain ⟨s, hs', hsq⟩ := closed_onSegment hcl hin hq
  obtain ⟨m, hm, hm2⟩ := hcut c hc s hs' q hsq
  exact ⟨m, hm, q, hm2, hdist⟩

/-- Points in an odd number of outlines and an even number of holes and avoid outlines are in a region and not near its holes. -/
theorem odd_region {G : List Pt → Prop} {δ : ℚ} {eng : Clipper} (heng : ClipperNearOn G δ eng)
    {areas avoids regions : List PathFace} (hG : ∀ f ∈ areas ++ avoids, f.All G)
    (h : buildPocketOps eng areas avoids = .ok regions) {d : ℚ} (hd : ∃ f ∈ areas, f.depth = d) {p : Pt}
    (hp : FarOutlines (3 * δ) areas avoids d p)
    (ho : insideCount (outersAt areas d) p % 2 = 1) (hno : ¬ insideCount (holesAt areas d ++ avoidAt avoids d) p % 2 = 1)
    (hisland : NoIslandAt eng areas avoids d p) :
    ∃ r ∈ regions, r.depth = d ∧ FaceRegion r p ∧ ∀ i ∈ r.inners, FarFrom δ i p := by
  obtain ⟨outers, clips, subjects, ut, dt, h1, h2, h3, hsub, h4, hut, hdt, hcl, hnode⟩ :=
    cleared_at heng.nonneg heng hG h hd (by rwa [show δ + 2 * δ = 3 * δ by ring])
  have hi := hisland _ _ _ _ _ h1 h3 hsub h2 h4
  obtain ⟨n, hn, hnr⟩ := hut.region.mpr ho
  obtain ⟨k, hk, hkr⟩ := hdt.region.mpr ⟨⟨n, hn, (nodeRegion_iff.mp hnr).1⟩, hno⟩
  obtain ⟨r, hr, hrd, hrp⟩ := hcl.mpr ⟨k, hk, (nodeRegion_iff.mp hkr).1, fun c hc hcin => (nodeRegion_iff.mp hkr).2 c hc
    (nodeRegion_iff.mpr ⟨hcin, fun i hi' hir => hi k hk c hc i hi' (nodeRegion_iff.mp hir).1⟩)⟩
  refine ⟨r, hr, hrd, hrp, fun i hi' => ?_⟩
  obtain ⟨m, hm, -, hin'⟩ := hnode r hr hrd
  obtain ⟨c, hc, hci⟩ := forall₂_mem_right hin' hi'
  exact (FarFrom.closedAs hci).mpr (hdt.off m hm c (.child hc (.self c)))

/-- Points that should be cleared are in a region and not near its holes. -/
theorem wanted_region {G : List Pt → Prop} {δ : ℚ} {eng : Clipper} (heng : ClipperNearOn G δ eng)
    {areas avoids regions : List PathFace} (hG : ∀ f ∈ areas ++ avoids, f.All G)
    (h : buildPocketOps eng areas avoids = .ok regions) {d : ℚ} (hd : ∃ f ∈ areas, f.depth = d) {p : Pt}
    (hp : FarOutlines (3 * δ) areas avoids d p)
    (hw : Wanted areas avoids d p) (ho : insideCount (outersAt areas d) p ≤ 1)
    (hisland : NoIslandAt eng areas avoids d p) :
    ∃ r ∈ regions, r.depth = d ∧ FaceRegion r p ∧ ∀ i ∈ r.inners, FarFrom δ i p := by
  obtain ⟨⟨s, hs, hin⟩, w1, w2⟩ := hw
  refine odd_region heng hG h hd hp ((insideCount_odd ho).mpr ⟨s, hs, hin⟩) (fun hodd => ?_) hisland
  obtain ⟨x, hx, hxin⟩ := insideCount_odd_mem hodd
  rcases List.mem_append.mp hx with hx | hx
  · exact w1 x hx hxin
  · exact w2 x hx hxin

/-- C89.  Every region of a pocket is cleared completely: for every point of the region some cut at the region's depth
passes within the stepover (and twice the engine's tolerance) of the point.  And so for every point that should be
cleared, wherever the given outlines do not overlap and there is no island in a hole (C39, C40). -/
theorem C89_cleared {G : List Pt → Prop} {δ : ℚ} {eng : Clipper} {j : Job} (heng : ClipperNearOn G δ eng) (hk : MakesKind G eng)
    (hs : ShrinksNear G δ j.precision eng) (hn : NoRepeats eng) {fuel : ℕ} {opAreas avoidAreas : List PathFace}
    {outerOffset innerOffset avoidOuterOffset avoidInnerOffset stepover : ℚ} {stepdown : Option ℚ} {cs : List Motion}
    (h : pocketClipper eng fuel j opAreas avoidAreas outerOffset innerOffset avoidOuterOffset avoidInnerOffset stepover
      stepdown = .ok cs) (hsafe : 0 < j.opSafeHeight) (hstep : 0 < stepover) :
    ∃ areas avoids regions,
      mapE (fun f => offsetPolyface eng f outerOffset innerOffset j.precision) opAreas = .ok areas ∧
      mapE (fun f => offsetPolyface eng f avoidOuterOffset avoidInnerOffset j.precision) avoidAreas = .ok avoids ∧
      buildPocketOps eng areas.flatten avoids.flatten = .ok regions ∧
      (∀ r ∈ regions, ∀ p, FaceRegion r p → (∀ i ∈ r.inners, FarFrom δ i p) →
        ∃ c ∈ cs, ∃ q, CutsThrough r.depth q c ∧ sqDist p q ≤ (stepover + 2 * δ) ^ 2) ∧
      ∀ d, (∃ f ∈ areas.flatten, f.depth = d) → ∀ p, Wanted areas.flatten avoids.flatten d p → FarOutlines (3 * δ) areas.flatten avoids.flatten d p →
        insideCount (outersAt areas.flatten d) p ≤ 1 →
        NoIslandAt eng areas.flatten avoids.flatten d p →
        ∃ c ∈ cs, ∃ q, CutsThrough d q c ∧ sqDist p q ≤ (stepover + 2 * δ) ^ 2 := by
  obtain ⟨areas, avoids, regions, h1, h2, h3, h4⟩ := C45_everything_cut hn h hsafe
  have key : ∀ r ∈ regions, ∀ p, FaceRegion r p → (∀ i ∈ r.inners, FarFrom δ i p) →
        ∃ c ∈ cs, ∃ q, CutsThrough r.depth q c ∧ sqDist p q ≤ (stepover + 2 * δ) ^ 2 := by
    intro r hr p hp hfar
    obtain ⟨contours, hu, hcut⟩ := h4 r hr
    exact region_covered heng hk hs hn h3 hr hstep hu hcut hp hfar
  refine ⟨areas, avoids, regions, h1, h2, h3, key, ?_⟩
  intro d hd p hw hfar ho hisland
  have hG : ∀ f ∈ areas.flatten ++ avoids.flatten, f.All G := by
    intro f hf
    rcases List.mem_append.mp hf with hf | hf
    · exact kind_areas hk h1 f hf
    · exact kind_areas hk h2 f hf
  obtain ⟨r, hr, rfl, hrp, hri⟩ := wanted_region heng hG h3 hd hfar hw ho hisland
  exact key r hr p hrp hri

/-- C89 for the call: with a stepover that is (with twice the engine's tolerance) at most the tool radius - by default it is half the
radius - every point of every region is at some moment under the tool while it cuts at the depth of the region. -/
theorem C89_under_tool {G : List Pt → Prop} {δ : ℚ} {eng : Clipper} {j : Job} (heng : ClipperNearOn G δ eng) (hk : MakesKind G eng)
    (hs : ShrinksNear G δ j.precision eng) (hn : NoRepeats eng) {veq : Vec → Vec → Bool} {fuel : ℕ} {opAreas avoidAreas : List CqFace}
    {a : PocketArgs} {cs : List Motion} (h : pocket eng veq fuel opAreas avoidAreas a j = .ok cs)
    (hsafe : 0 < j.opSafeHeight) :
    ∃ diameter faces avoidFaces areas avoids regions, j.toolDiameter = some diameter ∧
      List.Forall₂ (FlatFace veq j.precision) opAreas faces ∧
      List.Forall₂ (FlatFace veq j.precision) avoidAreas avoidFaces ∧
      List.Forall₂ (OffsetFaces eng
          (if avoidAreas ≠ [] ∧ a.outerOffset = none then 0 else offsetDistance (diameter / 2) (-1) a.outerOffset)
          (offsetDistance (diameter / 2) 1 a.innerOffset) j.precision) faces areas ∧
      List.Forall₂ (OffsetFaces eng (offsetDistance (diameter / 2) 1 a.avoidOuterOffset)
          (offsetDistance (diameter / 2) (-1) a.avoidInnerOffset) j.precision) avoidFaces avoids ∧
      buildPocketOps eng areas.flatten avoids.flatten = .ok regions ∧
      (0 < offsetDistance (diameter / 2) (1 / 2) a.stepover →
        offsetDistance (diameter / 2) (1 / 2) a.stepover + 2 * δ ≤ diameter / 2 →
        ∀ r ∈ regions, ∀ p, FaceRegion r p → (∀ i ∈ r.inners, FarFrom δ i p) →
          ∃ c ∈ cs, ∃ q, CutsThrough r.depth q c ∧ sqDist p q ≤ (diameter / 2) ^ 2) := by
  obtain ⟨diameter, faces, avoidFaces, areas, avoids, regions, h1, -, h3, h4, h5, h6, h7, h8⟩ := C74_areas h
  refine ⟨diameter, faces, avoidFaces, areas, avoids, regions, h1, h3, h4, h5, h6, h7, ?_⟩
  intro hpos hle r hr p hp hfar
  obtain ⟨contours, hu, hcut⟩ := h8 hn hsafe r hr
  obtain ⟨c, hc, q, hq, hd⟩ := region_covered heng hk hs hn h7 hr hpos hu hcut hp hfar
  have := heng.nonneg
  exact ⟨c, hc, q, hq, hd.trans (pow_le_pow_left₀ (by linarith) hle 2)⟩

/-! ### C90 -/

/-- What follows a contour lies inside it. -/
theorem follows_inside {G : List Pt → Prop} {δ : ℚ} {eng : Clipper} {k : ℕ} (hk : MakesKind G eng) (hi : StaysInside G δ k eng)
    {r : PathFace} (hr : r.All G) {step : ℚ} (hstep : 2 * δ < step) {c : List Pt} {cs : List (List Pt)} (hc : G c)
    (h : Follows eng r step k c cs) : ∀ x ∈ cs, G x ∧ ∀ p, Inside x p ∨ OnOutline x p → Inside c p := by
  obtain ⟨raw, shrunk, h1, h2, h3⟩ := h
  have hsh : ∀ s ∈ shrunk, G s ∧ ∀ x, Inside s x ∨ OnOutline s x → ∀ p, sqDist p x ≤ δ ^ 2 → Inside c p := by
    intro s hs
    obtain ⟨q, hq, hqs⟩ := forall₂_mem_right h2 hs
    have hq := List.mem_of_mem_filter hq
    refine ⟨hk.offset _ _ _ _ h1 q hq _ hqs, fun x hx => hi.shrink _ _ _ hc hstep h1 q hq x ?_⟩
    rwa [← hqs.2.2 x, ← hqs.onOutline x]
  split at h3
  · subst h3
    intro x hx
    refine ⟨(hsh x hx).1, fun p hp => (hsh x hx).2 p hp p ?_⟩
    rw [show sqDist p p = 0 by simp [sqDist]]
    positivity
  · obtain ⟨tree, h4, h5⟩ := h3
    intro x hx
    obtain ⟨n, hn, hnx⟩ := forall₂_mem_right h5 hx
    refine ⟨hk.difference _ _ _ h4 n hn n (.self n) _ hnx, fun p hp => ?_⟩
    rw [hnx.2.2 p, hnx.onOutline p] at hp
    obtain ⟨s, hs, y, hy, hd⟩ := hi.within _ _ _ _ _ hc (by linarith [hi.nonneg]) ⟨raw, h1, h2⟩ hr.2 h4 n hn p hp
    exact (hsh s hs).2 y hy p hd

/-- What follows a contour does not run through holes that do not overlap. -/
theorem follows_outside {G : List Pt → Prop} {δ : ℚ} {eng : Clipper} {k : ℕ} (hk : MakesKind G eng) (hi : StaysInside G δ k eng)
    {r : PathFace} (hr : r.All G) {step : ℚ} {c : List Pt} {cs : List (List Pt)}
    (h : Follows eng r step k c cs) : ∀ x ∈ cs, ∀ p, OnOutline x p → insideCount r.inners p ≤ 1 →
      (∀ i ∈ r.inners, FarFrom δ i p) → ∀ i ∈ r.inners, ¬ Inside i p := by
  obtain ⟨raw, shrunk, h1, h2, h3⟩ := h
  intro x hx p hp hle hfar
  by_cases hcond : shrunk = [] ∨ r.inners = []
  · rw [if_pos hcond] at h3
    subst h3
    rcases hcond with h | h
    · rw [h] at hx; simp at hx
    · rw [h]; simp
  · rw [if_neg hcond] at h3
    obtain ⟨tree, h4, h5⟩ := h3
    obtain ⟨n, hn, hnx⟩ := forall₂_mem_right h5 hx
    have := hi.outside _ _ _ (by
      intro s hs
      rcases List.mem_append.mp hs with hs | hs
      · obtain ⟨q, hq, hqs⟩ := forall₂_mem_right h2 hs
        exact hk.offset _ _ _ _ h1 q (List.mem_of_mem_filter hq) _ hqs
      · exact hr.2 s hs) h4 n hn p ((hnx.onOutline p).mp hp) hfar
    intro i hi' hin
    have h2 := (insideCount_odd hle).mpr ⟨i, hi', hin⟩
    omega

theorem unfolds_inside {G : List Pt → Prop} {δ : ℚ} {eng : Clipper} {k : ℕ} (hk : MakesKind G eng) (hi : StaysInside G δ k eng)
    {r : PathFace} (hr : r.All G) {step : ℚ} (hstep : 2 * δ < step) {ps xs : List (List Pt)}
    (h : Unfolds (Follows eng r step k) ps xs) (hG : ∀ c ∈ ps, G c) : ∀ x ∈ xs, x ∈ ps ∨
      ∃ c ∈ ps, ∀ p, Inside x p ∨ OnOutline x p → Inside c p := by
  induction h with
  | nil => simp
  | @cons c ps cs xs ys hR _ _ ih1 ih2 =>
    have hf := follows_inside hk hi hr hstep (hG c (by simp)) hR
    intro x hx
    rcases List.mem_cons.mp hx with rfl | hx
    · exact .inl (by simp)
    · rcases List.mem_append.mp hx with hx | hx
      · rcases ih1 (fun c hc => (hf c hc).1) x hx with hx | ⟨y, hy, hxy⟩
        · exact .inr ⟨c, by simp, (hf x hx).2⟩
        · exact .inr ⟨c, by simp, fun p hp => (hf y hy).2 p (.inl (hxy p hp))⟩
      · rcases ih2 (fun c hc => hG c (by simp [hc])) x hx with hx | ⟨y, hy, hxy⟩
        · exact .inl (by simp [hx])
        · exact .inr ⟨y, by simp [hy], hxy⟩

/-- The holes of a region do not overlap. -/
theorem region_holes {G : List Pt → Prop} {δ : ℚ} {eng : Clipper} {k : ℕ} (heng : ClipperNearOn G δ eng) (hi : StaysInside G δ k eng)
    {areas avoids regions : List PathFace} (hG : ∀ f ∈ areas ++ avoids, f.All G)
    (h : buildPocketOps eng areas avoids = .ok regions) {r : PathFace} (hr : r ∈ regions) {p : Pt}
    (hp : ∀ i ∈ r.inners, FarFrom δ i p) : insideCount r.inners p ≤ 1 := by
  have hd : ∃ f ∈ areas, f.depth = r.depth := ops_depth h hr
  obtain ⟨outers, clips, ut, dt, us, fs, h1, h2, h3, h4, h5, h6, h7⟩ := ops_from h r.depth hd
  obtain ⟨k1, k2⟩ := kind_all hG r.depth
  obtain ⟨n, hn, hnf⟩ := mapE_mem h6 ((h7 r).mp ⟨hr, rfl⟩)
  obtain ⟨-, m2, -⟩ := nodeToPolyFace_ok hnf
  have m2 := m2.imp fun _ _ => closedAs_of
  have hc : List.Forall₂ ClosedAs (n.childs.map PolyNode.contour) r.inners := by
    rw [List.forall₂_map_left_iff]
    exact m2
  rw [insideCount_closed hc]
  refine hi.siblings _ _ _ ?_ h5 n hn p ?_
  · intro s hs
    rcases List.mem_append.mp hs with hs | hs
    · obtain ⟨f, hf, rfl⟩ := List.mem_map.mp hs
      obtain ⟨n, hn, hnf⟩ := forall₂_mem_right (mapE_ok.mp h4) hf
      refine heng.kind _ _ _ ?_ h3 n hn _ (closedAs_of (nodeToPolyFace_ok hnf).1)
      intro s hs
      rw [List.append_nil] at hs
      exact k1 s (h1.mem_iff.mp hs)
    · exact k2 s (h2.mem_iff.mp hs)
  · intro c hc
    obtain ⟨q, hq, hcq⟩ := forall₂_mem_left m2 hc
    exact (FarFrom.closedAs hcq).mp (hp q hq)

/-- C90.  The contours of a pocket stay in its regions.  Of the contours of a region the first is its outline; all the others,
with everything they enclose, lie inside the outline, and except near the holes of the region they do not run through its holes.
So they run only where the region is, and (where the given holes and avoid areas do not overlap, C39) not in a hole or avoid area.
The tolerance of the engine is less than half the stepover. -/
theorem C90_contained {G : List Pt → Prop} {δ : ℚ} {eng : Clipper} {j : Job} (heng : ClipperNearOn G δ eng) (hk : MakesKind G eng)
    (hi : StaysInside G δ j.precision eng) (hn : NoRepeats eng) {fuel : ℕ} {opAreas avoidAreas : List PathFace}
    {outerOffset innerOffset avoidOuterOffset avoidInnerOffset stepover : ℚ} {stepdown : Option ℚ} {cs : List Motion}
    (h : pocketClipper eng fuel j opAreas avoidAreas outerOffset innerOffset avoidOuterOffset avoidInnerOffset stepover
      stepdown = .ok cs) (hsafe : 0 < j.opSafeHeight) (hstep : 2 * δ < stepover) :
    ∃ areas avoids regions,
      mapE (fun f => offsetPolyface eng f outerOffset innerOffset j.precision) opAreas = .ok areas ∧
      mapE (fun f => offsetPolyface eng f avoidOuterOffset avoidInnerOffset j.precision) avoidAreas = .ok avoids ∧
      buildPocketOps eng areas.flatten avoids.flatten = .ok regions ∧
      ∀ r ∈ regions, ∃ contours, Unfolds (Follows eng r stepover j.precision) [r.outer] contours ∧
        (∀ p ∈ contours, ∀ s ∈ segments p, ∀ q, OnSegment s.1 s.2 q → ∃ c ∈ cs, CutsThrough r.depth q c) ∧
        ∀ x ∈ contours, x ≠ r.outer → (∀ p, Inside x p ∨ OnOutline x p → Inside r.outer p) ∧
          ∀ p, OnOutline x p → (∀ i ∈ r.inners, FarFrom δ i p) → FaceRegion r p ∧
            (FarOutlines (2 * δ) areas.flatten avoids.flatten r.depth p →
              insideCount (holesAt areas.flatten r.depth ++ avoidAt avoids.flatten r.depth) p ≤ 1 →
              ∀ s ∈ holesAt areas.flatten r.depth ++ avoidAt avoids.flatten r.depth, ¬ Inside s p) := by
  obtain ⟨areas, avoids, regions, h1, h2, h3, h4⟩ := C45_everything_cut hn h hsafe
  refine ⟨areas, avoids, regions, h1, h2, h3, ?_⟩
  have hδ := heng.nonneg
  have hG : ∀ f ∈ areas.flatten ++ avoids.flatten, f.All G := by
    intro f hf
    rcases List.mem_append.mp hf with hf | hf
    · exact kind_areas hk h1 f hf
    · exact kind_areas hk h2 f hf
  intro r hr
  obtain ⟨contours, hu, hcut⟩ := h4 r hr
  refine ⟨contours, hu, hcut, ?_⟩
  have hGr := kind_regions hk h3 r hr
  intro x hx hne
  have hin : ∀ p, Inside x p ∨ OnOutline x p → Inside r.outer p := by
    rcases unfolds_inside hk hi hGr hstep hu (by intro c hc; rw [List.mem_singleton] at hc; rw [hc]; exact hGr.1) x hx with
      h | ⟨c, hc, h⟩
    · rw [List.mem_singleton] at h; exact absurd h hne
    · rw [List.mem_singleton] at hc; rwa [hc] at h
  refine ⟨hin, fun p hp hfar => ?_⟩
  have hreg : FaceRegion r p := by
    refine ⟨hin p (.inr hp), ?_⟩
    rcases unfolds_mem hu hx with hx | ⟨c, ys, hR, hxy⟩
    · rw [List.mem_singleton] at hx; exact absurd hx hne
    · exact follows_outside hk hi hGr hR x hxy p hp
        (region_holes heng hi hG h3 hr hfar) hfar
  exact ⟨hreg, fun hp' hov => avoid_on heng hG h3 hp' hr hreg hov⟩

end CQ
