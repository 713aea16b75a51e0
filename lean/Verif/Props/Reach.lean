import Verif.Props.Gouge
import Verif.Spec.Reach

/-! # C109: where the tool fits, it comes -/

namespace CQ

theorem shrunk_far {D : List Pt → Prop} {δ : ℚ} {eng : Clipper} {k : ℕ} (hδ : 0 ≤ δ) (ht : OffsetsTight D δ k eng) {path : List Pt} (hD : D path)
    {s : ℚ} (hs : 0 ≤ s) {qs : List (List Pt)} (h : OffsetContours eng (-s) k path qs) {x : Pt} (hx : FarFrom (s + 5 * δ) path x) :
    ∀ c ∈ qs, FarFrom (4 * δ) c x := by
  obtain ⟨raw, h1, h2⟩ := h
  intro c hc
  obtain ⟨q, hq, hqc⟩ := forall₂_mem_right h2 hc
  rw [FarFrom.closedAs hqc]
  intro y hy
  by_contra hn
  obtain ⟨w, hw, hd⟩ := not_farFrom.mp (ht.shrunk_near _ _ _ hD hs h1 q (List.mem_of_mem_filter hq) y hy)
  have := sqDist_triangle (by linarith) (by linarith) (not_lt.mp hn) hd
  rw [show s + δ + 4 * δ = s + 5 * δ by ring] at this
  exact absurd (hx w hw) (not_lt.mpr this)

theorem shrunk_odd {D : List Pt → Prop} {δ : ℚ} {eng : Clipper} {k : ℕ} (hoff : OffsetsRight D δ k eng) (ht : OffsetsTight D δ k eng)
    {path : List Pt} (hD : D path)
    {s : ℚ} (hs : 0 ≤ s) {qs : List (List Pt)} (h : OffsetContours eng (-s) k path qs) {x : Pt} (hx : FarFrom (s + 5 * δ) path x) :
    (Inside path x → insideCount qs x % 2 = 1) ∧ (¬ Inside path x → ∀ q ∈ qs, ¬ Inside q x) := by
  have hδ := hoff.nonneg
  obtain ⟨raw, h1, h2⟩ := h
  constructor
  · intro hin
    rw [insideCount_closed h2, insideCount_filter]
    exact ht.shrunk_keeps _ _ _ hD hs h1 x hin (hx.mono (by linarith) (by linarith))
  · intro hin q hq hqx
    obtain ⟨q', hq', hqq⟩ := forall₂_mem_right h2 hq
    obtain ⟨y, hy, hd⟩ := hoff.shrunk_in _ _ _ hD hs h1 q' (List.mem_of_mem_filter hq') x (.inl ((hqq.2.2 x).mp hqx))
    rcases hy with hy | hy
    · exact hin ((inside_near (hx.mono hδ (by linarith)) hd).mpr hy)
    · exact absurd (hx.mono hδ (by linarith) y hy) (not_lt.mpr hd)

theorem grown_away {D : List Pt → Prop} {δ : ℚ} {eng : Clipper} {k : ℕ} (hδ : 0 ≤ δ) (ht : OffsetsTight D δ k eng) {path : List Pt} (hD : D path)
    {o : ℚ} (ho : 0 ≤ o) {qs : List (List Pt)} (h : OffsetContours eng o k path qs) {x : Pt}
    (hx : ∀ z, InOn path z → (o + 5 * δ) ^ 2 < sqDist x z) : insideCount qs x % 2 = 0 ∧ ∀ c ∈ qs, FarFrom (4 * δ) c x := by
  obtain ⟨raw, h1, h2⟩ := h
  constructor
  · rw [insideCount_closed h2, insideCount_filter]
    by_contra hc
    obtain ⟨z, hz, hd⟩ := ht.grown_only _ _ _ hD ho h1 x (by omega)
    have := hx z hz
    have := pow_le_pow_left₀ (by linarith : 0 ≤ o + δ) (by linarith : o + δ ≤ o + 5 * δ) 2
    linarith
  · intro c hc
    obtain ⟨q, hq, hqc⟩ := forall₂_mem_right h2 hc
    rw [FarFrom.closedAs hqc]
    intro y hy
    by_contra hn
    obtain ⟨z, hz, hd⟩ := ht.grown_near _ _ _ hD ho h1 q (List.mem_of_mem_filter hq) y hy
    have := sqDist_triangle (by linarith) (by linarith) (not_lt.mp hn) hd
    rw [show o + δ + 4 * δ = o + 5 * δ by ring] at this
    exact absurd (hx z hz) (not_lt.mpr this)

theorem inside_unique {tree : List PolyNode} {p : Pt} (h : insideCount (tree.map PolyNode.contour) p ≤ 1) {m n : PolyNode}
    (hm : m ∈ tree) (hn : n ∈ tree) (h1 : Inside m.contour p) (h2 : Inside n.contour p) : m = n := by
  induction tree with
  | nil => simp at hm
  | cons t ts ih =>
    have e : insideCount ((t :: ts).map PolyNode.contour) p =
        insideCount (ts.map PolyNode.contour) p + if Inside t.contour p then 1 else 0 := by
      unfold insideCount
      rw [List.map_cons, List.countP_cons]
      simp
    have pos : ∀ y ∈ ts, Inside y.contour p → 0 < insideCount (ts.map PolyNode.contour) p := fun y hy hin =>
      insideCount_pos.mpr ⟨_, List.mem_map.mpr ⟨y, hy, rfl⟩, hin⟩
    rcases List.mem_cons.mp hm with rfl | hm'
    · rcases List.mem_cons.mp hn with rfl | hn
      · rfl
      · have := pos n hn h2
        rw [e, if_pos h1] at h
        omega
    · rcases List.mem_cons.mp hn with rfl | hn
      · have := pos m hm' h1
        rw [e, if_pos h2] at h
        omega
      · exact ih (by rw [e] at h; omega) hm' hn

/-- The areas made of a face, seen from a point far from its outlines: they are around the point iff the face is, and the point is not in a
hole. -/
theorem area_at {D G : List Pt → Prop} {δ : ℚ} {eng : Clipper} {k : ℕ} (heng : ClipperNearOn G δ eng) (hk : MakesKind G eng)
    (hoff : OffsetsRight D δ k eng) (ht : OffsetsTight D δ k eng) (hcut : CutsRight D G δ k eng) (hin : HolesInside G δ eng)
    {f : PathFace} (hD : f.All D) {s o : ℚ} (hs : 0 ≤ s) (ho : 0 ≤ o) {gs : List PathFace} (h : OffsetFaces eng (-s) o k f gs)
    {x : Pt} (hfar : FarFrom (s + 5 * δ) f.outer x) (hholes : ∀ i ∈ f.inners, ∀ z, InOn i z → (o + 5 * δ) ^ 2 < sqDist x z)
    (hisl : NoIslandIn eng (-s) o k f x) :
    insideCount (gs.map PathFace.outer) x % 2 = (if Inside f.outer x then 1 else 0) ∧
      (∀ c ∈ gs.map PathFace.outer, FarFrom (3 * δ) c x) ∧
      ∀ c ∈ (gs.map PathFace.inners).flatten, ¬ Inside c x ∧ FarFrom (3 * δ) c x := by
  have hδ := heng.nonneg
  obtain ⟨outlines, hraw, h⟩ := h
  have e1 := shrunk_far hδ ht hD.1 hs hraw hfar
  obtain ⟨e2, e3⟩ := shrunk_odd hoff ht hD.1 hs hraw hfar
  have e4 : ¬ Inside f.outer x → insideCount outlines x % 2 = 0 := by
    intro hno
    by_contra hc
    obtain ⟨q, hq, hqx⟩ := insideCount_odd_mem (show insideCount outlines x % 2 = 1 by omega)
    exact e3 hno q hq hqx
  by_cases hi : f.inners = []
  · rw [if_pos hi] at h
    subst h
    rw [List.map_map, show PathFace.outer ∘ (fun o => (⟨o, [], f.depth⟩ : PathFace)) = id from rfl, List.map_id]
    refine ⟨?_, fun c hc => (e1 c hc).mono (by linarith) (by linarith), ?_⟩
    · split
      · exact e2 (by assumption)
      · exact e4 (by assumption)
    · intro c hc
      obtain ⟨l, hl, hc⟩ := List.mem_flatten.mp hc
      obtain ⟨g, hg, rfl⟩ := List.mem_map.mp hl
      obtain ⟨q, -, rfl⟩ := List.mem_map.mp hg
      simp at hc
  rw [if_neg hi] at h
  obtain ⟨holes, tree, h3, h4, h5⟩ := h
  have hni := hisl _ _ _ hraw h3 h4
  have c1 : ∀ c ∈ holes.flatten, G c ∧ FarFrom (4 * δ) c x := by
    intro c hc
    obtain ⟨l, hl, hc⟩ := List.mem_flatten.mp hc
    obtain ⟨i, hi', hil⟩ := forall₂_mem_right h3 hl
    refine ⟨?_, (grown_away hδ ht (hD.2 i hi') ho hil (hholes i hi')).2 c hc⟩
    obtain ⟨raw', k1, k2⟩ := hil
    obtain ⟨c', hc', hcc⟩ := forall₂_mem_right k2 hc
    exact hk.offset _ _ _ _ k1 c' (List.mem_of_mem_filter hc') _ hcc
  have c2 : insideCount holes.flatten x % 2 = 0 := by
    rw [insideCount_flatten]
    refine sum_even fun y hy => ?_
    obtain ⟨l, hl, rfl⟩ := List.mem_map.mp hy
    obtain ⟨i, hi', hil⟩ := forall₂_mem_right h3 hl
    exact (grown_away hδ ht (hD.2 i hi') ho hil (hholes i hi')).1
  have hK : ∀ s ∈ outlines ++ holes.flatten, G s := by
    obtain ⟨raw, r1, r2⟩ := hraw
    intro s hs
    rcases List.mem_append.mp hs with hs | hs
    · obtain ⟨c', hc', hcc⟩ := forall₂_mem_right r2 hs
      exact hk.offset _ _ _ _ r1 c' (List.mem_of_mem_filter hc') _ hcc
    · exact (c1 s hs).1
  have hF : ∀ s ∈ outlines ++ holes.flatten, FarFrom (3 * δ + δ) s x := by
    intro s hs
    rw [show 3 * δ + δ = 4 * δ by ring]
    rcases List.mem_append.mp hs with hs | hs
    · exact e1 s hs
    · exact (c1 s hs).2
  have hR := heng.difference _ _ _ hK h4 (3 * δ) (by linarith) x hF
  have hcl : List.Forall₂ ClosedAs (tree.map PolyNode.contour) (gs.map PathFace.outer) := by
    rw [List.forall₂_map_left_iff, List.forall₂_map_right_iff]
    exact h5.imp fun _ _ h => h.1
  have hnest := hin _ _ _ hK h4
  have hF' : ∀ s ∈ outlines ++ holes.flatten, FarFrom δ s x := fun s hs => (hF s hs).mono hδ (by linarith)
  refine ⟨?_, ?_, ?_⟩
  · rw [insideCount_closed hcl]
    by_cases hx : Inside f.outer x
    · rw [if_pos hx]
      obtain ⟨n, hn, hnr⟩ := hR.region.mpr ⟨e2 hx, by omega⟩
      exact (insideCount_odd hR.apart).mpr ⟨_, List.mem_map.mpr ⟨n, hn, rfl⟩, (nodeRegion_iff.mp hnr).1⟩
    · rw [if_neg hx]
      by_contra hc
      obtain ⟨c, hc', hcx⟩ := insideCount_odd_mem (show insideCount (tree.map PolyNode.contour) x % 2 = 1 by omega)
      obtain ⟨n, hn, rfl⟩ := List.mem_map.mp hc'
      obtain ⟨q, hq, y, hy, hd⟩ := hcut.within _ _ _ _ _ hD.1 hs hraw (fun c hc => (c1 c hc).1) h4 n hn x (.inl hcx)
      have hqf := (e1 q hq).mono hδ (show δ ≤ 4 * δ by linarith)
      rcases hy with hy | hy
      · exact e3 hx q hq ((inside_near hqf hd).mpr hy)
      · exact absurd (hqf y hy) (not_lt.mpr hd)
  · intro c hc
    obtain ⟨q, hq, hqc⟩ := forall₂_mem_right hcl hc
    obtain ⟨n, hn, rfl⟩ := List.mem_map.mp hq
    rw [FarFrom.closedAs hqc]
    exact hR.off n hn n (.self n)
  · intro c hc
    obtain ⟨l, hl, hc⟩ := List.mem_flatten.mp hc
    obtain ⟨g, hg, rfl⟩ := List.mem_map.mp hl
    obtain ⟨n, hn, -, -, m2⟩ := forall₂_mem_right h5 hg
    obtain ⟨v, hv, hvc⟩ := forall₂_mem_right m2 hc
    rw [FarFrom.closedAs hvc, hvc.2.2 x]
    refine ⟨fun hvx => ?_, hR.off n hn v (.child hv (.self v))⟩
    have hnx := hnest n hn v hv x hF' hvx
    by_cases hx : Inside f.outer x
    · obtain ⟨m, hm, hmr⟩ := hR.region.mpr ⟨e2 hx, by omega⟩
      have := inside_unique hR.apart hm hn (nodeRegion_iff.mp hmr).1 hnx
      subst this
      refine (nodeRegion_iff.mp hmr).2 v hv (nodeRegion_iff.mpr ⟨hvx, fun i hi' hir => ?_⟩)
      exact hni m hm v hv i hi' (nodeRegion_iff.mp hir).1
    · obtain ⟨q, hq, y, hy, hd⟩ := hcut.within _ _ _ _ _ hD.1 hs hraw (fun c hc => (c1 c hc).1) h4 n hn x (.inl hnx)
      have hqf := (e1 q hq).mono hδ (show δ ≤ 4 * δ by linarith)
      rcases hy with hy | hy
      · exact e3 hx q hq ((inside_near hqf hd).mpr hy)
      · exact absurd (hqf y hy) (not_lt.mpr hd)

/-- The areas made of an avoid face, seen from a point far outside its outline: they are not around the point. -/
theorem avoid_at {D G : List Pt → Prop} {δ : ℚ} {eng : Clipper} {k : ℕ} (heng : ClipperNearOn G δ eng) (hk : MakesKind G eng)
    (hoff : OffsetsRight D δ k eng) (ht : OffsetsTight D δ k eng) {f : PathFace} (hD : f.All D) {s o : ℚ} (hs : 0 ≤ s)
    {gs : List PathFace} (h : OffsetFaces eng s o k f gs) {x : Pt} (hx : ∀ z, InOn f.outer z → (s + 5 * δ) ^ 2 < sqDist x z)
    (hv : NoVoidIn eng s o k f x) :
    insideCount (gs.map PathFace.outer) x % 2 = 0 ∧ ∀ c ∈ gs.map PathFace.outer, FarFrom (3 * δ) c x := by
  have hδ := heng.nonneg
  obtain ⟨outlines, hraw, h⟩ := h
  obtain ⟨g1, g2⟩ := grown_away hδ ht hD.1 hs hraw hx
  by_cases hi : f.inners = []
  · rw [if_pos hi] at h
    subst h
    rw [List.map_map, show PathFace.outer ∘ (fun o => (⟨o, [], f.depth⟩ : PathFace)) = id from rfl, List.map_id]
    exact ⟨g1, fun c hc => (g2 c hc).mono (by linarith) (by linarith)⟩
  · rw [if_neg hi] at h
    obtain ⟨holes, tree, h3, h4, h5⟩ := h
    obtain ⟨ho, hin, hvoid⟩ := hv.resolve_left hi
    have hni := hvoid _ _ _ hraw h3 h4
    have c1 : ∀ c ∈ holes.flatten, G c ∧ FarFrom (4 * δ) c x := by
      intro c hc
      obtain ⟨l, hl, hc⟩ := List.mem_flatten.mp hc
      obtain ⟨i, hi', raw', k1, k2⟩ := forall₂_mem_right h3 hl
      obtain ⟨c', hc', hcc⟩ := forall₂_mem_right k2 hc
      have hc'' := List.mem_of_mem_filter hc'
      refine ⟨hk.offset _ _ _ _ k1 c' hc'' _ hcc, ?_⟩
      rw [FarFrom.closedAs hcc]
      intro y hy
      by_contra hn
      obtain ⟨z, hz, hd⟩ := hoff.shrunk_in i (-o) raw' (hD.2 i hi') (by linarith) (by rw [neg_neg]; exact k1) c' hc'' y (.inr hy)
      have h1 := sqDist_triangle (by linarith) (by linarith) (not_lt.mp hn) hd
      have h2 := hx z (hin i hi' z hz)
      have h3 := pow_le_pow_left₀ (by linarith) (by linarith : δ + 4 * δ ≤ s + 5 * δ) 2
      linarith
    have hK : ∀ s ∈ outlines ++ holes.flatten, G s := by
      obtain ⟨raw, r1, r2⟩ := hraw
      intro s hs
      rcases List.mem_append.mp hs with hs | hs
      · obtain ⟨c', hc', hcc⟩ := forall₂_mem_right r2 hs
        exact hk.offset _ _ _ _ r1 c' (List.mem_of_mem_filter hc') _ hcc
      · exact (c1 s hs).1
    have hF : ∀ s ∈ outlines ++ holes.flatten, FarFrom (3 * δ + δ) s x := by
      intro s hs
      rw [show 3 * δ + δ = 4 * δ by ring]
      rcases List.mem_append.mp hs with hs | hs
      · exact g2 s hs
      · exact (c1 s hs).2
    have hR := heng.difference _ _ _ hK h4 (3 * δ) (by linarith) x hF
    have hcl : List.Forall₂ ClosedAs (tree.map PolyNode.contour) (gs.map PathFace.outer) := by
      rw [List.forall₂_map_left_iff, List.forall₂_map_right_iff]
      exact h5.imp fun _ _ h => h.1
    refine ⟨?_, ?_⟩
    · rw [insideCount_closed hcl]
      by_contra hc
      obtain ⟨c, hc', hcx⟩ := insideCount_odd_mem (show insideCount (tree.map PolyNode.contour) x % 2 = 1 by omega)
      obtain ⟨n, hn, rfl⟩ := List.mem_map.mp hc'
      have := (hR.region.mp ⟨n, hn, nodeRegion_iff.mpr ⟨hcx, fun v hv hvr => hni n hn v hv (nodeRegion_iff.mp hvr).1⟩⟩).1
      omega
    · intro c hc
      obtain ⟨q, hq, hqc⟩ := forall₂_mem_right hcl hc
      obtain ⟨n, hn, rfl⟩ := List.mem_map.mp hq
      rw [FarFrom.closedAs hqc]
      exact hR.off n hn n (.self n)

theorem outersAt_append (a b : List PathFace) (d : ℚ) : outersAt (a ++ b) d = outersAt a d ++ outersAt b d := by
  simp [outersAt]

theorem insideCount_append (a b : List (List Pt)) (p : Pt) : insideCount (a ++ b) p = insideCount a p + insideCount b p := by
  simp [insideCount, List.countP_append]

theorem outersAt_all {gs : List PathFace} {d e : ℚ} (h : ∀ g ∈ gs, g.depth = e) :
    outersAt gs d = if e ≤ d then gs.map PathFace.outer else [] := by
  unfold outersAt
  split
  · rw [List.filter_eq_self.mpr]
    intro g hg
    simpa [h g hg] using by assumption
  · rw [List.filter_eq_nil_iff.mpr]
    · rfl
    · intro g hg
      simpa [h g hg] using lt_of_not_ge (by assumption)

/-- Where the tool fits there is a region, and its holes are not near. -/
theorem fits_region {D G : List Pt → Prop} {δ : ℚ} {eng : Clipper} {k : ℕ} (heng : ClipperNearOn G δ eng) (hk : MakesKind G eng)
    (hoff : OffsetsRight D δ k eng) (ht : OffsetsTight D δ k eng) (hcut : CutsRight D G δ k eng) (hin : HolesInside G δ eng)
    {s o so si : ℚ} (hs : 0 ≤ s) (ho : 0 ≤ o) (hso : 0 ≤ so) {faces avoidFaces : List PathFace}
    (hD : ∀ f ∈ faces ++ avoidFaces, f.All D) {areas avoids : List (List PathFace)}
    (h1 : List.Forall₂ (OffsetFaces eng (-s) o k) faces areas) (h2 : List.Forall₂ (OffsetFaces eng so si k) avoidFaces avoids)
    {regions : List PathFace} (h3 : buildPocketOps eng areas.flatten avoids.flatten = .ok regions)
    {f : PathFace} (hf : f ∈ faces) {x : Pt} (hx : Inside f.outer x)
    (hfit : Fits faces avoidFaces (s + 5 * δ) (o + 5 * δ) (so + 5 * δ) f.depth x)
    (hav : ∀ a ∈ avoidFaces, f.depth ≤ a.depth → NoVoidIn eng so si k a x)
    (hi1 : ∀ g ∈ faces, g.depth ≤ f.depth → NoIslandIn eng (-s) o k g x)
    (hi2 : NoIslandAt eng areas.flatten avoids.flatten f.depth x) :
    ∃ r ∈ regions, r.depth = f.depth ∧ FaceRegion r x ∧ ∀ i ∈ r.inners, FarFrom δ i x := by
  have hδ := heng.nonneg
  have hG : ∀ f ∈ areas.flatten ++ avoids.flatten, f.All G := by
    intro f hf
    rcases List.mem_append.mp hf with hf | hf
    · obtain ⟨l, hl, hf⟩ := List.mem_flatten.mp hf
      obtain ⟨_, -, h⟩ := forall₂_mem_right h1 hl
      exact kind_offsetFaces hk h f hf
    · obtain ⟨l, hl, hf⟩ := List.mem_flatten.mp hf
      obtain ⟨_, -, h⟩ := forall₂_mem_right h2 hl
      exact kind_offsetFaces hk h f hf
  have harea : ∀ g ∈ faces, g.depth ≤ f.depth → ∀ gs, OffsetFaces eng (-s) o k g gs →
      insideCount (gs.map PathFace.outer) x % 2 = (if Inside g.outer x then 1 else 0) ∧
      (∀ c ∈ gs.map PathFace.outer, FarFrom (3 * δ) c x) ∧
      ∀ c ∈ (gs.map PathFace.inners).flatten, ¬ Inside c x ∧ FarFrom (3 * δ) c x := fun g hg hgd gs hgs =>
    area_at heng hk hoff ht hcut hin (hD g (by simp [hg])) hs ho hgs (hfit.far g hg hgd) (hfit.holes g hg hgd) (hi1 g hg hgd)
  have havoid : ∀ a ∈ avoidFaces, f.depth ≤ a.depth → ∀ gs, OffsetFaces eng so si k a gs →
      insideCount (gs.map PathFace.outer) x % 2 = 0 ∧ ∀ c ∈ gs.map PathFace.outer, FarFrom (3 * δ) c x := by
    intro a ha had gs hgs
    exact avoid_at heng hk hoff ht (hD a (by simp [ha])) hso hgs (hfit.avoids a ha had) (hav a ha had)
  have hodd : insideCount (outersAt areas.flatten f.depth) x % 2 = insideCount (outersAt faces f.depth) x % 2 := by
    have harea' := fun g hg hgd gs hgs => (harea g hg hgd gs hgs).1
    clear harea hfit hi1 hD hf hi2 h3 hG havoid
    induction h1 with
    | nil => rfl
    | @cons g gs gl al hg hl ih =>
      rw [List.flatten_cons, outersAt_append, insideCount_append, outersAt_all (offsetFaces_depth hg),
        show g :: gl = [g] ++ gl from rfl, outersAt_append, insideCount_append]
      have := ih (fun g' hg' => harea' g' (by simp [hg']))
      have e : insideCount (if g.depth ≤ f.depth then gs.map PathFace.outer else []) x % 2 = insideCount (outersAt [g] f.depth) x % 2 := by
        rw [outersAt_all (gs := [g]) (e := g.depth) (by simp)]
        split
        · rw [harea' g (by simp) (by assumption) gs hg]
          unfold insideCount
          simp only [List.map_cons, List.map_nil, List.countP_cons, List.countP_nil, decide_eq_true_eq]
          split <;> rfl
        · rfl
      omega
  have hfarO : ∀ c ∈ outersAt areas.flatten f.depth, FarFrom (3 * δ) c x := by
    intro c hc
    obtain ⟨g, hg, rfl⟩ := List.mem_map.mp hc
    obtain ⟨hg1, hg2⟩ := List.mem_filter.mp hg
    obtain ⟨gs, hgs, hg'⟩ := List.mem_flatten.mp hg1
    obtain ⟨f', hf', hfo⟩ := forall₂_mem_right h1 hgs
    refine (harea f' hf' ?_ gs hfo).2.1 _ (List.mem_map.mpr ⟨g, hg', rfl⟩)
    rw [← offsetFaces_depth hfo g hg']
    exact of_decide_eq_true hg2
  have hholes : ∀ c ∈ holesAt areas.flatten f.depth, ¬ Inside c x ∧ FarFrom (3 * δ) c x := by
    intro c hc
    obtain ⟨l, hl, hc⟩ := List.mem_flatten.mp hc
    obtain ⟨g, hg, rfl⟩ := List.mem_map.mp hl
    obtain ⟨hg1, hg2⟩ := List.mem_filter.mp hg
    obtain ⟨gs, hgs, hg'⟩ := List.mem_flatten.mp hg1
    obtain ⟨f', hf', hfo⟩ := forall₂_mem_right h1 hgs
    refine (harea f' hf' ?_ gs hfo).2.2 _ (List.mem_flatten.mpr ⟨_, List.mem_map.mpr ⟨g, hg', rfl⟩, hc⟩)
    rw [← offsetFaces_depth hfo g hg']
    exact of_decide_eq_true hg2
  have havd : insideCount (avoidAt avoids.flatten f.depth) x % 2 = 0 ∧ ∀ c ∈ avoidAt avoids.flatten f.depth, FarFrom (3 * δ) c x := by
    clear hfit hi2 h3 hG hav hD
    induction h2 with
    | nil => exact ⟨rfl, by simp [avoidAt]⟩
    | @cons a gs al gl ha hl ih =>
      obtain ⟨i1, i2⟩ := ih (fun a' ha' => havoid a' (by simp [ha']))
      have e : avoidAt (gs :: gl).flatten f.depth = (if f.depth ≤ a.depth then gs.map PathFace.outer else []) ++ avoidAt gl.flatten f.depth := by
        unfold avoidAt
        rw [List.flatten_cons, List.filter_append, List.map_append]
        congr 1
        have hd := offsetFaces_depth ha
        split
        · rw [List.filter_eq_self.mpr]
          intro g hg
          simpa [hd g hg] using by assumption
        · rw [List.filter_eq_nil_iff.mpr]
          · rfl
          · intro g hg
            simpa [hd g hg] using lt_of_not_ge (by assumption)
      rw [e, insideCount_append]
      split
      · obtain ⟨j1, j2⟩ := havoid a (by simp) (by assumption) gs ha
        exact ⟨by omega, fun c hc => (List.mem_append.mp hc).elim (j2 c) (i2 c)⟩
      · exact ⟨by simpa [insideCount] using i1, by simpa using i2⟩
  refine odd_region heng hG h3 ?_ ⟨hfarO, ?_⟩ (by rw [hodd, hfit.one]) ?_ hi2
  · obtain ⟨gs, hgs, hfo⟩ := forall₂_mem_left h1 hf
    have := (harea f hf le_rfl gs hfo).1
    rw [if_pos hx] at this
    obtain ⟨c, hc, -⟩ := insideCount_odd_mem this
    obtain ⟨g, hg, rfl⟩ := List.mem_map.mp hc
    exact ⟨g, List.mem_flatten.mpr ⟨gs, hgs, hg⟩, offsetFaces_depth hfo g hg⟩
  · intro c hc
    rcases List.mem_append.mp hc with hc | hc
    · exact (hholes c hc).2
    · exact havd.2 c hc
  · rw [insideCount_append]
    have : insideCount (holesAt areas.flatten f.depth) x = 0 := by
      by_contra hc
      obtain ⟨c, hc, hcx⟩ := insideCount_pos.mp (Nat.pos_of_ne_zero hc)
      exact (hholes c hc).1 hcx
    have := havd.1
    omega

/-- C109, partial.  In the program of any job with a pocket, wherever the tool fits the machine comes: if the disc of the size of the
outer offset (by default the tool radius) around a point is in a given face, the holes are outside the disc of the size of the inner
offset and the avoid faces outside the disc of the size of the avoid offset (all with a margin of five times the tolerance of the engine),
then the machine passes the point within the stepover at the printed depth of the face, with the spindle running and the pocket's tool in it.  Missing:
points in the outlines of two of the faces (`C109_violated`), points enclosed by a hole or avoid face (islands, `C40_violated`), and
points in the holes of avoid faces (`C109_violated_avoid`) or in a void between their grown outlines. -/
theorem C109_pocket_partial {D G : List Pt → Prop} {δ : ℚ} {eng : Clipper} {j0 : Job} (heng : ClipperNearOn G δ eng) (hk : MakesKind G eng)
    (hsh : ShrinksNear G δ j0.precision eng) (hoff : OffsetsRight D δ j0.precision eng) (ht : OffsetsTight D δ j0.precision eng) (hcut : CutsRight D G δ j0.precision eng)
    (hin : HolesInside G δ eng) (hr : NoRepeats eng)
    {veq : Vec → Vec → Bool} {fuel : ℕ} {opAreas avoidAreas : List CqFace}
    {a : PocketArgs} {tool : Option Tool} {j1 j2 jf : Job} {before after : List Request} (m : Machine) (h0 : InitOK j0)
    (hn : ∀ v, j0.toolNumber = some v → NumOK v)
    (hok : ChainOK j0 (before ++ pocketRequest eng veq fuel opAreas avoidAreas a tool :: after))
    (h1 : j0.chain before = .ok j1) (h2 : (j1.call (pocketRequest eng veq fuel opAreas avoidAreas a tool)).2 = .ok j2)
    (h3 : j2.chain after = .ok jf) (hend : m.ended = false)
    (htool : ∀ n, j0.toolNumber = some n → m.tool = some n.value) (hsafe : 0 < j0.opSafeHeight)
    (hD : ∀ c ∈ opAreas ++ avoidAreas, ∀ f, FlatFace veq j0.precision c f → f.All D) :
    ∃ t m' evs diameter outer inner avoidOuter faces avoidFaces areas avoids, jf.toGcode = .ok t ∧ runText m t = some (m', evs) ∧
      (j1.settings.inherit tool).toolDiameter = some diameter ∧
      outer = (if avoidAreas ≠ [] ∧ a.outerOffset = none then 0 else offsetDistance (diameter / 2) (-1) a.outerOffset) ∧
      inner = offsetDistance (diameter / 2) 1 a.innerOffset ∧ avoidOuter = offsetDistance (diameter / 2) 1 a.avoidOuterOffset ∧
      List.Forall₂ (FlatFace veq j0.precision) opAreas faces ∧ List.Forall₂ (FlatFace veq j0.precision) avoidAreas avoidFaces ∧
      List.Forall₂ (OffsetFaces eng outer inner j0.precision) faces areas ∧
      List.Forall₂ (OffsetFaces eng avoidOuter (offsetDistance (diameter / 2) (-1) a.avoidInnerOffset) j0.precision) avoidFaces avoids ∧
      (0 < offsetDistance (diameter / 2) (1 / 2) a.stepover → outer ≤ 0 → 0 ≤ inner → 0 ≤ avoidOuter →
        ∀ f ∈ faces, ∀ x, Inside f.outer x →
          Fits faces avoidFaces (-outer + 5 * δ) (inner + 5 * δ) (avoidOuter + 5 * δ) f.depth x →
          (∀ b ∈ avoidFaces, f.depth ≤ b.depth →
            NoVoidIn eng avoidOuter (offsetDistance (diameter / 2) (-1) a.avoidInnerOffset) j0.precision b x) →
          (∀ g ∈ faces, g.depth ≤ f.depth → NoIslandIn eng outer inner j0.precision g x) →
          NoIslandAt eng areas.flatten avoids.flatten f.depth x →
          ∃ e ∈ evs, ∃ q, MillsOver (rnd 3 f.depth) q e ∧
            sqDist x q ≤ (offsetDistance (diameter / 2) (1 / 2) a.stepover + 2 * δ + 1 / 1000) ^ 2 ∧
            ∀ n, (j1.settings.inherit tool).toolNumber = some n → e.st.tool = some n.value) := by
  obtain ⟨t, m', evs, diameter, faces, avoidFaces, areas, avoids, regions, e1, e2, e3, e4, e5, e6, e7, e8, e9⟩ :=
    C94_pocket heng hk hsh hr m h0 hn hok h1 h2 h3 hend htool hsafe
  refine ⟨t, m', evs, diameter, _, _, _, faces, avoidFaces, areas, avoids, e1, e2, e3, rfl, rfl, rfl, e4, e5, e6, e7, ?_⟩
  intro hpos hout hinn hao f hf x hx hfit hav hi1 hi2
  have hDf : ∀ f ∈ faces ++ avoidFaces, f.All D := by
    intro f hf
    rcases List.mem_append.mp hf with hf | hf
    · obtain ⟨c, hc, hcf⟩ := forall₂_mem_right e4 hf
      exact hD c (by simp [hc]) f hcf
    · obtain ⟨c, hc, hcf⟩ := forall₂_mem_right e5 hf
      exact hD c (by simp [hc]) f hcf
  obtain ⟨r, hr', hrd, hrp, hri⟩ := fits_region heng hk hoff ht hcut hin
    (s := -(if avoidAreas ≠ [] ∧ a.outerOffset = none then 0 else offsetDistance (diameter / 2) (-1) a.outerOffset))
    (by linarith) hinn hao hDf (by rw [neg_neg]; exact e6) e7 e8 hf hx hfit hav (by rw [neg_neg]; exact hi1) hi2
  rw [← hrd]
  exact e9 hpos r hr' x hrp hri

end CQ
