import Verif.Props.PocketRun
import Verif.Spec.Gouge

/-! # C108: the tool stays in the given faces -/

namespace CQ

theorem onSegment_dist {p q x : Pt} (h : OnSegment p q x) : sqDist p x ≤ sqDist p q := by
  obtain ⟨t, t0, t1, rfl⟩ := h
  rw [sqDist_lerp_left]
  have := sqDist_nonneg p q
  nlinarith [mul_nonneg t0 t0, mul_le_one₀ t1 t0 t1]

/-- Near a point that is far from an outline nothing changes. -/
theorem inside_near {r : ℚ} {c : List Pt} {p q : Pt} (h : FarFrom r c p) (hd : sqDist p q ≤ r ^ 2) : Inside c p ↔ Inside c q :=
  inside_of_avoid fun x hx hon => absurd (h x hon) (not_lt.mpr ((onSegment_dist hx).trans hd))

theorem insideCount_near {r : ℚ} {cs : List (List Pt)} {p q : Pt} (h : ∀ c ∈ cs, FarFrom r c p) (hd : sqDist p q ≤ r ^ 2) :
    insideCount cs p = insideCount cs q := by
  unfold insideCount
  refine List.countP_congr fun c hc => ?_
  simp only [decide_eq_true_eq, inside_near (h c hc) hd]

theorem FarFrom.move {a b : ℚ} (ha : 0 ≤ a) (hb : 0 ≤ b) {c : List Pt} {p q : Pt} (h : FarFrom (a + b) c p)
    (hd : sqDist p q ≤ a ^ 2) : FarFrom b c q := by
  intro x hx
  by_contra hc
  have := h x hx
  rw [add_comm] at this
  exact absurd this (not_lt.mpr (sqDist_triangle hb ha hd (not_lt.mp hc)))

/-- The triangle inequality, strict. -/
theorem sqDist_triangle_lt {p q x : Pt} {a b : ℚ} (ha : 0 ≤ a) (hb : 0 ≤ b) (h1 : sqDist p q ≤ a ^ 2) (h2 : sqDist q x < b ^ 2) :
    sqDist p x < (a + b) ^ 2 := by
  unfold sqDist at *
  set u1 := p.x - q.x with hu1
  set u2 := p.y - q.y with hu2
  set v1 := q.x - x.x with hv1
  set v2 := q.y - x.y with hv2
  have e1 : p.x - x.x = u1 + v1 := by rw [hu1, hv1]; ring
  have e2 : p.y - x.y = u2 + v2 := by rw [hu2, hv2]; ring
  rw [e1, e2]
  have hc : (u1 * v1 + u2 * v2) ^ 2 ≤ (a * b) ^ 2 := by
    have h3 : (u1 * v1 + u2 * v2) ^ 2 ≤ (u1 * u1 + u2 * u2) * (v1 * v1 + v2 * v2) := by
      nlinarith [sq_nonneg (u1 * v2 - u2 * v1)]
    have h4 : (u1 * u1 + u2 * u2) * (v1 * v1 + v2 * v2) ≤ a ^ 2 * b ^ 2 :=
      mul_le_mul h1 h2.le (add_nonneg (mul_self_nonneg _) (mul_self_nonneg _)) (by positivity)
    calc _ ≤ _ := h3
      _ ≤ _ := h4
      _ = _ := by ring
  have := abs_le_of_sq_le_sq' hc (mul_nonneg ha hb)
  nlinarith [this.2]

/-- Where a region comes from. -/
theorem region_source {G : List Pt → Prop} {δ : ℚ} {eng : Clipper} (heng : ClipperNearOn G δ eng)
    {areas avoids regions : List PathFace} (hG : ∀ f ∈ areas ++ avoids, f.All G)
    (h : buildPocketOps eng areas avoids = .ok regions) {r : PathFace} (hr : r ∈ regions) :
    ∃ outers subjects clips ut dt, ∃ n ∈ dt, outers.Perm (outersAt areas r.depth) ∧
      clips.Perm (holesAt areas r.depth ++ avoidAt avoids r.depth) ∧ eng.union outers [] = .ok ut ∧ (∀ s ∈ outers, G s) ∧
      List.Forall₂ (fun n s => ClosedAs n.contour s) ut subjects ∧ eng.difference subjects clips = .ok dt ∧
      (∀ s ∈ subjects ++ clips, G s) ∧ ClosedAs n.contour r.outer ∧
      List.Forall₂ (fun c q => ClosedAs c.contour q) n.childs r.inners := by
  obtain ⟨outers, clips, ut, dt, us, fs, h1, h2, h3, h4, h5, h6, h7⟩ := ops_from h r.depth (ops_depth h hr)
  obtain ⟨k1, k2⟩ := kind_all hG r.depth
  obtain ⟨n, hn, hnf⟩ := mapE_mem h6 ((h7 r).mp ⟨hr, rfl⟩)
  obtain ⟨m1, m2, -⟩ := nodeToPolyFace_ok hnf
  have ko : ∀ s ∈ outers, G s := fun s hs => k1 s (h1.mem_iff.mp hs)
  have hf : List.Forall₂ (fun n s => ClosedAs n.contour s) ut (us.map PathFace.outer) := by
    rw [List.forall₂_map_right_iff]
    exact (mapE_ok.mp h4).imp fun n f hnf => closedAs_of (nodeToPolyFace_ok hnf).1
  refine ⟨outers, _, clips, ut, dt, n, hn, h1, h2, h3, ko, hf, h5, ?_, closedAs_of m1, m2.imp fun _ _ => closedAs_of⟩
  intro s hs
  rcases List.mem_append.mp hs with hs | hs
  · obtain ⟨n, hn, hns⟩ := forall₂_mem_right hf hs
    exact heng.kind _ _ _ (by simpa using ko) h3 n hn _ hns
  · exact k2 s (h2.mem_iff.mp hs)

theorem closedRegion_node {n : PolyNode} {r : PathFace} (h1 : ClosedAs n.contour r.outer)
    (h2 : List.Forall₂ (fun c q => ClosedAs c.contour q) n.childs r.inners) {p : Pt} (h : FaceRegion r p) : NodeRegion p n := by
  refine nodeRegion_iff.mpr ⟨(h1.2.2 p).mp h.1, fun c hc hcr => ?_⟩
  obtain ⟨q, hq, hcq⟩ := forall₂_mem_left h2 hc
  exact h.2 q hq ((hcq.2.2 p).mpr (nodeRegion_iff.mp hcr).1)

/-- A point of a region is within the tolerance of its area (not its holes) or of an outline. -/
theorem inRegion_node {δ : ℚ} {n : PolyNode} {r : PathFace} (h1 : ClosedAs n.contour r.outer)
    (h2 : List.Forall₂ (fun c q => ClosedAs c.contour q) n.childs r.inners) {p : Pt} (h : InRegion δ r p) :
    ∃ x, sqDist p x ≤ δ ^ 2 ∧ (NodeRegion x n ∨ ∃ k, n.Below k ∧ OnOutline k.contour x) := by
  have h0 : sqDist p p ≤ δ ^ 2 := by
    rw [show sqDist p p = 0 by simp [sqDist]]; positivity
  rcases h with h | ⟨hin, h⟩
  · exact ⟨p, h0, .inr ⟨n, .self n, (h1.onOutline p).mp h⟩⟩
  by_cases hfar : ∀ i ∈ r.inners, FarFrom δ i p
  · exact ⟨p, h0, .inl (closedRegion_node h1 h2 (h hfar))⟩
  · push Not at hfar
    obtain ⟨i, hi, hn⟩ := hfar
    obtain ⟨x, hx, hd⟩ := not_farFrom.mp hn
    obtain ⟨c, hc, hci⟩ := forall₂_mem_right h2 hi
    exact ⟨x, hd, .inr ⟨c, .child hc (.self c), (hci.onOutline x).mp hx⟩⟩

/-- A region does not reach deep into what is cut away. -/
theorem not_cut_away {D G : List Pt → Prop} {δ : ℚ} {eng : Clipper} {k : ℕ} (heng : ClipperNearOn G δ eng) (hcut : CutsRight D G δ k eng)
    {areas avoids regions : List PathFace} (hG : ∀ f ∈ areas ++ avoids, f.All G)
    (h : buildPocketOps eng areas avoids = .ok regions) {r : PathFace} (hr : r ∈ regions) {p : Pt} (hp : InRegion δ r p)
    (hfar : ∀ c ∈ holesAt areas r.depth ++ avoidAt avoids r.depth, FarFrom (2 * δ) c p) :
    insideCount (holesAt areas r.depth ++ avoidAt avoids r.depth) p % 2 = 0 := by
  have hδ := heng.nonneg
  obtain ⟨outers, subjects, clips, ut, dt, n, hn, -, h2, -, -, -, h5, hK, m1, m2⟩ := region_source heng hG h hr
  obtain ⟨x, hx, hor⟩ := inRegion_node m1 m2 hp
  have hfar' : ∀ c ∈ clips, FarFrom (δ + δ) c p := fun c hc => by
    rw [← two_mul]; exact hfar c (h2.mem_iff.mp hc)
  rcases Nat.mod_two_eq_zero_or_one (insideCount (holesAt areas r.depth ++ avoidAt avoids r.depth) p) with h0 | h0
  · exact h0
  exfalso
  rw [← insideCount_perm h2, insideCount_near (fun c hc => (hfar' c hc).mono hδ (by linarith)) hx] at h0
  obtain ⟨k1, k2⟩ := hcut.difference_out _ _ _ hK h5 x (fun c hc => (hfar' c hc).move hδ hδ hx) h0
  rcases hor with hor | ⟨k, hk, hon⟩
  · exact k1 ⟨n, hn, hor⟩
  · exact k2 n hn k hk hon

/-- A point of a region is near an area that is at least as deep. -/
theorem region_area {D G : List Pt → Prop} {δ : ℚ} {eng : Clipper} {k : ℕ} (heng : ClipperNearOn G δ eng) (hcut : CutsRight D G δ k eng)
    {areas avoids regions : List PathFace} (hG : ∀ f ∈ areas ++ avoids, f.All G)
    (h : buildPocketOps eng areas avoids = .ok regions) {r : PathFace} (hr : r ∈ regions) {p : Pt} (hp : InRegion δ r p)
    (hvoid : ∀ s tree, s.Perm (outersAt areas r.depth) → eng.union s [] = .ok tree → ∀ n ∈ tree, n.childs = []) :
    ∃ g ∈ areas, g.depth ≤ r.depth ∧ ∃ y, InOn g.outer y ∧ sqDist p y ≤ (3 * δ) ^ 2 := by
  have hδ := heng.nonneg
  obtain ⟨outers, subjects, clips, ut, dt, n, hn, h1, h2, h3, h3', hf, h5, hK, m1, m2⟩ := region_source heng hG h hr
  obtain ⟨x, hx, hor⟩ := inRegion_node m1 m2 hp
  obtain ⟨s, hs, y, hy, hxy⟩ := hcut.difference_from _ _ _ hK h5 x (by
    rcases hor with hor | ⟨k, hk, hon⟩
    · exact .inl ⟨n, hn, hor⟩
    · exact .inr ⟨n, hn, k, hk, hon⟩)
  obtain ⟨m, hm, hms⟩ := forall₂_mem_right hf hs
  obtain ⟨o, ho, z, hz, hyz⟩ := hcut.union_from _ _ h3' h3 y (by
    rcases hy with hy | hy
    · refine .inl ⟨m, hm, nodeRegion_iff.mpr ⟨(hms.2.2 y).mp hy, ?_⟩⟩
      rw [hvoid _ _ h1 h3 m hm]
      simp
    · exact .inr ⟨m, hm, m, .self m, (hms.onOutline y).mp hy⟩)
  obtain ⟨g, hg, rfl⟩ := List.mem_map.mp (h1.mem_iff.mp ho)
  obtain ⟨hg1, hg2⟩ := List.mem_filter.mp hg
  refine ⟨g, hg1, of_decide_eq_true hg2, z, hz, ?_⟩
  have := sqDist_triangle hδ (by linarith) (sqDist_triangle hδ hδ hx hxy) hyz
  rwa [show δ + (δ + δ) = 3 * δ by ring] at this

/-- A point of an area is near a contour of the offset outline. -/
theorem area_outline {D G : List Pt → Prop} {δ : ℚ} {eng : Clipper} {k : ℕ} (hk : MakesKind G eng) (hcut : CutsRight D G δ k eng) {f : PathFace}
    (hD : D f.outer) {s o : ℚ} (hs : 0 ≤ s) {gs : List PathFace} (h : OffsetFaces eng (-s) o k f gs) {g : PathFace} (hg : g ∈ gs)
    {p : Pt} (hp : InOn g.outer p) : ∃ raw, eng.offset f.outer (-s) k = .ok raw ∧ ∃ q ∈ raw, ∃ x, InOn q x ∧ sqDist p x ≤ δ ^ 2 := by
  obtain ⟨outlines, hraw, h⟩ := h
  obtain ⟨raw, h1, h2⟩ := id hraw
  refine ⟨raw, h1, ?_⟩
  have back : ∀ q ∈ outlines, ∃ q' ∈ raw, ∀ x, InOn q x → InOn q' x := by
    intro q hq
    obtain ⟨q', hq', hc⟩ := forall₂_mem_right h2 hq
    refine ⟨q', List.mem_of_mem_filter hq', fun x hx => ?_⟩
    unfold InOn
    rwa [← hc.2.2 x, ← hc.onOutline x]
  split at h
  · subst h
    obtain ⟨q, hq, rfl⟩ := List.mem_map.mp hg
    obtain ⟨q', hq', hqq⟩ := back q hq
    exact ⟨q', hq', p, hqq p hp, by rw [show sqDist p p = 0 by simp [sqDist]]; positivity⟩
  · obtain ⟨holes, tree, h3, h4, h5⟩ := h
    obtain ⟨n, hn, m1, -, -⟩ := forall₂_mem_right h5 hg
    have hp' : InOn n.contour p := by
      unfold InOn
      rwa [← m1.2.2 p, ← m1.onOutline p]
    obtain ⟨q, hq, x, hx, hd⟩ := hcut.within _ _ _ _ _ hD hs hraw (by
      intro c hc
      obtain ⟨l, hl, hc⟩ := List.mem_flatten.mp hc
      obtain ⟨i, -, raw', k1, k2⟩ := forall₂_mem_right h3 hl
      obtain ⟨c', hc', hcc⟩ := forall₂_mem_right k2 hc
      exact hk.offset _ _ _ _ k1 c' (List.mem_of_mem_filter hc') _ hcc) h4 n hn p hp'
    obtain ⟨q', hq', hqq⟩ := back q hq
    exact ⟨q', hq', x, hqq x hx, hd⟩

theorem insideCount_flatten (gs : List (List (List Pt))) (p : Pt) :
    insideCount gs.flatten p = (gs.map (fun g => insideCount g p)).sum := by
  induction gs with
  | nil => rfl
  | cons g gs ih =>
    rw [List.flatten_cons, List.map_cons, List.sum_cons, ← ih]
    unfold insideCount
    rw [List.countP_append]

theorem sum_even {l : List ℕ} (h : ∀ x ∈ l, x % 2 = 0) : l.sum % 2 = 0 := by
  induction l with
  | nil => rfl
  | cons x l ih =>
    rw [List.sum_cons]
    have := h x (by simp)
    have := ih (fun y hy => h y (by simp [hy]))
    omega

theorem not_reaches {ρ : ℚ} {g : List (List Pt)} {p : Pt} (h : ¬ Reaches ρ g p) : insideCount g p % 2 = 0 ∧ ∀ c ∈ g, FarFrom ρ c p := by
  unfold Reaches at h
  push Not at h
  exact ⟨by have := h.1; omega, h.2⟩

/-- Where one of separate groups is reached, the others are not. -/
theorem separate_one {ρ : ℚ} {gs : List (List (List Pt))} (h : Separate ρ gs) {g : List (List Pt)} (hg : g ∈ gs) {p : Pt}
    (hin : insideCount g p % 2 = 1) (hfar : ∀ c ∈ g, FarFrom ρ c p) :
    insideCount gs.flatten p % 2 = 1 ∧ ∀ c ∈ gs.flatten, FarFrom ρ c p := by
  obtain ⟨l, l', rfl⟩ := List.append_of_mem hg
  obtain ⟨-, h2, h3⟩ := List.pairwise_append.mp h
  obtain ⟨h4, -⟩ := List.pairwise_cons.mp h2
  have hl : ∀ a ∈ l ++ l', ¬ Reaches ρ a p := by
    intro a ha hra
    rcases List.mem_append.mp ha with ha | ha
    · exact h3 a ha g (by simp) p ⟨hra, .inl hin⟩
    · exact h4 a ha p ⟨.inl hin, hra⟩
  constructor
  · rw [insideCount_flatten, List.map_append, List.map_cons, List.sum_append, List.sum_cons]
    have e1 : (l.map (fun g => insideCount g p)).sum % 2 = 0 := sum_even (by
      intro x hx
      obtain ⟨a, ha, rfl⟩ := List.mem_map.mp hx
      exact (not_reaches (hl a (by simp [ha]))).1)
    have e2 : (l'.map (fun g => insideCount g p)).sum % 2 = 0 := sum_even (by
      intro x hx
      obtain ⟨a, ha, rfl⟩ := List.mem_map.mp hx
      exact (not_reaches (hl a (by simp [ha]))).1)
    omega
  · intro c hc
    obtain ⟨a, ha, hc⟩ := List.mem_flatten.mp hc
    rcases List.mem_append.mp ha with ha | ha
    · exact (not_reaches (hl a (by simp [ha]))).2 c hc
    · rcases List.mem_cons.mp ha with rfl | ha
      · exact hfar c (by assumption)
      · exact (not_reaches (hl a (by simp [ha]))).2 c hc

/-- Near something in an outline the grown contours are around, and not near. -/
theorem grown_around {D : List Pt → Prop} {δ : ℚ} {eng : Clipper} {k : ℕ} (hoff : OffsetsRight D δ k eng) {path : List Pt} (hD : D path) {o : ℚ}
    {qs : List (List Pt)} (h : OffsetContours eng o k path qs) {z p : Pt} (hz : InOn path z) (ho : 0 < o - 5 * δ)
    (hd : sqDist p z < (o - 5 * δ) ^ 2) : insideCount qs p % 2 = 1 ∧ ∀ c ∈ qs, FarFrom (4 * δ) c p := by
  have hδ := hoff.nonneg
  obtain ⟨raw, h1, h2⟩ := h
  constructor
  · rw [insideCount_closed h2, insideCount_filter]
    exact hoff.grown_covers _ _ _ hD (by linarith) h1 z hz p (hd.trans_le (pow_le_pow_left₀ ho.le (by linarith) 2))
  · intro c hc
    obtain ⟨q, hq, hqc⟩ := forall₂_mem_right h2 hc
    rw [FarFrom.closedAs hqc]
    intro x hx
    by_contra hn
    have h3 := hoff.grown_far _ _ _ hD (by linarith) h1 z hz q (List.mem_of_mem_filter hq) x hx
    have h4 := sqDist_triangle_lt (a := 4 * δ) (by linarith) ho.le (by rw [sqDist_comm]; exact not_lt.mp hn) hd
    rw [show 4 * δ + (o - 5 * δ) = o - δ by ring] at h4
    linarith

/-- Near a hole of a face there is only the hole of the area. -/
theorem area_hole {D G : List Pt → Prop} {δ : ℚ} {eng : Clipper} {k : ℕ} (hk : MakesKind G eng) (hoff : OffsetsRight D δ k eng)
    (hcut : CutsRight D G δ k eng) {f : PathFace} {a o : ℚ} {gs : List PathFace}
    (hD : f.All D) (h : OffsetFaces eng a o k f gs)
    (hsep : ∀ holes, List.Forall₂ (OffsetContours eng o k) f.inners holes → Separate (4 * δ) holes) {g : PathFace} (hg : g ∈ gs)
    {p y : Pt} (hy : InOn g.outer y) (hpy : sqDist p y ≤ (3 * δ) ^ 2) {i : List Pt} (hi : i ∈ f.inners) {z : Pt} (hz : InOn i z)
    (ho : 0 < o - 5 * δ) (hd : sqDist p z < (o - 5 * δ) ^ 2) : ∃ c ∈ g.inners, Inside c p ∧ FarFrom (2 * δ) c p := by
  have hδ := hoff.nonneg
  obtain ⟨outlines, ⟨raw, r1, r2⟩, h⟩ := h
  rw [if_neg (List.ne_nil_of_mem hi)] at h
  obtain ⟨holes, tree, h3, h4, h5⟩ := h
  obtain ⟨qs, hqs, hiq⟩ := forall₂_mem_left h3 hi
  obtain ⟨e1, e2⟩ := grown_around hoff (hD.2 i hi) hiq hz ho hd
  obtain ⟨e3, e4⟩ := separate_one (hsep _ h3) hqs e1 e2
  have hK : ∀ s ∈ outlines ++ holes.flatten, G s := by
    intro s hs
    rcases List.mem_append.mp hs with hs | hs
    · obtain ⟨c', hc', hcc⟩ := forall₂_mem_right r2 hs
      exact hk.offset _ _ _ _ r1 c' (List.mem_of_mem_filter hc') _ hcc
    · obtain ⟨l, hl, hs⟩ := List.mem_flatten.mp hs
      obtain ⟨i, -, raw', k1, k2⟩ := forall₂_mem_right h3 hl
      obtain ⟨c', hc', hcc⟩ := forall₂_mem_right k2 hs
      exact hk.offset _ _ _ _ k1 c' (List.mem_of_mem_filter hc') _ hcc
  have hout : ∀ x, sqDist p x ≤ (3 * δ) ^ 2 → ¬ TreeRegion tree x ∧ ∀ n ∈ tree, ∀ k, n.Below k → ¬ OnOutline k.contour x := by
    intro x hx
    refine hcut.difference_out _ _ _ hK h4 x (fun c hc => ?_) ?_
    · have := e4 c hc
      rw [show 4 * δ = 3 * δ + δ by ring] at this
      exact this.move (by linarith) hδ hx
    · rw [← insideCount_near (fun c hc => (e4 c hc).mono (by linarith) (by linarith)) hx]
      exact e3
  have hfar : ∀ n ∈ tree, ∀ k, n.Below k → FarFrom (3 * δ) k.contour p := by
    intro n hn k hk x hx
    by_contra hc
    exact (hout x (not_lt.mp hc)).2 n hn k hk hx
  obtain ⟨n, hn, m1, -, m2⟩ := forall₂_mem_right h5 hg
  have hin : Inside n.contour p := by
    rcases hy with hy | hy
    · exact (inside_near (hfar n hn n (.self n)) hpy).mpr ((m1.2.2 y).mp hy)
    · exact absurd ((m1.onOutline y).mp hy) ((hout y hpy).2 n hn n (.self n))
  have hno : ¬ NodeRegion p n := fun hr => (hout p (by rw [show sqDist p p = 0 by simp [sqDist]]; positivity)).1 ⟨n, hn, hr⟩
  rw [nodeRegion_iff] at hno
  push Not at hno
  obtain ⟨c, hc, hcr⟩ := hno hin
  obtain ⟨q, hq, hcq⟩ := forall₂_mem_left m2 hc
  refine ⟨q, hq, (hcq.2.2 p).mpr (nodeRegion_iff.mp hcr).1, ?_⟩
  rw [FarFrom.closedAs hcq]
  exact (hfar n hn c (.child hc (.self c))).mono (by linarith) (by linarith)

/-- Near an avoid face there are its grown outlines. -/
theorem avoid_around {D G : List Pt → Prop} {δ : ℚ} {eng : Clipper} {k : ℕ} (heng : ClipperNearOn G δ eng) (hk : MakesKind G eng)
    (hoff : OffsetsRight D δ k eng) {f : PathFace} {o s : ℚ} {gs : List PathFace}
    (hD : f.All D) (h : OffsetFaces eng o (-s) k f gs) (hs : f.inners = [] ∨ o ≤ s)
    {p z : Pt} (hz : InOn f.outer z) (hzi : ∀ i ∈ f.inners, ¬ Inside i z)
    (ho : 0 < o - 5 * δ) (hd : sqDist p z < (o - 5 * δ) ^ 2) :
    insideCount (gs.map PathFace.outer) p % 2 = 1 ∧ ∀ c ∈ gs.map PathFace.outer, FarFrom (2 * δ) c p := by
  have hδ := hoff.nonneg
  obtain ⟨outlines, hraw, h⟩ := h
  obtain ⟨e1, e2⟩ := grown_around hoff hD.1 hraw hz ho hd
  by_cases hi : f.inners = []
  · rw [if_pos hi] at h
    subst h
    rw [List.map_map, show PathFace.outer ∘ (fun o => (⟨o, [], f.depth⟩ : PathFace)) = id from rfl, List.map_id]
    exact ⟨e1, fun c hc => (e2 c hc).mono (by linarith) (by linarith)⟩
  · rw [if_neg hi] at h
    obtain ⟨holes, tree, h3, h4, h5⟩ := h
    have hs := hs.resolve_left hi
    have hclip : ∀ c ∈ holes.flatten, G c ∧ ∀ x, InOn c x → ¬ sqDist p x ≤ (3 * δ) ^ 2 := by
      intro c hc
      obtain ⟨l, hl, hc⟩ := List.mem_flatten.mp hc
      obtain ⟨i, hi', raw', k1, k2⟩ := forall₂_mem_right h3 hl
      obtain ⟨c', hc', hcc⟩ := forall₂_mem_right k2 hc
      have hc' := List.mem_of_mem_filter hc'
      refine ⟨hk.offset _ _ _ _ k1 c' hc' _ hcc, fun x hx hpx => ?_⟩
      unfold InOn at hx
      rw [hcc.2.2 x, hcc.onOutline x] at hx
      refine hzi i hi' (hoff.shrunk_deep _ _ _ (hD.2 i hi') (by linarith) k1 c' hc' x hx z ?_)
      have := sqDist_triangle_lt (a := 3 * δ) (by linarith) ho.le (by rw [sqDist_comm]; exact hpx) hd
      exact this.trans_le (pow_le_pow_left₀ (by linarith) (by linarith) 2)
    obtain ⟨raw, r1, r2⟩ := hraw
    have hpp : sqDist p p ≤ (3 * δ) ^ 2 := by rw [show sqDist p p = 0 by simp [sqDist]]; positivity
    have hR := heng.difference _ _ _ (by
      intro s hs
      rcases List.mem_append.mp hs with hs | hs
      · obtain ⟨c', hc', hcc⟩ := forall₂_mem_right r2 hs
        exact hk.offset _ _ _ _ r1 c' (List.mem_of_mem_filter hc') _ hcc
      · exact (hclip s hs).1) h4 (2 * δ) (by linarith) p (by
      intro s hs
      rcases List.mem_append.mp hs with hs | hs
      · exact (e2 s hs).mono (by linarith) (by linarith)
      · intro x hx
        rw [show 2 * δ + δ = 3 * δ by ring]
        exact not_le.mp ((hclip s hs).2 x (.inr hx)))
    have hno : ¬ insideCount holes.flatten p % 2 = 1 := by
      intro hodd
      obtain ⟨c, hc, hcin⟩ := insideCount_odd_mem hodd
      exact (hclip c hc).2 p (.inl hcin) hpp
    obtain ⟨n, hn, hnr⟩ := hR.region.mpr ⟨e1, hno⟩
    have hcl : List.Forall₂ ClosedAs (tree.map PolyNode.contour) (gs.map PathFace.outer) := by
      rw [List.forall₂_map_left_iff, List.forall₂_map_right_iff]
      exact h5.imp fun _ _ h => h.1
    constructor
    · rw [insideCount_closed hcl, insideCount_odd hR.apart]
      exact ⟨_, List.mem_map.mpr ⟨n, hn, rfl⟩, (nodeRegion_iff.mp hnr).1⟩
    · intro c hc
      obtain ⟨q, hq, hqc⟩ := forall₂_mem_right hcl hc
      obtain ⟨n, hn, rfl⟩ := List.mem_map.mp hq
      rw [FarFrom.closedAs hqc]
      exact hR.off n hn n (.self n)

theorem offsetFaces_depth {eng : Clipper} {a b : ℚ} {k : ℕ} {f : PathFace} {gs : List PathFace} (h : OffsetFaces eng a b k f gs) :
    ∀ g ∈ gs, g.depth = f.depth := by
  obtain ⟨outlines, -, h⟩ := h
  intro g hg
  split at h
  · subst h
    obtain ⟨o, -, rfl⟩ := List.mem_map.mp hg
    rfl
  · obtain ⟨holes, tree, -, -, h5⟩ := h
    obtain ⟨n, -, -, e, -⟩ := forall₂_mem_right h5 hg
    exact e

theorem cutAway_flatten (areas avoids : List (List PathFace)) (d : ℚ) :
    (cutAway areas avoids d).flatten = holesAt areas.flatten d ++ avoidAt avoids.flatten d := by
  unfold cutAway
  rw [List.flatten_append]
  congr 1
  · generalize holesAt areas.flatten d = l
    induction l with
    | nil => rfl
    | cons x l ih => rw [List.map_cons, List.flatten_cons, ih]; rfl
  · unfold avoidAt
    induction avoids with
    | nil => rfl
    | cons x l ih => rw [List.map_cons, List.flatten_cons, ih, List.flatten_cons, List.filter_append, List.map_append]

/-- Over the regions of a pocket the tool is in the given faces. -/
theorem region_tool {D G : List Pt → Prop} {δ : ℚ} {eng : Clipper} {k : ℕ} (heng : ClipperNearOn G δ eng) (hk : MakesKind G eng)
    (hoff : OffsetsRight D δ k eng) (hcut : CutsRight D G δ k eng) {s o so si : ℚ} (hs : 0 ≤ s) {faces avoidFaces : List PathFace}
    (hD : ∀ f ∈ faces ++ avoidFaces, f.All D) {areas avoids : List (List PathFace)}
    (h1 : List.Forall₂ (OffsetFaces eng (-s) o k) faces areas) (h2 : List.Forall₂ (OffsetFaces eng so (-si) k) avoidFaces avoids)
    {regions : List PathFace} (h3 : buildPocketOps eng areas.flatten avoids.flatten = .ok regions)
    (hsi : ∀ f ∈ avoidFaces, f.inners = [] ∨ so ≤ si) {r : PathFace} (hr : r ∈ regions)
    (hvoid : NoVoid eng areas r.depth) (hsep : HolesApart eng δ o k faces)
    (hsep2 : Separate (2 * δ) (cutAway areas avoids r.depth)) {p : Pt} (hp : InRegion δ r p) :
    ToolIn faces avoidFaces (5 * δ) (s - 5 * δ) (o - 5 * δ) (so - 5 * δ) r.depth p := by
  have hδ := heng.nonneg
  have hG : ∀ f ∈ areas.flatten ++ avoids.flatten, f.All G := by
    intro f hf
    rcases List.mem_append.mp hf with hf | hf
    · obtain ⟨l, hl, hf⟩ := List.mem_flatten.mp hf
      obtain ⟨_, -, h⟩ := forall₂_mem_right h1 hl
      exact kind_offsetFaces hk h f hf
    · obtain ⟨l, hl, hf⟩ := List.mem_flatten.mp hf
      obtain ⟨_, -, h⟩ := forall₂_mem_right h2 hl
      exact kind_offsetFaces hk h f hf
  have hno : ∀ g ∈ cutAway areas avoids r.depth, insideCount g p % 2 = 1 → (∀ c ∈ g, FarFrom (2 * δ) c p) → False := by
    intro g hg e1 e2
    obtain ⟨e3, e4⟩ := separate_one hsep2 hg e1 e2
    rw [cutAway_flatten] at e3 e4
    have := not_cut_away heng hcut hG h3 hr hp e4
    omega
  constructor
  · obtain ⟨g, hg, hgd, y, hy, hpy⟩ := region_area heng hcut hG h3 hr hp hvoid
    obtain ⟨gs, hgs, hg'⟩ := List.mem_flatten.mp hg
    obtain ⟨f, hf, hfo⟩ := forall₂_mem_right h1 hgs
    have hfD := hD f (by simp [hf])
    have hfd : f.depth ≤ r.depth := by rw [← offsetFaces_depth hfo g hg']; exact hgd
    obtain ⟨raw, hraw, q, hq, x, hx, hyx⟩ := area_outline hk hcut hfD.1 hs hfo hg' hy
    have hpx : sqDist p x ≤ (4 * δ) ^ 2 := by
      have := sqDist_triangle hδ (by linarith) hpy hyx
      rwa [show δ + 3 * δ = 4 * δ by ring] at this
    refine ⟨f, hf, hfd, ?_, ?_, ?_⟩
    · obtain ⟨w, hw, hxw⟩ := hoff.shrunk_in _ _ _ hfD.1 hs hraw q hq x hx
      refine ⟨w, hw, ?_⟩
      have := sqDist_triangle hδ (by linarith) hpx hxw
      rwa [show δ + 4 * δ = 5 * δ by ring] at this
    · intro h0 z hz
      refine hoff.shrunk_deep _ _ _ hfD.1 (by linarith) hraw q hq x hx z ?_
      have := sqDist_triangle_lt (a := 4 * δ) (by linarith) h0.le (by rw [sqDist_comm]; exact hpx) hz
      rwa [show 4 * δ + (s - 5 * δ) = s - δ by ring] at this
    · intro h0 i hi z hz
      by_contra hc
      obtain ⟨c, hc1, hc2, hc3⟩ := area_hole hk hoff hcut hfD hfo (hsep f hf) hg' hy hpy hi hz h0 (not_le.mp hc)
      refine hno [c] ?_ ?_ ?_
      · refine List.mem_append_left _ (List.mem_map.mpr ⟨c, ?_, rfl⟩)
        exact List.mem_flatten.mpr ⟨g.inners, List.mem_map.mpr ⟨g, List.mem_filter.mpr ⟨hg, decide_eq_true hgd⟩, rfl⟩, hc1⟩
      · simp [insideCount, hc2]
      · intro c' hc'
        rw [List.mem_singleton] at hc'
        rw [hc']; exact hc3
  · intro h0 a ha had z hz hzi
    by_contra hc
    obtain ⟨gs, hgs, hao⟩ := forall₂_mem_left h2 ha
    obtain ⟨e1, e2⟩ := avoid_around heng hk hoff (hD a (by simp [ha])) hao (hsi a ha) hz hzi h0 (not_le.mp hc)
    have : avoidAt gs r.depth = gs.map PathFace.outer := by
      unfold avoidAt
      rw [List.filter_eq_self.mpr]
      intro g hg
      rw [offsetFaces_depth hao g hg]
      exact decide_eq_true had
    refine hno (avoidAt gs r.depth) (List.mem_append_right _ (List.mem_map.mpr ⟨gs, hgs, rfl⟩)) ?_ ?_
    · rw [this]; exact e1
    · rw [this]; exact e2

/-- C108, partial.  In the program of any job with a pocket, whenever the machine feeds in the pocket, the tool is in the given
faces.  Every feed move starts and ends (as printed) over points where, at the depth of a region that is at least as deep as the move,
* the centre of the tool is in the outline of a given face that is at least as deep, and so is the whole disc of the size of the outer
  offset (by default the tool radius) around it,
* the holes of that face are outside the disc of the size of the inner offset (by default the tool radius),
* the avoid faces that reach that depth are outside the disc of the size of the avoid offset (by default the tool radius),
all up to five times the tolerance of the engine; and this holds for every point it passes (up to half a thousandth), if it is not
one of the links of `C103_pocket_partial`.  The given holes, grown, and the avoid faces are not to overlap (`C39_violated_overlap`),
and the areas are not to enclose a void.  Missing: the links, see `C108_violated`. -/
theorem C108_pocket_partial {D G : List Pt → Prop} {δ : ℚ} {eng : Clipper} {j0 : Job} (heng : ClipperNearOn G δ eng) (hk : MakesKind G eng)
    (hi : StaysInside G δ j0.precision eng) (hoff : OffsetsRight D δ j0.precision eng) (hcut : CutsRight D G δ j0.precision eng) (hr : NoRepeats eng)
    {veq : Vec → Vec → Bool} {fuel : ℕ} {opAreas avoidAreas : List CqFace}
    {a : PocketArgs} {tool : Option Tool} {j1 j2 jf : Job} {before after : List Request} (m : Machine) (h0 : InitOK j0)
    (hn : ∀ v, j0.toolNumber = some v → NumOK v)
    (hok : ChainOK j0 (before ++ pocketRequest eng veq fuel opAreas avoidAreas a tool :: after))
    (h1 : j0.chain before = .ok j1) (h2 : (j1.call (pocketRequest eng veq fuel opAreas avoidAreas a tool)).2 = .ok j2)
    (h3 : j2.chain after = .ok jf) (hend : m.ended = false)
    (htool : ∀ n, j0.toolNumber = some n → m.tool = some n.value) (hsafe : 0 < j0.opSafeHeight)
    (hstep : ∀ diameter, (j1.settings.inherit tool).toolDiameter = some diameter →
      2 * δ < offsetDistance (diameter / 2) (1 / 2) a.stepover)
    (hD : ∀ c ∈ opAreas ++ avoidAreas, ∀ f, FlatFace veq j0.precision c f → f.All D) :
    ∃ t m' pre part post diameter outer inner avoidOuter avoidInner faces avoidFaces areas avoids regions, jf.toGcode = .ok t ∧
      runText m t = some (m', pre ++ part ++ post) ∧ (j1.settings.inherit tool).toolDiameter = some diameter ∧
      outer = (if avoidAreas ≠ [] ∧ a.outerOffset = none then 0 else offsetDistance (diameter / 2) (-1) a.outerOffset) ∧
      inner = offsetDistance (diameter / 2) 1 a.innerOffset ∧ avoidOuter = offsetDistance (diameter / 2) 1 a.avoidOuterOffset ∧
      avoidInner = offsetDistance (diameter / 2) (-1) a.avoidInnerOffset ∧
      List.Forall₂ (FlatFace veq j0.precision) opAreas faces ∧ List.Forall₂ (FlatFace veq j0.precision) avoidAreas avoidFaces ∧
      List.Forall₂ (OffsetFaces eng outer inner j0.precision) faces areas ∧
      List.Forall₂ (OffsetFaces eng avoidOuter avoidInner j0.precision) avoidFaces avoids ∧
      buildPocketOps eng areas.flatten avoids.flatten = .ok regions ∧
      (outer ≤ 0 → (∀ f ∈ avoidFaces, f.inners = [] ∨ avoidOuter ≤ -avoidInner) → HolesApart eng δ inner j0.precision faces →
        (∀ r ∈ regions, NoVoid eng areas r.depth ∧ Separate (2 * δ) (cutAway areas avoids r.depth)) →
        ∀ e ∈ part, isFeedMove e = true → ∃ r ∈ regions, ∃ d p q, r.depth ≤ d ∧ d ≤ 0 ∧ FeedsFromTo p q (rnd 3 d) e ∧
          ToolIn faces avoidFaces (5 * δ) (-outer - 5 * δ) (inner - 5 * δ) (avoidOuter - 5 * δ) r.depth p ∧
          ToolIn faces avoidFaces (5 * δ) (-outer - 5 * δ) (inner - 5 * δ) (avoidOuter - 5 * δ) r.depth q ∧
          (StaysOver (ToolIn faces avoidFaces (5 * δ) (-outer - 5 * δ) (inner - 5 * δ) (avoidOuter - 5 * δ) r.depth) e ∨
            sqDist p q ≤ offsetDistance (diameter / 2) (1 / 2) a.stepover ∨
            ∃ contours, Unfolds (Follows eng r (offsetDistance (diameter / 2) (1 / 2) a.stepover) j0.precision) [r.outer] contours ∧
              ∃ c ∈ contours, OnOutline c p ∧ OnOutline c q)) := by
  obtain ⟨t, m', pre, part, post, diameter, faces, avoidFaces, areas, avoids, regions, e1, e2, e3, e4, e5, e6, e7, e8, e9⟩ :=
    C103_pocket_partial heng hk hi hr m h0 hn hok h1 h2 h3 hend htool hsafe hstep
  refine ⟨t, m', pre, part, post, diameter, _, _, _, _, faces, avoidFaces, areas, avoids, regions, e1, e2, e3, rfl, rfl, rfl, rfl, e4, e5,
    e6, e7, e8, ?_⟩
  intro hout hin hholes hsep e he hf
  have hDf : ∀ f ∈ faces ++ avoidFaces, f.All D := by
    intro f hf
    rcases List.mem_append.mp hf with hf | hf
    · obtain ⟨c, hc, hcf⟩ := forall₂_mem_right e4 hf
      exact hD c (by simp [hc]) f hcf
    · obtain ⟨c, hc, hcf⟩ := forall₂_mem_right e5 hf
      exact hD c (by simp [hc]) f hcf
  obtain ⟨r, hr', contours, d, hu, d1, d2, ⟨p, q, hp, hq, hfeed, hway⟩, -⟩ := e9 e he hf
  have key : ∀ x, InRegion δ r x → ToolIn faces avoidFaces (5 * δ) _ _ _ r.depth x := fun x hx =>
    region_tool heng hk hoff hcut (s := -(if avoidAreas ≠ [] ∧ a.outerOffset = none then 0 else
        offsetDistance (diameter / 2) (-1) a.outerOffset)) (si := -offsetDistance (diameter / 2) (-1) a.avoidInnerOffset)
      (by linarith) hDf (by rw [neg_neg]; exact e6) (by rw [neg_neg]; exact e7) e8 hin hr' (hsep r hr').1 hholes (hsep r hr').2 hx
  refine ⟨r, hr', d, p, q, d1, d2, hfeed, key p hp, key q hq, ?_⟩
  rcases hway with hway | ⟨hway, -⟩ | hway
  · exact .inl (stays_of_feeds (fun x hx => key x (hway x hx)) hfeed)
  · exact .inr (.inl hway)
  · exact .inr (.inr ⟨contours, hu, hway⟩)

end CQ
