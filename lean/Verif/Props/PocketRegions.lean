import Verif.Proofs.PocketOps

/-! # C38-C40: the regions a pocket clears -/

namespace CQ

/-! ### C38 -/

/-- C38.  A face (to clear or to avoid) above the job plane is refused. -/
theorem C38_refused (eng : Clipper) (opAreas avoidAreas : List PathFace)
    (h : ∃ f ∈ opAreas ++ avoidAreas, 0 < f.depth) :
    buildPocketOps eng opAreas avoidAreas = .error .valueError := by
  obtain ⟨f, hf, hd⟩ := h
  unfold buildPocketOps
  by_cases ho : ∃ g ∈ opAreas, 0 < g.depth
  · unfold generateDepthMap
    rw [depthMapFrom_error ho]
    rfl
  · push Not at ho
    obtain ⟨m, hm⟩ := depthMapFrom_total (m := []) ho
    have ha : ∃ g ∈ avoidAreas, 0 < g.depth := by
      rcases List.mem_append.mp hf with hf | hf
      · exact absurd hd (not_lt.mpr (ho f hf))
      · exact ⟨f, hf, hd⟩
    unfold generateDepthMap
    rw [depthMapFrom_error ha, hm]
    rfl

example (eng : Clipper) : buildPocketOps eng [⟨[⟨0, 0⟩, ⟨1, 0⟩, ⟨1, 1⟩], [], -1⟩] [⟨[⟨0, 0⟩, ⟨1, 0⟩, ⟨1, 1⟩], [], 1/2⟩] =
    .error .valueError := C38_refused _ _ _ ⟨_, by simp; right; rfl, by norm_num⟩

/-- C38.  The regions come in groups, one for each distinct depth of the faces, from the shallowest to the deepest. -/
theorem C38_order {eng : Clipper} {opAreas avoidAreas ops : List PathFace}
    (h : buildPocketOps eng opAreas avoidAreas = .ok ops) :
    (∀ f ∈ opAreas ++ avoidAreas, f.depth ≤ 0) ∧
    ∃ groups : List (ℚ × List PathFace), ops = (groups.map Prod.snd).flatten ∧
      (groups.map Prod.fst).Pairwise (fun a b => b < a) ∧
      (∀ d, d ∈ groups.map Prod.fst ↔ ∃ f ∈ opAreas, f.depth = d) ∧
      ∀ g ∈ groups, ∀ f ∈ g.2, f.depth = g.1 := by
  obtain ⟨dm, ds, am, ad, h1, h2, h3⟩ := buildPocketOps_ok h
  obtain ⟨gs, rfl, hl, hg⟩ := depthsOps_ok h3
  refine ⟨?_, ds.zip gs, ?_, ?_, ?_, ?_⟩
  · intro f hf
    rcases List.mem_append.mp hf with hf | hf
    · exact h1.below f hf
    · exact h2.below f hf
  · rw [List.map_snd_zip (by omega)]
  · rw [List.map_fst_zip (by omega)]
    exact h1.sorted
  · intro d
    rw [List.map_fst_zip (by omega)]
    exact h1.mem d
  · rintro ⟨d, g⟩ hm f hf
    obtain ⟨k, hk⟩ := List.mem_iff_getElem?.mp hm
    rw [List.getElem?_zip_eq_some] at hk
    obtain ⟨g', g1, g2⟩ := hg k d hk.1
    rw [hk.2] at g1
    cases g1
    obtain ⟨_, _, _, _, _, _, _, _, _, _, e⟩ := depthOps_ok g2
    exact polyTree_depth e hf

/-! ### C40 -/

theorem closedAs_of {c q : List Pt} (h : closePath c = .ok q) : ClosedAs c q :=
  ⟨(closePath_spec h).1, (closePath_spec h).2.2.2, (closePath_spec h).2.1⟩

/-- C40 for trees without islands inside holes (in general this is what is missing, see `C40_violated`): every outer
outline becomes one face, in order, with exactly its own holes, all outlines closed; the faces together clear exactly
the region of the tree. -/
theorem C40_faces_partial (tree : List PolyNode) (d : ℚ)
    (hne : ∀ n ∈ tree, n.contour ≠ [] ∧ ∀ h ∈ n.childs, h.contour ≠ []) :
    ∃ faces, polyTreeToPolyFaces tree d = .ok faces ∧
      List.Forall₂ (fun n f => f.depth = d ∧ ClosedAs n.contour f.outer ∧
        List.Forall₂ (fun h i => ClosedAs h.contour i) n.childs f.inners) tree faces ∧
      ((∀ n ∈ tree, ∀ h ∈ n.childs, h.childs = []) →
        ∀ p, (∃ f ∈ faces, FaceRegion f p) ↔ TreeRegion tree p) := by
  obtain ⟨faces, hf⟩ : ∃ faces, polyTreeToPolyFaces tree d = .ok faces := by
    apply mapE_total
    intro n hn
    obtain ⟨h1, h2⟩ := hne n hn
    obtain ⟨o, ho⟩ := closePath_total h1
    obtain ⟨is, his⟩ := mapE_total (f := fun c : PolyNode => closePath c.contour) (as := n.childs)
      (fun c hc => closePath_total (h2 c hc))
    exact ⟨⟨o, is, d⟩, by unfold nodeToPolyFace; rw [ho, his]; rfl⟩
  refine ⟨faces, hf, ?_, ?_⟩
  · refine (mapE_ok.mp hf).imp ?_
    intro n f h
    obtain ⟨h1, h2, h3⟩ := nodeToPolyFace_ok h
    exact ⟨h3, closedAs_of h1, h2.imp (fun _ _ h => closedAs_of h)⟩
  · intro hflat p
    constructor
    · exact polyTree_sound hf
    · rintro ⟨n, hn, hr⟩
      rw [nodeRegion_iff] at hr
      refine (polyTree_region hf p).mpr ⟨n, hn, hr.1, fun c hc hin => hr.2 c hc ?_⟩
      rw [nodeRegion_iff, hflat n hn c hc]
      exact ⟨hin, by simp⟩

/-! #### Rectangles -/

/-- An axis-parallel rectangle, closed. -/
def rect (x0 y0 x1 y1 : ℚ) : List Pt := [⟨x0, y0⟩, ⟨x1, y0⟩, ⟨x1, y1⟩, ⟨x0, y1⟩, ⟨x0, y0⟩]

theorem crosses_horizontal (p : Pt) (x0 x1 y : ℚ) : crosses p (⟨x0, y⟩, ⟨x1, y⟩) = false := by simp [crosses]

theorem crosses_vertical (p : Pt) (x y0 y1 : ℚ) :
    crosses p (⟨x, y0⟩, ⟨x, y1⟩) = (decide (decide (p.y < y0) ≠ decide (p.y < y1)) && decide (p.x < x)) := by
  simp [crosses]

theorem inside_rect {x0 y0 x1 y1 : ℚ} (hx : x0 ≤ x1) (hy : y0 ≤ y1) (p : Pt) :
    Inside (rect x0 y0 x1 y1) p ↔ (x0 ≤ p.x ∧ p.x < x1) ∧ y0 ≤ p.y ∧ p.y < y1 := by
  unfold Inside crossings rect closedOutline
  simp only [List.head?_cons, Option.toList_some, List.cons_append, List.nil_append, segments, List.countP_cons,
    List.countP_nil, crosses_horizontal, crosses_vertical, crosses_point]
  rcases lt_or_ge p.x x0 with a | a <;> rcases lt_or_ge p.x x1 with b | b <;>
    rcases lt_or_ge p.y y0 with c | c <;> rcases lt_or_ge p.y y1 with e | e <;>
    first
    | (exfalso; linarith)
    | simp [a, b, c, e, not_lt.mpr, not_le.mpr]

/-- A region with an island inside a hole: a square ring around a square. -/
def nestedTree : List PolyNode := [.node (rect 0 0 30 30) [.node (rect 5 5 25 25) [.node (rect 10 10 20 20) []]]]

/-- C40 is false: of this tree (a ring, and inside its hole an island) only the ring becomes a face; the island is
lost. -/
theorem C40_violated : ∃ faces, polyTreeToPolyFaces nestedTree (-1) = .ok faces ∧ TreeRegion nestedTree ⟨15, 15⟩ ∧
    (¬ ∃ f ∈ faces, FaceRegion f ⟨15, 15⟩) ∧ ¬ ∃ f ∈ faces, f.outer = rect 10 10 20 20 := by
  refine ⟨[⟨rect 0 0 30 30, [rect 5 5 25 25], -1⟩], rfl, ?_, ?_, ?_⟩
  · refine ⟨_, List.mem_singleton.mpr rfl, ?_⟩
    rw [nodeRegion_iff]
    refine ⟨(inside_rect (by norm_num) (by norm_num) _).mpr (by norm_num), ?_⟩
    intro h hh
    simp only [PolyNode.childs, List.mem_singleton] at hh
    subst hh
    rw [nodeRegion_iff]
    rintro ⟨-, h2⟩
    refine h2 _ (by simp [PolyNode.childs]; rfl) (nodeRegion_iff.mpr ⟨?_, by simp [PolyNode.childs]⟩)
    exact (inside_rect (by norm_num) (by norm_num) _).mpr (by norm_num)
  · rintro ⟨f, hf, -, hr⟩
    rw [List.mem_singleton] at hf
    subst hf
    exact hr (rect 5 5 25 25) (by simp) ((inside_rect (by norm_num) (by norm_num) _).mpr (by norm_num))
  · rintro ⟨f, hf, h⟩
    rw [List.mem_singleton] at hf
    subst hf
    revert h
    decide +kernel

/-- A tree meeting the hypotheses of `C40_faces_partial`: two outlines, the first with two holes (contours open, as
the engine returns them). -/
example : let tree : List PolyNode := [.node (rect 0 0 30 30).dropLast [.node (rect 5 5 10 10).dropLast [],
      .node (rect 15 5 20 10).dropLast []], .node (rect 40 0 50 10).dropLast []]
    (∀ n ∈ tree, n.contour ≠ [] ∧ ∀ h ∈ n.childs, h.contour ≠ []) ∧ ∀ n ∈ tree, ∀ h ∈ n.childs, h.childs = [] := by
  simp [PolyNode.contour, PolyNode.childs, rect]

/-! ### C39 -/

theorem insideCount_perm {a b : List (List Pt)} (h : a.Perm b) (p : Pt) : insideCount a p = insideCount b p :=
  h.countP_eq _

theorem kind_all {G : List Pt → Prop} {opAreas avoidAreas : List PathFace} (h : ∀ f ∈ opAreas ++ avoidAreas, f.All G) (d : ℚ) :
    (∀ s ∈ outersAt opAreas d, G s) ∧ ∀ s ∈ holesAt opAreas d ++ avoidAt avoidAreas d, G s := by
  constructor
  · intro s hs
    obtain ⟨f, hf, rfl⟩ := List.mem_map.mp hs
    exact (h f (by simp [List.mem_of_mem_filter hf])).1
  · intro s hs
    rcases List.mem_append.mp hs with hs | hs
    · obtain ⟨l, hl, hs⟩ := List.mem_flatten.mp hs
      obtain ⟨f, hf, rfl⟩ := List.mem_map.mp hl
      exact (h f (by simp [List.mem_of_mem_filter hf])).2 s hs
    · obtain ⟨f, hf, rfl⟩ := List.mem_map.mp hs
      exact (h f (by simp [List.mem_of_mem_filter hf])).1

theorem FarFrom.mono {r r' : ℚ} {path : List Pt} {p : Pt} (h : FarFrom r path p) (h0 : 0 ≤ r') (hr : r' ≤ r) :
    FarFrom r' path p := fun q hq => lt_of_le_of_lt (by nlinarith) (h q hq)

theorem farFrom_zero {path : List Pt} {p : Pt} : FarFrom 0 path p ↔ ¬ OnOutline path p := by
  constructor
  · intro h ho
    have := h p ho
    simp [sqDist] at this
  · intro h q hq
    have : p ≠ q := by rintro rfl; exact h hq
    simpa using sqDist_pos this

/-- An exact engine meets the contract with every tolerance. -/
theorem ClipperOK.near {eng : Clipper} (h : ClipperOK eng) {δ : ℚ} (hδ : 0 ≤ δ) : ClipperNear δ eng := by
  have key : ∀ (ss : List (List Pt)) (tree : List PolyNode) (want : Pt → Prop),
      (∀ p, (∀ s ∈ ss, ¬ OnOutline s p) → RightAt tree p (want p)) →
      ∀ r, 0 ≤ r → ∀ p, (∀ s ∈ ss, FarFrom (r + δ) s p) → RightNear r tree p (want p) := by
    intro ss tree want hr r h0 p hp
    have h1 := hr p (fun s hs => farFrom_zero.mp ((hp s hs).mono le_rfl (by linarith)))
    refine ⟨?_, h1.apart, h1.region⟩
    intro n hn k hk q hq
    by_cases hs : ∃ s ∈ ss, OnOutline s q
    · obtain ⟨s, hs, ho⟩ := hs
      exact (hp s hs).mono h0 (by linarith) q ho
    · push Not at hs
      exact absurd hq ((hr q hs).off n hn k hk)
  refine ⟨hδ, fun _ _ _ _ _ _ _ _ _ => trivial, ?_, ?_⟩
  · intro subjects clips tree _ ht
    exact key _ _ (fun p => insideCount subjects p % 2 = 1 ∨ insideCount clips p % 2 = 1) (h.union _ _ _ ht)
  · intro subjects clips tree _ ht
    exact key _ _ (fun p => insideCount subjects p % 2 = 1 ∧ ¬ insideCount clips p % 2 = 1) (h.difference _ _ _ ht)

/-- The outer outlines of converted faces against the contours they come from. -/
theorem outers_of_tree {tree : List PolyNode} {d : ℚ} {faces : List PathFace}
    (h : polyTreeToPolyFaces tree d = .ok faces) (r : ℚ) (p : Pt) :
    insideCount (faces.map PathFace.outer) p = insideCount (tree.map PolyNode.contour) p ∧
      ((∀ n ∈ tree, ∀ k, n.Below k → FarFrom r k.contour p) → ∀ s ∈ faces.map PathFace.outer, FarFrom r s p) := by
  have h' := mapE_ok.mp h
  clear h
  unfold insideCount
  induction h' with
  | nil => simp
  | @cons n f ns fs h1 _ ih =>
    obtain ⟨h2, -, -⟩ := nodeToPolyFace_ok h1
    obtain ⟨-, g1, g2, -⟩ := closePath_spec h2
    constructor
    · simp only [List.map_cons, List.countP_cons, ih.1, decide_eq_true_eq, g1 p]
    · intro hoff s hs
      rw [List.map_cons] at hs
      rcases List.mem_cons.mp hs with rfl | hs
      · exact fun q hq => hoff n (by simp) n (.self n) q ((g2 q).mp hq)
      · exact ih.2 (fun m hm => hoff m (by simp [hm])) s hs

/-- What the engine calls behind the regions of depth `d` say about a point far from all outlines. -/
theorem cleared_at {G : List Pt → Prop} {δ m : ℚ} (hm : 0 ≤ m) {eng : Clipper} (heng : ClipperNearOn G δ eng)
    {opAreas avoidAreas ops : List PathFace} (hG : ∀ f ∈ opAreas ++ avoidAreas, f.All G)
    (h : buildPocketOps eng opAreas avoidAreas = .ok ops) {d : ℚ} (hd : ∃ f ∈ opAreas, f.depth = d) {p : Pt}
    (hp : FarOutlines (m + 2 * δ) opAreas avoidAreas d p) :
    ∃ (outers clips subjects : List (List Pt)) (ut dt : List PolyNode),
      outers.Perm (outersAt opAreas d) ∧ clips.Perm (holesAt opAreas d ++ avoidAt avoidAreas d) ∧
      eng.union outers [] = .ok ut ∧ List.Forall₂ (fun n s => ClosedAs n.contour s) ut subjects ∧ eng.difference subjects clips = .ok dt ∧
      RightNear (m + δ) ut p (insideCount (outersAt opAreas d) p % 2 = 1) ∧
      RightNear m dt p ((∃ n ∈ ut, Inside n.contour p) ∧
        ¬ insideCount (holesAt opAreas d ++ avoidAt avoidAreas d) p % 2 = 1) ∧
      ((∃ f ∈ ops, f.depth = d ∧ FaceRegion f p) ↔
        ∃ n ∈ dt, Inside n.contour p ∧ ∀ c ∈ n.childs, ¬ Inside c.contour p) ∧
      ∀ f ∈ ops, f.depth = d → ∃ n ∈ dt, ClosedAs n.contour f.outer ∧
        List.Forall₂ (fun c q => ClosedAs c.contour q) n.childs f.inners := by
  obtain ⟨outers, clips, ut, dt, us, fs, h1, h2, h3, h4, h5, h6, h7⟩ := ops_from h d hd
  obtain ⟨o1, o2⟩ := hp
  have hδ := heng.nonneg
  obtain ⟨k1, k2⟩ := kind_all hG d
  have k3 : ∀ s ∈ outers ++ [], G s := by
    intro s hs
    rw [List.append_nil] at hs
    exact k1 s (h1.mem_iff.mp hs)
  have k4 : ∀ s ∈ us.map PathFace.outer, G s := by
    intro s hs
    obtain ⟨f, hf, rfl⟩ := List.mem_map.mp hs
    obtain ⟨n, hn, hnf⟩ := forall₂_mem_right (mapE_ok.mp h4) hf
    exact heng.kind _ _ _ k3 h3 n hn _ (closedAs_of (nodeToPolyFace_ok hnf).1)
  have hu := heng.union _ _ _ k3 h3 (m + δ) (by linarith) p (by
    intro s hs
    rw [List.append_nil] at hs
    rw [show m + δ + δ = m + 2 * δ by ring]
    exact o1 s (h1.mem_iff.mp hs))
  obtain ⟨c1, c2⟩ := outers_of_tree h4 (m + δ) p
  have hdiff := heng.difference _ _ _ (by
    intro s hs
    rcases List.mem_append.mp hs with hs | hs
    · exact k4 s hs
    · exact k2 s (h2.mem_iff.mp hs)) h5 m hm p (by
    intro s hs
    rcases List.mem_append.mp hs with hs | hs
    · exact c2 hu.off s hs
    · exact (o2 s (h2.mem_iff.mp hs)).mono (by linarith) (by linarith))
  have e1 : insideCount (us.map PathFace.outer) p % 2 = 1 ↔ ∃ n ∈ ut, Inside n.contour p := by
    rw [c1, insideCount_odd hu.apart]
    simp
  have hsub : List.Forall₂ (fun n s => ClosedAs n.contour s) ut (us.map PathFace.outer) := by
    rw [List.forall₂_map_right_iff]
    exact (mapE_ok.mp h4).imp fun _ _ h => closedAs_of (nodeToPolyFace_ok h).1
  refine ⟨outers, clips, _, ut, dt, h1, h2, h3, hsub, h5, ⟨hu.off, hu.apart, ?_⟩, ⟨hdiff.off, hdiff.apart, ?_⟩, ?_, ?_⟩
  · rw [hu.region, insideCount_perm h1]
    simp [insideCount]
  · rw [hdiff.region, e1, insideCount_perm h2]
  · rw [← polyTree_region h6 p]
    constructor
    · rintro ⟨f, g1, g2, g3⟩; exact ⟨f, (h7 f).mp ⟨g1, g2⟩, g3⟩
    · rintro ⟨f, g1, g3⟩; exact ⟨f, ((h7 f).mpr g1).1, ((h7 f).mpr g1).2, g3⟩
  · intro f hf hfd
    obtain ⟨n, hn, hnf⟩ := mapE_mem h6 ((h7 f).mp ⟨hf, hfd⟩)
    obtain ⟨m1, m2, -⟩ := nodeToPolyFace_ok hnf
    exact ⟨n, hn, closedAs_of m1, m2.imp fun _ _ => closedAs_of⟩

theorem FarOutlines.zero_add {r : ℚ} {opAreas avoidAreas : List PathFace} {d : ℚ} {p : Pt} (h : FarOutlines r opAreas avoidAreas d p) :
    FarOutlines (0 + r) opAreas avoidAreas d p := by rwa [_root_.zero_add]

/-- `C39_avoid_partial` for outlines of one kind. -/
theorem avoid_on {G : List Pt → Prop} {δ : ℚ} {eng : Clipper} (heng : ClipperNearOn G δ eng)
    {opAreas avoidAreas ops : List PathFace} (hG : ∀ f ∈ opAreas ++ avoidAreas, f.All G)
    (h : buildPocketOps eng opAreas avoidAreas = .ok ops) {p : Pt} {f : PathFace}
    (hp : FarOutlines (2 * δ) opAreas avoidAreas f.depth p) (hf : f ∈ ops) (hr : FaceRegion f p)
    (hov : insideCount (holesAt opAreas f.depth ++ avoidAt avoidAreas f.depth) p ≤ 1) :
    ∀ s ∈ holesAt opAreas f.depth ++ avoidAt avoidAreas f.depth, ¬ Inside s p := by
  have hd : ∃ g ∈ opAreas, g.depth = f.depth := by
    obtain ⟨-, groups, rfl, -, hm, hg⟩ := C38_order h
    obtain ⟨fs, hfs, hf'⟩ := List.mem_flatten.mp hf
    obtain ⟨g, hg', rfl⟩ := List.mem_map.mp hfs
    exact (hm f.depth).mp (List.mem_map.mpr ⟨g, hg', (hg g hg' f hf').symm⟩)
  obtain ⟨_, _, _, ut, dt, -, -, -, -, -, -, hdt, hcl, -⟩ := cleared_at le_rfl heng hG h hd hp.zero_add
  obtain ⟨n, hn, h1, h2⟩ := hcl.mp ⟨f, hf, rfl, hr⟩
  have htr : TreeRegion dt p :=
    ⟨n, hn, nodeRegion_iff.mpr ⟨h1, fun c hc hr => h2 c hc (nodeRegion_iff.mp hr).1⟩⟩
  have := (hdt.region.mp htr).2
  intro s hs hin
  exact this ((insideCount_odd hov).mpr ⟨s, hs, hin⟩)

/-- C39, the safety half, as far as it holds: at points farther than `2 * δ` from all outlines, where the holes and active
avoid outlines do not overlap each other, nothing inside one of them is cleared.  (Missing: points inside two of them, see `C39_violated_overlap`.) -/
theorem C39_avoid_partial {δ : ℚ} {eng : Clipper} (heng : ClipperNear δ eng) {opAreas avoidAreas ops : List PathFace}
    (h : buildPocketOps eng opAreas avoidAreas = .ok ops) {p : Pt} {f : PathFace}
    (hp : FarOutlines (2 * δ) opAreas avoidAreas f.depth p) (hf : f ∈ ops) (hr : FaceRegion f p)
    (hov : insideCount (holesAt opAreas f.depth ++ avoidAt avoidAreas f.depth) p ≤ 1) :
    ∀ s ∈ holesAt opAreas f.depth ++ avoidAt avoidAreas f.depth, ¬ Inside s p :=
  avoid_on heng (fun _ _ => ⟨trivial, fun _ _ => trivial⟩) h hp hf hr hov

/-- `C39_region_partial` for outlines of one kind. -/
theorem region_on {G : List Pt → Prop} {δ : ℚ} {eng : Clipper} (heng : ClipperNearOn G δ eng)
    {opAreas avoidAreas ops : List PathFace} (hG : ∀ f ∈ opAreas ++ avoidAreas, f.All G)
    (h : buildPocketOps eng opAreas avoidAreas = .ok ops) {d : ℚ} (hd : ∃ f ∈ opAreas, f.depth = d) {p : Pt}
    (hp : FarOutlines (2 * δ) opAreas avoidAreas d p)
    (ho : insideCount (outersAt opAreas d) p ≤ 1)
    (hc : insideCount (holesAt opAreas d ++ avoidAt avoidAreas d) p ≤ 1)
    (hvoid : ∀ s tree, s.Perm (outersAt opAreas d) → eng.union s [] = .ok tree →
      ∀ n ∈ tree, ∀ v ∈ n.childs, ¬ Inside v.contour p)
    (hisland : NoIslandAt eng opAreas avoidAreas d p) :
    (∃ f ∈ ops, f.depth = d ∧ FaceRegion f p) ↔ Wanted opAreas avoidAreas d p := by
  obtain ⟨outers, clips, subjects, ut, dt, h1, h2, h3, hsub, h4, hut, hdt, hcl, -⟩ := cleared_at le_rfl heng hG h hd hp.zero_add
  have hv := hvoid _ _ h1 h3
  have hi := hisland _ _ _ _ _ h1 h3 hsub h2 h4
  have e1 : (∃ n ∈ ut, Inside n.contour p) ↔ ∃ s ∈ outersAt opAreas d, Inside s p := by
    rw [← insideCount_odd ho, ← hut.region]
    constructor
    · rintro ⟨n, hn, hin⟩
      exact ⟨n, hn, nodeRegion_iff.mpr ⟨hin, fun v hv' hr => hv n hn v hv' (nodeRegion_iff.mp hr).1⟩⟩
    · rintro ⟨n, hn, hr⟩
      exact ⟨n, hn, (nodeRegion_iff.mp hr).1⟩
  have e2 : (∃ n ∈ dt, Inside n.contour p ∧ ∀ c ∈ n.childs, ¬ Inside c.contour p) ↔ TreeRegion dt p := by
    refine exists_congr fun n => and_congr_right fun hn => ?_
    rw [nodeRegion_iff]
    refine and_congr_right fun _ => forall₂_congr fun v hv' => not_congr ?_
    rw [nodeRegion_iff]
    exact ⟨fun hin => ⟨hin, fun i hi' hr => hi n hn v hv' i hi' (nodeRegion_iff.mp hr).1⟩, And.left⟩
  rw [hcl, e2, hdt.region, e1, insideCount_odd hc]
  unfold Wanted
  refine and_congr_right fun _ => ?_
  constructor
  · intro hn
    exact ⟨fun s hs hin => hn ⟨s, by simp [hs], hin⟩, fun s hs hin => hn ⟨s, by simp [hs], hin⟩⟩
  · rintro ⟨g1, g2⟩ ⟨s, hs, hin⟩
    rcases List.mem_append.mp hs with hs | hs
    · exact g1 s hs hin
    · exact g2 s hs hin

/-- C39 as far as it holds.  At a point farther than `2 * δ` from all outlines at which no two face outlines
overlap, no two holes or avoid outlines overlap, which is not in a void enclosed by the united outlines and not in an island inside a hole of the
result: the point is cleared at depth `d` iff it should be.  Missing are the points excluded here, see
`C39_violated_overlap`, `C39_violated_outlines`, `C39_violated_void` and `C40_violated`. -/
theorem C39_region_partial {δ : ℚ} {eng : Clipper} (heng : ClipperNear δ eng) {opAreas avoidAreas ops : List PathFace}
    (h : buildPocketOps eng opAreas avoidAreas = .ok ops) {d : ℚ} (hd : ∃ f ∈ opAreas, f.depth = d) {p : Pt}
    (hp : FarOutlines (2 * δ) opAreas avoidAreas d p)
    (ho : insideCount (outersAt opAreas d) p ≤ 1)
    (hc : insideCount (holesAt opAreas d ++ avoidAt avoidAreas d) p ≤ 1)
    (hvoid : ∀ s tree, s.Perm (outersAt opAreas d) → eng.union s [] = .ok tree →
      ∀ n ∈ tree, ∀ v ∈ n.childs, ¬ Inside v.contour p)
    (hisland : NoIslandAt eng opAreas avoidAreas d p) :
    (∃ f ∈ ops, f.depth = d ∧ FaceRegion f p) ↔ Wanted opAreas avoidAreas d p :=
  region_on heng (fun _ _ => ⟨trivial, fun _ _ => trivial⟩) h hd hp ho hc hvoid hisland

end CQ
