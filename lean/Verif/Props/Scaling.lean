import Verif.Props.PocketAreas
import Verif.Props.PocketWitness
import Verif.Spec.Scaling

/-! # C88: scaling to pyclipper's integers -/

namespace CQ

theorem scaleTo_floor {q : ℚ} (h : 0 ≤ q) : scaleTo q = ⌊q * 2147483648⌋ := by
  have : (2 : ℚ) ^ 31 = 2147483648 := by norm_num
  rw [scaleTo, if_pos h, this]

theorem scaleTo_ceil {q : ℚ} (h : ¬ 0 ≤ q) : scaleTo q = ⌈q * 2147483648⌉ := by
  have : (2 : ℚ) ^ 31 = 2147483648 := by norm_num
  rw [scaleTo, if_neg h, this]

theorem scaleFrom_eq (n : ℤ) : scaleFrom n = n / 2147483648 := by
  have : (2 : ℚ) ^ 31 = 2147483648 := by norm_num
  rw [scaleFrom, this]

/-- C88, one number: passing a coordinate to pyclipper and back moves it towards zero by less than 2⁻³¹ mm, onto the
grid. -/
theorem C88_rounding (q : ℚ) : OnGrid (scaleFrom (scaleTo q)) ∧ |scaleFrom (scaleTo q)| ≤ |q| ∧
    0 ≤ q * scaleFrom (scaleTo q) ∧ |q - scaleFrom (scaleTo q)| < 1 / 2147483648 := by
  refine ⟨⟨_, scaleFrom_eq _⟩, ?_⟩
  rw [scaleFrom_eq]
  by_cases h : 0 ≤ q
  · rw [scaleTo_floor h]
    have h1 := Int.floor_le (q * 2147483648)
    have h2 := Int.lt_floor_add_one (q * 2147483648)
    have h3 : (0 : ℚ) ≤ ⌊q * 2147483648⌋ := by
      exact_mod_cast Int.floor_nonneg.mpr (by positivity)
    generalize (⌊q * 2147483648⌋ : ℤ) = n at *
    have h4 : (0 : ℚ) ≤ n / 2147483648 := by positivity
    have h5 : (n : ℚ) / 2147483648 ≤ q := by rw [div_le_iff₀ (by norm_num)]; exact h1
    refine ⟨?_, mul_nonneg h h4, ?_⟩
    · rw [abs_of_nonneg h4, abs_of_nonneg h]; exact h5
    · rw [abs_of_nonneg (by linarith)]
      linarith
  · rw [scaleTo_ceil h]
    have hq : q < 0 := not_le.mp h
    have h1 := Int.le_ceil (q * 2147483648)
    have h2 := Int.ceil_lt_add_one (q * 2147483648)
    have h3 : ((⌈q * 2147483648⌉ : ℤ) : ℚ) ≤ 0 := by
      have : (⌈q * 2147483648⌉ : ℤ) ≤ 0 := Int.ceil_le.mpr (by push_cast; linarith)
      exact_mod_cast this
    generalize (⌈q * 2147483648⌉ : ℤ) = n at *
    have h4 : (n : ℚ) / 2147483648 ≤ 0 := div_nonpos_of_nonpos_of_nonneg h3 (by norm_num)
    have h5 : q ≤ (n : ℚ) / 2147483648 := by rw [le_div_iff₀ (by norm_num)]; exact h1
    refine ⟨?_, mul_nonneg_of_nonpos_of_nonpos hq.le h4, ?_⟩
    · rw [abs_of_nonpos h4, abs_of_nonpos hq.le]; linarith
    · rw [abs_of_nonpos (by linarith)]
      linarith

theorem scaleTo_grid (n : ℤ) : scaleTo ((n : ℚ) / 2147483648) = n := by
  by_cases h : 0 ≤ (n : ℚ) / 2147483648
  · rw [scaleTo_floor h, div_mul_cancel₀ _ (by norm_num)]; exact Int.floor_intCast n
  · rw [scaleTo_ceil h, div_mul_cancel₀ _ (by norm_num)]; exact Int.ceil_intCast n

theorem scalePt_mm (p : IPt) : scalePt p.mm = p := by
  cases p
  simp [scalePt, IPt.mm, scaleTo_grid]

theorem unscalePt_mm (p : IPt) : unscalePt p = p.mm := by
  simp [unscalePt, IPt.mm, scaleFrom_eq]

theorem scalePt_mms (l : List IPt) : (l.map IPt.mm).map scalePt = l := by
  rw [List.map_map]
  conv_rhs => rw [← List.map_id l]
  exact List.map_congr_left fun p _ => scalePt_mm p

theorem unscalePt_mms (l : List IPt) : l.map unscalePt = l.map IPt.mm := List.map_congr_left fun p _ => unscalePt_mm p

/-- A path on the grid stands for an integer path. -/
theorem gridPath_iff {path : List Pt} : GridPath path ↔ ∃ l : List IPt, path = l.map IPt.mm := by
  constructor
  · intro h
    induction path with
    | nil => exact ⟨[], rfl⟩
    | cons p ps ih =>
      obtain ⟨l, rfl⟩ := ih fun q hq => h q (by simp [hq])
      obtain ⟨⟨m, hm⟩, n, hn⟩ := h p (by simp)
      exact ⟨⟨m, n⟩ :: l, by simp [IPt.mm, ← hm, ← hn]⟩
  · rintro ⟨l, rfl⟩ p hp
    obtain ⟨i, -, rfl⟩ := List.mem_map.mp hp
    exact ⟨⟨_, rfl⟩, _, rfl⟩

/-- C88, paths: what pyclipper gets for a path on the grid is that path, exactly; reading it back changes nothing. -/
theorem C88_grid {path : List Pt} (h : GridPath path) :
    (path.map scalePt).map IPt.mm = path ∧ (path.map scalePt).map unscalePt = path := by
  obtain ⟨l, rfl⟩ := gridPath_iff.mp h
  rw [unscalePt_mms, scalePt_mms]
  exact ⟨rfl, rfl⟩

theorem mms_eq (ns : List INode) : INode.mms ns = ns.map INode.mm := by
  induction ns with
  | nil => rfl
  | cons n ns ih => simp [INode.mms, ih]

mutual
theorem unscale_mm : ∀ n : INode, n.unscale = n.mm
  | .node c cs => by rw [INode.unscale, INode.mm, unscalePt_mms, unscaleNodes_mms]
theorem unscaleNodes_mms : ∀ ns : List INode, unscaleNodes ns = INode.mms ns
  | [] => rfl
  | n :: ns => by rw [unscaleNodes, INode.mms, unscale_mm, unscaleNodes_mms]
end

mutual
theorem mm_grid : ∀ (n : INode) (k : PolyNode), n.mm.Below k → GridPath k.contour
  | .node c cs, k, h => by
      rw [INode.mm] at h
      rcases below_node h with rfl | ⟨m, hm, h⟩
      · exact gridPath_iff.mpr ⟨c, rfl⟩
      · exact mms_grid cs m hm k h
theorem mms_grid : ∀ (ns : List INode) (m : PolyNode), m ∈ INode.mms ns → ∀ k, m.Below k → GridPath k.contour
  | [], m, hm, k, h => by simp [INode.mms] at hm
  | n :: ns, m, hm, k, h => by
      rw [INode.mms] at hm
      rcases List.mem_cons.mp hm with rfl | hm
      · exact mm_grid n k h
      · exact mms_grid ns m hm k h
end

theorem gridPath_closedAs {c q : List Pt} (hc : GridPath c) (h : ClosedAs c q) : GridPath q := by
  obtain ⟨-, rfl | ⟨a, h1, -, rfl⟩, -⟩ := h
  · exact hc
  · intro p hp
    rcases List.mem_append.mp hp with hp | hp
    · exact hc p hp
    · rw [List.mem_singleton] at hp
      subst hp
      exact hc p (List.mem_of_mem_head? h1)

theorem scaledOffset_ok {e : IntClipper} {path : List Pt} {o : ℚ} {k : ℕ} {qs : List (List Pt)}
    (h : e.scaled.offset path o k = .ok qs) : ∃ rs, e.offset (path.map scalePt) (scaleTo o) (scaledPrecision k) = .ok rs ∧
      qs = rs.map (fun q => q.map IPt.mm) := by
  change scaledOffset e path o k = _ at h
  unfold scaledOffset at h
  split at h
  · cases h
  · rename_i rs hrs
    cases h
    exact ⟨rs, hrs, List.map_congr_left fun q _ => unscalePt_mms q⟩

theorem scaledBoolean_ok {op : List (List IPt) → List (List IPt) → Except Err (List INode)} {ss cs : List (List Pt)}
    {tree : List PolyNode} (h : scaledBoolean op ss cs = .ok tree) :
    ∃ t, op (ss.map (fun s => s.map scalePt)) (cs.map (fun s => s.map scalePt)) = .ok t ∧ tree = INode.mms t := by
  unfold scaledBoolean at h
  split at h
  · cases h
  · rename_i t ht
    cases h
    exact ⟨t, ht, unscaleNodes_mms t⟩

theorem scaledOffset_grid {e : IntClipper} {path : List Pt} {o : ℚ} {k : ℕ} {qs : List (List Pt)}
    (h : e.scaled.offset path o k = .ok qs) : ∀ q ∈ qs, GridPath q := by
  obtain ⟨rs, -, rfl⟩ := scaledOffset_ok h
  intro q hq
  obtain ⟨r, -, rfl⟩ := List.mem_map.mp hq
  exact gridPath_iff.mpr ⟨r, rfl⟩

theorem scaledBoolean_grid {op : List (List IPt) → List (List IPt) → Except Err (List INode)} {ss cs : List (List Pt)}
    {tree : List PolyNode} (h : scaledBoolean op ss cs = .ok tree) :
    ∀ n ∈ tree, ∀ k, n.Below k → GridPath k.contour := by
  obtain ⟨t, -, rfl⟩ := scaledBoolean_ok h
  exact mms_grid t

theorem offsetContours_grid {e : IntClipper} {o : ℚ} {k : ℕ} {p : List Pt} {qs : List (List Pt)}
    (h : OffsetContours e.scaled o k p qs) : ∀ q ∈ qs, GridPath q := by
  obtain ⟨raw, h1, h2⟩ := h
  intro q hq
  obtain ⟨c, hc, hcq⟩ := forall₂_mem_right h2 hq
  exact gridPath_closedAs (scaledOffset_grid h1 c (List.mem_of_mem_filter hc)) hcq

theorem treeFace_grid {tree : List PolyNode} (ht : ∀ n ∈ tree, ∀ k, n.Below k → GridPath k.contour) {n : PolyNode} (hn : n ∈ tree)
    {g : PathFace} (h1 : ClosedAs n.contour g.outer) (h2 : List.Forall₂ (fun c q => ClosedAs c.contour q) n.childs g.inners) :
    g.All GridPath := by
  refine ⟨gridPath_closedAs (ht n hn n (.self n)) h1, fun i hi => ?_⟩
  obtain ⟨c, hc, hci⟩ := forall₂_mem_right h2 hi
  exact gridPath_closedAs (ht n hn c (.child hc (.self c))) hci

theorem offsetFaces_grid {e : IntClipper} {a b : ℚ} {k : ℕ} {f : PathFace} {gs : List PathFace}
    (h : OffsetFaces e.scaled a b k f gs) : ∀ g ∈ gs, g.All GridPath := by
  obtain ⟨outlines, h1, h2⟩ := h
  intro g hg
  split at h2
  · subst h2
    obtain ⟨o, ho, rfl⟩ := List.mem_map.mp hg
    exact ⟨offsetContours_grid h1 o ho, fun i hi => by simp at hi⟩
  · obtain ⟨holes, tree, -, h3, h4⟩ := h2
    obtain ⟨n, hn, k1, -, k2⟩ := forall₂_mem_right h4 hg
    exact treeFace_grid (scaledBoolean_grid h3) hn k1 k2

theorem regions_grid {e : IntClipper} {areas avoids regions : List PathFace}
    (h : buildPocketOps e.scaled areas avoids = .ok regions) : ∀ r ∈ regions, r.All GridPath := by
  intro o ho
  obtain ⟨-, groups, rfl, -, g2, g3⟩ := C38_order h
  obtain ⟨l, hl, ho'⟩ := List.mem_flatten.mp ho
  obtain ⟨g, hg, rfl⟩ := List.mem_map.mp hl
  have hd := (g2 o.depth).mp (by rw [g3 g hg o ho']; exact List.mem_map.mpr ⟨g, hg, rfl⟩)
  obtain ⟨_, clips, ut, dt, us, fs, -, -, -, -, k5, k6, k7⟩ := ops_from h o.depth hd
  have hof := (k7 o).mp ⟨ho, rfl⟩
  obtain ⟨n, hn, hnf⟩ := mapE_mem k6 hof
  obtain ⟨m1, m2, -⟩ := nodeToPolyFace_ok hnf
  exact treeFace_grid (scaledBoolean_grid k5) hn (closedAs_of m1) (m2.imp fun _ _ => closedAs_of)

theorem follows_grid {e : IntClipper} {r : PathFace} {step : ℚ} {k : ℕ} {p : List Pt} {cs : List (List Pt)}
    (h : Follows e.scaled r step k p cs) : ∀ c ∈ cs, GridPath c := by
  obtain ⟨raw, shrunk, h1, h2, h3⟩ := h
  have hs : ∀ q ∈ shrunk, GridPath q := offsetContours_grid (p := p) ⟨raw, h1, h2⟩
  split at h3
  · subst h3; exact hs
  · obtain ⟨tree, h4, h5⟩ := h3
    intro c hc
    obtain ⟨n, hn, hnc⟩ := forall₂_mem_right h5 hc
    exact gridPath_closedAs (scaledBoolean_grid h4 n hn n (.self n)) hnc

/-- C88, no drift.  In a pocket the coordinates are rounded once, where the given faces are offset.  The areas to clear and
to avoid, the regions and all contours, however often they were shrunk, are on the grid, so each further step hands
them to pyclipper exactly as they are (`C88_grid`). -/
theorem C88_no_drift {e : IntClipper} {veq : Vec → Vec → Bool} {fuel : ℕ} {opAreas avoidAreas : List CqFace}
    {a : PocketArgs} {j : Job} {cs : List Motion} (h : pocket e.scaled veq fuel opAreas avoidAreas a j = .ok cs) :
    ∃ outer inner avoidOuter avoidInner stepover faces avoidFaces areas avoids regions,
      List.Forall₂ (FlatFace veq j.precision) opAreas faces ∧ List.Forall₂ (FlatFace veq j.precision) avoidAreas avoidFaces ∧
      List.Forall₂ (OffsetFaces e.scaled outer inner j.precision) faces areas ∧
      List.Forall₂ (OffsetFaces e.scaled avoidOuter avoidInner j.precision) avoidFaces avoids ∧
      buildPocketOps e.scaled areas.flatten avoids.flatten = .ok regions ∧
      (∀ f ∈ areas.flatten ++ avoids.flatten ++ regions, f.All GridPath) ∧
      (∀ r ∈ regions, ∀ contours, Unfolds (Follows e.scaled r stepover j.precision) [r.outer] contours →
        ∀ c ∈ contours, GridPath c) ∧
      (NoRepeats e.scaled → 0 < j.opSafeHeight → ∀ r ∈ regions, ∃ contours,
        Unfolds (Follows e.scaled r stepover j.precision) [r.outer] contours ∧
        ∀ p ∈ contours, ∀ s ∈ segments p, ∀ q, OnSegment s.1 s.2 q → ∃ c ∈ cs, CutsThrough r.depth q c) := by
  obtain ⟨d, faces, avoidFaces, areas, avoids, regions, -, -, h1, h2, h3, h4, h5, h6⟩ := C74_areas h
  refine ⟨_, _, _, _, _, faces, avoidFaces, areas, avoids, regions, h1, h2, h3, h4, h5, ?_, ?_, h6⟩
  · intro f hf
    rw [List.append_assoc] at hf
    have hof : ∀ {x y : ℚ} {fs : List PathFace} {gs : List (List PathFace)},
        List.Forall₂ (OffsetFaces e.scaled x y j.precision) fs gs → f ∈ gs.flatten → f.All GridPath := by
      intro x y fs gs hfg hf
      obtain ⟨g, hg, hf⟩ := List.mem_flatten.mp hf
      obtain ⟨_, _, hh⟩ := forall₂_mem_right hfg hg
      exact offsetFaces_grid hh f hf
    rcases List.mem_append.mp hf with hf | hf
    · exact hof h3 hf
    · rcases List.mem_append.mp hf with hf | hf
      · exact hof h4 hf
      · exact regions_grid h5 f hf
  · intro r hr contours hu c hc
    rcases hu.mem hc with hc | ⟨p, ps, -, hf, hc⟩
    · rw [List.mem_singleton] at hc
      subst hc
      exact (regions_grid h5 r hr).1
    · exact follows_grid hf c hc

theorem scaled_near {δ : ℚ} {e : IntClipper} (he : IntClipperNear δ e) : ClipperNearOn GridPath δ e.scaled := by
  have back : ∀ ss : List (List Pt), (∀ s ∈ ss, GridPath s) →
      (ss.map (fun s => s.map scalePt)).map (fun s => s.map IPt.mm) = ss := by
    intro ss h
    rw [List.map_map]
    conv_rhs => rw [← List.map_id ss]
    exact List.map_congr_left fun s hs => (C88_grid (h s hs)).1
  have far : ∀ (ss cs : List (List Pt)) (r : ℚ) (p : Pt), (∀ s ∈ ss ++ cs, GridPath s) → (∀ s ∈ ss ++ cs, FarFrom r s p) →
      ∀ s ∈ ss.map (fun s => s.map scalePt) ++ cs.map (fun s => s.map scalePt), FarFrom r (s.map IPt.mm) p := by
    intro ss cs r p hg hp s hs
    rw [← List.map_append] at hs
    obtain ⟨t, ht, rfl⟩ := List.mem_map.mp hs
    rw [(C88_grid (hg t ht)).1]
    exact hp t ht
  refine ⟨he.nonneg, ?_, ?_, ?_⟩
  · intro ss cs tree _ h n hn q hq
    exact gridPath_closedAs (scaledBoolean_grid h n hn n (.self n)) hq
  · intro ss cs tree hg h r h0 p hp
    obtain ⟨t, ht, rfl⟩ := scaledBoolean_ok h
    have := he.union _ _ _ ht r h0 p (far ss cs _ p hg hp)
    rwa [back ss (fun s hs => hg s (by simp [hs])), back cs (fun s hs => hg s (by simp [hs]))] at this
  · intro ss cs tree hg h r h0 p hp
    obtain ⟨t, ht, rfl⟩ := scaledBoolean_ok h
    have := he.difference _ _ _ ht r h0 p (far ss cs _ p hg hp)
    rwa [back ss (fun s hs => hg s (by simp [hs])), back cs (fun s hs => hg s (by simp [hs]))] at this

/-- C88, regions.  For an engine whose integer operations are right up to `δ` the statements of C39 hold for areas on the
grid, as the areas of a pocket are (`C88_no_drift`): scaling adds nothing to `δ`. -/
theorem C88_regions {δ : ℚ} {e : IntClipper} (he : IntClipperNear δ e) {opAreas avoidAreas ops : List PathFace}
    (hG : ∀ f ∈ opAreas ++ avoidAreas, f.All GridPath)
    (h : buildPocketOps e.scaled opAreas avoidAreas = .ok ops) {p : Pt} :
    (∀ f ∈ ops, FaceRegion f p → FarOutlines (2 * δ) opAreas avoidAreas f.depth p → insideCount (holesAt opAreas f.depth ++ avoidAt avoidAreas f.depth) p ≤ 1 →
      ∀ s ∈ holesAt opAreas f.depth ++ avoidAt avoidAreas f.depth, ¬ Inside s p) ∧
    ∀ d, (∃ f ∈ opAreas, f.depth = d) → FarOutlines (2 * δ) opAreas avoidAreas d p → insideCount (outersAt opAreas d) p ≤ 1 →
      insideCount (holesAt opAreas d ++ avoidAt avoidAreas d) p ≤ 1 →
      (∀ s tree, s.Perm (outersAt opAreas d) → e.scaled.union s [] = .ok tree →
        ∀ n ∈ tree, ∀ v ∈ n.childs, ¬ Inside v.contour p) →
      NoIslandAt e.scaled opAreas avoidAreas d p →
      ((∃ f ∈ ops, f.depth = d ∧ FaceRegion f p) ↔ Wanted opAreas avoidAreas d p) :=
  ⟨fun _ hf hr hp hov => avoid_on (scaled_near he) hG h hp hf hr hov,
    fun _ hd hp ho hc hv hi => region_on (scaled_near he) hG h hd hp ho hc hv hi⟩

/-- C88, tolerance.  The tolerance for arcs and for the removal of points handed to pyclipper is half a unit of the last
decimal place of the job's precision, cut off to the grid: never more, less by under 2⁻³¹ mm, and not zero iff the
precision is at most nine decimal places. -/
theorem C88_precision (precision : ℕ) : (scaledPrecision precision : ℚ) / 2147483648 ≤ 1 / 10 ^ precision / 2 ∧
    1 / 10 ^ precision / 2 - (scaledPrecision precision : ℚ) / 2147483648 < 1 / 2147483648 ∧
    0 ≤ scaledPrecision precision ∧ (scaledPrecision precision ≠ 0 ↔ precision ≤ 9) := by
  have h0 : (0 : ℚ) < 1 / 10 ^ precision / 2 := by positivity
  have h1 : scaledPrecision precision = ⌊(1 / 10 ^ precision / 2 : ℚ) * 2147483648⌋ := scaleTo_floor h0.le
  obtain ⟨-, h2, -, h3⟩ := C88_rounding (1 / 10 ^ precision / 2)
  have h4 : 0 ≤ scaledPrecision precision := by rw [h1]; exact Int.floor_nonneg.mpr (by positivity)
  have h5 : (0 : ℚ) ≤ (scaledPrecision precision : ℚ) / 2147483648 := by positivity
  change |scaleFrom (scaledPrecision precision)| ≤ _ at h2
  change |_ - scaleFrom (scaledPrecision precision)| < _ at h3
  rw [scaleFrom_eq] at h2 h3
  rw [abs_of_nonneg h5, abs_of_pos h0] at h2
  refine ⟨h2, lt_of_le_of_lt (le_abs_self _) h3, h4, ?_⟩
  have h6 : scaledPrecision precision ≠ 0 ↔ 1 ≤ scaledPrecision precision := by omega
  rw [h6, h1, Int.le_floor]
  push_cast
  have h7 : (1 : ℚ) ≤ 1 / 10 ^ precision / 2 * 2147483648 ↔ (10 : ℚ) ^ precision ≤ 1073741824 := by
    have : (0 : ℚ) < 10 ^ precision := by positivity
    rw [div_div, div_mul_eq_mul_div, one_mul, le_div_iff₀ (by positivity)]
    constructor <;> intro h <;> linarith
  rw [h7]
  constructor
  · intro h
    by_contra hc
    have : (10 : ℚ) ^ 10 ≤ 10 ^ precision := pow_le_pow_right₀ (by norm_num) (by omega)
    norm_num at this
    linarith
  · intro h
    have : (10 : ℚ) ^ precision ≤ 10 ^ 9 := pow_le_pow_right₀ (by norm_num) h
    norm_num at this
    linarith

/-! ### Cases that meet the hypotheses -/

mutual
/-- A result tree in integers. -/
def PolyNode.scale : PolyNode → INode
  | .node c cs => .node (c.map scalePt) (scaleNodes cs)
def scaleNodes : List PolyNode → List INode
  | [] => []
  | n :: ns => n.scale :: scaleNodes ns
end

/-- An engine on integers from one on rational numbers. -/
def IntClipper.of (eng : Clipper) : IntClipper where
  offset p o _ := (eng.offset (p.map IPt.mm) (scaleFrom o) 3).map (fun qs => qs.map (fun q => q.map scalePt))
  union ss cs := (eng.union (ss.map (fun s => s.map IPt.mm)) (cs.map (fun s => s.map IPt.mm))).map scaleNodes
  difference ss cs := (eng.difference (ss.map (fun s => s.map IPt.mm)) (cs.map (fun s => s.map IPt.mm))).map scaleNodes
  contains := eng.contains

example : OnGrid (1 / 2) ∧ ¬ OnGrid (1 / 3) ∧ scaleFrom (scaleTo (1 / 3)) = 715827882 / 2147483648 ∧
    scaleFrom (scaleTo (-1 / 3)) = -715827882 / 2147483648 := by
  refine ⟨⟨1073741824, by norm_num⟩, ?_, by decide +kernel, by decide +kernel⟩
  rintro ⟨n, h⟩
  have : (2147483648 : ℚ) = 3 * n := by linarith
  have : (2147483648 : ℤ) = 3 * n := by exact_mod_cast this
  omega

example : GridPath [⟨0, 0⟩, ⟨1 / 2, 0⟩, ⟨1 / 2, -3⟩] := by
  intro p hp
  simp only [List.mem_cons, List.not_mem_nil, or_false] at hp
  rcases hp with rfl | rfl | rfl
  · exact ⟨⟨0, by norm_num⟩, 0, by norm_num⟩
  · exact ⟨⟨1073741824, by norm_num⟩, 0, by norm_num⟩
  · exact ⟨⟨1073741824, by norm_num⟩, -6442450944, by norm_num⟩

/-- A pocket with a tool of diameter 2/3: the tool radius is not on the grid, the contours are. -/
example : (match pocket (IntClipper.of cleanEngine).scaled exactEq 99 [squareFace] [] {} { areaJob with toolDiameter := some (2 / 3) } with
    | .ok cs => decide ((cs.filter (fun c => decide (c.kind = .cut))).length = 100)
    | .error _ => false) = true := by decide +kernel

theorem rect_back : ((rect 0 0 30 30).map scalePt).map IPt.mm = rect 0 0 30 30 ∧
    ((rect 5 5 10 10).map scalePt).map IPt.mm = rect 5 5 10 10 ∧
    ((rect 15 5 20 10).map scalePt).map IPt.mm = rect 15 5 20 10 := by decide +kernel

theorem goodInt_near : IntClipperNear (1 / 100) (IntClipper.of goodEngine) := by
  have hn : ClipperNear (1 / 100) goodEngine := goodEngine_ok.near (by norm_num)
  have sq : ∀ ss : List (List IPt), ∀ {P : List Pt → Prop}, (∀ s ∈ ss, P (s.map IPt.mm)) ↔ ∀ s ∈ ss.map (fun s => s.map IPt.mm), P s := by
    intro ss P; simp
  refine ⟨by norm_num, ?_, ?_⟩
  · intro ss cs tree h r h0 p hp
    simp only [IntClipper.of] at h
    cases hu : goodEngine.union (ss.map (fun s => s.map IPt.mm)) (cs.map (fun s => s.map IPt.mm)) with
    | error er => rw [hu] at h; cases h
    | ok t =>
      rw [hu] at h
      have h : scaleNodes t = tree := by simpa [Except.map] using h
      have := hn.union _ _ _ (fun _ _ => trivial) hu r h0 p (by rw [← List.map_append]; exact (sq _).mp hp)
      have ht := tableEngine_union hu
      simp only [List.mem_singleton, Prod.mk.injEq] at ht
      have hb : INode.mms tree = t := by rw [← h, ht.2]; simp only [scaleNodes, PolyNode.scale, INode.mms, INode.mm, rect_back]
      rw [hb]; exact this
  · intro ss cs tree h r h0 p hp
    simp only [IntClipper.of] at h
    cases hu : goodEngine.difference (ss.map (fun s => s.map IPt.mm)) (cs.map (fun s => s.map IPt.mm)) with
    | error er => rw [hu] at h; cases h
    | ok t =>
      rw [hu] at h
      have h : scaleNodes t = tree := by simpa [Except.map] using h
      have := hn.difference _ _ _ (fun _ _ => trivial) hu r h0 p (by rw [← List.map_append]; exact (sq _).mp hp)
      have ht := tableEngine_difference hu
      simp only [List.mem_singleton, Prod.mk.injEq] at ht
      have hb : INode.mms tree = t := by rw [← h, ht.2]; simp only [goodTree, scaleNodes, PolyNode.scale, INode.mms, INode.mm, rect_back]
      rw [hb]; exact this

theorem gridPath_rect (a b c d : ℤ) : GridPath (rect a b c d) := by
  have h : ∀ n : ℤ, OnGrid n := fun n => ⟨n * 2147483648, by push_cast; field_simp⟩
  intro p hp
  simp only [rect, List.mem_cons, List.not_mem_nil, or_false] at hp
  rcases hp with rfl | rfl | rfl | rfl | rfl <;> exact ⟨h _, h _⟩

/-- The regions of the pocket with an island and an avoid area, computed on integers. -/
example : (∀ f ∈ [goodOp] ++ [goodAvoid], f.All GridPath) ∧
    buildPocketOps (IntClipper.of goodEngine).scaled [goodOp] [goodAvoid] =
      .ok [⟨rect 0 0 30 30, [rect 5 5 10 10, rect 15 5 20 10], -1⟩] := by
  refine ⟨?_, ?_⟩
  · intro f hf
    simp only [List.cons_append, List.nil_append, List.mem_cons, List.not_mem_nil, or_false] at hf
    rcases hf with rfl | rfl
    · refine ⟨by exact_mod_cast gridPath_rect 0 0 30 30, fun i hi => ?_⟩
      simp only [goodOp, List.mem_singleton] at hi
      subst hi
      exact_mod_cast gridPath_rect 5 5 10 10
    · exact ⟨by exact_mod_cast gridPath_rect 15 5 20 10, fun i hi => by simp [goodAvoid] at hi⟩
  · have : (match buildPocketOps (IntClipper.of goodEngine).scaled [goodOp] [goodAvoid] with
        | .ok ops => decide (ops = [⟨rect 0 0 30 30, [rect 5 5 10 10, rect 15 5 20 10], -1⟩])
        | .error _ => false) = true := by decide +kernel
    split at this
    · rename_i ops h
      rw [h, of_decide_eq_true this]
    · cases this

end CQ
