import Verif.Props.PocketRegions

/-! # C39: concrete engines, a case that meets the hypotheses and cases in which the property fails -/

namespace CQ

/-- An engine that knows the answers to some calls and raises otherwise; its offset gives nothing. -/
def tableEngine (us ds : List ((List (List Pt) × List (List Pt)) × List PolyNode)) : Clipper where
  offset := fun _ _ _ => .ok []
  union := fun s c => match us.find? (fun e => decide (e.1 = (s, c))) with
    | some e => .ok e.2
    | none => .error .valueError
  difference := fun s c => match ds.find? (fun e => decide (e.1 = (s, c))) with
    | some e => .ok e.2
    | none => .error .valueError
  contains := fun _ _ => false

theorem tableEngine_union {us ds : List ((List (List Pt) × List (List Pt)) × List PolyNode)} {s c : List (List Pt)}
    {t : List PolyNode} (h : (tableEngine us ds).union s c = .ok t) : ((s, c), t) ∈ us := by
  unfold tableEngine at h
  simp only at h
  cases hf : us.find? (fun e => decide (e.1 = (s, c))) with
  | none => rw [hf] at h; cases h
  | some e =>
    rw [hf] at h
    cases h
    have h1 := List.find?_some hf
    simp only [decide_eq_true_eq] at h1
    rw [← h1]
    exact List.mem_of_find?_eq_some hf

theorem tableEngine_difference {us ds : List ((List (List Pt) × List (List Pt)) × List PolyNode)}
    {s c : List (List Pt)} {t : List PolyNode} (h : (tableEngine us ds).difference s c = .ok t) : ((s, c), t) ∈ ds := by
  unfold tableEngine at h
  simp only at h
  cases hf : ds.find? (fun e => decide (e.1 = (s, c))) with
  | none => rw [hf] at h; cases h
  | some e =>
    rw [hf] at h
    cases h
    have h1 := List.find?_some hf
    simp only [decide_eq_true_eq] at h1
    rw [← h1]
    exact List.mem_of_find?_eq_some hf

theorem tableEngine_ok {us ds : List ((List (List Pt) × List (List Pt)) × List PolyNode)}
    (hu : ∀ e ∈ us, ∀ p, (∀ s ∈ e.1.1 ++ e.1.2, ¬ OnOutline s p) →
      RightAt e.2 p (insideCount e.1.1 p % 2 = 1 ∨ insideCount e.1.2 p % 2 = 1))
    (hd : ∀ e ∈ ds, ∀ p, (∀ s ∈ e.1.1 ++ e.1.2, ¬ OnOutline s p) →
      RightAt e.2 p (insideCount e.1.1 p % 2 = 1 ∧ ¬ insideCount e.1.2 p % 2 = 1)) : ClipperOK (tableEngine us ds) :=
  ⟨fun _ _ _ h p hp => hu _ (tableEngine_union h) p hp, fun _ _ _ h p hp => hd _ (tableEngine_difference h) p hp⟩

/-! ### Outlines made of axis-parallel segments -/

theorem onSegment_h {x0 x1 y : ℚ} {p : Pt} (hy : p.y = y) (hx : (x0 ≤ p.x ∧ p.x ≤ x1) ∨ (x1 ≤ p.x ∧ p.x ≤ x0)) :
    OnSegment ⟨x0, y⟩ ⟨x1, y⟩ p := by
  by_cases h : x0 = x1
  · subst h
    refine ⟨0, le_rfl, by norm_num, ?_⟩
    ext
    · simp [Pt.lerp]; rcases hx with hx | hx <;> linarith
    · simp [Pt.lerp, hy]
  · have hne : x1 - x0 ≠ 0 := sub_ne_zero.mpr (Ne.symm h)
    refine ⟨(p.x - x0) / (x1 - x0), ?_, ?_, ?_⟩
    · rcases hx with hx | hx
      · exact div_nonneg (by linarith) (by linarith)
      · exact div_nonneg_of_nonpos (by linarith) (by linarith)
    · rcases hx with hx | hx
      · exact div_le_one_of_le₀ (by linarith) (by linarith)
      · exact (div_le_one_of_neg (by rcases lt_or_gt_of_ne h with h | h <;> linarith)).mpr (by linarith)
    · ext
      · simp only [Pt.lerp]; field_simp; ring
      · simp [Pt.lerp, hy]

theorem onSegment_v {y0 y1 x : ℚ} {p : Pt} (hx : p.x = x) (hy : (y0 ≤ p.y ∧ p.y ≤ y1) ∨ (y1 ≤ p.y ∧ p.y ≤ y0)) :
    OnSegment ⟨x, y0⟩ ⟨x, y1⟩ p := by
  obtain ⟨t, h0, h1, h⟩ := onSegment_h (x0 := y0) (x1 := y1) (y := x) (p := ⟨p.y, p.x⟩) hx hy
  refine ⟨t, h0, h1, ?_⟩
  rw [Pt.ext_iff] at h ⊢
  exact ⟨h.2, h.1⟩

theorem onOutline_rect {x0 y0 x1 y1 : ℚ} (hx : x0 ≤ x1) (hy : y0 ≤ y1) (p : Pt) :
    OnOutline (rect x0 y0 x1 y1) p ↔ ((x0 ≤ p.x ∧ p.x ≤ x1) ∧ (p.y = y0 ∨ p.y = y1)) ∨
      ((y0 ≤ p.y ∧ p.y ≤ y1) ∧ (p.x = x0 ∨ p.x = x1)) := by
  have hseg : segments (closedOutline (rect x0 y0 x1 y1)) = [(⟨x0, y0⟩, ⟨x1, y0⟩), (⟨x1, y0⟩, ⟨x1, y1⟩),
      (⟨x1, y1⟩, ⟨x0, y1⟩), (⟨x0, y1⟩, ⟨x0, y0⟩), (⟨x0, y0⟩, ⟨x0, y0⟩)] := rfl
  unfold OnOutline OnPath
  rw [hseg]
  constructor
  · rintro (h | ⟨s, hs, h⟩)
    · simp only [closedOutline, rect, List.head?_cons, Option.toList_some, List.cons_append, List.nil_append,
        List.mem_cons, List.not_mem_nil, or_false] at h
      rcases h with rfl | rfl | rfl | rfl | rfl | rfl <;> simp [hx, hy]
    · have aux : ∀ u v t : ℚ, u ≤ v → 0 ≤ t → t ≤ 1 → (u ≤ u + t * (v - u) ∧ u + t * (v - u) ≤ v) ∧
          (u ≤ v + t * (u - v) ∧ v + t * (u - v) ≤ v) := by
        intro u v t huv h0 h1
        refine ⟨⟨?_, ?_⟩, ?_, ?_⟩ <;> nlinarith
      simp only [List.mem_cons, List.not_mem_nil, or_false] at hs
      obtain ⟨t, h0, h1, rfl⟩ := h
      have ax := aux x0 x1 t hx h0 h1
      have ay := aux y0 y1 t hy h0 h1
      rcases hs with rfl | rfl | rfl | rfl | rfl <;> simp [Pt.lerp, ax.1, ax.2, ay.1, ay.2, hx, hy]
  · intro h
    right
    rcases h with ⟨h, rfl | rfl⟩ | ⟨h, h' | h'⟩
    · exact ⟨_, by simp only [List.mem_cons]; exact Or.inl rfl, onSegment_h rfl (Or.inl h)⟩
    · exact ⟨_, by simp only [List.mem_cons]; exact Or.inr (Or.inr (Or.inl rfl)), onSegment_h rfl (Or.inr h)⟩
    · exact ⟨_, by simp only [List.mem_cons]; exact Or.inr (Or.inr (Or.inr (Or.inl rfl))), onSegment_v h' (Or.inr h)⟩
    · exact ⟨_, by simp only [List.mem_cons]; exact Or.inr (Or.inl rfl), onSegment_v h' (Or.inl h)⟩

theorem below_leaf {c : List Pt} {k : PolyNode} (h : (PolyNode.node c []).Below k) : k = .node c [] := by
  cases h with
  | self => rfl
  | child hm => simp [PolyNode.childs] at hm

theorem below_node {c : List Pt} {cs : List PolyNode} {k : PolyNode} (h : (PolyNode.node c cs).Below k) :
    k = .node c cs ∨ ∃ m ∈ cs, m.Below k := by
  cases h with
  | self => exact Or.inl rfl
  | child hm h => exact Or.inr ⟨_, hm, h⟩

theorem nodeRegion_leaf {p : Pt} {c : List Pt} : NodeRegion p (.node c []) ↔ Inside c p := by
  rw [nodeRegion_iff]; simp [PolyNode.contour, PolyNode.childs]

/-! ### A case that meets the hypotheses -/

/-- A square pocket at depth -1 with an island, and an avoid area next to it. -/
def goodOp : PathFace := ⟨rect 0 0 30 30, [rect 5 5 10 10], -1⟩
def goodAvoid : PathFace := ⟨rect 15 5 20 10, [], 0⟩
def goodTree : List PolyNode := [.node (rect 0 0 30 30) [.node (rect 5 5 10 10) [], .node (rect 15 5 20 10) []]]

def goodEngine : Clipper := tableEngine
  [(([rect 0 0 30 30], []), [.node (rect 0 0 30 30) []])]
  [(([rect 0 0 30 30], [rect 5 5 10 10, rect 15 5 20 10]), goodTree)]

theorem goodEngine_ok : ClipperOK goodEngine := by
  apply tableEngine_ok
  · intro e he p hp
    rw [List.mem_singleton] at he
    subst he
    simp only [List.append_nil, List.mem_singleton, forall_eq] at hp
    refine ⟨?_, by simp [insideCount, List.countP_cons, PolyNode.contour]; split <;> simp, ?_⟩
    · intro n hn k hk
      rw [List.mem_singleton] at hn
      subst hn
      rw [below_leaf hk]
      exact hp
    · simp [TreeRegion, nodeRegion_leaf, insideCount, List.countP_cons]
      split <;> simp_all
  · intro e he p hp
    rw [List.mem_singleton] at he
    subst he
    simp only [List.cons_append, List.nil_append, List.mem_cons, List.not_mem_nil, or_false, forall_eq_or_imp,
      forall_eq] at hp
    refine ⟨?_, by simp [goodTree, insideCount, List.countP_cons, PolyNode.contour]; split <;> simp, ?_⟩
    · intro n hn k hk
      rw [goodTree, List.mem_singleton] at hn
      subst hn
      rcases below_node hk with rfl | ⟨m, hm, hk⟩
      · exact hp.1
      · simp only [List.mem_cons, List.not_mem_nil, or_false] at hm
        rcases hm with rfl | rfl <;> rw [below_leaf hk]
        · exact hp.2.1
        · exact hp.2.2
    · simp only [TreeRegion, goodTree, List.mem_singleton, exists_eq_left]
      rw [nodeRegion_iff]
      simp only [PolyNode.contour, PolyNode.childs, List.mem_cons, List.not_mem_nil, or_false, forall_eq_or_imp,
        forall_eq, nodeRegion_leaf, insideCount, List.countP_cons, List.countP_nil, decide_eq_true_eq]
      have : ¬ (Inside (rect 5 5 10 10) p ∧ Inside (rect 15 5 20 10) p) := by
        rw [inside_rect (by norm_num) (by norm_num), inside_rect (by norm_num) (by norm_num)]
        rintro ⟨h1, h2⟩
        linarith [h1.1.2, h2.1.1]
      by_cases h1 : Inside (rect 0 0 30 30) p <;> by_cases h2 : Inside (rect 5 5 10 10) p <;>
        by_cases h3 : Inside (rect 15 5 20 10) p <;> simp_all

theorem farFrom_rect {x0 y0 x1 y1 r : ℚ} (hx : x0 ≤ x1) (hy : y0 ≤ y1) {p : Pt} (h0 : 0 ≤ r)
    (h : (x0 + r < p.x ∧ p.x < x1 - r ∧ y0 + r < p.y ∧ p.y < y1 - r) ∨ p.x < x0 - r ∨ x1 + r < p.x ∨ p.y < y0 - r ∨ y1 + r < p.y) :
    FarFrom r (rect x0 y0 x1 y1) p := by
  intro q hq
  rw [onOutline_rect hx hy] at hq
  unfold sqDist
  have hxx := mul_self_nonneg (p.x - q.x)
  have hyy := mul_self_nonneg (p.y - q.y)
  have far : ∀ u : ℚ, r < u ∨ u < -r → r ^ 2 < u * u := by
    intro u hu
    rcases hu with hu | hu <;> nlinarith
  have cx : (r < p.x - q.x ∨ p.x - q.x < -r) ∨ (r < p.y - q.y ∨ p.y - q.y < -r) := by
    rcases hq with ⟨⟨a, b⟩, c⟩ | ⟨⟨a, b⟩, c⟩ <;> rcases h with ⟨h1, h2, h3, h4⟩ | h | h | h | h
    · rcases c with c | c
      · exact .inr (.inl (by linarith))
      · exact .inr (.inr (by linarith))
    · exact .inl (.inr (by linarith))
    · exact .inl (.inl (by linarith))
    · rcases c with c | c <;> exact .inr (.inr (by linarith))
    · rcases c with c | c <;> exact .inr (.inl (by linarith))
    · rcases c with c | c
      · exact .inl (.inl (by linarith))
      · exact .inl (.inr (by linarith))
    · rcases c with c | c <;> exact .inl (.inr (by linarith))
    · rcases c with c | c <;> exact .inl (.inl (by linarith))
    · exact .inr (.inr (by linarith))
    · exact .inr (.inl (by linarith))
  rcases cx with c | c
  · have := far _ c; linarith
  · have := far _ c; linarith

/-- The hypotheses of `C39_region_partial` and `C39_avoid_partial`, with a tolerance of 1/100, are met at the point (12, 7) of this pocket (between
the island and the avoid area), and it is cleared. -/
example : ClipperNear (1 / 100) goodEngine ∧ ∃ ops, buildPocketOps goodEngine [goodOp] [goodAvoid] = .ok ops ∧
    FarOutlines (2 * (1 / 100)) [goodOp] [goodAvoid] (-1) ⟨12, 7⟩ ∧ insideCount (outersAt [goodOp] (-1)) ⟨12, 7⟩ ≤ 1 ∧
    insideCount (holesAt [goodOp] (-1) ++ avoidAt [goodAvoid] (-1)) ⟨12, 7⟩ ≤ 1 ∧
    (∀ s tree, s.Perm (outersAt [goodOp] (-1)) → goodEngine.union s [] = .ok tree →
      ∀ n ∈ tree, ∀ v ∈ n.childs, ¬ Inside v.contour ⟨12, 7⟩) ∧
    NoIslandAt goodEngine [goodOp] [goodAvoid] (-1) ⟨12, 7⟩ ∧
    (∃ f ∈ ops, f.depth = -1 ∧ FaceRegion f ⟨12, 7⟩) := by
  refine ⟨goodEngine_ok.near (by norm_num), [⟨rect 0 0 30 30, [rect 5 5 10 10, rect 15 5 20 10], -1⟩], by rfl, ⟨?_, ?_⟩, by decide +kernel,
    by decide +kernel, ?_, ?_, _, List.mem_singleton.mpr rfl, rfl, ?_, ?_⟩
  · rw [show outersAt [goodOp] (-1) = [rect 0 0 30 30] by decide +kernel]
    simp only [List.mem_singleton, forall_eq]
    exact farFrom_rect (by norm_num) (by norm_num) (by norm_num) (by norm_num)
  · rw [show holesAt [goodOp] (-1) ++ avoidAt [goodAvoid] (-1) = [rect 5 5 10 10, rect 15 5 20 10] by decide +kernel]
    simp only [List.mem_cons, List.not_mem_nil, or_false, forall_eq_or_imp, forall_eq]
    exact ⟨farFrom_rect (by norm_num) (by norm_num) (by norm_num) (by norm_num),
      farFrom_rect (by norm_num) (by norm_num) (by norm_num) (by norm_num)⟩
  · intro s tree _ h n hn v hv
    have := tableEngine_union h
    simp only [List.mem_singleton, Prod.mk.injEq] at this
    rw [this.2, List.mem_singleton] at hn
    subst hn
    simp [PolyNode.childs] at hv
  · intro _ _ s c tree _ _ _ _ h n hn v hv i hi
    have := tableEngine_difference h
    simp only [List.mem_singleton, Prod.mk.injEq] at this
    rw [this.2, goodTree, List.mem_singleton] at hn
    subst hn
    simp only [PolyNode.childs, List.mem_cons, List.not_mem_nil, or_false] at hv
    rcases hv with rfl | rfl <;> simp [PolyNode.childs] at hi
  · rw [inside_rect (by norm_num) (by norm_num)]; norm_num
  · intro i hi
    simp only [List.mem_cons, List.not_mem_nil, or_false] at hi
    rcases hi with rfl | rfl <;> rw [inside_rect (by norm_num) (by norm_num)] <;> norm_num

/-! ### Overlapping avoid areas -/

/-- A square pocket at depth -1 and two avoid areas whose outlines overlap: the strip 8 ≤ x ≤ 10, 4 ≤ y ≤ 10. -/
def overlapOp : PathFace := ⟨rect 0 0 20 20, [], -1⟩
def overlapAvoid1 : PathFace := ⟨rect 4 4 10 10, [], 0⟩
def overlapAvoid2 : PathFace := ⟨rect 8 4 14 10, [], 0⟩

/-- The even-odd answers: the strip belongs to both clips, hence to none. -/
def overlapEngine : Clipper := tableEngine
  [(([rect 0 0 20 20], []), [.node (rect 0 0 20 20) []])]
  [(([rect 0 0 20 20], [rect 4 4 10 10, rect 8 4 14 10]),
    [.node (rect 0 0 20 20) [.node (rect 4 4 8 10) [], .node (rect 10 4 14 10) []]])]

theorem overlapEngine_ok : ClipperOK overlapEngine := by
  apply tableEngine_ok
  · intro e he p hp
    rw [List.mem_singleton] at he
    subst he
    simp only [List.append_nil, List.mem_singleton, forall_eq] at hp
    refine ⟨?_, by simp [insideCount, List.countP_cons, PolyNode.contour]; split <;> simp, ?_⟩
    · intro n hn k hk
      rw [List.mem_singleton] at hn
      subst hn
      rw [below_leaf hk]
      exact hp
    · simp [TreeRegion, nodeRegion_leaf, insideCount, List.countP_cons]
      split <;> simp_all
  · intro e he p hp
    rw [List.mem_singleton] at he
    subst he
    simp only [List.cons_append, List.nil_append, List.mem_cons, List.not_mem_nil, or_false, forall_eq_or_imp,
      forall_eq] at hp
    refine ⟨?_, by simp [insideCount, List.countP_cons, PolyNode.contour]; split <;> simp, ?_⟩
    · intro n hn k hk
      rw [List.mem_singleton] at hn
      subst hn
      rcases below_node hk with rfl | ⟨m, hm, hk⟩
      · exact hp.1
      · simp only [List.mem_cons, List.not_mem_nil, or_false] at hm
        rw [onOutline_rect (by norm_num) (by norm_num), onOutline_rect (by norm_num) (by norm_num),
          onOutline_rect (by norm_num) (by norm_num)] at hp
        rcases hm with rfl | rfl <;> rw [below_leaf hk] <;> simp only [PolyNode.contour] <;>
          rw [onOutline_rect (by norm_num) (by norm_num)]
        · rintro (⟨⟨h1, h2⟩, h3⟩ | ⟨⟨h1, h2⟩, h3 | h3⟩)
          · exact hp.2.1 (Or.inl ⟨⟨h1, by linarith⟩, h3⟩)
          · exact hp.2.1 (Or.inr ⟨⟨h1, h2⟩, Or.inl h3⟩)
          · exact hp.2.2 (Or.inr ⟨⟨h1, h2⟩, Or.inl h3⟩)
        · rintro (⟨⟨h1, h2⟩, h3⟩ | ⟨⟨h1, h2⟩, h3 | h3⟩)
          · exact hp.2.2 (Or.inl ⟨⟨by linarith, h2⟩, h3⟩)
          · exact hp.2.1 (Or.inr ⟨⟨h1, h2⟩, Or.inr h3⟩)
          · exact hp.2.2 (Or.inr ⟨⟨h1, h2⟩, Or.inr h3⟩)
    · simp only [TreeRegion, List.mem_singleton, exists_eq_left]
      rw [nodeRegion_iff]
      simp only [PolyNode.contour, PolyNode.childs, List.mem_cons, List.not_mem_nil, or_false, forall_eq_or_imp,
        forall_eq, nodeRegion_leaf, insideCount, List.countP_cons, List.countP_nil, decide_eq_true_eq]
      have i1 : Inside (rect 4 4 8 10) p ↔ _ := inside_rect (by norm_num) (by norm_num) p
      have i2 : Inside (rect 10 4 14 10) p ↔ _ := inside_rect (by norm_num) (by norm_num) p
      have i3 : Inside (rect 4 4 10 10) p ↔ _ := inside_rect (by norm_num) (by norm_num) p
      have i4 : Inside (rect 8 4 14 10) p ↔ _ := inside_rect (by norm_num) (by norm_num) p
      by_cases q : Inside (rect 0 0 20 20) p
      · simp only [q, i1, i2, i3, i4]
        by_cases h1 : 4 ≤ p.y ∧ p.y < 10
        · rcases lt_or_ge p.x 4 with a | a <;> rcases lt_or_ge p.x 8 with b | b <;>
            rcases lt_or_ge p.x 10 with c | c <;> rcases lt_or_ge p.x 14 with d | d <;>
            first
            | (exfalso; linarith)
            | simp [a, b, c, d, h1, not_lt.mpr, not_le.mpr]
        · simp [h1]
      · simp [q]

/-- C39 is false where avoid areas (or holes) overlap: this point lies inside both avoid areas and is cleared. -/
theorem C39_violated_overlap : ClipperOK overlapEngine ∧ ∃ ops,
    buildPocketOps overlapEngine [overlapOp] [overlapAvoid1, overlapAvoid2] = .ok ops ∧
    Inside overlapAvoid1.outer ⟨9, 7⟩ ∧ Inside overlapAvoid2.outer ⟨9, 7⟩ ∧
    ∃ f ∈ ops, f.depth = -1 ∧ FaceRegion f ⟨9, 7⟩ := by
  refine ⟨overlapEngine_ok, [⟨rect 0 0 20 20, [rect 4 4 8 10, rect 10 4 14 10], -1⟩], by rfl, ?_, ?_, _,
    List.mem_singleton.mpr rfl, rfl, ?_, ?_⟩
  · exact (inside_rect (by norm_num) (by norm_num) _).mpr (by norm_num)
  · exact (inside_rect (by norm_num) (by norm_num) _).mpr (by norm_num)
  · exact (inside_rect (by norm_num) (by norm_num) _).mpr (by norm_num)
  · intro i hi
    simp only [List.mem_cons, List.not_mem_nil, or_false] at hi
    rcases hi with rfl | rfl <;> rw [inside_rect (by norm_num) (by norm_num)] <;> norm_num

/-! ### Overlapping faces -/

def face1 : PathFace := ⟨rect 0 0 10 10, [], -1⟩
def face2 : PathFace := ⟨rect 6 0 16 10, [], -1⟩

def outlinesEngine : Clipper := tableEngine
  [(([rect 0 0 10 10, rect 6 0 16 10], []), [.node (rect 0 0 6 10) [], .node (rect 10 0 16 10) []])]
  [(([rect 0 0 6 10, rect 10 0 16 10], []), [.node (rect 0 0 6 10) [], .node (rect 10 0 16 10) []])]

theorem twoRects_apart (p : Pt) : ¬ (Inside (rect 0 0 6 10) p ∧ Inside (rect 10 0 16 10) p) := by
  rw [inside_rect (by norm_num) (by norm_num), inside_rect (by norm_num) (by norm_num)]
  rintro ⟨h1, h2⟩
  linarith [h1.1.2, h2.1.1]

theorem outlinesEngine_ok : ClipperOK outlinesEngine := by
  have hcount : ∀ p, insideCount ([.node (rect 0 0 6 10) [], .node (rect 10 0 16 10) []].map PolyNode.contour) p ≤ 1 := by
    intro p
    have := twoRects_apart p
    simp only [insideCount, List.map_cons, List.map_nil, PolyNode.contour, List.countP_cons, List.countP_nil,
      decide_eq_true_eq]
    by_cases h1 : Inside (rect 0 0 6 10) p <;> by_cases h2 : Inside (rect 10 0 16 10) p <;> simp_all
  apply tableEngine_ok
  · intro e he p hp
    rw [List.mem_singleton] at he
    subst he
    simp only [List.append_nil, List.mem_cons, List.not_mem_nil, or_false, forall_eq_or_imp, forall_eq] at hp
    refine ⟨?_, hcount p, ?_⟩
    · intro n hn k hk
      rw [onOutline_rect (by norm_num) (by norm_num), onOutline_rect (by norm_num) (by norm_num)] at hp
      simp only [List.mem_cons, List.not_mem_nil, or_false] at hn
      rcases hn with rfl | rfl <;> rw [below_leaf hk] <;> simp only [PolyNode.contour] <;>
          rw [onOutline_rect (by norm_num) (by norm_num)]
      · rintro (⟨⟨h1, h2⟩, h3⟩ | ⟨⟨h1, h2⟩, h3 | h3⟩)
        · exact hp.1 (Or.inl ⟨⟨h1, by linarith⟩, h3⟩)
        · exact hp.1 (Or.inr ⟨⟨h1, h2⟩, Or.inl h3⟩)
        · exact hp.2 (Or.inr ⟨⟨h1, h2⟩, Or.inl h3⟩)
      · rintro (⟨⟨h1, h2⟩, h3⟩ | ⟨⟨h1, h2⟩, h3 | h3⟩)
        · exact hp.2 (Or.inl ⟨⟨by linarith, h2⟩, h3⟩)
        · exact hp.1 (Or.inr ⟨⟨h1, h2⟩, Or.inr h3⟩)
        · exact hp.2 (Or.inr ⟨⟨h1, h2⟩, Or.inr h3⟩)
    · simp only [TreeRegion, List.mem_cons, List.not_mem_nil, or_false, exists_eq_or_imp, exists_eq_left, nodeRegion_leaf,
        insideCount, List.countP_cons, List.countP_nil, decide_eq_true_eq]
      have i0 : Inside (rect 0 0 6 10) p ↔ _ := inside_rect (by norm_num) (by norm_num) p
      have i1 : Inside (rect 10 0 16 10) p ↔ _ := inside_rect (by norm_num) (by norm_num) p
      have i2 : Inside (rect 0 0 10 10) p ↔ _ := inside_rect (by norm_num) (by norm_num) p
      have i3 : Inside (rect 6 0 16 10) p ↔ _ := inside_rect (by norm_num) (by norm_num) p
      simp only [i0, i1, i2, i3]
      rcases lt_or_ge p.x 0 with a | a <;> rcases lt_or_ge p.x 6 with b | b <;> rcases lt_or_ge p.x 10 with c | c <;>
        rcases lt_or_ge p.x 16 with d | d <;>
        first
        | (exfalso; linarith)
        | simp [a, b, c, d, not_lt.mpr, not_le.mpr]
      all_goals (by_cases h1 : 0 ≤ p.y ∧ p.y < 10 <;> simp [h1])
  · intro e he p hp
    rw [List.mem_singleton] at he
    subst he
    simp only [List.append_nil, List.mem_cons, List.not_mem_nil, or_false, forall_eq_or_imp, forall_eq] at hp
    refine ⟨?_, hcount p, ?_⟩
    · intro n hn k hk
      simp only [List.mem_cons, List.not_mem_nil, or_false] at hn
      rcases hn with rfl | rfl <;> rw [below_leaf hk]
      · exact hp.1
      · exact hp.2
    · have := twoRects_apart p
      simp only [TreeRegion, List.mem_cons, List.not_mem_nil, or_false, exists_eq_or_imp, exists_eq_left, nodeRegion_leaf,
        insideCount, List.countP_cons, List.countP_nil, decide_eq_true_eq]
      by_cases h1 : Inside (rect 0 0 6 10) p <;> by_cases h2 : Inside (rect 10 0 16 10) p <;> simp_all

/-- C39 is false where faces overlap: this point lies inside both faces and is not cleared. -/
theorem C39_violated_outlines : ClipperOK outlinesEngine ∧ ∃ ops,
    buildPocketOps outlinesEngine [face1, face2] [] = .ok ops ∧ Wanted [face1, face2] [] (-1) ⟨8, 5⟩ ∧
    ¬ ∃ f ∈ ops, FaceRegion f ⟨8, 5⟩ := by
  refine ⟨outlinesEngine_ok, [⟨rect 0 0 6 10, [], -1⟩, ⟨rect 10 0 16 10, [], -1⟩], by rfl, ?_, ?_⟩
  · refine ⟨⟨rect 0 0 10 10, by simp [outersAt, face1, face2], ?_⟩, by simp [holesAt, face1, face2], by simp [avoidAt]⟩
    exact (inside_rect (by norm_num) (by norm_num) _).mpr (by norm_num)
  · rintro ⟨f, hf, hr, -⟩
    simp only [List.mem_cons, List.not_mem_nil, or_false] at hf
    rcases hf with rfl | rfl
    · rw [inside_rect (by norm_num) (by norm_num)] at hr; norm_num at hr
    · rw [inside_rect (by norm_num) (by norm_num)] at hr; norm_num at hr

/-! ### A post enclosed by two faces -/

/-- Two L-shaped faces, at depths -1 and -2, that together enclose the square post 10 ≤ x, y ≤ 20. -/
def ell1 : List Pt := [⟨0, 0⟩, ⟨30, 0⟩, ⟨30, 10⟩, ⟨10, 10⟩, ⟨10, 30⟩, ⟨0, 30⟩, ⟨0, 0⟩]
def ell2 : List Pt := [⟨30, 10⟩, ⟨30, 30⟩, ⟨10, 30⟩, ⟨10, 20⟩, ⟨20, 20⟩, ⟨20, 10⟩, ⟨30, 10⟩]
def ellFace1 : PathFace := ⟨ell1, [], -1⟩
def ellFace2 : PathFace := ⟨ell2, [], -2⟩

theorem inside_ell1 (p : Pt) : Inside ell1 p ↔ ((0 ≤ p.x ∧ p.x < 30) ∧ 0 ≤ p.y ∧ p.y < 10) ∨
    ((0 ≤ p.x ∧ p.x < 10) ∧ 10 ≤ p.y ∧ p.y < 30) := by
  unfold Inside crossings ell1 closedOutline
  simp only [List.head?_cons, Option.toList_some, List.cons_append, List.nil_append, segments, List.countP_cons,
    List.countP_nil, crosses_horizontal, crosses_vertical, crosses_point]
  rcases lt_or_ge p.x 0 with a | a <;> rcases lt_or_ge p.x 10 with b | b <;> rcases lt_or_ge p.x 30 with b' | b' <;>
    rcases lt_or_ge p.y 0 with c | c <;> rcases lt_or_ge p.y 10 with e | e <;> rcases lt_or_ge p.y 30 with f | f <;>
    first
    | (exfalso; linarith)
    | simp [a, b, b', c, e, f, not_lt.mpr, not_le.mpr]

theorem inside_ell2 (p : Pt) : Inside ell2 p ↔ ((10 ≤ p.x ∧ p.x < 30) ∧ 20 ≤ p.y ∧ p.y < 30) ∨
    ((20 ≤ p.x ∧ p.x < 30) ∧ 10 ≤ p.y ∧ p.y < 20) := by
  unfold Inside crossings ell2 closedOutline
  simp only [List.head?_cons, Option.toList_some, List.cons_append, List.nil_append, segments, List.countP_cons,
    List.countP_nil, crosses_horizontal, crosses_vertical, crosses_point]
  rcases lt_or_ge p.x 10 with a | a <;> rcases lt_or_ge p.x 20 with b | b <;> rcases lt_or_ge p.x 30 with b' | b' <;>
    rcases lt_or_ge p.y 10 with c | c <;> rcases lt_or_ge p.y 20 with e | e <;> rcases lt_or_ge p.y 30 with f | f <;>
    first
    | (exfalso; linarith)
    | simp [a, b, b', c, e, f, not_lt.mpr, not_le.mpr]

def voidEngine : Clipper := tableEngine
  [(([ell1, ell2], []), [.node (rect 0 0 30 30) [.node (rect 10 10 20 20) []]]), (([ell2], []), [.node ell2 []])]
  [(([rect 0 0 30 30], []), [.node (rect 0 0 30 30) []]), (([ell2], []), [.node ell2 []])]

theorem on_ell {path : List Pt} {a b : Pt} (h : (a, b) ∈ segments (closedOutline path)) {p : Pt} (hp : OnSegment a b p) :
    OnOutline path p := Or.inr ⟨_, h, hp⟩

theorem voidEngine_ok : ClipperOK voidEngine := by
  have hleaf : ∀ (c : List Pt) (p : Pt), ¬ OnOutline c p →
      RightAt [.node c []] p (insideCount [c] p % 2 = 1 ∨ insideCount [] p % 2 = 1) ∧
      RightAt [.node c []] p (insideCount [c] p % 2 = 1 ∧ ¬ insideCount [] p % 2 = 1) := by
    intro c p hp
    have h1 : ∀ n ∈ [PolyNode.node c []], ∀ k, n.Below k → ¬ OnOutline k.contour p := by
      intro n hn k hk
      rw [List.mem_singleton] at hn
      subst hn
      rw [below_leaf hk]
      exact hp
    have h2 : insideCount ([PolyNode.node c []].map PolyNode.contour) p ≤ 1 := by
      simp [insideCount, List.countP_cons, PolyNode.contour]; split <;> simp
    constructor <;> refine ⟨h1, h2, ?_⟩ <;> simp [TreeRegion, nodeRegion_leaf, insideCount, List.countP_cons] <;>
      split <;> simp_all
  apply tableEngine_ok
  · intro e he p hp
    simp only [List.mem_cons, List.not_mem_nil, or_false] at he
    rcases he with rfl | rfl
    · simp only [List.append_nil, List.mem_cons, List.not_mem_nil, or_false, forall_eq_or_imp, forall_eq] at hp
      have hs1 : segments (closedOutline ell1) = [(⟨0, 0⟩, ⟨30, 0⟩), (⟨30, 0⟩, ⟨30, 10⟩), (⟨30, 10⟩, ⟨10, 10⟩),
        (⟨10, 10⟩, ⟨10, 30⟩), (⟨10, 30⟩, ⟨0, 30⟩), (⟨0, 30⟩, ⟨0, 0⟩), (⟨0, 0⟩, ⟨0, 0⟩)] := rfl
      have hs2 : segments (closedOutline ell2) = [(⟨30, 10⟩, ⟨30, 30⟩), (⟨30, 30⟩, ⟨10, 30⟩), (⟨10, 30⟩, ⟨10, 20⟩),
        (⟨10, 20⟩, ⟨20, 20⟩), (⟨20, 20⟩, ⟨20, 10⟩), (⟨20, 10⟩, ⟨30, 10⟩), (⟨30, 10⟩, ⟨30, 10⟩)] := rfl
      refine ⟨?_, by simp [insideCount, List.countP_cons, PolyNode.contour]; split <;> simp, ?_⟩
      · intro n hn k hk
        rw [List.mem_singleton] at hn
        subst hn
        rcases below_node hk with rfl | ⟨m, hm, hk⟩
        · simp only [PolyNode.contour]
          rw [onOutline_rect (by norm_num) (by norm_num)]
          rintro (⟨⟨h1, h2⟩, h3 | h3⟩ | ⟨⟨h1, h2⟩, h3 | h3⟩)
          · exact hp.1 (on_ell (a := ⟨0, 0⟩) (b := ⟨30, 0⟩) (by rw [hs1]; simp) (onSegment_h h3 (Or.inl ⟨h1, h2⟩)))
          · rcases le_total p.x 10 with h | h
            · exact hp.1 (on_ell (a := ⟨10, 30⟩) (b := ⟨0, 30⟩) (by rw [hs1]; simp) (onSegment_h h3 (Or.inr ⟨h1, h⟩)))
            · exact hp.2 (on_ell (a := ⟨30, 30⟩) (b := ⟨10, 30⟩) (by rw [hs2]; simp) (onSegment_h h3 (Or.inr ⟨h, h2⟩)))
          · exact hp.1 (on_ell (a := ⟨0, 30⟩) (b := ⟨0, 0⟩) (by rw [hs1]; simp) (onSegment_v h3 (Or.inr ⟨h1, h2⟩)))
          · rcases le_total p.y 10 with h | h
            · exact hp.1 (on_ell (a := ⟨30, 0⟩) (b := ⟨30, 10⟩) (by rw [hs1]; simp) (onSegment_v h3 (Or.inl ⟨h1, h⟩)))
            · exact hp.2 (on_ell (a := ⟨30, 10⟩) (b := ⟨30, 30⟩) (by rw [hs2]; simp) (onSegment_v h3 (Or.inl ⟨h, h2⟩)))
        · rw [List.mem_singleton] at hm
          subst hm
          rw [below_leaf hk]
          simp only [PolyNode.contour]
          rw [onOutline_rect (by norm_num) (by norm_num)]
          rintro (⟨⟨h1, h2⟩, h3 | h3⟩ | ⟨⟨h1, h2⟩, h3 | h3⟩)
          · exact hp.1 (on_ell (a := ⟨30, 10⟩) (b := ⟨10, 10⟩) (by rw [hs1]; simp)
              (onSegment_h h3 (Or.inr ⟨h1, by linarith⟩)))
          · exact hp.2 (on_ell (a := ⟨10, 20⟩) (b := ⟨20, 20⟩) (by rw [hs2]; simp) (onSegment_h h3 (Or.inl ⟨h1, h2⟩)))
          · exact hp.1 (on_ell (a := ⟨10, 10⟩) (b := ⟨10, 30⟩) (by rw [hs1]; simp)
              (onSegment_v h3 (Or.inl ⟨h1, by linarith⟩)))
          · exact hp.2 (on_ell (a := ⟨20, 20⟩) (b := ⟨20, 10⟩) (by rw [hs2]; simp) (onSegment_v h3 (Or.inr ⟨h1, h2⟩)))
      · simp only [TreeRegion, List.mem_singleton, exists_eq_left]
        rw [nodeRegion_iff]
        simp only [PolyNode.contour, PolyNode.childs, List.mem_singleton, forall_eq, nodeRegion_leaf, insideCount,
          List.countP_cons, List.countP_nil, decide_eq_true_eq]
        have i0 : Inside (rect 0 0 30 30) p ↔ _ := inside_rect (by norm_num) (by norm_num) p
        have i1 : Inside (rect 10 10 20 20) p ↔ _ := inside_rect (by norm_num) (by norm_num) p
        simp only [i0, i1, inside_ell1, inside_ell2]
        rcases lt_or_ge p.x 0 with a | a <;> rcases lt_or_ge p.x 10 with b | b <;> rcases lt_or_ge p.x 20 with b2 | b2 <;>
          rcases lt_or_ge p.x 30 with b' | b' <;>
          rcases lt_or_ge p.y 0 with c | c <;> rcases lt_or_ge p.y 10 with e | e <;>
          rcases lt_or_ge p.y 20 with e2 | e2 <;> rcases lt_or_ge p.y 30 with f | f <;>
          first
          | (exfalso; linarith)
          | simp [a, b, b2, b', c, e, e2, f, not_lt.mpr, not_le.mpr]
    · exact (hleaf ell2 p (hp ell2 (by simp))).1
  · intro e he p hp
    simp only [List.mem_cons, List.not_mem_nil, or_false] at he
    rcases he with rfl | rfl
    · exact (hleaf _ p (hp _ (by simp))).2
    · exact (hleaf ell2 p (hp ell2 (by simp))).2

/-- C39 is false for voids: the point (15, 15) of the post belongs to no face, but is cleared at depth -1, because only
the outer outlines of the united faces are kept. -/
theorem C39_violated_void : ClipperOK voidEngine ∧ ∃ ops,
    buildPocketOps voidEngine [ellFace1, ellFace2] [] = .ok ops ∧
    (∀ f ∈ [ellFace1, ellFace2], ¬ Inside f.outer ⟨15, 15⟩) ∧ ∃ f ∈ ops, f.depth = -1 ∧ FaceRegion f ⟨15, 15⟩ := by
  refine ⟨voidEngine_ok, [⟨rect 0 0 30 30, [], -1⟩, ⟨ell2, [], -2⟩], by rfl, ?_, _, List.mem_cons_self .., rfl, ?_, by simp⟩
  · intro f hf
    simp only [List.mem_cons, List.not_mem_nil, or_false] at hf
    rcases hf with rfl | rfl
    · simp only [ellFace1]; rw [inside_ell1]; norm_num
    · simp only [ellFace2]; rw [inside_ell2]; norm_num
  · exact (inside_rect (by norm_num) (by norm_num) _).mpr (by norm_num)

end CQ
