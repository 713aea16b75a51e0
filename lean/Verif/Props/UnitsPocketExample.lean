import Verif.Props.UnitsPocket
import Verif.Props.UnitsExample
import Verif.Props.GougeExample
import Verif.Props.EndToEnd

/-! # C134 for pockets: an instance and a violation -/

namespace CQ

theorem rect_conv (κ : Units) (x0 y0 x1 y1 : ℚ) :
    (rect x0 y0 x1 y1).map (Pt.conv κ) = rect (κ.c * x0) (κ.c * y0) (κ.c * x1) (κ.c * y1) := rfl

theorem rectOf_conv (κ : Units) (p : List Pt) :
    rectOf (p.map (Pt.conv κ)) = (rectOf p).map (fun x => (Pt.conv κ x.1, Pt.conv κ x.2)) := by
  have hlt : ∀ a b : ℚ, κ.c * a < κ.c * b ↔ a < b := fun a b => mul_lt_mul_iff_right₀ κ.pos
  unfold rectOf
  rcases p with _ | ⟨a, _ | ⟨b, _ | ⟨c, _ | ⟨d, _ | ⟨e, _ | ⟨f, l⟩⟩⟩⟩⟩⟩ <;> try rfl
  simp only [List.map_cons, List.map_nil]
  have h : ((Pt.conv κ a).x < (Pt.conv κ c).x ∧ (Pt.conv κ a).y < (Pt.conv κ c).y ∧
      [Pt.conv κ a, Pt.conv κ b, Pt.conv κ c, Pt.conv κ d, Pt.conv κ e] =
        rect (Pt.conv κ a).x (Pt.conv κ a).y (Pt.conv κ c).x (Pt.conv κ c).y) ↔
      (a.x < c.x ∧ a.y < c.y ∧ [a, b, c, d, e] = rect a.x a.y c.x c.y) := by
    refine and_congr (hlt _ _) (and_congr (hlt _ _) ?_)
    exact (List.map_injective_iff.mpr (conv_inj κ)).eq_iff (a := [a, b, c, d, e]) (b := rect a.x a.y c.x c.y)
  simp only [h]
  split <;> rfl

theorem boxEngine_units (κ : Units) (n : ℕ) : ClipperUnits κ n boxEngine where
  offset := by
    intro p o
    simp only [boxEngine, rectOf_conv]
    cases rectOf p with
    | none => rfl
    | some x =>
      obtain ⟨a, b⟩ := x
      have hx : (Pt.conv κ a).x - κ.c * o = κ.c * (a.x - o) := by simp only [Pt.conv]; ring
      have hy : (Pt.conv κ a).y - κ.c * o = κ.c * (a.y - o) := by simp only [Pt.conv]; ring
      have hx' : (Pt.conv κ b).x + κ.c * o = κ.c * (b.x + o) := by simp only [Pt.conv]; ring
      have hy' : (Pt.conv κ b).y + κ.c * o = κ.c * (b.y + o) := by simp only [Pt.conv]; ring
      have hlt : ∀ a b : ℚ, κ.c * a < κ.c * b ↔ a < b := fun a b => mul_lt_mul_iff_right₀ κ.pos
      simp only [Option.map, hx, hy, hx', hy', hlt]
      split <;> rfl
  union := by
    intro a b
    rcases a with _ | ⟨s, _ | ⟨t, a⟩⟩ <;> rcases b with _ | ⟨c, b⟩ <;> try rfl
    simp only [boxEngine, List.map_cons, List.map_nil, rectOf_conv]
    cases rectOf s with
    | none => rfl
    | some x => simp [Except.map, convNodes, PolyNode.conv]
  difference := by
    intro a b
    rcases a with _ | ⟨s, _ | ⟨t, a⟩⟩ <;> rcases b with _ | ⟨c, _ | ⟨d, b⟩⟩ <;> try rfl
    · simp only [boxEngine, List.map_cons, List.map_nil, rectOf_conv]
      cases rectOf s with
      | none => rfl
      | some x => simp [Except.map, convNodes, PolyNode.conv]
    · simp only [boxEngine, List.map_cons, List.map_nil, rectOf_conv]
      have hlt : ∀ a b : ℚ, κ.c * a < κ.c * b ↔ a < b := fun a b => mul_lt_mul_iff_right₀ κ.pos
      have hle : ∀ a b : ℚ, κ.c * a ≤ κ.c * b ↔ a ≤ b := fun a b => mul_le_mul_iff_right₀ κ.pos
      cases rectOf s with
      | none => rfl
      | some x =>
        cases rectOf c with
        | none => rfl
        | some y =>
          simp only [Option.map, Pt.conv, hlt, hle]
          split
          · simp [Except.map, convNodes, PolyNode.conv]
          · split <;> simp [Except.map, convNodes]
  contains := fun _ _ => rfl

/-- What follows a contour is the rectangle, smaller by the step on every side. -/
theorem boxEngine_follows {region : PathFace} {s : ℚ} {n : ℕ} {b p : List Pt} {cs : List (List Pt)}
    (h : Follows boxEngine region s n b cs) (hp : p ∈ cs) :
    ∃ x0 y0 x1 y1, b = rect x0 y0 x1 y1 ∧ x0 + s < x1 - s ∧ y0 + s < y1 - s ∧ p = rect (x0 + s) (y0 + s) (x1 - s) (y1 - s) := by
  obtain ⟨raw, shrunk, h1, h2, h3⟩ := h
  simp only [boxEngine] at h1
  cases hb : rectOf b with
  | none =>
    rw [hb] at h1
    cases h1
    cases h2
    rw [if_pos (.inl rfl)] at h3
    subst h3
    cases hp
  | some x =>
    obtain ⟨u, v⟩ := x
    rw [hb] at h1
    simp only at h1
    obtain ⟨-, -, hbr⟩ := rectOf_some hb
    split at h1
    · rename_i hlt
      cases h1
      refine ⟨u.x, u.y, v.x, v.y, hbr, by linarith [hlt.1], by linarith [hlt.2], ?_⟩
      have hshr : shrunk = [rect (u.x + s) (u.y + s) (v.x - s) (v.y - s)] := by
        have e : ([rect (u.x - -s) (u.y - -s) (v.x + -s) (v.y + -s)].filter (fun q => decide (q ≠ []))) =
            [rect (u.x + s) (u.y + s) (v.x - s) (v.y - s)] := by
          simp [rect, ← sub_eq_add_neg]
        rw [e] at h2
        cases h2 with
        | cons a c =>
          cases c
          rw [IsRect.closed a]
      subst hshr
      split at h3
      · subst h3
        exact List.mem_singleton.mp hp
      · obtain ⟨tree, h4, h5⟩ := h3
        obtain ⟨nd, hnd, hcl⟩ := forall₂_mem_right h5 hp
        have hn : nd.contour = rect (u.x + s) (u.y + s) (v.x - s) (v.y - s) := by
          simp only [boxEngine] at h4
          generalize region.inners = is at h4
          split at h4
          · rename_i heq
            cases heq
            split at h4
            · cases h4
              rw [List.mem_singleton.mp hnd]
              rfl
            · cases h4
          · rename_i heq
            cases heq
            split at h4
            · split at h4
              · cases h4
                rw [List.mem_singleton.mp hnd]
                rfl
              · split at h4
                · cases h4
                  cases hnd
                · cases h4
            · cases h4
          · cases h4
        rw [hn] at hcl
        exact IsRect.closed hcl
    · cases h1
      cases h2
      rw [if_pos (.inl rfl)] at h3
      subst h3
      cases hp

theorem onOutline_segment {x0 y0 x1 y1 : ℚ} {q : Pt} (h : OnOutline (rect x0 y0 x1 y1) q) :
    ∃ s ∈ segments (rect x0 y0 x1 y1), OnSegment s.1 s.2 q := by
  have hseg : segments (rect x0 y0 x1 y1) = [(⟨x0, y0⟩, ⟨x1, y0⟩), (⟨x1, y0⟩, ⟨x1, y1⟩), (⟨x1, y1⟩, ⟨x0, y1⟩), (⟨x0, y1⟩, ⟨x0, y0⟩)] := rfl
  have hfirst : ∀ a b : Pt, OnSegment a b a := fun a b => ⟨0, le_rfl, zero_le_one, by ext <;> simp [Pt.lerp]⟩
  rw [hseg]
  rcases h with h | ⟨s, h1, h2⟩
  · simp only [rect, closedOutline, List.head?_cons, Option.toList, List.cons_append, List.nil_append, List.mem_cons,
      List.not_mem_nil, or_false] at h
    rcases h with rfl | rfl | rfl | rfl | rfl | rfl
    · exact ⟨_, .head _, hfirst _ _⟩
    · exact ⟨_, .tail _ (.head _), hfirst _ _⟩
    · exact ⟨_, .tail _ (.tail _ (.head _)), hfirst _ _⟩
    · exact ⟨_, .tail _ (.tail _ (.tail _ (.head _))), hfirst _ _⟩
    · exact ⟨_, .head _, hfirst _ _⟩
    · exact ⟨_, .head _, hfirst _ _⟩
  · simp only [rect, closedOutline, segments, List.head?_cons, Option.toList, List.cons_append, List.nil_append, List.mem_cons,
      List.not_mem_nil, or_false] at h1
    rcases h1 with rfl | rfl | rfl | rfl | rfl
    · exact ⟨_, .head _, h2⟩
    · exact ⟨_, .tail _ (.head _), h2⟩
    · exact ⟨_, .tail _ (.tail _ (.head _)), h2⟩
    · exact ⟨_, .tail _ (.tail _ (.tail _ (.head _))), h2⟩
    · obtain ⟨t, -, -, rfl⟩ := h2
      have e : Pt.lerp ⟨x0, y0⟩ ⟨x0, y0⟩ t = (⟨x0, y0⟩ : Pt) := by ext <;> simp [Pt.lerp]
      exact ⟨(⟨x0, y0⟩, ⟨x1, y0⟩), .head _, by rw [e]; exact hfirst _ _⟩

/-- In steps of at most 1, every way to the next contour is short, and shorter in units that are longer. -/
theorem boxEngine_links {κ : Units} (hc : κ.c ≤ 1) {region : PathFace} {s : ℚ} (h0 : 0 ≤ s) (h1 : s ≤ 1) {n : ℕ} {b p : List Pt}
    {cs : List (List Pt)} (h : Follows boxEngine region s n b cs) (hp : p ∈ cs) : LinksAlike κ s p b := by
  obtain ⟨x0, y0, x1, y1, rfl, hx, hy, rfl⟩ := boxEngine_follows h hp
  intro e x he hnear
  have hbound : sqDist e x ≤ s * s := by
    have hon : OnOutline (rect (x0 + s) (y0 + s) (x1 - s) (y1 - s)) e := by
      rcases he with he | he
      · rw [onOutline_rect hx.le hy.le]
        simp only [rect, List.mem_cons, List.not_mem_nil, or_false] at he
        rcases he with rfl | rfl | rfl | rfl | rfl
        · exact .inl ⟨⟨le_rfl, hx.le⟩, .inl rfl⟩
        · exact .inl ⟨⟨hx.le, le_rfl⟩, .inl rfl⟩
        · exact .inl ⟨⟨hx.le, le_rfl⟩, .inr rfl⟩
        · exact .inl ⟨⟨le_rfl, hx.le⟩, .inr rfl⟩
        · exact .inl ⟨⟨le_rfl, hx.le⟩, .inl rfl⟩
      · obtain ⟨sg, h1, h2⟩ := he
        refine .inr ⟨sg, ?_, h2⟩
        simp only [rect, closedOutline, segments, List.head?_cons, Option.toList, List.cons_append, List.nil_append, List.mem_cons,
          List.not_mem_nil, or_false] at h1 ⊢
        tauto
    have hfoot : ∀ q, OnOutline (rect x0 y0 x1 y1) q → sqDist e q = s * s → sqDist e x ≤ s * s := by
      intro q hq hd
      obtain ⟨sg, hs, hq⟩ := onOutline_segment hq
      rw [← hd]
      exact hnear.2 sg hs q hq
    have hx' : x0 ≤ x1 := by linarith
    have hy' : y0 ≤ y1 := by linarith
    rw [onOutline_rect hx.le hy.le] at hon
    rcases hon with ⟨⟨a, b⟩, c | c⟩ | ⟨⟨a, b⟩, c | c⟩
    · exact hfoot ⟨e.x, y0⟩ ((onOutline_rect hx' hy' _).mpr (.inl ⟨⟨by simp only; linarith, by simp only; linarith⟩, .inl rfl⟩))
        (by simp only [sqDist, c]; ring)
    · exact hfoot ⟨e.x, y1⟩ ((onOutline_rect hx' hy' _).mpr (.inl ⟨⟨by simp only; linarith, by simp only; linarith⟩, .inr rfl⟩))
        (by simp only [sqDist, c]; ring)
    · exact hfoot ⟨x0, e.y⟩ ((onOutline_rect hx' hy' _).mpr (.inr ⟨⟨by simp only; linarith, by simp only; linarith⟩, .inl rfl⟩))
        (by simp only [sqDist, c]; ring)
    · exact hfoot ⟨x1, e.y⟩ ((onOutline_rect hx' hy' _).mpr (.inr ⟨⟨by simp only; linarith, by simp only; linarith⟩, .inr rfl⟩))
        (by simp only [sqDist, c]; ring)
  have hn := sqDist_nonneg e x
  have h2 : sqDist e x ≤ s := hbound.trans (by nlinarith)
  exact ⟨fun _ => (mul_le_of_le_one_left hn hc).trans h2, fun _ => h2⟩

theorem exactEq_units (κ : Units) (a b : Vec) : exactEq (a.conv κ) (b.conv κ) = exactEq a b := by
  unfold exactEq
  rw [decide_eq_decide]
  exact (vec_conv_inj κ).eq_iff

theorem squareFace_alike (κ : Units) (n : ℕ) : FaceAlike κ n squareFace where
  flat := ⟨fun _ => rfl, fun _ => rfl⟩
  outer := by
    intro e he
    left
    obtain ⟨x, -, rfl⟩ := List.mem_map.mp he
    rfl
  inner := by simp [squareFace]

/-- A pocket of 6 by 6 mm with a tool of 2 mm, in millimetres and in inches. -/
example : UnitWork toInches twoJob (pocketRequest boxEngine exactEq 9 [squareFace] [] {})
      (pocketRequest boxEngine exactEq 9 [squareFace.conv toInches] [] {}) ∧
    (match pocket boxEngine exactEq 9 [squareFace.conv toInches] [] {} (twoJob.conv toInches) with
      | .ok cs => decide (cs.length = 26) | .error _ => false) = true :=
  ⟨C134_pocket_partial (κ := toInches) (opAreas := [squareFace]) (avoidAreas := []) (tool := none) (boxEngine_units _ _)
    (exactEq_units _) 9 {} (fun f hf => by rw [List.mem_singleton.mp hf]; exact squareFace_alike _ _)
    (fun d region b cs p hd h hp => by
      cases hd
      exact boxEngine_links (by norm_num [toInches]) (by norm_num [offsetDistance]) (by norm_num [offsetDistance]) h hp),
    by decide +kernel⟩

/-- The same for the face given in world coordinates. -/
example : UnitWork toInches twoJob (pocketPlacedRequest boxEngine exactEq (fun o _ => (lowest o, lowest o)) 9 [⟨innerSquare, []⟩] [] {})
    (pocketPlacedRequest boxEngine exactEq (fun o _ => (lowest o, lowest o)) 9 [⟨innerSquare.map (Edge.conv toInches), []⟩] [] {}) :=
  C134_placed_pocket_partial (κ := toInches) (opAreas := [⟨innerSquare, []⟩]) (avoidAreas := []) (tool := none) (boxEngine_units _ _)
    (exactEq_units _) (fun o is => by simp only [lowest_conv]) 9 {}
    (fun f hf => by
      rw [List.mem_singleton.mp hf]
      refine ⟨⟨fun _ => rfl, fun _ => rfl⟩, ?_, ?_⟩
      · intro e he
        left
        obtain ⟨e, h, rfl⟩ := List.mem_map.mp he
        obtain ⟨x, -, rfl⟩ := List.mem_map.mp h
        rfl
      · simp [WorldFace.toJob])
    (fun d region b cs p hd h hp => by
      cases hd
      exact boxEngine_links (by norm_num [toInches]) (by norm_num [offsetDistance]) (by norm_num [offsetDistance]) h hp)

/-- A square of 24 mm at depth 1. -/
def wideFace : CqFace :=
  ⟨[(1, (⟨0, 0⟩ : Pt), (⟨24, 0⟩ : Pt)), (2, ⟨24, 0⟩, ⟨24, 24⟩), (3, ⟨24, 24⟩, ⟨0, 24⟩), (4, ⟨0, 24⟩, ⟨0, 0⟩)].map
    (fun x : ℕ × Pt × Pt => lineEdge x.1 x.2.1 x.2.2 (-1) 24), [], -1, -1⟩

/-- A job with a tool of diameter 8. -/
def eightJob : Job := Job.init Frame.xy (.int 500) (toolDiameter := some 8)

/-- The number of rapid moves in the plane. -/
def rapidCount (cs : List Motion) : ℕ := (cs.filter (fun c => decide (c.kind = .rapid))).length

/-- C134 fails for the links of pockets, where the square of a distance is compared with the stepover: with a tool of 8 mm, a pocket of
24 by 24 mm takes a retract and a rapid move to each of its four contours in millimetres, and in inches only to the first. -/
theorem C134_violated_link : ∃ (κ : Units) (eng : Clipper) (j : Job) (f : CqFace) (cs cs' : List Motion),
    κ.c = 10 / 254 ∧ κ.unit = .imperial ∧ ClipperUnits κ j.precision eng ∧ FaceAlike κ j.precision f ∧
    pocket eng exactEq 20 [f] [] {} j = .ok cs ∧ pocket eng exactEq 20 [f.conv κ] [] ({} : PocketArgs) (j.conv κ) = .ok cs' ∧
    rapidCount cs = 4 ∧ rapidCount cs' = 1 := by
  have h : (match pocket boxEngine exactEq 20 [wideFace] [] {} eightJob,
        pocket boxEngine exactEq 20 [wideFace.conv toInches] [] {} (eightJob.conv toInches) with
      | .ok cs, .ok cs' => decide (rapidCount cs = 4 ∧ rapidCount cs' = 1)
      | _, _ => false) = true := by decide +kernel
  cases h1 : pocket boxEngine exactEq 20 [wideFace] [] {} eightJob with
  | error e => rw [h1] at h; cases h
  | ok cs =>
    cases h2 : pocket boxEngine exactEq 20 [wideFace.conv toInches] [] {} (eightJob.conv toInches) with
    | error e => rw [h1, h2] at h; cases h
    | ok cs' =>
      rw [h1, h2] at h
      obtain ⟨h3, h4⟩ := of_decide_eq_true h
      refine ⟨toInches, boxEngine, eightJob, wideFace, cs, cs', by norm_num [toInches], rfl, boxEngine_units _ _, ⟨⟨fun _ => rfl, fun _ => rfl⟩, ?_, ?_⟩,
        h1, h2, h3, h4⟩
      · intro e he
        left
        obtain ⟨x, -, rfl⟩ := List.mem_map.mp he
        rfl
      · simp [wideFace]

end CQ
