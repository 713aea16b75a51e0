import Verif.Props.Coverage

/-! # An engine for rectangles that meets the contracts of C89 and C90, and a pocket with an island -/

namespace CQ

/-- The path is a rectangle. -/
def IsRect (path : List Pt) : Prop := ∃ x0 y0 x1 y1, x0 < x1 ∧ y0 < y1 ∧ path = rect x0 y0 x1 y1

/-- The corners, if the path is a rectangle. -/
def rectOf (path : List Pt) : Option (Pt × Pt) :=
  match path with
  | [a, _, c, _, _] => if a.x < c.x ∧ a.y < c.y ∧ path = rect a.x a.y c.x c.y then some (a, c) else none
  | _ => none

theorem rectOf_some {path : List Pt} {a b : Pt} (h : rectOf path = some (a, b)) :
    a.x < b.x ∧ a.y < b.y ∧ path = rect a.x a.y b.x b.y := by
  unfold rectOf at h
  split at h
  · split at h
    · cases h; assumption
    · cases h
  · cases h

theorem rectOf_rect {x0 y0 x1 y1 : ℚ} (hx : x0 < x1) (hy : y0 < y1) : rectOf (rect x0 y0 x1 y1) = some (⟨x0, y0⟩, ⟨x1, y1⟩) := by
  simp [rectOf, rect, hx, hy]

/-- An engine that offsets rectangles, and computes unions and differences of rectangles as long as their outlines do not cross. -/
def boxEngine : Clipper where
  offset path o _ := match rectOf path with
    | some (a, b) => if a.x - o < b.x + o ∧ a.y - o < b.y + o then .ok [rect (a.x - o) (a.y - o) (b.x + o) (b.y + o)] else .ok []
    | none => .ok []
  union ss cs := match ss, cs with
    | [s], [] => match rectOf s with
        | some _ => .ok [.node s []]
        | none => .error .valueError
    | _, _ => .error .valueError
  difference ss cs := match ss, cs with
    | [s], [] => match rectOf s with
        | some _ => .ok [.node s []]
        | none => .error .valueError
    | [s], [c] => match rectOf s, rectOf c with
        | some (a, b), some (u, v) =>
            if a.x < u.x ∧ a.y < u.y ∧ v.x < b.x ∧ v.y < b.y then .ok [.node s [.node c []]]
            else if u.x ≤ a.x ∧ u.y ≤ a.y ∧ b.x ≤ v.x ∧ b.y ≤ v.y then .ok []
            else .error .valueError
        | _, _ => .error .valueError
    | _, _ => .error .valueError
  contains _ _ := false

theorem IsRect.closed {x0 y0 x1 y1 : ℚ} {q : List Pt} (h : ClosedAs (rect x0 y0 x1 y1) q) : q = rect x0 y0 x1 y1 := by
  obtain ⟨-, h | ⟨x, h1, h2, -⟩, -⟩ := h
  · exact h
  · simp only [rect, List.head?_cons, Option.some.injEq] at h1
    subst h1
    exact absurd rfl h2

theorem boxEngine_offset {path : List Pt} {o : ℚ} {k : ℕ} {raw : List (List Pt)} (h : boxEngine.offset path o k = .ok raw) :
    (rectOf path = none ∧ raw = []) ∨ ∃ a b : Pt, rectOf path = some (a, b) ∧
      ((a.x - o < b.x + o ∧ a.y - o < b.y + o ∧ raw = [rect (a.x - o) (a.y - o) (b.x + o) (b.y + o)]) ∨
        (¬ (a.x - o < b.x + o ∧ a.y - o < b.y + o) ∧ raw = [])) := by
  simp only [boxEngine] at h
  split at h
  · rename_i a b hr
    split at h
    · cases h; exact .inr ⟨a, b, hr, .inl ⟨by tauto, by tauto, rfl⟩⟩
    · cases h; exact .inr ⟨a, b, hr, .inr ⟨by assumption, rfl⟩⟩
  · cases h; exact .inl ⟨by assumption, rfl⟩

theorem boxEngine_union {ss cs : List (List Pt)} {tree : List PolyNode} (h : boxEngine.union ss cs = .ok tree) :
    ∃ x0 y0 x1 y1 : ℚ, x0 < x1 ∧ y0 < y1 ∧ ss = [rect x0 y0 x1 y1] ∧ cs = [] ∧ tree = [.node (rect x0 y0 x1 y1) []] := by
  simp only [boxEngine] at h
  split at h
  · split at h
    · rename_i ab hr
      cases h
      obtain ⟨h1, h2, rfl⟩ := rectOf_some (a := ab.1) (b := ab.2) hr
      exact ⟨_, _, _, _, h1, h2, rfl, rfl, rfl⟩
    · cases h
  · cases h

theorem boxEngine_difference {ss cs : List (List Pt)} {tree : List PolyNode} (h : boxEngine.difference ss cs = .ok tree) :
    ∃ x0 y0 x1 y1 : ℚ, x0 < x1 ∧ y0 < y1 ∧ ss = [rect x0 y0 x1 y1] ∧
      ((cs = [] ∧ tree = [.node (rect x0 y0 x1 y1) []]) ∨
        ∃ u0 v0 u1 v1 : ℚ, u0 < u1 ∧ v0 < v1 ∧ cs = [rect u0 v0 u1 v1] ∧
          ((x0 < u0 ∧ y0 < v0 ∧ u1 < x1 ∧ v1 < y1 ∧ tree = [.node (rect x0 y0 x1 y1) [.node (rect u0 v0 u1 v1) []]]) ∨
            (u0 ≤ x0 ∧ v0 ≤ y0 ∧ x1 ≤ u1 ∧ y1 ≤ v1 ∧ tree = []))) := by
  simp only [boxEngine] at h
  split at h
  · split at h
    · rename_i ab hr
      cases h
      obtain ⟨h1, h2, rfl⟩ := rectOf_some (a := ab.1) (b := ab.2) hr
      exact ⟨_, _, _, _, h1, h2, rfl, .inl ⟨rfl, rfl⟩⟩
    · cases h
  · split at h
    · rename_i hr1 hr2
      obtain ⟨h1, h2, rfl⟩ := rectOf_some hr1
      obtain ⟨h3, h4, rfl⟩ := rectOf_some hr2
      split at h
      · cases h
        exact ⟨_, _, _, _, h1, h2, rfl, .inr ⟨_, _, _, _, h3, h4, rfl, .inl ⟨by tauto, by tauto, by tauto, by tauto, rfl⟩⟩⟩
      · split at h
        · cases h
          exact ⟨_, _, _, _, h1, h2, rfl, .inr ⟨_, _, _, _, h3, h4, rfl, .inr ⟨by tauto, by tauto, by tauto, by tauto, rfl⟩⟩⟩
        · cases h
    · cases h
  · cases h

theorem below_ring {c d : List Pt} {k : PolyNode} (h : (PolyNode.node c [.node d []]).Below k) :
    k = .node c [.node d []] ∨ k = .node d [] := by
  cases h with
  | self => exact .inl rfl
  | child hm hb =>
    simp only [PolyNode.childs, List.mem_singleton] at hm
    subst hm
    exact .inr (below_leaf hb)

theorem treeRegion_leaf {c : List Pt} {p : Pt} : TreeRegion [.node c []] p ↔ Inside c p := by
  simp [TreeRegion, NodeRegion]

theorem treeRegion_ring {c d : List Pt} {p : Pt} : TreeRegion [.node c [.node d []]] p ↔ Inside c p ∧ ¬ Inside d p := by
  simp [TreeRegion, NodeRegion]

theorem insideCount_one {c : List Pt} {p : Pt} : insideCount [c] p % 2 = 1 ↔ Inside c p := by
  by_cases h : Inside c p <;> simp [insideCount, h]

theorem insideCount_one_le {c : List Pt} {p : Pt} : insideCount [c] p ≤ 1 := by
  by_cases h : Inside c p <;> simp [insideCount, h]

theorem boxEngine_near : ClipperNearOn IsRect 0 boxEngine where
  nonneg := le_rfl
  kind := by
    intro ss cs tree _ h n hn q hq
    obtain ⟨x0, y0, x1, y1, hx, hy, -, -, rfl⟩ := boxEngine_union h
    rw [List.mem_singleton] at hn
    subst hn
    exact ⟨x0, y0, x1, y1, hx, hy, IsRect.closed hq⟩
  union := by
    intro ss cs tree _ h r hr p hp
    obtain ⟨x0, y0, x1, y1, hx, hy, rfl, rfl, rfl⟩ := boxEngine_union h
    rw [add_zero] at hp
    refine ⟨?_, ?_, ?_⟩
    · intro n hn k hk
      rw [List.mem_singleton] at hn
      subst hn
      rw [below_leaf hk]
      exact hp _ (by simp [PolyNode.contour])
    · exact insideCount_one_le
    · rw [treeRegion_leaf, insideCount_one]
      simp [insideCount]
  difference := by
    intro ss cs tree _ h r hr p hp
    obtain ⟨x0, y0, x1, y1, hx, hy, rfl, ⟨rfl, rfl⟩ | ⟨u0, v0, u1, v1, hu, hv, rfl, ⟨a1, a2, a3, a4, rfl⟩ | ⟨a1, a2, a3, a4, rfl⟩⟩⟩ :=
      boxEngine_difference h
    · rw [add_zero] at hp
      refine ⟨?_, insideCount_one_le, ?_⟩
      · intro n hn k hk
        rw [List.mem_singleton] at hn
        subst hn
        rw [below_leaf hk]
        exact hp _ (by simp [PolyNode.contour])
      · rw [treeRegion_leaf, insideCount_one]
        simp [insideCount]
    · rw [add_zero] at hp
      refine ⟨?_, insideCount_one_le, ?_⟩
      · intro n hn k hk
        rw [List.mem_singleton] at hn
        subst hn
        rcases below_ring hk with rfl | rfl
        · exact hp _ (by simp [PolyNode.contour])
        · exact hp _ (by simp [PolyNode.contour])
      · rw [treeRegion_ring, insideCount_one, insideCount_one]
    · refine ⟨by simp, by simp [insideCount], ?_⟩
      rw [insideCount_one, insideCount_one, inside_rect hx.le hy.le, inside_rect hu.le hv.le]
      constructor
      · rintro ⟨n, hn, -⟩; simp at hn
      · rintro ⟨⟨⟨b1, b2⟩, b3, b4⟩, hno⟩
        exact absurd ⟨⟨a1.trans b1, b2.trans_le a3⟩, a2.trans b3, b4.trans_le a4⟩ hno

theorem boxEngine_kind : MakesKind IsRect boxEngine where
  offset := by
    intro path o k raw h q hq q' hc
    rcases boxEngine_offset h with ⟨-, rfl⟩ | ⟨a, b, -, ⟨h1, h2, rfl⟩ | ⟨-, rfl⟩⟩
    · simp at hq
    · rw [List.mem_singleton] at hq
      subst hq
      exact ⟨_, _, _, _, h1, h2, IsRect.closed hc⟩
    · simp at hq
  difference := by
    intro ss cs tree h n hn k hk q hq
    obtain ⟨x0, y0, x1, y1, hx, hy, rfl, ⟨rfl, rfl⟩ | ⟨u0, v0, u1, v1, hu, hv, rfl, ⟨a1, a2, a3, a4, rfl⟩ | ⟨a1, a2, a3, a4, rfl⟩⟩⟩ :=
      boxEngine_difference h
    · rw [List.mem_singleton] at hn
      subst hn
      rw [below_leaf hk] at hq
      exact ⟨_, _, _, _, hx, hy, IsRect.closed hq⟩
    · rw [List.mem_singleton] at hn
      subst hn
      rcases below_ring hk with rfl | rfl
      · exact ⟨_, _, _, _, hx, hy, IsRect.closed hq⟩
      · exact ⟨_, _, _, _, hu, hv, IsRect.closed hq⟩
    · simp at hn

theorem rect_segments {x0 y0 x1 y1 : ℚ} (hx : x0 < x1) (hy : y0 < y1) : ∀ s ∈ segments (rect x0 y0 x1 y1), s.1 ≠ s.2 := by
  intro s hs
  simp only [rect, segments, List.mem_cons, List.not_mem_nil, or_false] at hs
  rcases hs with rfl | rfl | rfl | rfl <;> simp [hx.ne, hx.ne', hy.ne, hy.ne']

theorem boxEngine_noRepeats : NoRepeats boxEngine where
  offset := by
    intro path o k raw h q hq q' hc
    obtain ⟨x0, y0, x1, y1, hx, hy, rfl⟩ := boxEngine_kind.offset _ _ _ _ h q hq q' hc
    exact rect_segments hx hy
  difference := by
    intro ss cs tree h n hn q' hc
    obtain ⟨x0, y0, x1, y1, hx, hy, rfl⟩ := boxEngine_kind.difference _ _ _ h n hn n (.self n) q' hc
    exact rect_segments hx hy

theorem boxEngine_shrinks {k : ℕ} : ShrinksNear IsRect 0 k boxEngine where
  keeps := by
    rintro _ s raw ⟨x0, y0, x1, y1, hx, hy, rfl⟩ hs h p hp hfar
    rw [inside_rect hx.le hy.le] at hp
    obtain ⟨⟨p1, p2⟩, p3, p4⟩ := hp
    rw [add_zero] at hfar
    have c1 : x0 + s < p.x := by
      have := hfar ⟨x0, p.y⟩ ((onOutline_rect hx.le hy.le _).mpr (.inr ⟨⟨p3, p4.le⟩, .inl rfl⟩))
      simp only [sqDist, sub_self] at this
      nlinarith
    have c2 : p.x < x1 - s := by
      have := hfar ⟨x1, p.y⟩ ((onOutline_rect hx.le hy.le _).mpr (.inr ⟨⟨p3, p4.le⟩, .inr rfl⟩))
      simp only [sqDist, sub_self] at this
      nlinarith
    have c3 : y0 + s < p.y := by
      have := hfar ⟨p.x, y0⟩ ((onOutline_rect hx.le hy.le _).mpr (.inl ⟨⟨p1, p2.le⟩, .inl rfl⟩))
      simp only [sqDist, sub_self] at this
      nlinarith
    have c4 : p.y < y1 - s := by
      have := hfar ⟨p.x, y1⟩ ((onOutline_rect hx.le hy.le _).mpr (.inl ⟨⟨p1, p2.le⟩, .inr rfl⟩))
      simp only [sqDist, sub_self] at this
      nlinarith
    rcases boxEngine_offset h with ⟨h1, -⟩ | ⟨a, b, h1, h2⟩
    · rw [rectOf_rect hx hy] at h1; cases h1
    · rw [rectOf_rect hx hy] at h1
      cases h1
      simp only [sub_neg_eq_add, ← sub_eq_add_neg] at h2
      rcases h2 with ⟨h3, h4, rfl⟩ | ⟨h3, -⟩
      · have : Inside (rect (x0 + s) (y0 + s) (x1 - s) (y1 - s)) p :=
          (inside_rect h3.le h4.le p).mpr ⟨⟨c1.le, c2⟩, c3.le, c4⟩
        simp [insideCount, this]
      · exact absurd ⟨c1.trans c2, c3.trans c4⟩ h3
  near := by
    rintro _ s raw ⟨x0, y0, x1, y1, hx, hy, rfl⟩ hs h q hq x hxq
    rcases boxEngine_offset h with ⟨h1, -⟩ | ⟨a, b, h1, h2⟩
    · rw [rectOf_rect hx hy] at h1; cases h1
    · rw [rectOf_rect hx hy] at h1
      cases h1
      simp only [sub_neg_eq_add, ← sub_eq_add_neg] at h2
      rcases h2 with ⟨h3, h4, rfl⟩ | ⟨-, rfl⟩
      · rw [List.mem_singleton] at hq
        subst hq
        rw [onOutline_rect h3.le h4.le] at hxq
        rw [not_farFrom, add_zero]
        have side : ∀ q : Pt, OnOutline (rect x0 y0 x1 y1) q → sqDist x q ≤ s ^ 2 →
            ∃ q, OnOutline (rect x0 y0 x1 y1) q ∧ sqDist x q ≤ s ^ 2 := fun q h1 h2 => ⟨q, h1, h2⟩
        rcases hxq with ⟨⟨b1, b2⟩, b3 | b3⟩ | ⟨⟨b1, b2⟩, b3 | b3⟩
        · exact side ⟨x.x, y0⟩ ((onOutline_rect hx.le hy.le _).mpr (.inl ⟨⟨by simp; linarith, by simp; linarith⟩, .inl rfl⟩))
            (by simp only [sqDist, b3]; apply le_of_eq; ring)
        · exact side ⟨x.x, y1⟩ ((onOutline_rect hx.le hy.le _).mpr (.inl ⟨⟨by simp; linarith, by simp; linarith⟩, .inr rfl⟩))
            (by simp only [sqDist, b3]; apply le_of_eq; ring)
        · exact side ⟨x0, x.y⟩ ((onOutline_rect hx.le hy.le _).mpr (.inr ⟨⟨by simp; linarith, by simp; linarith⟩, .inl rfl⟩))
            (by simp only [sqDist, b3]; apply le_of_eq; ring)
        · exact side ⟨x1, x.y⟩ ((onOutline_rect hx.le hy.le _).mpr (.inr ⟨⟨by simp; linarith, by simp; linarith⟩, .inr rfl⟩))
            (by simp only [sqDist, b3]; apply le_of_eq; ring)
      · simp at hq

theorem eq_of_sqDist {p x : Pt} (h : sqDist p x ≤ 0 ^ 2) : p = x := by
  by_contra hne
  have := sqDist_pos hne
  simp at h
  linarith

theorem boxEngine_inside {k : ℕ} : StaysInside IsRect 0 k boxEngine where
  nonneg := le_rfl
  shrink := by
    rintro _ s raw ⟨x0, y0, x1, y1, hx, hy, rfl⟩ hs h q hq x hxq p hp
    rw [eq_of_sqDist hp]
    rw [mul_zero] at hs
    rcases boxEngine_offset h with ⟨h1, -⟩ | ⟨a, b, h1, h2⟩
    · rw [rectOf_rect hx hy] at h1; cases h1
    · rw [rectOf_rect hx hy] at h1
      cases h1
      simp only [sub_neg_eq_add, ← sub_eq_add_neg] at h2
      rcases h2 with ⟨h3, h4, rfl⟩ | ⟨-, rfl⟩
      · rw [List.mem_singleton] at hq
        subst hq
        rw [onOutline_rect h3.le h4.le, inside_rect h3.le h4.le] at hxq
        rw [inside_rect hx.le hy.le]
        rcases hxq with ⟨⟨b1, b2⟩, b3, b4⟩ | ⟨⟨b1, b2⟩, b3 | b3⟩ | ⟨⟨b1, b2⟩, b3 | b3⟩ <;>
          refine ⟨⟨?_, ?_⟩, ?_, ?_⟩ <;> linarith
      · simp at hq
  within := by
    intro _ _ ss cs tree _ _ _ _ h n hn p hp
    obtain ⟨x0, y0, x1, y1, hx, hy, rfl, ⟨rfl, rfl⟩ | ⟨u0, v0, u1, v1, hu, hv, rfl, ⟨a1, a2, a3, a4, rfl⟩ | ⟨a1, a2, a3, a4, rfl⟩⟩⟩ :=
      boxEngine_difference h
    · rw [List.mem_singleton] at hn
      subst hn
      exact ⟨_, by simp [PolyNode.contour], p, hp, by simp [sqDist]⟩
    · rw [List.mem_singleton] at hn
      subst hn
      exact ⟨_, by simp [PolyNode.contour], p, hp, by simp [sqDist]⟩
    · simp at hn
  siblings := by
    intro ss cs tree _ h n hn p _
    obtain ⟨x0, y0, x1, y1, hx, hy, rfl, ⟨rfl, rfl⟩ | ⟨u0, v0, u1, v1, hu, hv, rfl, ⟨a1, a2, a3, a4, rfl⟩ | ⟨a1, a2, a3, a4, rfl⟩⟩⟩ :=
      boxEngine_difference h
    · rw [List.mem_singleton] at hn
      subst hn
      simp [PolyNode.childs, insideCount]
    · rw [List.mem_singleton] at hn
      subst hn
      exact insideCount_one_le
    · simp at hn
  outside := by
    intro ss cs tree _ h n hn p hp hfar
    obtain ⟨x0, y0, x1, y1, hx, hy, rfl, ⟨rfl, rfl⟩ | ⟨u0, v0, u1, v1, hu, hv, rfl, ⟨a1, a2, a3, a4, rfl⟩ | ⟨a1, a2, a3, a4, rfl⟩⟩⟩ :=
      boxEngine_difference h
    · rfl
    · rw [List.mem_singleton] at hn
      subst hn
      have : ¬ Inside (rect u0 v0 u1 v1) p := by
        rw [inside_rect hu.le hv.le]
        rintro ⟨⟨b1, b2⟩, b3, b4⟩
        rcases (onOutline_rect hx.le hy.le p).mp hp with ⟨-, c | c⟩ | ⟨-, c | c⟩ <;> linarith
      simp [insideCount, this]
    · simp at hn

/-- A square pocket of side 10 with a square island of side 2 in it, a tool of radius 1 and stepover 3/2. -/
def ringPocket : Except Err (List Motion) :=
  pocketClipper boxEngine 9 demoInit [⟨rect 0 0 10 10, [rect 4 4 6 6], -1⟩] [] (-1) 1 1 (-1) (3/2) none

def ringRegion : PathFace := ⟨rect 1 1 9 9, [rect 3 3 7 7], -1⟩

theorem ringPocket_runs : ∃ cs, ringPocket = .ok cs ∧ (cs.filter (fun c => decide (c.kind = .cut))).length = 9 := by
  have : (match ringPocket with
      | .ok cs => decide ((cs.filter (fun c => decide (c.kind = .cut))).length = 9) | .error _ => false) = true := by
    decide +kernel
  cases h : ringPocket with
  | error e => rw [h] at this; cases this
  | ok cs =>
    rw [h] at this
    exact ⟨cs, rfl, by simpa using this⟩

theorem ringPocket_areas : mapE (fun f => offsetPolyface boxEngine f (-1) 1 demoInit.precision)
    [⟨rect 0 0 10 10, [rect 4 4 6 6], -1⟩] = .ok [[ringRegion]] := by
  have : (match mapE (fun f => offsetPolyface boxEngine f (-1) 1 demoInit.precision)
      [⟨rect 0 0 10 10, [rect 4 4 6 6], -1⟩] with | .ok a => decide (a = [[ringRegion]]) | .error _ => false) = true := by
    decide +kernel
  cases h : mapE (fun f => offsetPolyface boxEngine f (-1) 1 demoInit.precision) [⟨rect 0 0 10 10, [rect 4 4 6 6], -1⟩] with
  | error e => rw [h] at this; cases this
  | ok cs =>
    rw [h] at this
    rw [of_decide_eq_true this]

theorem ringPocket_regions : buildPocketOps boxEngine [ringRegion] [] = .ok [ringRegion] := by
  have : (match buildPocketOps boxEngine [ringRegion] [] with
      | .ok a => decide (a = [ringRegion]) | .error _ => false) = true := by
    decide +kernel
  cases h : buildPocketOps boxEngine [ringRegion] [] with
  | error e => rw [h] at this; cases this
  | ok cs =>
    rw [h] at this
    rw [of_decide_eq_true this]

/-- C89 for this pocket: every point between the outline and the island (both moved by the tool radius) is within 3/2 of a cut. -/
example : ∃ cs, ringPocket = .ok cs ∧ ∀ p : Pt, ((1 ≤ p.x ∧ p.x < 9) ∧ 1 ≤ p.y ∧ p.y < 9) →
    (p.x < 3 ∨ 7 < p.x ∨ p.y < 3 ∨ 7 < p.y) → ∃ c ∈ cs, ∃ q, CutsThrough (-1) q c ∧ sqDist p q ≤ (3 / 2) ^ 2 := by
  obtain ⟨cs, h, -⟩ := ringPocket_runs
  refine ⟨cs, h, fun p hp hout => ?_⟩
  obtain ⟨areas, avoids, regions, h1, h2, h3, h4, -⟩ := C89_cleared boxEngine_near boxEngine_kind boxEngine_shrinks
    boxEngine_noRepeats h (by decide +kernel) (by norm_num)
  rw [ringPocket_areas] at h1
  cases h1
  cases h2
  rw [show [[ringRegion]].flatten = [ringRegion] from rfl, List.flatten_nil, ringPocket_regions] at h3
  cases h3
  have := h4 ringRegion (by simp) p ⟨(inside_rect (by norm_num) (by norm_num) p).mpr hp, ?_⟩ ?_
  · simpa [ringRegion] using this
  · intro i hi
    simp only [ringRegion, List.mem_singleton] at hi
    subst hi
    rw [inside_rect (by norm_num) (by norm_num)]
    rintro ⟨⟨b1, b2⟩, b3, b4⟩
    rcases hout with h | h | h | h <;> linarith
  · intro i hi
    simp only [ringRegion, List.mem_singleton] at hi
    subst hi
    exact farFrom_rect (by norm_num) (by norm_num) le_rfl (.inr (by simpa using hout))

/-- C90 for this pocket: no contour but the outline itself comes out of the outline. -/
example : ∃ cs, ringPocket = .ok cs ∧ ∃ contours, Unfolds (Follows boxEngine ringRegion (3 / 2) demoInit.precision) [rect 1 1 9 9] contours ∧
    ∀ x ∈ contours, x ≠ rect 1 1 9 9 → ∀ p, OnOutline x p → ((1 ≤ p.x ∧ p.x < 9) ∧ 1 ≤ p.y ∧ p.y < 9) := by
  obtain ⟨cs, h, -⟩ := ringPocket_runs
  refine ⟨cs, h, ?_⟩
  obtain ⟨areas, avoids, regions, h1, h2, h3, h4⟩ := C90_contained boxEngine_near boxEngine_kind boxEngine_inside
    boxEngine_noRepeats h (by decide +kernel) (by norm_num)
  rw [ringPocket_areas] at h1
  cases h1
  cases h2
  rw [show [[ringRegion]].flatten = [ringRegion] from rfl, List.flatten_nil, ringPocket_regions] at h3
  cases h3
  obtain ⟨contours, hu, -, hc⟩ := h4 ringRegion (by simp)
  exact ⟨contours, hu, fun x hx hne p hp => (inside_rect (by norm_num) (by norm_num) p).mp ((hc x hx hne).1 p (.inr hp))⟩

end CQ
