import Verif.Proofs.Routers

/-! # C31-C35, C69: plane geometry -/

namespace CQ

/-! ### C31, C32 -/

/-- C31.  For a point and a non-degenerate segment the result is the exact squared distance to a point of the segment
and no point of the segment is closer; a degenerate segment is a division by zero. -/
theorem C31_nearest_on_segment (p v w : Pt) :
    (v ≠ w → ∃ d c, distToSegmentSquared p v w = .ok (d, c) ∧ OnSegment v w c ∧ d = sqDist p c ∧
      ∀ q, OnSegment v w q → d ≤ sqDist p q) ∧
    (v = w → distToSegmentSquared p v w = .error .zeroDivision) := by
  constructor
  · intro h
    obtain ⟨t, t0, t1, h1, h2⟩ := distToSegment_spec (p := p) h
    exact ⟨_, _, h1, ⟨t, t0, t1, rfl⟩, rfl, h2⟩
  · rintro rfl; exact distToSegment_degenerate p v

/-- The nearest point is unique, so C31 determines the result. -/
theorem C31_unique {p v w c c' : Pt} (hc : OnSegment v w c) (hc' : OnSegment v w c')
    (h : ∀ q, OnSegment v w q → sqDist p c ≤ sqDist p q) (h' : ∀ q, OnSegment v w q → sqDist p c' ≤ sqDist p q) :
    c = c' := by
  obtain ⟨s, s0, s1, rfl⟩ := hc
  obtain ⟨t, t0, t1, rfl⟩ := hc'
  have hm := h (v.lerp w ((s + t) / 2)) ⟨_, by linarith, by linarith, rfl⟩
  have he : sqDist p (v.lerp w s) = sqDist p (v.lerp w t) :=
    le_antisymm (h _ ⟨t, t0, t1, rfl⟩) (h' _ ⟨s, s0, s1, rfl⟩)
  have hpar : sqDist p (v.lerp w s) + sqDist p (v.lerp w t) =
      2 * sqDist p (v.lerp w ((s + t) / 2)) + (s - t) * (s - t) / 2 * sqDist v w := by
    unfold sqDist Pt.lerp; ring
  have hz : (s - t) * (s - t) / 2 * sqDist v w = 0 := by
    have := mul_nonneg (div_nonneg (mul_self_nonneg (s - t)) (by norm_num : (0:ℚ) ≤ 2)) (sqDist_nonneg v w)
    linarith
  rcases mul_eq_zero.mp hz with h1 | h1
  · have : s - t = 0 := by
      have : (s - t) * (s - t) = 0 := by linarith
      exact mul_self_eq_zero.mp this
    rw [show s = t by linarith]
  · rw [sqDist_eq_zero.mp h1]; ext <;> simp [Pt.lerp]

example : distToSegmentSquared ⟨1, 2⟩ ⟨0, 0⟩ ⟨4, 0⟩ = .ok (4, ⟨1, 0⟩) := by decide +kernel

/-- C32.  On a path with at least one segment and without repeated points the query succeeds; it reports a point on
the segment with the reported index, at the reported fraction of that segment; no point of the path is closer, and
every point of an earlier segment is strictly farther. -/
theorem C32_nearest_on_path (p : Pt) (path : List Pt) (h2 : 2 ≤ path.length)
    (hne : ∀ s ∈ segments path, s.1 ≠ s.2) :
    ∃ n, distanceToPath p path = .ok (some n) ∧ n.dist = sqDist p n.point ∧
      (∃ a b, path[n.index]? = some a ∧ path[n.index + 1]? = some b ∧ 0 ≤ n.param ∧ n.param ≤ 1 ∧
        n.point = a.lerp b n.param) ∧
      (∀ s ∈ segments path, ∀ q, OnSegment s.1 s.2 q → n.dist ≤ sqDist p q) ∧
      (∀ (k : ℕ) a b, k < n.index → path[k]? = some a → path[k + 1]? = some b → ∀ q, OnSegment a b q →
        n.dist < sqDist p q) := by
  obtain ⟨r, hr, hs⟩ := distanceToPathFrom_spec p path [] none hne rfl
  cases r with
  | none =>
    simp only [List.nil_append] at hs
    have := congrArg List.length hs
    rw [segments_length] at this
    simp at this
    omega
  | some n =>
    simp only [List.nil_append] at hs
    obtain ⟨a, b, h3, h4⟩ := hs.at_index
    rw [segments_get] at h3
    refine ⟨n, hr, hs.dist, ⟨a, b, h3.1, h3.2, hs.param0, hs.param1, h4⟩, ?_, ?_⟩
    · rintro ⟨a', b'⟩ hm q hq
      obtain ⟨k, hk⟩ := List.getElem?_of_mem hm
      exact hs.min k a' b' hk q hq
    · intro k a' b' hk h5 h6 q hq
      exact hs.first k a' b' hk (segments_get.mpr ⟨h5, h6⟩) q hq

/-- C32, remaining cases: a repeated point is an error, a path without segments has no nearest point. -/
theorem C32_other_paths (p : Pt) (path : List Pt) :
    ((∃ s ∈ segments path, s.1 = s.2) → distanceToPath p path = .error .zeroDivision) ∧
    (path.length ≤ 1 → distanceToPath p path = .ok none) := by
  refine ⟨distanceToPathFrom_degenerate p path 0 none, ?_⟩
  intro h
  cases path with
  | nil => rfl
  | cons a rest => cases rest with
    | nil => rfl
    | cons b rest => simp at h

example : ∀ s ∈ segments [⟨0, 0⟩, ⟨4, 0⟩, ⟨4, 4⟩, ⟨0, 0⟩], s.1 ≠ s.2 := by decide

/-! ### C33 -/

/-- C33.  Re-starting a closed contour at vertex `i` gives a closed contour starting at vertex `i` whose sequence of
segments is that of the contour, rotated by `i`. -/
theorem C33_rotation {path : List Pt} {i : ℕ} (hcl : IsClosedPath path) (hi : i + 1 < path.length) :
    (shiftPolygon path i).head? = path[i]? ∧ IsClosedPath (shiftPolygon path i) ∧
      (shiftPolygon path i).length = path.length ∧
      segments (shiftPolygon path i) = (segments path).drop i ++ (segments path).take i := by
  obtain ⟨v, mid, rfl⟩ := closed_form hcl (by omega)
  have hk : i ≤ mid.length := by simp at hi; omega
  rw [shift_head]
  obtain ⟨l, r, rfl, rfl⟩ : ∃ l r, mid = l ++ r ∧ l.length = i :=
    ⟨mid.take i, mid.drop i, (List.take_append_drop i mid).symm, by simp [hk]⟩
  obtain ⟨l', u, hl⟩ : ∃ l' u, v :: l = l' ++ [u] :=
    ⟨(v :: l).dropLast, (v :: l).getLast (by simp), (List.dropLast_append_getLast _).symm⟩
  have hl' : l'.length = l.length := by
    have := congrArg List.length hl; simp at this; omega
  have e1 : (v :: (l ++ r)).drop l.length = u :: r := by
    rw [← List.cons_append, hl, ← hl']; simp
  have e2 : (l ++ r).take l.length = l := by simp
  have e3 : v :: (l ++ r ++ [v]) = l' ++ u :: (r ++ [v]) := by
    rw [List.append_assoc, ← List.cons_append, hl]; simp
  rw [e1, e2]
  refine ⟨?_, ⟨by simp, ?_⟩, ?_, ?_⟩
  · rw [e3, ← hl', List.getElem?_append_right le_rfl]; simp
  · rw [hl, ← List.append_assoc, List.getLast?_concat]; rfl
  · simp; omega
  · rw [e3, segments_append l' u]
    have hlen : (segments (l' ++ [u])).length = l.length := by rw [segments_length]; simp [hl']
    rw [← hlen, List.drop_left, List.take_left]
    rw [show u :: r ++ v :: l = (u :: r) ++ v :: l from rfl, segments_append, hl]
    rfl

example : IsClosedPath [⟨0, 0⟩, ⟨4, 0⟩, ⟨4, 4⟩, ⟨0, 0⟩] ∧ 1 + 1 < [(⟨0, 0⟩ : Pt), ⟨4, 0⟩, ⟨4, 4⟩, ⟨0, 0⟩].length := by
  unfold IsClosedPath; decide

/-! ### C34 -/

/-- C34.  A number is a multiple of the tool radius, a pair adds a distance, and `None` is the default multiplier (or 0
if the operation gives none). -/
theorem C34_offsets (r m d k : ℚ) (default : Option ℚ) :
    calculateOffset r (some (.mult m)) default = m * r ∧
      calculateOffset r (some (.multDist m d)) default = m * r + d ∧
      calculateOffset r none (some k) = k * r ∧ calculateOffset r none none = 0 := by
  refine ⟨?_, ?_, ?_, ?_⟩ <;> simp [calculateOffset] <;> ring

/-! ### C35 -/

/-- C35.  An arc through three points at one height is reported clockwise exactly when start, mid and end turn
clockwise; if they are not collinear, travelling the other way gives the opposite answer; a different height of
the mid point is refused. -/
theorem C35_three_points (s m e : Vec) :
    (s.z = m.z → isArcClockwise s m e = .ok (decide (orient ⟨s.x, s.y⟩ ⟨m.x, m.y⟩ ⟨e.x, e.y⟩ < 0))) ∧
      (s.z = m.z → e.z = m.z → orient ⟨s.x, s.y⟩ ⟨m.x, m.y⟩ ⟨e.x, e.y⟩ ≠ 0 →
        ∃ b, isArcClockwise s m e = .ok b ∧ isArcClockwise e m s = .ok !b) ∧
      (s.z ≠ m.z → isArcClockwise s m e = .error .notImplemented) := by
  have key : ∀ s m e : Vec, s.z = m.z →
      isArcClockwise s m e = .ok (decide (orient ⟨s.x, s.y⟩ ⟨m.x, m.y⟩ ⟨e.x, e.y⟩ < 0)) := by
    intro s m e h
    unfold isArcClockwise
    rw [if_neg (by simp [h])]
    simp only [Except.ok.injEq, orient]
    exact decide_eq_decide.mpr ⟨fun h => by linarith, fun h => by linarith⟩
  refine ⟨key s m e, ?_, ?_⟩
  · intro h1 h2 h3
    refine ⟨_, key s m e h1, ?_⟩
    rw [key e m s h2]
    congr 1
    have : orient ⟨e.x, e.y⟩ ⟨m.x, m.y⟩ ⟨s.x, s.y⟩ = - orient ⟨s.x, s.y⟩ ⟨m.x, m.y⟩ ⟨e.x, e.y⟩ := by
      unfold orient; ring
    rw [this]
    rcases lt_or_gt_of_ne h3 with h | h
    · have h4 : ¬ (-orient ⟨s.x, s.y⟩ ⟨m.x, m.y⟩ ⟨e.x, e.y⟩ < 0) := by linarith
      rw [decide_eq_false h4, decide_eq_true h]; rfl
    · have h4 : (-orient ⟨s.x, s.y⟩ ⟨m.x, m.y⟩ ⟨e.x, e.y⟩ < 0) := by linarith
      have h5 : ¬ (orient ⟨s.x, s.y⟩ ⟨m.x, m.y⟩ ⟨e.x, e.y⟩ < 0) := by linarith
      rw [decide_eq_false h5, decide_eq_true h4]; rfl
  · intro h
    unfold isArcClockwise
    rw [if_pos h]

/-- Vector product. -/
def Vec.cross (a b : Vec) : Vec := ⟨a.y * b.z - a.z * b.y, a.z * b.x - a.x * b.z, a.x * b.y - a.y * b.x⟩

/-- C35 for the direction test the router uses.  On a circle with normal `n` the curve runs in direction `n × r` at
radius vector `r` (perpendicular to `n`), and a reversed edge is travelled the other way.  Seen from above the edge
is reported clockwise exactly when the travel direction turns clockwise around the centre. -/
theorem C35_edge_direction (n r : Vec) (reversed : Bool) (hr : n.dot r = 0) (hr0 : r ≠ Vec.zero) :
    let travel := Vec.smul (if reversed then -1 else 1) (n.cross r)
    (n.z ≠ 0 → ∃ b, isArcClockwise2 n reversed = .ok b ∧ (b = true ↔ (r.cross travel).z < 0)) ∧
      (n.z = 0 → isArcClockwise2 n reversed = .error .runtimeError) := by
  intro travel
  have hpos : 0 < r.dot r := by
    rcases lt_or_eq_of_le (show 0 ≤ r.dot r by
      unfold Vec.dot; nlinarith [mul_self_nonneg r.x, mul_self_nonneg r.y, mul_self_nonneg r.z]) with h | h
    · exact h
    · exfalso; apply hr0
      unfold Vec.dot at h
      have hx := mul_self_nonneg r.x
      have hy := mul_self_nonneg r.y
      have hz := mul_self_nonneg r.z
      ext
      · exact mul_self_eq_zero.mp (by linarith)
      · exact mul_self_eq_zero.mp (by linarith)
      · exact mul_self_eq_zero.mp (by linarith)
  have hz : (r.cross travel).z = (if reversed then -1 else 1) * (n.z * r.dot r) := by
    have : (r.cross (n.cross r)).z = n.z * r.dot r - r.z * n.dot r := by
      unfold Vec.cross Vec.dot; ring
    rw [hr, mul_zero, sub_zero] at this
    rw [← this]
    simp only [travel, Vec.smul, Vec.cross]; ring
  constructor
  · intro hn
    unfold isArcClockwise2
    rw [if_neg hn, hz]
    cases reversed
    · refine ⟨_, rfl, ?_⟩
      simp only [decide_eq_true_eq, Bool.false_eq_true, if_false, one_mul]
      constructor
      · intro h; exact mul_neg_of_neg_of_pos h hpos
      · intro h; by_contra hc; exact absurd h (not_lt.mpr (mul_nonneg (not_lt.mp hc) hpos.le))
    · refine ⟨_, rfl, ?_⟩
      simp only [decide_eq_true_eq, if_true, neg_mul, one_mul, neg_lt_zero]
      constructor
      · intro h; exact mul_pos h hpos
      · intro h; by_contra hc
        exact absurd h (not_lt.mpr (mul_nonpos_of_nonpos_of_nonneg (not_lt.mp hc) hpos.le))
  · intro hn; unfold isArcClockwise2; rw [if_pos hn]

example : (⟨0, 0, 1⟩ : Vec).dot ⟨3, 4, 0⟩ = 0 ∧ (⟨3, 4, 0⟩ : Vec) ≠ Vec.zero := by decide +kernel

/-! ### C69 -/

/-- C69.  Clockwise exactly when an odd number of flags are set, i.e. the exclusive or of the three; flipping any
flag flips the result. -/
theorem C69_parity (a b c : Bool) : cutClockwise a b c = (a ^^ b ^^ c) ∧
    cutClockwise (!a) b c = !cutClockwise a b c ∧ cutClockwise a (!b) c = !cutClockwise a b c ∧
    cutClockwise a b (!c) = !cutClockwise a b c := by
  cases a <;> cases b <;> cases c <;> decide

end CQ
