import Verif.Model.Geometry
import Mathlib.Tactic.Linarith
import Mathlib.Tactic.FieldSimp
import Mathlib.Tactic.Ring
import Mathlib.Algebra.Order.Field.Basic

/-! # Lemmas about the plane-geometry helpers -/

namespace CQ

theorem dist2_eq (a b : Pt) : dist2 a b = sqDist a b := by unfold dist2 sqDist; ring

theorem sqDist_comm (a b : Pt) : sqDist a b = sqDist b a := by unfold sqDist; ring

theorem segLen_eq (a b : Pt) : segmentLengthSquared a b = sqDist a b := by
  unfold segmentLengthSquared sqDist; ring

theorem sqDist_nonneg (a b : Pt) : 0 ≤ sqDist a b := by
  unfold sqDist; nlinarith [mul_self_nonneg (a.x - b.x), mul_self_nonneg (a.y - b.y)]

theorem sqDist_eq_zero {a b : Pt} : sqDist a b = 0 ↔ a = b := by
  constructor
  · intro h
    unfold sqDist at h
    have hx := mul_self_nonneg (a.x - b.x)
    have hy := mul_self_nonneg (a.y - b.y)
    have h1 : (a.x - b.x) * (a.x - b.x) = 0 := by linarith
    have h2 : (a.y - b.y) * (a.y - b.y) = 0 := by linarith
    ext
    · have := mul_self_eq_zero.mp h1; linarith
    · have := mul_self_eq_zero.mp h2; linarith
  · rintro rfl; unfold sqDist; ring

theorem sqDist_pos {a b : Pt} (h : a ≠ b) : 0 < sqDist a b :=
  lt_of_le_of_ne (sqDist_nonneg a b) (fun e => h (sqDist_eq_zero.mp e.symm))

theorem sqDist_lerp_left (a b : Pt) (t : ℚ) : sqDist a (a.lerp b t) = t * t * sqDist a b := by
  unfold sqDist Pt.lerp; ring

/-- The squared distance to the points of a segment is a quadratic with minimum at the clamped projection. -/
theorem segment_min {p v w : Pt} (h : v ≠ w) :
    let t := max 0 (min 1 (((p.x - v.x) * (w.x - v.x) + (p.y - v.y) * (w.y - v.y)) / sqDist v w))
    ∀ s, 0 ≤ s → s ≤ 1 → sqDist p (v.lerp w t) ≤ sqDist p (v.lerp w s) := by
  intro t s hs0 hs1
  have hL := sqDist_pos h
  set L := sqDist v w with hLdef
  set u := ((p.x - v.x) * (w.x - v.x) + (p.y - v.y) * (w.y - v.y)) / L with hu
  have hdot : (p.x - v.x) * (w.x - v.x) + (p.y - v.y) * (w.y - v.y) = u * L := by
    rw [hu]; field_simp
  have key : ∀ r, sqDist p (v.lerp w r) = sqDist p v - 2 * r * (u * L) + r * r * L := by
    intro r
    rw [← hdot, hLdef]; unfold sqDist Pt.lerp; ring
  rw [key, key]
  have hmul : 0 ≤ L * ((s - t) * (s + t - 2 * u)) → -2 * t * (u * L) + t * t * L ≤ -2 * s * (u * L) + s * s * L := by
    intro hh; nlinarith
  have : 0 ≤ (s - t) * (s + t - 2 * u) := by
    rcases le_total u 0 with h1 | h1
    · have ht : t = 0 := by
        show max 0 (min 1 u) = 0
        rw [max_eq_left]; exact le_trans (min_le_right _ _) h1
      rw [ht]; exact mul_nonneg (by linarith) (by linarith)
    · rcases le_total u 1 with h2 | h2
      · have ht : t = u := by
          show max 0 (min 1 u) = u
          rw [min_eq_right h2, max_eq_right h1]
        rw [ht]
        have : (s - u) * (s + u - 2 * u) = (s - u) * (s - u) := by ring
        rw [this]; exact mul_self_nonneg _
      · have ht : t = 1 := by
          show max 0 (min 1 u) = 1
          rw [min_eq_left h2]; norm_num
        rw [ht]
        exact mul_nonneg_of_nonpos_of_nonpos (by linarith) (by linarith)
  have := hmul (mul_nonneg hL.le this)
  linarith

/-- What the nearest point of one segment is. -/
theorem distToSegment_spec {p v w : Pt} (h : v ≠ w) :
    ∃ t, 0 ≤ t ∧ t ≤ 1 ∧ distToSegmentSquared p v w = .ok (sqDist p (v.lerp w t), v.lerp w t) ∧
      ∀ q, OnSegment v w q → sqDist p (v.lerp w t) ≤ sqDist p q := by
  have hL : sqDist v w ≠ 0 := (sqDist_pos h).ne'
  refine ⟨max 0 (min 1 (((p.x - v.x) * (w.x - v.x) + (p.y - v.y) * (w.y - v.y)) / sqDist v w)), le_max_left _ _, ?_, ?_, ?_⟩
  · exact max_le (by norm_num) (min_le_left _ _)
  · unfold distToSegmentSquared
    simp only [dist2_eq, if_neg hL]
    rfl
  · rintro q ⟨s, h0, h1, rfl⟩
    exact segment_min h s h0 h1

theorem distToSegment_degenerate (p v : Pt) : distToSegmentSquared p v v = .error .zeroDivision := by
  unfold distToSegmentSquared
  rw [dist2_eq, if_pos (sqDist_eq_zero.mpr rfl)]

/-- Properties of the best candidate so far, after all segments below `i` of `segs`. -/
structure BestOf (p : Pt) (segs : List (Pt × Pt)) (n : Nearest) : Prop where
  at_index : ∃ a b, segs[n.index]? = some (a, b) ∧ n.point = a.lerp b n.param
  param0 : 0 ≤ n.param
  param1 : n.param ≤ 1
  dist : n.dist = sqDist p n.point
  min : ∀ (k : ℕ) a b, segs[k]? = some (a, b) → ∀ q, OnSegment a b q → n.dist ≤ sqDist p q
  first : ∀ (k : ℕ) a b, k < n.index → segs[k]? = some (a, b) → ∀ q, OnSegment a b q → n.dist < sqDist p q

/-- The parameter computed with squared lengths and a square root is the fraction of the segment. -/
theorem param_eq {a b : Pt} (h : a ≠ b) {t : ℚ} (ht : 0 ≤ t) :
    Rat.sqrt (segmentLengthSquared a (a.lerp b t) / segmentLengthSquared a b) = t := by
  have hL : sqDist a b ≠ 0 := (sqDist_pos h).ne'
  rw [segLen_eq, segLen_eq, sqDist_lerp_left, mul_div_assoc, div_self hL, mul_one, Rat.sqrt_eq, abs_of_nonneg ht]

theorem distanceToPathFrom_spec (p : Pt) (path : List Pt) (pre : List (Pt × Pt)) (best : Option Nearest)
    (hne : ∀ s ∈ segments path, s.1 ≠ s.2)
    (hb : match best with | none => pre = [] | some n => BestOf p pre n) :
    ∃ r, distanceToPathFrom p pre.length best path = .ok r ∧
      match r with | none => pre ++ segments path = [] | some n => BestOf p (pre ++ segments path) n := by
  induction path generalizing pre best with
  | nil => exact ⟨best, rfl, by simpa [segments] using hb⟩
  | cons a rest ih =>
    cases rest with
    | nil => exact ⟨best, rfl, by simpa [segments] using hb⟩
    | cons b rest =>
      have hab : a ≠ b := hne (a, b) (by simp [segments])
      obtain ⟨t, t0, t1, hd, hmin⟩ := distToSegment_spec (p := p) hab
      unfold distanceToPathFrom
      simp only [hd]
      rw [param_eq hab t0]
      have hlen : pre.length + 1 = (pre ++ [(a, b)]).length := by simp
      rw [hlen]
      have hseg : pre ++ segments (a :: b :: rest) = pre ++ [(a, b)] ++ segments (b :: rest) := by simp [segments]
      rw [hseg]
      refine ih (pre ++ [(a, b)]) _ (fun s hs => hne s (by simp [segments, hs])) ?_
      have hget : ∀ (k : ℕ) a' b', (pre ++ [(a, b)])[k]? = some (a', b') →
          (k < pre.length ∧ pre[k]? = some (a', b')) ∨ (k = pre.length ∧ (a', b') = (a, b)) := by
        intro k a' b' hk
        rcases lt_trichotomy k pre.length with h1 | h1 | h1
        · left; rw [List.getElem?_append_left h1] at hk; exact ⟨h1, hk⟩
        · right; subst h1; simp at hk; exact ⟨rfl, by rw [hk.1, hk.2]⟩
        · rw [List.getElem?_append_right h1.le] at hk
          obtain ⟨m, hm⟩ : ∃ m, k - pre.length = m + 1 := ⟨k - pre.length - 1, by omega⟩
          rw [hm] at hk; simp at hk
      have hnew : (∀ (k : ℕ) a' b', pre[k]? = some (a', b') → ∀ q, OnSegment a' b' q →
            sqDist p (a.lerp b t) < sqDist p q) →
          BestOf p (pre ++ [(a, b)]) ⟨sqDist p (a.lerp b t), a.lerp b t, pre.length, t⟩ := by
        intro hlt
        refine ⟨⟨a, b, by simp, rfl⟩, t0, t1, rfl, ?_, ?_⟩
        · intro k a' b' hk q hq
          rcases hget k a' b' hk with ⟨-, h2⟩ | ⟨-, h2⟩
          · exact (hlt k a' b' h2 q hq).le
          · cases h2; exact hmin q hq
        · intro k a' b' hlt' hk q hq
          rcases hget k a' b' hk with ⟨-, h2⟩ | ⟨h1, -⟩
          · exact hlt k a' b' h2 q hq
          · exact absurd hlt' (by simp [h1])
      cases best with
      | none =>
        simp only at hb
        subst hb
        exact hnew (by simp)
      | some n =>
        simp only at hb ⊢
        by_cases hlt : sqDist p (a.lerp b t) < n.dist
        · rw [if_pos hlt]
          exact hnew (fun k a' b' hk q hq => lt_of_lt_of_le hlt (hb.min k a' b' hk q hq))
        · rw [if_neg hlt]
          obtain ⟨a0, b0, g1, g2⟩ := hb.at_index
          have hidx : n.index < pre.length := by
            by_contra hc
            rw [List.getElem?_eq_none (by omega)] at g1
            cases g1
          refine ⟨⟨a0, b0, by rw [List.getElem?_append_left hidx]; exact g1, g2⟩, hb.param0, hb.param1, hb.dist, ?_, ?_⟩
          · intro k a' b' hk q hq
            rcases hget k a' b' hk with ⟨-, h2⟩ | ⟨-, h2⟩
            · exact hb.min k a' b' h2 q hq
            · cases h2; exact le_trans (not_lt.mp hlt) (hmin q hq)
          · intro k a' b' hlt' hk q hq
            rcases hget k a' b' hk with ⟨-, h2⟩ | ⟨h1, -⟩
            · exact hb.first k a' b' hlt' h2 q hq
            · omega

theorem distanceToPathFrom_degenerate (p : Pt) (path : List Pt) (i : ℕ) (best : Option Nearest)
    (h : ∃ s ∈ segments path, s.1 = s.2) : distanceToPathFrom p i best path = .error .zeroDivision := by
  induction path generalizing i best with
  | nil => simp [segments] at h
  | cons a rest ih =>
    cases rest with
    | nil => simp [segments] at h
    | cons b rest =>
      unfold distanceToPathFrom
      by_cases hab : a = b
      · subst hab; rw [distToSegment_degenerate]
      · obtain ⟨t, -, -, hd, -⟩ := distToSegment_spec (p := p) hab
        simp only [hd]
        refine ih _ _ ?_
        obtain ⟨s, hs, he⟩ := h
        simp only [segments, List.mem_cons] at hs
        rcases hs with rfl | hs
        · exact absurd he hab
        · exact ⟨s, hs, he⟩

theorem segments_length (path : List Pt) : (segments path).length = path.length - 1 := by
  induction path with
  | nil => rfl
  | cons a rest ih =>
    cases rest with
    | nil => rfl
    | cons b rest => simp [segments, ih]

theorem segments_get {path : List Pt} {k : ℕ} {a b : Pt} :
    (segments path)[k]? = some (a, b) ↔ path[k]? = some a ∧ path[k + 1]? = some b := by
  induction path generalizing k with
  | nil => simp [segments]
  | cons x rest ih =>
    cases rest with
    | nil => simp [segments]
    | cons y rest =>
      cases k with
      | zero => simp [segments]
      | succ k => simp only [segments, List.getElem?_cons_succ]; exact ih

end CQ
