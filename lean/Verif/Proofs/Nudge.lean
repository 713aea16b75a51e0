import Verif.Spec.Gouge
import Verif.Proofs.Geometry
import Mathlib.Tactic.Linarith
import Mathlib.Tactic.FieldSimp
import Mathlib.Tactic.Ring
import Mathlib.Tactic.LinearCombination

/-! # Moving the vertices of an outline a little changes nothing at points that are not close to it -/

namespace CQ

/-- Each vertex of one path is within `ε` of the corresponding vertex of the other. -/
def Nudged (ε : ℚ) (path path' : List Pt) : Prop := List.Forall₂ (fun v w => sqDist v w ≤ ε ^ 2) path path'

theorem Nudged.symm {ε : ℚ} {path path' : List Pt} (h : Nudged ε path path') : Nudged ε path' path := by
  refine List.Forall₂.flip (h.imp fun v w hvw => ?_)
  change sqDist w v ≤ ε ^ 2
  rw [sqDist_comm]; exact hvw

theorem Nudged.closed {ε : ℚ} {path path' : List Pt} (h : Nudged ε path path') :
    Nudged ε (closedOutline path) (closedOutline path') := by
  unfold closedOutline
  refine List.rel_append h ?_
  cases h with
  | nil => exact .nil
  | cons h _ => exact .cons h .nil

/-- A half-plane that does not contain `p`. -/
def Off (p n v : Pt) : Prop := n.x * (v.x - p.x) + n.y * (v.y - p.y) < 0

/-- In a half-plane that does not contain `p` the ray from `p` crosses a segment iff its end points are on different sides of something. -/
theorem crosses_off {p n v w : Pt} (hv : Off p n v) (hw : Off p n w) :
    crosses p (v, w) = (if 0 ≤ n.x then false else decide (decide (p.y < v.y) ≠ decide (p.y < w.y))) := by
  unfold crosses
  unfold Off at hv hw
  by_cases hs : decide (p.y < v.y) ≠ decide (p.y < w.y)
  · have hne : w.y - v.y ≠ 0 := by
      intro h
      have : w.y = v.y := by linarith
      rw [this] at hs
      exact hs rfl
    have h0 : 0 ≤ (p.y - v.y) / (w.y - v.y) ∧ (p.y - v.y) / (w.y - v.y) ≤ 1 := by
      by_cases h1 : p.y < v.y
      · have h2 : ¬ p.y < w.y := fun h2 => hs (by simp [h1, h2])
        have h3 : w.y - v.y < 0 := by linarith
        exact ⟨div_nonneg_of_nonpos (by linarith) h3.le, by rw [div_le_one_of_neg h3]; linarith⟩
      · have h2 : p.y < w.y := by
          by_contra h2
          exact hs (by simp [h1, h2])
        have h3 : 0 < w.y - v.y := by linarith
        exact ⟨div_nonneg (by linarith) h3.le, by rw [div_le_one h3]; linarith⟩
    set t := (p.y - v.y) / (w.y - v.y) with ht
    have hty : t * (w.y - v.y) = p.y - v.y := div_mul_cancel₀ _ hne
    have hx : v.x + (p.y - v.y) * (w.x - v.x) / (w.y - v.y) = v.x + t * (w.x - v.x) := by
      rw [ht]; ring
    have key : n.x * (v.x + t * (w.x - v.x) - p.x) < 0 := by
      have e : n.x * (v.x + t * (w.x - v.x) - p.x) =
          (1 - t) * (n.x * (v.x - p.x) + n.y * (v.y - p.y)) + t * (n.x * (w.x - p.x) + n.y * (w.y - p.y)) := by
        linear_combination (-n.y) * hty
      rw [e]
      rcases eq_or_lt_of_le h0.1 with h1 | h1
      · rw [← h1]; linarith
      · nlinarith
    simp only [hx]
    by_cases hn : 0 ≤ n.x
    · have : ¬ p.x < v.x + t * (w.x - v.x) := fun h => absurd key (not_lt.mpr (mul_nonneg hn (by linarith)))
      simp [hn, this]
    · have : p.x < v.x + t * (w.x - v.x) := by
        by_contra h
        exact absurd key (not_lt.mpr (mul_nonneg_of_nonpos_of_nonpos (not_le.mp hn).le (by linarith)))
      simp [hn, this]
  · simp only [hs, decide_false, Bool.false_and]
    simp

/-- The crossings of the sides of a quadrilateral in a half-plane that does not contain `p`. -/
theorem crosses_four {p n a b c d : Pt} (ha : Off p n a) (hb : Off p n b) (hc : Off p n c) (hd : Off p n d) :
    ((crosses p (a, b)).toNat + (crosses p (c, d)).toNat + (crosses p (a, c)).toNat + (crosses p (b, d)).toNat) % 2 = 0 := by
  rw [crosses_off ha hb, crosses_off hc hd, crosses_off ha hc, crosses_off hb hd]
  by_cases hn : 0 ≤ n.x
  · simp [hn]
  · simp only [hn, if_false]
    by_cases h1 : p.y < a.y <;> by_cases h2 : p.y < b.y <;> by_cases h3 : p.y < c.y <;> by_cases h4 : p.y < d.y <;>
      simp [h1, h2, h3, h4]

/-- The point of a segment that is closest to `p`. -/
theorem nearest (a b p : Pt) : ∃ q, OnSegment a b q ∧ (a.x - q.x) * (p.x - q.x) + (a.y - q.y) * (p.y - q.y) ≤ 0 ∧
    (b.x - q.x) * (p.x - q.x) + (b.y - q.y) * (p.y - q.y) ≤ 0 := by
  set u := (p.x - a.x) * (b.x - a.x) + (p.y - a.y) * (b.y - a.y) with hu
  set D := (b.x - a.x) * (b.x - a.x) + (b.y - a.y) * (b.y - a.y) with hD
  by_cases h0 : u ≤ 0
  · refine ⟨a, ⟨0, le_rfl, zero_le_one, by ext <;> simp [Pt.lerp]⟩, by simp, ?_⟩
    calc _ = u := by rw [hu]; ring
      _ ≤ 0 := h0
  · by_cases h1 : D ≤ u
    · refine ⟨b, ⟨1, zero_le_one, le_rfl, by ext <;> simp [Pt.lerp]⟩, ?_, by simp⟩
      calc _ = D - u := by rw [hu, hD]; ring
        _ ≤ 0 := by linarith
    · have hpos : 0 < D := by linarith
      have hz : u / D * D = u := div_mul_cancel₀ _ hpos.ne'
      refine ⟨a.lerp b (u / D), ⟨u / D, div_nonneg (by linarith) hpos.le, by rw [div_le_one hpos]; linarith, rfl⟩, ?_, ?_⟩
      · refine le_of_eq ?_
        simp only [Pt.lerp]
        calc _ = (u / D) * (u / D * D - u) := by rw [hu, hD]; ring
          _ = 0 := by rw [hz]; ring
      · refine le_of_eq ?_
        simp only [Pt.lerp]
        calc _ = (1 - u / D) * (u - u / D * D) := by rw [hu, hD]; ring
          _ = 0 := by rw [hz]; ring

/-- If `p` is farther than `ε` from the segment, what is within `ε` of its end points is in a half-plane without `p`. -/
theorem off_of_far {ε : ℚ} {a b p : Pt} (hp : ∀ q, OnSegment a b q → ε ^ 2 < sqDist p q) :
    ∃ n, ∀ v, sqDist a v ≤ ε ^ 2 ∨ sqDist b v ≤ ε ^ 2 → Off p n v := by
  obtain ⟨q, hq, h1, h2⟩ := nearest a b p
  have h3 := hp q hq
  refine ⟨⟨p.x - q.x, p.y - q.y⟩, fun v hv => ?_⟩
  unfold Off
  unfold sqDist at h3 hv
  simp only
  rcases hv with hv | hv
  · nlinarith [sq_nonneg (a.x - v.x + (p.x - q.x)), sq_nonneg (a.y - v.y + (p.y - q.y))]
  · nlinarith [sq_nonneg (b.x - v.x + (p.x - q.x)), sq_nonneg (b.y - v.y + (p.y - q.y))]

theorem countP_toNat {α : Type} (f : α → Bool) (a : α) (l : List α) : (a :: l).countP f = (f a).toNat + l.countP f := by
  cases h : f a <;> simp [h, add_comm]

/-- The crossings of two paths with corresponding vertices close to each other. -/
theorem crossings_nudged {ε : ℚ} {p : Pt} : ∀ {L L' : List Pt} {a a' : Pt}, Nudged ε (a :: L) (a' :: L') →
    (∀ s ∈ segments (a :: L), ∀ q, OnSegment s.1 s.2 q → ε ^ 2 < sqDist p q) →
    ((segments (a :: L)).countP (crosses p) + (segments (a' :: L')).countP (crosses p) + (crosses p (a, a')).toNat +
      (crosses p ((a :: L).getLast (by simp), (a' :: L').getLast (by simp))).toNat) % 2 = 0
  | [], [], a, a', _, _ => by
      simp only [segments, List.countP_nil, List.getLast_singleton]
      omega
  | b :: L, b' :: L', a, a', h, hp => by
      have ih := crossings_nudged (L := L) (L' := L') (a := b) (a' := b') (List.forall₂_cons.mp h).2
        fun s hs => hp s (by simp only [segments, List.mem_cons]; exact .inr hs)
      obtain ⟨n, hn⟩ := off_of_far (hp (a, b) (by simp [segments]))
      have e2 : (0 : ℚ) ≤ ε ^ 2 := sq_nonneg ε
      have h1 := (List.forall₂_cons.mp h).1
      have h2 := (List.forall₂_cons.mp (List.forall₂_cons.mp h).2).1
      have four := crosses_four (hn a (.inl (by unfold sqDist; simpa using e2))) (hn b (.inr (by unfold sqDist; simpa using e2)))
        (hn a' (.inl h1)) (hn b' (.inr h2))
      rw [List.getLast_cons (List.cons_ne_nil b L), List.getLast_cons (List.cons_ne_nil b' L')]
      simp only [segments, countP_toNat]
      omega
  | [], _ :: _, _, _, h, _ => by cases h with | cons _ h => cases h
  | _ :: _, [], _, _, h, _ => by cases h with | cons _ h => cases h

/-- At a point farther than `ε` from an outline it does not matter if the vertices are moved by up to `ε`. -/
theorem inside_nudged {ε : ℚ} {path path' : List Pt} {p : Pt} (h : Nudged ε path path') (hp : FarFrom ε path p) :
    Inside path p ↔ Inside path' p := by
  cases h with
  | nil => exact Iff.rfl
  | @cons a a' L L' h1 h2 =>
    have hn : Nudged ε (a :: (L ++ [a])) (a' :: (L' ++ [a'])) := Nudged.closed (path := a :: L) (path' := a' :: L') (.cons h1 h2)
    have key := crossings_nudged (p := p) hn fun s hs q hq => hp q (.inr ⟨s, hs, hq⟩)
    have e : ∀ (v : Pt) (M : List Pt) (hM : v :: (M ++ [v]) ≠ []), (v :: (M ++ [v])).getLast hM = v := by
      intro v M hM; simp
    rw [e, e] at key
    unfold Inside crossings
    change (segments (a :: (L ++ [a]))).countP (crosses p) % 2 = 1 ↔ (segments (a' :: (L' ++ [a']))).countP (crosses p) % 2 = 1
    omega

theorem sqDist_lerps {ε t : ℚ} {a b a' b' : Pt} (t0 : 0 ≤ t) (t1 : t ≤ 1) (ha : sqDist a a' ≤ ε ^ 2) (hb : sqDist b b' ≤ ε ^ 2) :
    sqDist (a.lerp b t) (a'.lerp b' t) ≤ ε ^ 2 := by
  unfold sqDist at *
  simp only [Pt.lerp]
  set u1 := a.x - a'.x with hu1
  set u2 := a.y - a'.y with hu2
  set v1 := b.x - b'.x with hv1
  set v2 := b.y - b'.y with hv2
  have e1 : a.x + t * (b.x - a.x) - (a'.x + t * (b'.x - a'.x)) = (1 - t) * u1 + t * v1 := by rw [hu1, hv1]; ring
  have e2 : a.y + t * (b.y - a.y) - (a'.y + t * (b'.y - a'.y)) = (1 - t) * u2 + t * v2 := by rw [hu2, hv2]; ring
  rw [e1, e2]
  have h1 : 0 ≤ t * (1 - t) := mul_nonneg t0 (by linarith)
  have e : ((1 - t) * u1 + t * v1) * ((1 - t) * u1 + t * v1) + ((1 - t) * u2 + t * v2) * ((1 - t) * u2 + t * v2) =
      (1 - t) * (u1 * u1 + u2 * u2) + t * (v1 * v1 + v2 * v2) - t * (1 - t) * ((u1 - v1) ^ 2 + (u2 - v2) ^ 2) := by ring
  rw [e]
  nlinarith [mul_nonneg h1 (add_nonneg (sq_nonneg (u1 - v1)) (sq_nonneg (u2 - v2)))]

theorem nudged_onPath {ε : ℚ} : ∀ {L L' : List Pt}, Nudged ε L L' → ∀ {x}, OnPath L x → ∃ y, OnPath L' y ∧ sqDist x y ≤ ε ^ 2
  | [], [], _, x, hx => by rcases hx with hx | ⟨s, hs, -⟩ <;> simp [segments] at *
  | a :: L, a' :: L', .cons h1 h2, x, hx => by
      rcases hx with hx | ⟨s, hs, t, t0, t1, rfl⟩
      · rcases List.mem_cons.mp hx with rfl | hx
        · exact ⟨a', .inl (by simp), h1⟩
        · obtain ⟨y, hy, hd⟩ := nudged_onPath h2 (.inl hx)
          refine ⟨y, ?_, hd⟩
          rcases hy with hy | ⟨s, hs, hy⟩
          · exact .inl (by simp [hy])
          · refine .inr ⟨s, ?_, hy⟩
            cases L' with
            | nil => simp [segments] at hs
            | cons b L' => simp only [segments, List.mem_cons]; exact .inr hs
      · cases h2 with
        | nil => simp [segments] at hs
        | @cons b b' L L' h3 h4 =>
          simp only [segments, List.mem_cons] at hs
          rcases hs with rfl | hs
          · exact ⟨a'.lerp b' t, .inr ⟨(a', b'), by simp [segments], t, t0, t1, rfl⟩, sqDist_lerps t0 t1 h1 h3⟩
          · obtain ⟨y, hy, hd⟩ := nudged_onPath (L := b :: L) (L' := b' :: L') (.cons h3 h4) (x := s.1.lerp s.2 t) (.inr ⟨s, hs, t, t0, t1, rfl⟩)
            refine ⟨y, ?_, hd⟩
            rcases hy with hy | ⟨s, hs, hy⟩
            · exact .inl (List.mem_cons_of_mem _ hy)
            · exact .inr ⟨s, by simp only [segments, List.mem_cons]; exact .inr hs, hy⟩

theorem nudged_onOutline {ε : ℚ} {path path' : List Pt} (h : Nudged ε path path') {x : Pt} (hx : OnOutline path x) :
    ∃ y, OnOutline path' y ∧ sqDist x y ≤ ε ^ 2 :=
  nudged_onPath h.closed hx

/-- What is in or on an outline is within `ε` of something in or on the other. -/
theorem nudged_inOn {ε : ℚ} {path path' : List Pt} (h : Nudged ε path path') {x : Pt} (hx : InOn path x) :
    ∃ y, InOn path' y ∧ sqDist x y ≤ ε ^ 2 := by
  rcases hx with hx | hx
  · by_cases hf : FarFrom ε path' x
    · refine ⟨x, .inl ((inside_nudged h.symm hf).mpr hx), ?_⟩
      unfold sqDist
      simpa using sq_nonneg ε
    · unfold FarFrom at hf
      push Not at hf
      obtain ⟨y, hy, hd⟩ := hf
      exact ⟨y, .inr hy, hd⟩
  · obtain ⟨y, hy, hd⟩ := nudged_onOutline h hx
    exact ⟨y, .inr hy, hd⟩

end CQ
