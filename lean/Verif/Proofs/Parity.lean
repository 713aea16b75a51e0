import Verif.Spec.Region
import Mathlib.Tactic.Linarith
import Mathlib.Tactic.FieldSimp
import Mathlib.Tactic.Ring
import Mathlib.Tactic.LinearCombination

/-! # Between points on different sides of an outline there is a point of the outline -/

namespace CQ

/-- Which side of the line through `p` and `q` the point is on. -/
def side (p q v : Pt) : ℚ := (v.x - p.x) * (q.y - p.y) - (v.y - p.y) * (q.x - p.x)

/-- If a segment does not meet the segment from `p` up to `q`, all its points at heights between them are on one side. -/
theorem side_same {p q u v : Pt} (hpq : p.y < q.y) (hav : ∀ x, OnSegment u v x → ¬ OnSegment p q x)
    (hu : p.y ≤ u.y ∧ u.y ≤ q.y) (hv : p.y ≤ v.y ∧ v.y ≤ q.y) : 0 < side p q u ↔ 0 < side p q v := by
  have key : ∀ t, 0 ≤ t → t ≤ 1 → side p q (u.lerp v t) ≠ 0 := by
    intro t t0 t1 h
    refine hav _ ⟨t, t0, t1, rfl⟩ ⟨((u.lerp v t).y - p.y) / (q.y - p.y), ?_, ?_, ?_⟩
    · refine div_nonneg ?_ (by linarith)
      simp only [Pt.lerp]; nlinarith
    · rw [div_le_one (by linarith)]
      simp only [Pt.lerp]; nlinarith
    · have hne : q.y - p.y ≠ 0 := by linarith
      unfold side at h
      generalize u.lerp v t = w at h
      ext
      · simp only [Pt.lerp]
        field_simp
        linarith
      · simp only [Pt.lerp]
        field_simp
        ring
  have hlin : ∀ t, side p q (u.lerp v t) = side p q u + t * (side p q v - side p q u) := by
    intro t; simp only [side, Pt.lerp]; ring
  have h0 : side p q u ≠ 0 := by have := key 0 le_rfl zero_le_one; rw [hlin] at this; simpa using this
  have h1 : side p q v ≠ 0 := by have := key 1 zero_le_one le_rfl; rw [hlin] at this; simpa using this
  by_contra hne
  have hopp : (0 < side p q u ∧ side p q v < 0) ∨ (side p q u < 0 ∧ 0 < side p q v) := by
    rcases lt_or_gt_of_ne h0 with a | a <;> rcases lt_or_gt_of_ne h1 with b | b
    · exact absurd (by constructor <;> intro <;> linarith) hne
    · exact .inr ⟨a, b⟩
    · exact .inl ⟨a, b⟩
    · exact absurd (by constructor <;> intro <;> assumption) hne
  have hd : side p q u - side p q v ≠ 0 := by rcases hopp with ⟨a, b⟩ | ⟨a, b⟩ <;> intro h <;> linarith
  refine key (side p q u / (side p q u - side p q v)) ?_ ?_ ?_
  · rcases hopp with ⟨a, b⟩ | ⟨a, b⟩
    · exact div_nonneg a.le (by linarith)
    · exact div_nonneg_of_nonpos a.le (by linarith)
  · rcases hopp with ⟨a, b⟩ | ⟨a, b⟩
    · rw [div_le_one (by linarith)]; linarith
    · rw [div_le_one_of_neg (by linarith)]; linarith
  · rw [hlin]
    field_simp
    ring

/-- The point lies beside the segment from `p` up to `q`, on its right. -/
def beside (p q v : Pt) : Bool := decide (p.y < v.y) && decide (v.y ≤ q.y) && decide (0 < side p q v)

/-- The point of the segment from `a` to `b` at height `y`. -/
def atHeight (a b : Pt) (y : ℚ) : Pt := a.lerp b ((y - a.y) / (b.y - a.y))

theorem atHeight_spec {a b : Pt} {y : ℚ} (h : (a.y ≤ y ∧ y ≤ b.y ∨ b.y ≤ y ∧ y ≤ a.y) ∧ a.y ≠ b.y) :
    OnSegment a b (atHeight a b y) ∧ (atHeight a b y).y = y ∧
      (atHeight a b y).x = a.x + (y - a.y) * (b.x - a.x) / (b.y - a.y) := by
  obtain ⟨h, hne⟩ := h
  have hne' : b.y - a.y ≠ 0 := fun h => hne (by linarith)
  refine ⟨⟨_, ?_, ?_, rfl⟩, ?_, ?_⟩
  · rcases h with ⟨h1, h2⟩ | ⟨h1, h2⟩
    · exact div_nonneg (by linarith) (by linarith)
    · exact div_nonneg_of_nonpos (by linarith) (by linarith)
  · rcases h with ⟨h1, h2⟩ | ⟨h1, h2⟩
    · have : 0 < b.y - a.y := lt_of_le_of_ne (by linarith) hne'.symm
      rw [div_le_one this]; linarith
    · have : b.y - a.y < 0 := lt_of_le_of_ne (by linarith) hne'
      rw [div_le_one_of_neg this]; linarith
  · simp only [atHeight, Pt.lerp]
    field_simp
    ring
  · simp only [atHeight, Pt.lerp]
    ring

theorem onSegment_trans {a b u v x : Pt} (hu : OnSegment a b u) (hv : OnSegment a b v) (hx : OnSegment u v x) : OnSegment a b x := by
  obtain ⟨s, s0, s1, rfl⟩ := hu
  obtain ⟨t, t0, t1, rfl⟩ := hv
  obtain ⟨w, w0, w1, rfl⟩ := hx
  refine ⟨s + w * (t - s), by nlinarith, by nlinarith, ?_⟩
  ext <;> simp only [Pt.lerp] <;> ring

theorem side_low {p q v : Pt} (hpq : p.y < q.y) (h : v.y = p.y) : 0 < side p q v ↔ p.x < v.x := by
  unfold side
  rw [h]
  have : 0 < q.y - p.y := by linarith
  rw [sub_self, zero_mul, sub_zero, mul_pos_iff_of_pos_right this, sub_pos]

theorem side_high {p q v : Pt} (hpq : p.y < q.y) (h : v.y = q.y) : 0 < side p q v ↔ q.x < v.x := by
  unfold side
  rw [h]
  have : 0 < q.y - p.y := by linarith
  rw [show (v.x - p.x) * (q.y - p.y) - (q.y - p.y) * (q.x - p.x) = (v.x - q.x) * (q.y - p.y) by ring,
    mul_pos_iff_of_pos_right this, sub_pos]

/-- A segment that does not meet the segment from `p` up to `q` changes sides as often as the rays from `p` and `q` cross it. -/
theorem crosses_change {p q : Pt} (hpq : p.y < q.y) (s : Pt × Pt) (hav : ∀ x, OnSegment s.1 s.2 x → ¬ OnSegment p q x) :
    (crosses p s ^^ crosses q s) = (beside p q s.1 ^^ beside p q s.2) := by
  obtain ⟨a, b⟩ := s
  dsimp only at hav ⊢
  have hsame : ∀ {u v}, OnSegment a b u → OnSegment a b v → p.y ≤ u.y ∧ u.y ≤ q.y → p.y ≤ v.y ∧ v.y ≤ q.y →
      (0 < side p q u ↔ 0 < side p q v) := fun hu hv h1 h2 =>
    side_same hpq (fun x hx => hav x (onSegment_trans hu hv hx)) h1 h2
  have ha : OnSegment a b a := ⟨0, le_rfl, zero_le_one, by simp [Pt.lerp]⟩
  have hb : OnSegment a b b := ⟨1, zero_le_one, le_rfl, by simp [Pt.lerp]⟩
  have hlow : (a.y ≤ p.y ∧ p.y ≤ b.y ∨ b.y ≤ p.y ∧ p.y ≤ a.y) ∧ a.y ≠ b.y → ∀ w, OnSegment a b w → p.y ≤ w.y ∧ w.y ≤ q.y →
      (p.x < a.x + (p.y - a.y) * (b.x - a.x) / (b.y - a.y) ↔ 0 < side p q w) := by
    intro h w hw hwy
    obtain ⟨h1, h2, h3⟩ := atHeight_spec h
    rw [← h3, ← side_low hpq h2]
    exact hsame h1 hw (by rw [h2]; exact ⟨le_rfl, hpq.le⟩) hwy
  have hhigh : (a.y ≤ q.y ∧ q.y ≤ b.y ∨ b.y ≤ q.y ∧ q.y ≤ a.y) ∧ a.y ≠ b.y → ∀ w, OnSegment a b w → p.y ≤ w.y ∧ w.y ≤ q.y →
      (q.x < a.x + (q.y - a.y) * (b.x - a.x) / (b.y - a.y) ↔ 0 < side p q w) := by
    intro h w hw hwy
    obtain ⟨h1, h2, h3⟩ := atHeight_spec h
    rw [← h3, ← side_high hpq h2]
    exact hsame h1 hw (by rw [h2]; exact ⟨hpq.le, le_rfl⟩) hwy
  unfold crosses beside
  dsimp only
  rcases lt_or_ge p.y a.y with a1 | a1 <;> rcases lt_or_ge p.y b.y with b1 | b1 <;>
    rcases lt_or_ge q.y a.y with a2 | a2 <;> rcases lt_or_ge q.y b.y with b2 | b2
  all_goals try (exfalso; linarith)
  all_goals simp only [a1, b1, a2, b2, not_lt.mpr, not_le.mpr, decide_true, decide_false, Bool.true_and, Bool.false_and, Bool.and_true,
    Bool.and_false, Bool.xor_false, Bool.false_xor, ne_eq, not_true_eq_false, not_false_eq_true, Bool.true_eq_false, Bool.false_eq_true]
  · exact decide_eq_decide.mpr (hhigh ⟨.inr ⟨b2, a2.le⟩, by intro h; linarith⟩ b hb ⟨b1.le, b2⟩)
  · exact decide_eq_decide.mpr (hhigh ⟨.inl ⟨a2, b2.le⟩, by intro h; linarith⟩ a ha ⟨a1.le, a2⟩)
  · rw [decide_eq_decide.mpr (hsame ha hb ⟨a1.le, a2⟩ ⟨b1.le, b2⟩), Bool.xor_self]
  · have h2 : (a.y ≤ q.y ∧ q.y ≤ b.y ∨ b.y ≤ q.y ∧ q.y ≤ a.y) ∧ a.y ≠ b.y := ⟨.inr ⟨b2, a2.le⟩, by intro h; linarith⟩
    obtain ⟨h3, h4, -⟩ := atHeight_spec h2
    have h5 : p.y ≤ (atHeight a b q.y).y ∧ (atHeight a b q.y).y ≤ q.y := by rw [h4]; exact ⟨hpq.le, le_rfl⟩
    rw [decide_eq_decide.mpr ((hlow ⟨.inr ⟨b1, a1.le⟩, h2.2⟩ _ h3 h5).trans (hhigh h2 _ h3 h5).symm), Bool.xor_self]
  · exact decide_eq_decide.mpr (hlow ⟨.inr ⟨b1, a1.le⟩, by intro h; linarith⟩ a ha ⟨a1.le, a2⟩)
  · have h2 : (a.y ≤ q.y ∧ q.y ≤ b.y ∨ b.y ≤ q.y ∧ q.y ≤ a.y) ∧ a.y ≠ b.y := ⟨.inl ⟨a2, b2.le⟩, by intro h; linarith⟩
    obtain ⟨h3, h4, -⟩ := atHeight_spec h2
    have h5 : p.y ≤ (atHeight a b q.y).y ∧ (atHeight a b q.y).y ≤ q.y := by rw [h4]; exact ⟨hpq.le, le_rfl⟩
    rw [decide_eq_decide.mpr ((hlow ⟨.inl ⟨a1, b1.le⟩, h2.2⟩ _ h3 h5).trans (hhigh h2 _ h3 h5).symm), Bool.xor_self]
  · exact decide_eq_decide.mpr (hlow ⟨.inl ⟨a1, b1.le⟩, by intro h; linarith⟩ b hb ⟨b1.le, b2⟩)

/-- The same for `p` and `q` at the same height: the rays cross the same segments. -/
theorem crosses_level {p q : Pt} (hpq : p.y = q.y) (s : Pt × Pt) (hav : ∀ x, OnSegment s.1 s.2 x → ¬ OnSegment p q x) :
    crosses p s = crosses q s := by
  obtain ⟨a, b⟩ := s
  dsimp only at hav
  unfold crosses
  dsimp only
  rw [hpq]
  by_cases h : decide (q.y < a.y) ≠ decide (q.y < b.y)
  · have hb : (a.y ≤ q.y ∧ q.y ≤ b.y ∨ b.y ≤ q.y ∧ q.y ≤ a.y) ∧ a.y ≠ b.y := by
      rcases lt_or_ge q.y a.y with h1 | h1 <;> rcases lt_or_ge q.y b.y with h2 | h2
      · simp [h1, h2] at h
      · exact ⟨.inr ⟨h2, h1.le⟩, by intro h; linarith⟩
      · exact ⟨.inl ⟨h1, h2.le⟩, by intro h; linarith⟩
      · simp [not_lt.mpr h1, not_lt.mpr h2] at h
    obtain ⟨h1, h2, h3⟩ := atHeight_spec hb
    have hno := hav _ h1
    rw [← h3]
    have key : p.x < (atHeight a b q.y).x ↔ q.x < (atHeight a b q.y).x := by
      generalize atHeight a b q.y = w at *
      by_contra hc
      have hd : (p.x < w.x ∧ w.x ≤ q.x) ∨ (q.x < w.x ∧ w.x ≤ p.x) := by
        rcases lt_or_ge p.x w.x with c | c <;> rcases lt_or_ge q.x w.x with d | d
        · exact absurd (by constructor <;> intro <;> assumption) hc
        · exact .inl ⟨c, d⟩
        · exact .inr ⟨d, c⟩
        · exact absurd (by constructor <;> intro <;> linarith) hc
      have hne : q.x - p.x ≠ 0 := by rcases hd with ⟨c, d⟩ | ⟨c, d⟩ <;> intro h <;> linarith
      refine hno ⟨(w.x - p.x) / (q.x - p.x), ?_, ?_, ?_⟩
      · rcases hd with ⟨c, d⟩ | ⟨c, d⟩
        · exact div_nonneg (by linarith) (by linarith)
        · exact div_nonneg_of_nonpos (by linarith) (by linarith)
      · rcases hd with ⟨c, d⟩ | ⟨c, d⟩
        · rw [div_le_one (by linarith)]; linarith
        · rw [div_le_one_of_neg (by linarith)]; linarith
      · ext
        · simp only [Pt.lerp]; field_simp; ring
        · simp only [Pt.lerp]; rw [hpq, h2]; ring
    rw [decide_eq_decide.mpr key]
  · simp [h]

theorem countP_change {α : Type} (f g : α → Bool) (l : List α) :
    (decide (l.countP f % 2 = 1) ^^ decide (l.countP g % 2 = 1)) = l.foldr (fun x acc => (f x ^^ g x) ^^ acc) false := by
  induction l with
  | nil => rfl
  | cons x l ih =>
    rw [List.foldr_cons, ← ih, List.countP_cons, List.countP_cons]
    generalize l.countP f = m
    generalize l.countP g = n
    have hadd : ∀ k : ℕ, decide ((k + 1) % 2 = 1) = !decide (k % 2 = 1) := by
      intro k
      rcases Nat.mod_two_eq_zero_or_one k with h | h <;> simp [Nat.add_mod, h]
    cases f x <;> cases g x <;> simp [hadd]

theorem fold_ends (R : Pt → Bool) : ∀ (l : List Pt) (a : Pt),
    (segments (a :: l)).foldr (fun s acc => (R s.1 ^^ R s.2) ^^ acc) false = (R a ^^ R ((a :: l).getLast (by simp))) := by
  intro l
  induction l with
  | nil => intro a; simp [segments]
  | cons b l ih =>
    intro a
    rw [segments, List.foldr_cons, ih b, List.getLast_cons (a := a) (l := b :: l) (by simp)]
    generalize R ((b :: l).getLast _) = z
    cases R a <;> cases R b <;> cases z <;> rfl

theorem foldr_congr_mem {α β : Type} {f g : α → β → β} {l : List α} {b : β} (h : ∀ x ∈ l, f x = g x) : l.foldr f b = l.foldr g b := by
  induction l with
  | nil => rfl
  | cons x l ih => rw [List.foldr_cons, List.foldr_cons, ih (fun y hy => h y (by simp [hy])), h x (by simp)]

theorem inside_change {path : List Pt} {p q : Pt} (hpq : p.y < q.y) (h : ∀ x, OnSegment p q x → ¬ OnOutline path x) :
    Inside path p ↔ Inside path q := by
  cases path with
  | nil => simp [Inside, crossings, closedOutline, segments]
  | cons a l =>
    have hc := countP_change (crosses p) (crosses q) (segments (closedOutline (a :: l)))
    rw [foldr_congr_mem (g := fun s acc => (beside p q s.1 ^^ beside p q s.2) ^^ acc) (by
      intro s hs
      funext acc
      rw [crosses_change hpq s (fun x hx hx' => h x hx' (.inr ⟨s, hs, hx⟩))])] at hc
    have hl : closedOutline (a :: l) = a :: (l ++ [a]) := rfl
    rw [hl, fold_ends] at hc
    have hlast : (a :: (l ++ [a])).getLast (by simp) = a := by simp
    rw [hlast, Bool.xor_self, ← hl] at hc
    have hx : ∀ x y : Bool, (x ^^ y) = false → x = y := by decide
    exact decide_eq_decide.mp (hx _ _ hc)

/-- Between a point inside an outline and one outside there is a point on the outline. -/
theorem inside_of_avoid {path : List Pt} {p q : Pt} (h : ∀ x, OnSegment p q x → ¬ OnOutline path x) :
    Inside path p ↔ Inside path q := by
  rcases lt_trichotomy p.y q.y with hpq | hpq | hpq
  · exact inside_change hpq h
  · unfold Inside crossings
    have : (segments (closedOutline path)).countP (crosses p) = (segments (closedOutline path)).countP (crosses q) := by
      refine List.countP_congr fun s hs => ?_
      rw [crosses_level hpq s (fun x hx hx' => h x hx' (.inr ⟨s, hs, hx⟩))]
    rw [this]
  · refine (inside_change hpq fun x hx => h x ?_).symm
    obtain ⟨t, t0, t1, rfl⟩ := hx
    exact ⟨1 - t, by linarith, by linarith, by ext <;> simp only [Pt.lerp] <;> ring⟩

end CQ
