import Verif.Spec.Contour64
import Verif.Model.Routers64
import Verif.Props.Drill64
import Verif.Props.Scan64
import Verif.Proofs.Geometry

/-! # Lemmas for C138: the nearest point of a contour in floating point -/

namespace CQ

/-! ### one coordinate of the closest point -/

theorem lerp64_err {M t a b : ℚ} (hM : 1 ≤ M) (ha : |a| ≤ M) (hb : |b| ≤ M) (t0 : 0 ≤ t) (t1 : t ≤ 1) :
    |lerp64 t a b - (a + t * (b - a))| ≤ 2 ^ (-49 : ℤ) * M := by
  unfold lerp64
  rw [abs_le] at ha hb
  have h1 := b64_err_mu (x := b - a) (X := 2 * M) (by rw [abs_le]; constructor <;> linarith) (by linarith)
  set δ := b64 (b - a)
  have h1' := abs_le.mp h1
  have k1 : |t * δ - t * (b - a)| ≤ 2 ^ (-52 : ℤ) * (2 * M) := by
    rw [← mul_sub, abs_mul, abs_of_nonneg t0]
    calc t * |δ - (b - a)| ≤ 1 * |δ - (b - a)| := mul_le_mul_of_nonneg_right t1 (abs_nonneg _)
      _ ≤ _ := by rw [one_mul]; exact h1
  have hd : |t * (b - a)| ≤ 2 * M := by
    rw [abs_mul, abs_of_nonneg t0]
    calc t * |b - a| ≤ 1 * |b - a| := mul_le_mul_of_nonneg_right t1 (abs_nonneg _)
      _ ≤ _ := by rw [one_mul, abs_le]; constructor <;> linarith
  have k1' := abs_le.mp k1
  have hd' := abs_le.mp hd
  have h2 := b64_err_mu (x := t * δ) (X := 3 * M) (by
    norm_num at k1'
    rw [abs_le]; constructor <;> linarith) (by linarith)
  set m := b64 (t * δ)
  have h2' := abs_le.mp h2
  have hc : |a + t * (b - a)| ≤ M := by
    rw [show a + t * (b - a) = (1 - t) * a + t * b by ring, abs_le]
    constructor <;> nlinarith
  have hc' := abs_le.mp hc
  have h3 := b64_err_mu (x := a + m) (X := 2 * M) (by
    norm_num at k1' h2'
    rw [abs_le]; constructor <;> linarith) (by linarith)
  have h3' := abs_le.mp h3
  norm_num at k1' h2' h3' ⊢
  rw [abs_le]
  constructor <;> linarith

/-! ### the parameter -/

theorem prod_err {u η x y a b m : ℚ} (hu0 : 0 < u) (hu : u ≤ 1 / 1000) (ha : |a - x| ≤ u * |x|) (hb : |b - y| ≤ u * |y|)
    (hm : |m - a * b| ≤ u * |a * b| + η) : |m - x * y| ≤ 4 * u * |x * y| + η := by
  have hb1 : |b| ≤ (1 + u) * |y| := by
    calc |b| = |(b - y) + y| := by congr 1; ring
      _ ≤ |b - y| + |y| := abs_add_le _ _
      _ ≤ _ := by linarith
  have h1 : |a * b - x * y| ≤ (2 * u + u * u) * |x * y| := by
    calc |a * b - x * y| = |(a - x) * b + x * (b - y)| := by congr 1; ring
      _ ≤ |a - x| * |b| + |x| * |b - y| := by rw [← abs_mul, ← abs_mul]; exact abs_add_le _ _
      _ ≤ (u * |x|) * ((1 + u) * |y|) + |x| * (u * |y|) :=
          add_le_add (mul_le_mul ha hb1 (abs_nonneg _) (by positivity)) (mul_le_mul_of_nonneg_left hb (abs_nonneg _))
      _ = (2 * u + u * u) * |x * y| := by rw [abs_mul]; ring
  have hP := abs_nonneg (x * y)
  have h2 : |a * b| ≤ (1 + 2 * u + u * u) * |x * y| := by
    calc |a * b| = |(a * b - x * y) + x * y| := by congr 1; ring
      _ ≤ |a * b - x * y| + |x * y| := abs_add_le _ _
      _ ≤ _ := by linarith
  have h3 : u * |a * b| ≤ u * ((1 + 2 * u + u * u) * |x * y|) := mul_le_mul_of_nonneg_left h2 hu0.le
  have h4 : (3 * u + 3 * u * u + u * u * u) * |x * y| ≤ 4 * u * |x * y| := mul_le_mul_of_nonneg_right (by nlinarith) hP
  calc |m - x * y| = |(m - a * b) + (a * b - x * y)| := by congr 1; ring
    _ ≤ |m - a * b| + |a * b - x * y| := abs_add_le _ _
    _ ≤ _ := by linarith

theorem param_arith {u η A N L n l t : ℚ} (hu0 : 0 < u) (hu : u ≤ 1 / 1000) (hη : 0 < η) (hA : 0 ≤ A) (hN : |N| ≤ A)
    (hn : |n - N| ≤ 6 * u * A + 4 * η) (hL : 0 < L) (hl : |l - L| ≤ 9 * u * L) (ht : |t - n / l| ≤ u * |n / l| + η) :
    |t * L - N| ≤ 18 * u * A + 6 * η + η * L := by
  have hl' := abs_le.mp hl
  have hl0 : 0 < l := by nlinarith
  set r := n / l with hr
  have hrl : r * l = n := by rw [hr]; field_simp
  have huA : 0 ≤ u * A := mul_nonneg hu0.le hA
  have hn1 : |n| ≤ A + 6 * u * A + 4 * η := by
    calc |n| = |(n - N) + N| := by congr 1; ring
      _ ≤ |n - N| + |N| := abs_add_le _ _
      _ ≤ _ := by linarith
  have hrL : |r| * L ≤ 11 / 10 * (A + 6 * u * A + 4 * η) := by
    have h1 : |r| * l = |n| := by rw [← hrl, abs_mul, abs_of_pos hl0]
    have h2 : 991 / 1000 * L ≤ l := by nlinarith
    have h3 := mul_le_mul_of_nonneg_left h2 (abs_nonneg r)
    nlinarith [abs_nonneg r, mul_nonneg (abs_nonneg r) hL.le]
  have hrL0 : 0 ≤ |r| * L := mul_nonneg (abs_nonneg r) hL.le
  have h1 : |r * L - N| ≤ |r| * L * (9 * u) + (6 * u * A + 4 * η) := by
    calc |r * L - N| = |r * (L - l) + (n - N)| := by congr 1; rw [mul_sub, hrl]; ring
      _ ≤ |r| * |L - l| + |n - N| := by rw [← abs_mul]; exact abs_add_le _ _
      _ ≤ |r| * (9 * u * L) + (6 * u * A + 4 * η) := by
          rw [abs_sub_comm L l]
          exact add_le_add (mul_le_mul_of_nonneg_left hl (abs_nonneg _)) hn
      _ = _ := by ring
  have h2 : |t * L - r * L| ≤ |r| * L * u + η * L := by
    rw [← sub_mul, abs_mul, abs_of_pos hL]
    calc |t - r| * L ≤ (u * |r| + η) * L := mul_le_mul_of_nonneg_right ht hL.le
      _ = _ := by ring
  have h3 : |r| * L * u ≤ 11 / 10 * (A + 6 * u * A + 4 * η) * u := mul_le_mul_of_nonneg_right hrL hu0.le
  have h4 : u * (u * A) ≤ 1 / 1000 * (u * A) := mul_le_mul_of_nonneg_right hu huA
  have h5 : u * η ≤ 1 / 1000 * η := mul_le_mul_of_nonneg_right hu hη.le
  calc |t * L - N| = |(t * L - r * L) + (r * L - N)| := by congr 1; ring
    _ ≤ |t * L - r * L| + |r * L - N| := abs_add_le _ _
    _ ≤ _ := by nlinarith

/-- An inexact parameter, limited to the segment, still leads to a point that is almost nearest. -/
theorem clamp_excess (p v w : Pt) (t s0 : ℚ) (h0 : 0 ≤ s0) (h1 : s0 ≤ 1) :
    sqDist p (v.lerp w (max 0 (min 1 t))) ≤ sqDist p (v.lerp w s0) +
      2 * |t * sqDist v w - ((p.x - v.x) * (w.x - v.x) + (p.y - v.y) * (w.y - v.y))| := by
  set L := sqDist v w with hL
  set N := (p.x - v.x) * (w.x - v.x) + (p.y - v.y) * (w.y - v.y) with hN
  have hL0 : 0 ≤ L := by rw [hL]; unfold sqDist; nlinarith [mul_self_nonneg (v.x - w.x), mul_self_nonneg (v.y - w.y)]
  have f : ∀ s, sqDist p (v.lerp w s) = sqDist p v - 2 * s * N + s * s * L := by
    intro s; rw [hN, hL]; unfold sqDist Pt.lerp; ring
  rw [f, f]
  have a1 := le_abs_self (t * L - N)
  have a2 := neg_abs_le (t * L - N)
  have a3 := abs_nonneg (t * L - N)
  generalize |t * L - N| = D at *
  rcases lt_or_ge t 0 with h | h
  · rw [min_eq_right (by linarith), max_eq_left h.le]
    have k1 : s0 * (2 * (N - t * L)) ≤ s0 * (2 * D) := mul_le_mul_of_nonneg_left (by linarith) h0
    have k2 : s0 * (2 * D) ≤ 1 * (2 * D) := mul_le_mul_of_nonneg_right h1 (by linarith)
    have k3 : 0 ≤ s0 * (s0 - 2 * t) * L := mul_nonneg (mul_nonneg h0 (by linarith)) hL0
    nlinarith
  · rcases lt_or_ge 1 t with h' | h'
    · rw [min_eq_left h'.le, max_eq_right (by norm_num)]
      have k1 : (1 - s0) * (2 * (t * L - N)) ≤ (1 - s0) * (2 * D) := mul_le_mul_of_nonneg_left (by linarith) (by linarith)
      have k2 : (1 - s0) * (2 * D) ≤ 1 * (2 * D) := mul_le_mul_of_nonneg_right (by linarith) (by linarith)
      have k3 : 0 ≤ (1 - s0) * (2 * t - 1 - s0) * L := mul_nonneg (mul_nonneg (by linarith) (by linarith)) hL0
      nlinarith
    · rw [min_eq_right h', max_eq_right h]
      have k1 : (t - s0) * (t * L - N) ≤ 1 * D := by
        calc (t - s0) * (t * L - N) ≤ |(t - s0) * (t * L - N)| := le_abs_self _
          _ = |t - s0| * |t * L - N| := abs_mul _ _
          _ ≤ 1 * D := mul_le_mul (by rw [abs_le]; constructor <;> linarith) (by rw [abs_le]; constructor <;> linarith) (abs_nonneg _) (by norm_num)
      have k2 : 0 ≤ (t - s0) * (t - s0) * L := mul_nonneg (mul_self_nonneg _) hL0
      nlinarith

/-! ### `dist_to_segment_squared` -/

theorem sqDist_nonneg' (p q : Pt) : 0 ≤ sqDist p q := by
  unfold sqDist; nlinarith [mul_self_nonneg (p.x - q.x), mul_self_nonneg (p.y - q.y)]

theorem sqDist_apart {a b : Pt} (h : 2 ^ (-500 : ℤ) ≤ |a.x - b.x| ∨ 2 ^ (-500 : ℤ) ≤ |a.y - b.y|) : 2 ^ (-1000 : ℤ) ≤ sqDist a b := by
  have e : (2 : ℚ) ^ (-1000 : ℤ) = 2 ^ (-500 : ℤ) * 2 ^ (-500 : ℤ) := by rw [← zpow_add₀ (by norm_num)]; norm_num
  have hp := two_zpow_pos (-500)
  have key : ∀ x : ℚ, 2 ^ (-500 : ℤ) ≤ |x| → 2 ^ (-1000 : ℤ) ≤ x * x := by
    intro x hx
    rw [e, ← abs_mul_abs_self x]
    exact mul_le_mul hx hx hp.le (abs_nonneg _)
  unfold sqDist
  rcases h with h | h
  · have := key _ h; nlinarith [mul_self_nonneg (a.y - b.y)]
  · have := key _ h; nlinarith [mul_self_nonneg (a.x - b.x)]

/-- Between points that are apart, the square of the distance is computed with a relative error. -/
theorem dist2F_rel {sq : ℚ → ℚ} (hs : SquaresUpToUlp sq) {a b : Pt} (hax : IsDouble a.x) (hay : IsDouble a.y) (hbx : IsDouble b.x)
    (hby : IsDouble b.y) (h : 2 ^ (-500 : ℤ) ≤ |a.x - b.x| ∨ 2 ^ (-500 : ℤ) ≤ |a.y - b.y|) :
    |dist2F sq a b - sqDist a b| ≤ 9 * 2 ^ (-53 : ℤ) * sqDist a b := by
  have h1 := dist2F_err hs hax hay hbx hby
  have h2 := sqDist_apart h
  have e : (2 : ℚ) ^ (-1072 : ℤ) = 2 ^ (-72 : ℤ) * 2 ^ (-1000 : ℤ) := by rw [← zpow_add₀ (by norm_num)]; norm_num
  have h3 : (2 : ℚ) ^ (-1072 : ℤ) ≤ 2 ^ (-72 : ℤ) * sqDist a b := by
    rw [e]; exact mul_le_mul_of_nonneg_left h2 (two_zpow_pos _).le
  have h4 := sqDist_nonneg' a b
  have e1 : (2 : ℚ) ^ (-50 : ℤ) = 8 * 2 ^ (-53 : ℤ) := by norm_num
  have e2 : (2 : ℚ) ^ (-72 : ℤ) ≤ 2 ^ (-53 : ℤ) := zpow_le_zpow_right₀ (by norm_num) (by norm_num)
  have h5 := mul_le_mul_of_nonneg_right e2 h4
  rw [e1] at h1
  linarith

/-- A point of doubles with coordinates up to `M`. -/
def PtDouble (M : ℚ) (p : Pt) : Prop := (IsDouble p.x ∧ IsDouble p.y) ∧ |p.x| ≤ M ∧ |p.y| ≤ M

theorem dist2F_ne_zero {sq : ℚ → ℚ} (hs : SquaresUpToUlp sq) {M : ℚ} {a b : Pt} (ha : PtDouble M a) (hb : PtDouble M b)
    (h : 2 ^ (-500 : ℤ) ≤ |a.x - b.x| ∨ 2 ^ (-500 : ℤ) ≤ |a.y - b.y|) : 0 < dist2F sq a b := by
  have h1 := abs_le.mp (dist2F_rel hs ha.1.1 ha.1.2 hb.1.1 hb.1.2 h)
  have h2 := lt_of_lt_of_le (two_zpow_pos (-1000)) (sqDist_apart h)
  norm_num at h1
  linarith

/-- The parameter of the nearest point as it is computed. -/
theorem segmentParam64_err {sq : ℚ → ℚ} (hs : SquaresUpToUlp sq) {M : ℚ} (hM : 1 ≤ M) {p v w : Pt} (hp : PtDouble (2 * M) p)
    (hv : PtDouble M v) (hw : PtDouble M w) (h : 2 ^ (-500 : ℤ) ≤ |v.x - w.x| ∨ 2 ^ (-500 : ℤ) ≤ |v.y - w.y|) :
    |segmentParam64 (dist2F sq v w) p v w * sqDist v w - ((p.x - v.x) * (w.x - v.x) + (p.y - v.y) * (w.y - v.y))| ≤
      2 ^ (-45 : ℤ) * (M * M) := by
  have hu0 := two_zpow_pos (-53)
  have hu : (2 : ℚ) ^ (-53 : ℤ) ≤ 1 / 1000 := by norm_num
  have hη := two_zpow_pos (-1075)
  have hx := prod_err (η := 2 ^ (-1075 : ℤ)) hu0 hu (b64_sub_err hp.1.1 hv.1.1) (b64_sub_err hw.1.1 hv.1.1) (b64_err _)
  have hy := prod_err (η := 2 ^ (-1075 : ℤ)) hu0 hu (b64_sub_err hp.1.2 hv.1.2) (b64_sub_err hw.1.2 hv.1.2) (b64_err _)
  have hL : 0 < sqDist v w := lt_of_lt_of_le (two_zpow_pos (-1000)) (sqDist_apart h)
  have hl := dist2F_rel hs hv.1.1 hv.1.2 hw.1.1 hw.1.2 h
  unfold segmentParam64
  generalize b64 (b64 (p.x - v.x) * b64 (w.x - v.x)) = mx at *
  generalize b64 (b64 (p.y - v.y) * b64 (w.y - v.y)) = my at *
  generalize dist2F sq v w = l at *
  obtain ⟨-, px, py⟩ := hp
  obtain ⟨-, vx, vy⟩ := hv
  obtain ⟨-, wx, wy⟩ := hw
  have sub : ∀ {a b A B : ℚ}, |a| ≤ A → |b| ≤ B → |a - b| ≤ A + B := by
    intro a b A B ha hb
    rw [abs_le] at *; constructor <;> linarith
  have bx : |(p.x - v.x) * (w.x - v.x)| ≤ 6 * (M * M) := by
    rw [abs_mul]
    calc _ ≤ (2 * M + M) * (M + M) := mul_le_mul (sub px vx) (sub wx vx) (abs_nonneg _) (by linarith)
      _ = _ := by ring
  have byy : |(p.y - v.y) * (w.y - v.y)| ≤ 6 * (M * M) := by
    rw [abs_mul]
    calc _ ≤ (2 * M + M) * (M + M) := mul_le_mul (sub py vy) (sub wy vy) (abs_nonneg _) (by linarith)
      _ = _ := by ring
  have bL : sqDist v w ≤ 8 * (M * M) := by
    unfold sqDist
    rw [← abs_mul_abs_self (v.x - w.x), ← abs_mul_abs_self (v.y - w.y)]
    have h1 := mul_le_mul (sub vx wx) (sub vx wx) (abs_nonneg _) (by linarith)
    have h2 := mul_le_mul (sub vy wy) (sub vy wy) (abs_nonneg _) (by linarith)
    nlinarith
  generalize (p.x - v.x) * (w.x - v.x) = X at *
  generalize (p.y - v.y) * (w.y - v.y) = Y at *
  generalize sqDist v w = L at *
  have hX := abs_nonneg X
  have hY := abs_nonneg Y
  have hn := b64_err (mx + my)
  have hS : |mx + my - (X + Y)| ≤ 4 * 2 ^ (-53 : ℤ) * (|X| + |Y|) + 2 * 2 ^ (-1075 : ℤ) := by
    calc |mx + my - (X + Y)| = |(mx - X) + (my - Y)| := by congr 1; ring
      _ ≤ |mx - X| + |my - Y| := abs_add_le _ _
      _ ≤ _ := by linarith
  have hXY := abs_add_le X Y
  have hS' : |mx + my| ≤ (1 + 4 * 2 ^ (-53 : ℤ)) * (|X| + |Y|) + 2 * 2 ^ (-1075 : ℤ) := by
    calc |mx + my| = |(mx + my - (X + Y)) + (X + Y)| := by congr 1; ring
      _ ≤ |mx + my - (X + Y)| + |X + Y| := abs_add_le _ _
      _ ≤ _ := by linarith
  have ht := b64_err (b64 (mx + my) / l)
  generalize b64 (mx + my) = n at *
  have hnN : |n - (X + Y)| ≤ 6 * 2 ^ (-53 : ℤ) * (|X| + |Y|) + 4 * 2 ^ (-1075 : ℤ) := by
    have k1 := mul_le_mul_of_nonneg_left hS' hu0.le
    have : |n - (X + Y)| ≤ |n - (mx + my)| + |mx + my - (X + Y)| := by
      calc |n - (X + Y)| = |(n - (mx + my)) + (mx + my - (X + Y))| := by congr 1; ring
        _ ≤ _ := abs_add_le _ _
    generalize (2 : ℚ) ^ (-1075 : ℤ) = η at *
    norm_num at hS hn k1 ⊢
    linarith
  have hfin := param_arith hu0 hu hη (by positivity) hXY hnN hL hl ht
  have hη' : (2 : ℚ) ^ (-1075 : ℤ) ≤ 2 ^ (-60 : ℤ) := zpow_le_zpow_right₀ (by norm_num) (by norm_num)
  have hMM : 1 ≤ M * M := by nlinarith
  have kL : (2 : ℚ) ^ (-1075 : ℤ) * L ≤ 2 ^ (-60 : ℤ) * L := mul_le_mul_of_nonneg_right hη' hL.le
  generalize (2 : ℚ) ^ (-1075 : ℤ) = η at *
  refine hfin.trans ?_
  norm_num at *
  linarith

theorem sqDist_near {M tol : ℚ} {p c c' : Pt} (hp : |p.x| ≤ 2 * M ∧ |p.y| ≤ 2 * M) (hc : |c'.x| ≤ M ∧ |c'.y| ≤ M) (ht : tol ≤ M)
    (h : PtNear tol c c') : |sqDist p c - sqDist p c'| ≤ 14 * tol * M := by
  have key : ∀ {p c c' : ℚ}, |p| ≤ 2 * M → |c'| ≤ M → |c - c'| ≤ tol → |(p - c) * (p - c) - (p - c') * (p - c')| ≤ 7 * tol * M := by
    intro p c c' hp hc h
    have h0 : 0 ≤ tol := (abs_nonneg _).trans h
    rw [show (p - c) * (p - c) - (p - c') * (p - c') = (c - c') * ((c - c') - 2 * (p - c')) by ring, abs_mul]
    have h1 : |(c - c') - 2 * (p - c')| ≤ 7 * M := by
      rw [abs_le] at *; constructor <;> linarith
    calc _ ≤ tol * (7 * M) := mul_le_mul h h1 (abs_nonneg _) h0
      _ = _ := by ring
  have h1 := key hp.1 hc.1 h.1
  have h2 := key hp.2 hc.2 h.2
  unfold sqDist
  rw [abs_le] at *
  constructor <;> linarith

/-- The point with parameter `s` as it is computed. -/
theorem lerpPt_near {M : ℚ} (hM : 1 ≤ M) {v w : Pt} (hv : |v.x| ≤ M ∧ |v.y| ≤ M) (hw : |w.x| ≤ M ∧ |w.y| ≤ M) {s : ℚ} (s0 : 0 ≤ s)
    (s1 : s ≤ 1) :
    PtNear (2 ^ (-49 : ℤ) * M) ⟨lerp64 s v.x w.x, lerp64 s v.y w.y⟩ (v.lerp w s) ∧ PtDouble (2 * M) ⟨lerp64 s v.x w.x, lerp64 s v.y w.y⟩ ∧
      |(v.lerp w s).x| ≤ M ∧ |(v.lerp w s).y| ≤ M := by
  have hx := lerp64_err hM hv.1 hw.1 s0 s1
  have hy := lerp64_err hM hv.2 hw.2 s0 s1
  have cx : |v.x + s * (w.x - v.x)| ≤ M := by
    have h1 := abs_le.mp hv.1
    have h2 := abs_le.mp hw.1
    rw [abs_le]; constructor <;> nlinarith
  have cy : |v.y + s * (w.y - v.y)| ≤ M := by
    have h1 := abs_le.mp hv.2
    have h2 := abs_le.mp hw.2
    rw [abs_le]; constructor <;> nlinarith
  have htol : (2 : ℚ) ^ (-49 : ℤ) * M ≤ M := by norm_num; linarith
  refine ⟨⟨hx, hy⟩, ⟨⟨b64_isDouble _, b64_isDouble _⟩, ?_, ?_⟩, cx, cy⟩
  · have h1 := abs_le.mp hx
    have h2 := abs_le.mp cx
    show |lerp64 s v.x w.x| ≤ 2 * M
    rw [abs_le]; constructor <;> linarith
  · have h1 := abs_le.mp hy
    have h2 := abs_le.mp cy
    show |lerp64 s v.y w.y| ≤ 2 * M
    rw [abs_le]; constructor <;> linarith

/-- The nearest point of a segment as it is computed. -/
theorem distToSegment64_spec {sq : ℚ → ℚ} (hs : SquaresUpToUlp sq) {M : ℚ} (hM : 1 ≤ M) {p v w : Pt} (hp : PtDouble (2 * M) p)
    (hv : PtDouble M v) (hw : PtDouble M w) (h : 2 ^ (-500 : ℤ) ≤ |v.x - w.x| ∨ 2 ^ (-500 : ℤ) ≤ |v.y - w.y|) :
    ∃ c, distToSegmentSquared64 sq p v w = .ok (dist2F sq p c, c) ∧ PtDouble (2 * M) c ∧ OnSegmentUpTo (2 ^ (-49 : ℤ) * M) v w c ∧
      ∀ q, OnSegment v w q → sqDist p c ≤ sqDist p q + 2 ^ (-43 : ℤ) * (M * M) := by
  have hne := (dist2F_ne_zero hs hv hw h).ne'
  have herr := segmentParam64_err hs hM hp hv hw h
  have hcl := clamp_excess p v w (segmentParam64 (dist2F sq v w) p v w)
  have hdef : distToSegmentSquared64 sq p v w =
      let s := max 0 (min 1 (segmentParam64 (dist2F sq v w) p v w))
      .ok (dist2F sq p ⟨lerp64 s v.x w.x, lerp64 s v.y w.y⟩, ⟨lerp64 s v.x w.x, lerp64 s v.y w.y⟩) := by
    unfold distToSegmentSquared64
    simp only [if_neg hne]
  rw [hdef]
  generalize segmentParam64 (dist2F sq v w) p v w = t at *
  have s0 : 0 ≤ max 0 (min 1 t) := le_max_left _ _
  have s1 : max 0 (min 1 t) ≤ 1 := max_le (by norm_num) (min_le_left _ _)
  generalize max 0 (min 1 t) = s at *
  obtain ⟨near, hd, hc⟩ := lerpPt_near hM hv.2 hw.2 s0 s1
  have htol : (2 : ℚ) ^ (-49 : ℤ) * M ≤ M := by norm_num; linarith
  refine ⟨_, rfl, hd, ⟨v.lerp w s, ⟨s, s0, s1, rfl⟩, near⟩, ?_⟩
  have k2 := abs_le.mp (sqDist_near hp.2 hc htol near)
  rintro q ⟨s', h0, h1, rfl⟩
  have k1 := hcl s' h0 h1
  have hMM : 1 ≤ M * M := by nlinarith
  have k3 : (14 : ℚ) * (2 ^ (-49 : ℤ) * M) * M = 14 * 2 ^ (-49 : ℤ) * (M * M) := by ring
  rw [k3] at k2
  norm_num at k2 herr ⊢
  linarith

/-! ### `distance_to_path` -/

/-- Properties of the best candidate so far, on floats. -/
structure BestOf64 (sq : ℚ → ℚ) (M : ℚ) (p : Pt) (segs : List (Pt × Pt)) (n : Nearest) : Prop where
  at_index : ∃ a b, segs[n.index]? = some (a, b) ∧ OnSegmentUpTo (2 ^ (-49 : ℤ) * M) a b n.point
  double : PtDouble (2 * M) n.point
  dist : n.dist = dist2F sq p n.point
  min : ∀ (k : ℕ) a b, segs[k]? = some (a, b) → ∃ c, PtDouble (2 * M) c ∧ n.dist ≤ dist2F sq p c ∧
    ∀ q, OnSegment a b q → sqDist p c ≤ sqDist p q + 2 ^ (-43 : ℤ) * (M * M)

theorem segmentLength64_eq {sq : ℚ → ℚ} (hs : SquaresWell sq) (a b : Pt) : segmentLengthSquared64 sq a b = dist2F sq a b := by
  unfold segmentLengthSquared64 dist2F
  rw [show b.x - a.x = -(a.x - b.x) by ring, show b.y - a.y = -(a.y - b.y) by ring, b64_neg, b64_neg, hs.even, hs.even]

theorem b64_nonneg {x : ℚ} (h : 0 ≤ x) : 0 ≤ b64 x := by
  have := b64_le (x := -x) (y := 0) ⟨0, 0, by norm_num, by norm_num, by norm_num⟩ (by linarith)
  rw [b64_neg] at this
  linarith

theorem dist2F_nonneg {sq : ℚ → ℚ} (hs : SquaresWell sq) (a b : Pt) : 0 ≤ dist2F sq a b :=
  b64_nonneg (add_nonneg (hs.nonneg _) (hs.nonneg _))

theorem distanceToPathFrom64_spec {lib : MathLib} (hs : SquaresWell lib.sq) {M : ℚ} (hM : 1 ≤ M) {p : Pt} (hp : PtDouble (2 * M) p)
    (path : List Pt) (pre : List (Pt × Pt)) (best : Option Nearest) (hpath : ∀ q ∈ path, PtDouble M q)
    (hne : ∀ s ∈ segments path, 2 ^ (-500 : ℤ) ≤ |s.1.x - s.2.x| ∨ 2 ^ (-500 : ℤ) ≤ |s.1.y - s.2.y|)
    (hb : match best with | none => pre = [] | some n => BestOf64 lib.sq M p pre n) :
    ∃ r, distanceToPathFrom64 lib p pre.length best path = .ok r ∧
      match r with | none => pre ++ segments path = [] | some n => BestOf64 lib.sq M p (pre ++ segments path) n := by
  induction path generalizing pre best with
  | nil => exact ⟨best, rfl, by simpa [segments] using hb⟩
  | cons a rest ih =>
    cases rest with
    | nil => exact ⟨best, rfl, by simpa [segments] using hb⟩
    | cons b rest =>
      have hab := hne (a, b) (by simp [segments])
      have ha := hpath a (by simp)
      have hb' := hpath b (by simp)
      obtain ⟨c, hd, hcd, hon, hmin⟩ := distToSegment64_spec hs.err hM hp ha hb' hab
      have hlen : pre.length + 1 = (pre ++ [(a, b)]).length := by simp
      have hseg : pre ++ segments (a :: b :: rest) = pre ++ [(a, b)] ++ segments (b :: rest) := by simp [segments]
      have hget : ∀ (k : ℕ) a' b', (pre ++ [(a, b)])[k]? = some (a', b') →
          (k < pre.length ∧ pre[k]? = some (a', b')) ∨ (k = pre.length ∧ (a', b') = (a, b)) := by
        intro k a' b' hk
        rcases lt_trichotomy k pre.length with h1 | h1 | h1
        · left; rw [List.getElem?_append_left h1] at hk; exact ⟨h1, hk⟩
        · right; subst h1; simp at hk; exact ⟨rfl, by rw [hk.1, hk.2]⟩
        · rw [List.getElem?_append_right h1.le] at hk
          obtain ⟨m, hm⟩ : ∃ m, k - pre.length = m + 1 := ⟨k - pre.length - 1, by omega⟩
          rw [hm] at hk; simp at hk
      have hlen0 : segmentLengthSquared64 lib.sq a b ≠ 0 := by
        rw [segmentLength64_eq hs]; exact (dist2F_ne_zero hs.err ha hb' hab).ne'
      have hq0 : ¬ b64 (segmentLengthSquared64 lib.sq a c / segmentLengthSquared64 lib.sq a b) < 0 := by
        rw [segmentLength64_eq hs, segmentLength64_eq hs, not_lt]
        exact b64_nonneg (div_nonneg (dist2F_nonneg hs _ _) (dist2F_nonneg hs _ _))
      unfold distanceToPathFrom64
      simp only [hd]
      rw [hseg, hlen]
      by_cases hlt : nearerThan (dist2F lib.sq p c) best = true
      · rw [if_pos hlt, if_neg hlen0, if_neg hq0]
        refine ih (pre ++ [(a, b)]) _ (fun q hq => hpath q (by simp only [List.mem_cons] at hq ⊢; tauto))
          (fun s hs => hne s (by simp [segments, hs])) ⟨⟨a, b, by simp, hon⟩, hcd, rfl, ?_⟩
        intro k a' b' hk
        rcases hget k a' b' hk with ⟨-, h2⟩ | ⟨-, h2⟩
        · cases best with
          | none => simp only at hb; subst hb; simp at h2
          | some n =>
            obtain ⟨c', m1, m2, m3⟩ := hb.min k a' b' h2
            have : dist2F lib.sq p c < n.dist := by simpa [nearerThan] using hlt
            exact ⟨c', m1, this.le.trans m2, m3⟩
        · cases h2
          exact ⟨c, hcd, le_refl _, hmin⟩
      · rw [if_neg hlt]
        refine ih (pre ++ [(a, b)]) _ (fun q hq => hpath q (by simp only [List.mem_cons] at hq ⊢; tauto))
          (fun s hs => hne s (by simp [segments, hs])) ?_
        cases best with
        | none => simp [nearerThan] at hlt
        | some n =>
          have hle : n.dist ≤ dist2F lib.sq p c := by simpa [nearerThan] using hlt
          obtain ⟨⟨a0, b0, g1, g2⟩, g3, g4, g5⟩ := hb
          refine ⟨⟨a0, b0, ?_, g2⟩, g3, g4, ?_⟩
          · have := (List.getElem?_eq_some_iff.mp g1).1
            rw [List.getElem?_append_left this]; exact g1
          · intro k a' b' hk
            rcases hget k a' b' hk with ⟨-, h2⟩ | ⟨-, h2⟩
            · exact g5 k a' b' h2
            · cases h2
              exact ⟨c, hcd, hle, hmin⟩

/-- The point found is nearest up to rounding. -/
theorem best64_nearest {sq : ℚ → ℚ} (hs : SquaresUpToUlp sq) {M : ℚ} (hM : 1 ≤ M) {p : Pt} (hp : PtDouble (2 * M) p) {segs : List (Pt × Pt)}
    {n : Nearest} (h : BestOf64 sq M p segs n) {s : Pt × Pt} (hseg : s ∈ segs) {q : Pt} (hq : OnSegment s.1 s.2 q) :
    sqDist p n.point ≤ sqDist p q + 2 ^ (-40 : ℤ) * (M * M) := by
  obtain ⟨k, hk⟩ := List.getElem?_of_mem hseg
  obtain ⟨c, hc, h1, h2⟩ := h.min k s.1 s.2 hk
  rw [h.dist] at h1
  have h3 := sqDist_of_dist2F hs hp.1.1 hp.1.2 hc.1.1 hc.1.2 h.double.1.1 h.double.1.2 h1
  have h4 := h2 q hq
  have hMM : 1 ≤ M * M := by nlinarith
  have h5 : sqDist p c ≤ 32 * (M * M) := by
    have key : ∀ {a b : ℚ}, |a| ≤ 2 * M → |b| ≤ 2 * M → (a - b) * (a - b) ≤ 16 * (M * M) := by
      intro a b ha hb
      rw [abs_le] at ha hb
      nlinarith
    unfold sqDist
    have := key hp.2.1 hc.2.1
    have := key hp.2.2 hc.2.2
    linarith
  have hη : (2 : ℚ) ^ (-1070 : ℤ) ≤ 2 ^ (-60 : ℤ) := zpow_le_zpow_right₀ (by norm_num) (by norm_num)
  generalize (2 : ℚ) ^ (-1070 : ℤ) = η at *
  norm_num at *
  linarith

end CQ
