import Verif.Model.Scan64
import Verif.Spec.Scan64
import Verif.Proofs.Surface
import Verif.Props.Scan64

/-!
# Property C130: the sample points of 3D surfacing, in floating point
-/

namespace CQ

theorem sq_triangle {a b c d A E : ℚ} (hA : 0 ≤ A) (hE : 0 ≤ E) (h1 : a * a + b * b ≤ A ^ 2) (h2 : c * c + d * d ≤ E ^ 2) :
    (a + c) * (a + c) + (b + d) * (b + d) ≤ (A + E) ^ 2 := by
  have h : a * c + b * d ≤ A * E := by
    apply le_of_sq_le_sq _ (mul_nonneg hA hE)
    have : (a * c + b * d) ^ 2 ≤ (a * a + b * b) * (c * c + d * d) := by nlinarith [sq_nonneg (a * d - b * c)]
    have h3 : (a * a + b * b) * (c * c + d * d) ≤ A ^ 2 * E ^ 2 :=
      mul_le_mul h1 h2 (by nlinarith [mul_self_nonneg c, mul_self_nonneg d]) (sq_nonneg _)
    nlinarith
  nlinarith

/-- `arange` from 0, with a step that is a double. -/
theorem arange64_zero {l s : ℚ} (hl : IsDouble l) (hs : IsDouble s) :
    arange64 0 l s = (List.range ⌈b64 (l / s)⌉.toNat).map (fun i : ℕ => b64 (i * s)) := by
  unfold arange64
  simp only [sub_zero, zero_add]
  rw [b64_double hl]
  apply List.map_congr_left
  intro i _
  rw [b64_double hs, b64_double hs, b64_double (b64_isDouble _)]
  split_ifs with h0 h1
  · rw [h0]; simp [b64_zero]
  · rw [h1]; simp [b64_double hs]
  · rfl

/-- How many sample points there are on a segment of length `l`. -/
theorem sample_count {l s : ℚ} (hl : 0 < l) (hs : 0 < s) :
    (∀ i : ℕ, i < ⌈b64 (l / s)⌉.toNat → i * s ≤ l * (1 + 2 ^ (-53 : ℤ))) ∧
      (⌈b64 (l / s)⌉.toNat = 0 → l ≤ s) ∧ l ≤ ⌈b64 (l / s)⌉.toNat * s + 2 ^ (-53 : ℤ) * l + s * 2 ^ (-53 : ℤ) := by
  have hq : 0 < l / s := div_pos hl hs
  have e := b64_err (l / s)
  rw [abs_of_pos hq] at e
  have e' := abs_le.mp e
  have hη : (2 : ℚ) ^ (-1075 : ℤ) ≤ 2 ^ (-53 : ℤ) := zpow_le_zpow_right₀ (by norm_num) (by norm_num)
  have hls : l / s * s = l := div_mul_cancel₀ _ hs.ne'
  have hlast : l ≤ ⌈b64 (l / s)⌉.toNat * s + 2 ^ (-53 : ℤ) * l + s * 2 ^ (-53 : ℤ) := by
    generalize (2 : ℚ) ^ (-1075 : ℤ) = η at *
    generalize (2 : ℚ) ^ (-53 : ℤ) = ε at *
    have h0 := Int.le_ceil (b64 (l / s))
    have h2 : ⌈b64 (l / s)⌉ ≤ ((⌈b64 (l / s)⌉.toNat : ℕ) : ℤ) := Int.self_le_toNat _
    have h3 : ((⌈b64 (l / s)⌉ : ℤ) : ℚ) ≤ ((⌈b64 (l / s)⌉.toNat : ℕ) : ℚ) := by exact_mod_cast h2
    have h4 : l / s ≤ (⌈b64 (l / s)⌉.toNat : ℕ) + ε * (l / s) + ε := by linarith [e'.1]
    have h5 := mul_le_mul_of_nonneg_right h4 hs.le
    rw [hls] at h5
    have h6 : ε * (l / s) * s = ε * l := by rw [mul_assoc, hls]
    linarith
  refine ⟨?_, ?_, hlast⟩
  · intro i hi
    rcases Nat.eq_zero_or_pos i with h0 | h0
    · subst h0
      have := two_zpow_pos (-53)
      push_cast
      rw [zero_mul]
      positivity
    · have h1 : (i : ℤ) < ⌈b64 (l / s)⌉ := by omega
      have h2 : (i : ℚ) < b64 (l / s) := by exact_mod_cast Int.lt_ceil.mp h1
      have h3 : (1 : ℚ) ≤ i := by exact_mod_cast h0
      have h4 : 1 ≤ l / s := by
        by_contra hc
        rw [not_le] at hc
        have := b64_le (x := l / s) (y := 1) ⟨1, 0, by norm_num, by norm_num, by norm_num⟩ hc.le
        linarith
      have h5 := b64_err_rel (x := l / s) (by
        rw [abs_of_pos hq]
        exact le_trans (zpow_le_one_of_nonpos₀ (by norm_num) (by norm_num)) h4)
      rw [abs_of_pos hq] at h5
      have h6 : (i : ℚ) ≤ l / s * (1 + 2 ^ (-53 : ℤ)) := by linarith [(abs_le.mp h5).2]
      calc (i : ℚ) * s ≤ l / s * (1 + 2 ^ (-53 : ℤ)) * s := mul_le_mul_of_nonneg_right h6 hs.le
        _ = l / s * s * (1 + 2 ^ (-53 : ℤ)) := by ring
        _ = _ := by rw [hls]
  · intro h0
    have h2 : b64 (l / s) ≤ 0 := by
      have h3 : ⌈b64 (l / s)⌉ ≤ 0 := Int.toNat_eq_zero.mp h0
      exact_mod_cast Int.ceil_le.mp h3
    have h4 : l / s ≤ 1 := by
      by_contra hc
      rw [not_le] at hc
      have := le_b64 (x := l / s) (y := 1) ⟨1, 0, by norm_num, by norm_num, by norm_num⟩ hc.le
      linarith
    rwa [div_le_one hs] at h4

/-- One coordinate of a sample point. -/
theorem sample_coord {p v l t L μ : ℚ} (hμ : μ = 2 ^ (-52 : ℤ)) (hL : 1 ≤ L) (hp : |p| ≤ L) (hl : 0 < l)
    (hv : |v| ≤ 2 * l) (ht0 : 0 ≤ t) (ht : t ≤ 12 * L) :
    |b64 (p + b64 (b64 (v / l) * b64 t)) - (p + v / l * t)| ≤ 108 * μ * L := by
  have hμ0 : 0 < μ := hμ ▸ two_zpow_pos (-52)
  have hμ2 : μ ≤ 1 / 64 := by rw [hμ]; norm_num
  have mu : ∀ {x X : ℚ}, |x| ≤ X → 1 ≤ X → |b64 x - x| ≤ μ * X := hμ ▸ b64_err_mu
  have hm : μ * L ≤ 1 / 64 * L := mul_le_mul_of_nonneg_right hμ2 (by linarith)
  have hm0 : 0 ≤ μ * L := by positivity
  have hr : |v / l| ≤ 2 := by rw [abs_div, abs_of_pos hl, div_le_iff₀ hl]; exact hv
  generalize v / l = r at *
  have e1 := mu (X := 2) hr (by norm_num)
  have e2 := mu (x := t) (X := 12 * L) (abs_le.mpr ⟨by linarith, ht⟩) (by linarith)
  generalize b64 r = u at *
  generalize b64 t = w at *
  have hw : |w| ≤ 13 * L := by
    have := abs_le.mp e2
    exact abs_le.mpr ⟨by linarith, by linarith⟩
  have hu : |u| ≤ 33 / 16 := by
    have := abs_le.mp e1
    have := abs_le.mp hr
    exact abs_le.mpr ⟨by linarith, by linarith⟩
  have e3 : |u * w - r * t| ≤ 50 * μ * L := by
    have h1 : u * w - r * t = (u - r) * w + r * (w - t) := by ring
    rw [h1]
    refine (abs_add_le _ _).trans ?_
    rw [abs_mul, abs_mul]
    have h2 := mul_le_mul e1 hw (abs_nonneg _) (by positivity)
    have h3 := mul_le_mul hr e2 (abs_nonneg _) (by norm_num)
    linarith
  have hx : |u * w| ≤ 28 * L := by
    rw [abs_mul]
    have := mul_le_mul hu hw (abs_nonneg _) (by norm_num)
    linarith
  have e4 := mu hx (by linarith)
  have e5 := mu (x := p + b64 (u * w)) (X := 30 * L) (by
    have := abs_le.mp e4
    have := abs_le.mp hx
    have := abs_le.mp hp
    exact abs_le.mpr ⟨by linarith, by linarith⟩) (by linarith)
  have a3 := abs_le.mp e3
  have a4 := abs_le.mp e4
  have a5 := abs_le.mp e5
  exact abs_le.mpr ⟨by linarith, by linarith⟩

/-- Two points that are up to rounding `τ` lengths `(x, y) / l` apart. -/
theorem sample_gap {a b : Pt} {x y l τ r step L μ e : ℚ} (hl : 0 < l) (hr0 : 0 ≤ r) (hr : r ≤ 2) (hm0 : 0 ≤ μ * L)
    (hn : x * x + y * y ≤ (r * l) ^ 2) (hτ : |τ| ≤ step + 14 * μ * L) (he0 : 0 ≤ e) (he : e ≤ 216 * μ * L)
    (hx : |b.x - a.x - x / l * τ| ≤ e) (hy : |b.y - a.y - y / l * τ| ≤ e) :
    sqDist a b ≤ (r * step + 400 * μ * L) ^ 2 := by
  have hs0 : 0 ≤ step + 14 * μ * L := (abs_nonneg τ).trans hτ
  have h1 : x / l * τ * (x / l * τ) + y / l * τ * (y / l * τ) ≤ (r * (step + 14 * μ * L)) ^ 2 := by
    have e1 : x / l * τ * (x / l * τ) + y / l * τ * (y / l * τ) = (x * x + y * y) / l ^ 2 * τ ^ 2 := by field_simp
    have e2 : (x * x + y * y) / l ^ 2 ≤ r ^ 2 := by
      rw [div_le_iff₀ (by positivity)]
      linarith [mul_pow r l 2]
    have e3 : τ ^ 2 ≤ (step + 14 * μ * L) ^ 2 := sq_le_sq' (abs_le.mp hτ).1 (abs_le.mp hτ).2
    rw [e1, mul_pow]
    exact mul_le_mul e2 e3 (sq_nonneg _) (sq_nonneg _)
  have h2 : (b.x - a.x - x / l * τ) * (b.x - a.x - x / l * τ) + (b.y - a.y - y / l * τ) * (b.y - a.y - y / l * τ) ≤ (3 / 2 * e) ^ 2 := by
    have a1 := sq_le_sq' (abs_le.mp hx).1 (abs_le.mp hx).2
    have a2 := sq_le_sq' (abs_le.mp hy).1 (abs_le.mp hy).2
    nlinarith
  have h3 := sq_triangle (mul_nonneg hr0 hs0) (by positivity) h1 h2
  have e4 : sqDist a b = (x / l * τ + (b.x - a.x - x / l * τ)) * (x / l * τ + (b.x - a.x - x / l * τ)) +
      (y / l * τ + (b.y - a.y - y / l * τ)) * (y / l * τ + (b.y - a.y - y / l * τ)) := by
    unfold sqDist
    ring
  rw [e4]
  refine h3.trans ?_
  have h5 : 0 ≤ r * (step + 14 * μ * L) := mul_nonneg hr0 hs0
  have h6 : r * (14 * μ * L) ≤ 2 * (14 * μ * L) := mul_le_mul_of_nonneg_right hr (by linarith)
  apply pow_le_pow_left₀ (by linarith)
  linarith

/-- The lengths of the engine, for vectors of doubles: doubles, never shorter than `1 / r` of the true length, and not much longer. -/
structure Measures64 (r : ℚ) (norm : Pt → ℚ) : Prop where
  zero : norm ⟨0, 0⟩ = 0
  pos : ∀ v : Pt, IsDouble v.x → IsDouble v.y → v ≠ ⟨0, 0⟩ → 0 < norm v
  near : ∀ v : Pt, IsDouble v.x → IsDouble v.y → v.x * v.x + v.y * v.y ≤ (r * norm v) ^ 2
  double : ∀ v : Pt, IsDouble v.x → IsDouble v.y → IsDouble (norm v)
  most : ∀ (v : Pt) (X : ℚ), IsDouble v.x → IsDouble v.y → |v.x| ≤ X → |v.y| ≤ X → norm v ≤ 2 * X

/-- The sample points of one segment. -/
theorem samples64_along {p q : Pt} {l r step L : ℚ} (hL : 1 ≤ L) (hpx : |p.x| ≤ L) (hpy : |p.y| ≤ L) (hqx : |q.x| ≤ L) (hqy : |q.y| ≤ L)
    (hs : 0 < step) (hsL : step ≤ L) (hsd : IsDouble step) (hr0 : 0 ≤ r) (hr : r ≤ 2) (hl : 0 < l) (hld : IsDouble l) (hlL : l ≤ 5 * L)
    (hn : b64 (q.x - p.x) * b64 (q.x - p.x) + b64 (q.y - p.y) * b64 (q.y - p.y) ≤ (r * l) ^ 2) :
    let ms := (arange64 0 l step).map (fun s =>
      (⟨b64 (p.x + b64 (b64 (b64 (q.x - p.x) / l) * s)), b64 (p.y + b64 (b64 (b64 (q.y - p.y) / l) * s))⟩ : Pt))
    (∃ ts : List ℚ, List.Pairwise (· ≤ ·) ts ∧ List.Forall₂ (NearFraction (128 * 2 ^ (-52 : ℤ) * L) p q) ts ms) ∧
    List.IsChain (fun a b => sqDist a b ≤ (r * step + 400 * 2 ^ (-52 : ℤ) * L) ^ 2) (p :: (ms ++ [q])) := by
  intro ms
  obtain ⟨c1, c2, c3⟩ := sample_count hl hs
  have hms : ms = (List.range ⌈b64 (l / step)⌉.toNat).map (fun i : ℕ =>
      (⟨b64 (p.x + b64 (b64 (b64 (q.x - p.x) / l) * b64 (i * step))),
        b64 (p.y + b64 (b64 (b64 (q.y - p.y) / l) * b64 (i * step)))⟩ : Pt)) := by
    change (arange64 0 l step).map _ = _
    rw [arange64_zero hld hsd, List.map_map]
    rfl
  rw [hms]
  clear hms
  generalize ⌈b64 (l / step)⌉.toNat = n at *
  have half : (2 : ℚ) ^ (-53 : ℤ) = 2 ^ (-52 : ℤ) / 2 := by norm_num
  rw [half] at c1 c3
  obtain ⟨μ, hμ⟩ : ∃ μ : ℚ, μ = 2 ^ (-52 : ℤ) := ⟨_, rfl⟩
  have mu : ∀ {x X : ℚ}, |x| ≤ X → 1 ≤ X → |b64 x - x| ≤ μ * X := hμ ▸ b64_err_mu
  have coord := fun {p v t : ℚ} => sample_coord (p := p) (v := v) (l := l) (t := t) hμ hL
  rw [← hμ] at c1 c3 ⊢
  have hμ0 : 0 < μ := hμ ▸ two_zpow_pos (-52)
  have hμ2 : μ ≤ 1 / 64 := by rw [hμ]; norm_num
  clear hμ half
  have hm : μ * L ≤ 1 / 64 * L := mul_le_mul_of_nonneg_right hμ2 (by linarith)
  have hm0 : 0 ≤ μ * L := by positivity
  have hml : μ * l ≤ 5 * (μ * L) := by have := mul_le_mul_of_nonneg_left hlL hμ0.le; linarith
  have hms' : μ * step ≤ μ * L := mul_le_mul_of_nonneg_left hsL hμ0.le
  have px := abs_le.mp hpx
  have py := abs_le.mp hpy
  have qx := abs_le.mp hqx
  have qy := abs_le.mp hqy
  have ex := mu (x := q.x - p.x) (X := 2 * L) (abs_le.mpr ⟨by linarith, by linarith⟩) (by linarith)
  have ey := mu (x := q.y - p.y) (X := 2 * L) (abs_le.mpr ⟨by linarith, by linarith⟩) (by linarith)
  generalize b64 (q.x - p.x) = vx at *
  generalize b64 (q.y - p.y) = vy at *
  have hrl : r * l ≤ 2 * l := mul_le_mul_of_nonneg_right hr hl.le
  have hvx : |vx| ≤ 2 * l := by
    refine (abs_le_of_sq_le_sq (b := r * l) ?_ (mul_nonneg hr0 hl.le)).trans hrl
    nlinarith [mul_self_nonneg vy]
  have hvy : |vy| ≤ 2 * l := by
    refine (abs_le_of_sq_le_sq (b := r * l) ?_ (mul_nonneg hr0 hl.le)).trans hrl
    nlinarith [mul_self_nonneg vx]
  have hi0 : ∀ i : ℕ, 0 ≤ (i : ℚ) * step := fun i => mul_nonneg (Nat.cast_nonneg i) hs.le
  have hi1 : ∀ i : ℕ, i < n → (i : ℚ) * step ≤ 12 * L := by
    intro i hi
    have := c1 i hi
    linarith
  have cx := fun i hi => coord hpx hl hvx (hi0 i) (hi1 i hi)
  have cy := fun i hi => coord hpy hl hvy (hi0 i) (hi1 i hi)
  obtain ⟨f, hf⟩ : ∃ f : ℕ → Pt, f = fun i : ℕ => (⟨b64 (p.x + b64 (b64 (vx / l) * b64 (i * step))),
        b64 (p.y + b64 (b64 (vy / l) * b64 (i * step)))⟩ : Pt) := ⟨_, rfl⟩
  have fx : ∀ i < n, |(f i).x - (p.x + vx / l * (i * step))| ≤ 108 * μ * L := by rw [hf]; exact cx
  have fy : ∀ i < n, |(f i).y - (p.y + vy / l * (i * step))| ≤ 108 * μ * L := by rw [hf]; exact cy
  rw [← hf]
  clear_value ms
  clear coord cx cy hf ms mu
  constructor
  · refine ⟨(List.range n).map (fun i : ℕ => min 1 (i * step / l)), ?_, ?_⟩
    · rw [List.pairwise_map]
      refine List.Pairwise.imp ?_ List.pairwise_lt_range
      intro a b h
      have hab : (a : ℚ) ≤ b := by exact_mod_cast h.le
      exact min_le_min_left _ (div_le_div_of_nonneg_right (mul_le_mul_of_nonneg_right hab hs.le) hl.le)
    · refine forall2_map_map _ _ _ ?_
      intro i hi
      rw [List.mem_range] at hi
      have ht0 : 0 ≤ (i : ℚ) * step / l := div_nonneg (hi0 i) hl.le
      have ht1 : (i : ℚ) * step / l ≤ 1 + μ / 2 := by
        rw [div_le_iff₀ hl]
        linarith [c1 i hi]
      have key : ∀ {m p q v : ℚ}, |m - (p + v / l * (i * step))| ≤ 108 * μ * L → |v - (q - p)| ≤ μ * (2 * L) → |q - p| ≤ 2 * L →
          |m - (p + (q - p) * min 1 (i * step / l))| ≤ 128 * μ * L := by
        intro m p q v h1 h2 h3
        have e1 : v / l * (i * step) = v * (i * step / l) := by field_simp
        rw [e1] at h1
        generalize (i : ℚ) * step / l = t at *
        have e2 : |t - min 1 t| ≤ μ / 2 := by
          rcases le_total 1 t with h | h
          · rw [min_eq_left h, abs_of_nonneg (by linarith)]; linarith
          · rw [min_eq_right h, sub_self, abs_zero]; linarith
        have e3 : m - (p + (q - p) * min 1 t) = (m - (p + v * t)) + (v - (q - p)) * t + (q - p) * (t - min 1 t) := by ring
        rw [e3]
        have h4 : |(v - (q - p)) * t| ≤ μ * (2 * L) * 2 := by
          rw [abs_mul, abs_of_nonneg ht0]
          exact mul_le_mul h2 (by linarith) ht0 (by positivity)
        have h5 : |(q - p) * (t - min 1 t)| ≤ 2 * L * (μ / 2) := by
          rw [abs_mul]
          exact mul_le_mul h3 e2 (abs_nonneg _) (by linarith)
        refine (abs_add_le _ _).trans ?_
        have := abs_add_le (m - (p + v * t)) ((v - (q - p)) * t)
        linarith
      refine ⟨le_min zero_le_one ht0, min_le_left _ _, ?_, ?_⟩
      · have := key (fx i hi) ex (abs_le.mpr ⟨by linarith, by linarith⟩)
        unfold Pt.lerp
        simpa [mul_comm] using this
      · have := key (fy i hi) ey (abs_le.mpr ⟨by linarith, by linarith⟩)
        unfold Pt.lerp
        simpa [mul_comm] using this
  · refine chain_between q n p f ?_ ?_ ?_ ?_
    · intro h
      have a1 := fx 0 h
      have a2 := fy 0 h
      refine sample_gap (τ := 0) hl hr0 hr hm0 hn ?_ (show 0 ≤ 108 * μ * L by linarith) (by linarith) ?_ ?_
      · rw [abs_zero]; linarith
      · refine le_trans (le_of_eq ?_) a1
        congr 1; push_cast; ring
      · refine le_trans (le_of_eq ?_) a2
        congr 1; push_cast; ring
    · intro i hi
      have a1 := abs_le.mp (fx i (by omega))
      have a2 := abs_le.mp (fy i (by omega))
      have b1 := abs_le.mp (fx (i + 1) hi)
      have b2 := abs_le.mp (fy (i + 1) hi)
      push_cast at b1 b2
      refine sample_gap (τ := step) hl hr0 hr hm0 hn ?_ (show 0 ≤ 216 * μ * L by linarith) le_rfl ?_ ?_
      · rw [abs_of_pos hs]; linarith
      · generalize vx / l = w at *
        exact abs_le.mpr ⟨by linarith, by linarith⟩
      · generalize vy / l = w at *
        exact abs_le.mpr ⟨by linarith, by linarith⟩
    · intro h
      have e1 : vx / l * l = vx := div_mul_cancel₀ _ hl.ne'
      have e2 : vy / l * l = vy := div_mul_cancel₀ _ hl.ne'
      refine sample_gap (τ := l) hl hr0 hr hm0 hn ?_ (show 0 ≤ 108 * μ * L by linarith) (by linarith) ?_ ?_
      · rw [abs_of_pos hl]; linarith [c2 h]
      · rw [e1]
        have := abs_le.mp ex
        exact abs_le.mpr ⟨by linarith, by linarith⟩
      · rw [e2]
        have := abs_le.mp ey
        exact abs_le.mpr ⟨by linarith, by linarith⟩
    · intro m hmn
      have a1 := abs_le.mp (fx m (by omega))
      have a2 := abs_le.mp (fy m (by omega))
      have e1 : vx / l * l = vx := div_mul_cancel₀ _ hl.ne'
      have e2 : vy / l * l = vy := div_mul_cancel₀ _ hl.ne'
      have c := c1 m (by omega)
      rw [hmn] at c3
      push_cast at c3
      refine sample_gap (τ := l - m * step) hl hr0 hr hm0 hn ?_ (show 0 ≤ 216 * μ * L by linarith) le_rfl ?_ ?_
      · exact abs_le.mpr ⟨by linarith, by linarith⟩
      · have := abs_le.mp ex
        rw [mul_sub, e1]
        exact abs_le.mpr ⟨by linarith, by linarith⟩
      · have := abs_le.mp ey
        rw [mul_sub, e2]
        exact abs_le.mpr ⟨by linarith, by linarith⟩

/-- The sample points of a path. -/
theorem interpolateFrom64_refines {eng : SurfaceEngine} {r step L : ℚ} (hm : Measures64 r eng.norm) (hL : 1 ≤ L) (hr0 : 0 ≤ r) (hr : r ≤ 2)
    (hs : 0 < step) (hsL : step ≤ L) (hsd : IsDouble step) :
    ∀ {seq : List Pt} {p : Pt} {out : List Pt}, (∀ q ∈ p :: seq, |q.x| ≤ L ∧ |q.y| ≤ L) →
      interpolateFrom64 eng step p seq = .ok out →
      RefinesUpTo (128 * 2 ^ (-52 : ℤ) * L) (r * step + 400 * 2 ^ (-52 : ℤ) * L) (p :: seq) (p :: out) := by
  intro seq
  induction seq with
  | nil =>
    intro p out _ h
    cases h
    exact .single p
  | cons q seq ih =>
    intro p out hd h
    unfold interpolateFrom64 at h
    dsimp only at h
    split at h
    · cases h
    · rw [if_neg hs.ne'] at h
      obtain ⟨rest, h1, h⟩ := bind_ok.mp h
      cases h
      have ih' := ih (fun x hx => hd x (by simp [List.mem_cons.mp hx])) h1
      obtain ⟨hpx, hpy⟩ := hd p (by simp)
      obtain ⟨hqx, hqy⟩ := hd q (by simp)
      have px := abs_le.mp hpx
      have py := abs_le.mp hpy
      have qx := abs_le.mp hqx
      have qy := abs_le.mp hqy
      have ex := b64_err_mu (x := q.x - p.x) (X := 2 * L) (abs_le.mpr ⟨by linarith, by linarith⟩) (by linarith)
      have ey := b64_err_mu (x := q.y - p.y) (X := 2 * L) (abs_le.mpr ⟨by linarith, by linarith⟩) (by linarith)
      by_cases hv : (⟨b64 (q.x - p.x), b64 (q.y - p.y)⟩ : Pt) = ⟨0, 0⟩
      · rw [hv, hm.zero]
        have e : arange64 0 0 step = [] := by simp [arange64, b64_zero]
        rw [e]
        refine RefinesUpTo.cons (ms := []) ⟨[], by simp, .nil⟩ ?_ ih'
        injection hv with hx hy
        rw [hx] at ex
        rw [hy] at ey
        have hμ := two_zpow_pos (-52)
        generalize (2 : ℚ) ^ (-52 : ℤ) = μ at *
        have hm0 : 0 ≤ μ * L := by positivity
        have := sample_gap (a := p) (b := q) (x := 0) (y := 0) (l := 1) (τ := 0) (r := r) (step := step) (L := L) (μ := μ)
          (e := 2 * μ * L) one_pos hr0 hr hm0 (by simp; positivity) (by rw [abs_zero]; linarith) (by linarith) (by linarith)
          (by rw [← abs_neg] at ex; simp only [zero_div, mul_zero, sub_zero]; convert ex using 1 <;> [congr 1; skip] <;> ring)
          (by rw [← abs_neg] at ey; simp only [zero_div, mul_zero, sub_zero]; convert ey using 1 <;> [congr 1; skip] <;> ring)
        simpa using this
      · have hl := hm.pos _ (b64_isDouble _) (b64_isDouble _) hv
        have hlL : eng.norm ⟨b64 (q.x - p.x), b64 (q.y - p.y)⟩ ≤ 5 * L := by
          have hμ2 : (2 : ℚ) ^ (-52 : ℤ) ≤ 1 / 64 := by norm_num
          generalize (2 : ℚ) ^ (-52 : ℤ) = μ at *
          have hmm : μ * L ≤ 1 / 64 * L := mul_le_mul_of_nonneg_right hμ2 (by linarith)
          have ex := abs_le.mp ex
          have ey := abs_le.mp ey
          have := hm.most ⟨b64 (q.x - p.x), b64 (q.y - p.y)⟩ (5 / 2 * L) (b64_isDouble _) (b64_isDouble _) (abs_le.mpr ⟨by dsimp only; linarith, by dsimp only; linarith⟩)
            (abs_le.mpr ⟨by dsimp only; linarith, by dsimp only; linarith⟩)
          linarith
        obtain ⟨a, b⟩ := samples64_along (r := r) hL hpx hpy hqx hqy hs hsL hsd hr0 hr hl (hm.double _ (b64_isDouble _) (b64_isDouble _)) hlL
          (hm.near ⟨b64 (q.x - p.x), b64 (q.y - p.y)⟩ (b64_isDouble _) (b64_isDouble _))
        exact RefinesUpTo.cons a b ih'

theorem RefinesUpTo.mono {tol tol' gap gap' : ℚ} (h0 : 0 ≤ gap) (h1 : tol ≤ tol') (h2 : gap ≤ gap') {seq out : List Pt}
    (h : RefinesUpTo tol gap seq out) : RefinesUpTo tol' gap' seq out := by
  induction h with
  | single p => exact .single p
  | cons along near _ ih =>
    obtain ⟨ts, t1, t2⟩ := along
    refine .cons ⟨ts, t1, t2.imp fun _ _ ⟨a, b, c, d⟩ => ⟨a, b, c.trans h1, d.trans h1⟩⟩ (near.imp fun _ _ hn => hn.trans ?_) ih
    exact pow_le_pow_left₀ h0 h2 2

/-- C130.  The sample points at which 3D surfacing asks for the height, computed in floating point along a path with coordinates up to `L`:
the points of the path are kept, the others are between them on the straight lines, in order, and neighbours are at most the interpolation step
apart (`r` is the accuracy of the engine's lengths), up to 10^-13 times `L`. -/
theorem C130_samples {eng : SurfaceEngine} {r step L : ℚ} (hm : Measures64 r eng.norm) (hL : 1 ≤ L) (hr0 : 0 ≤ r) (hr : r ≤ 2)
    (hs : 0 < step) (hsL : step ≤ L) (hsd : IsDouble step) {seq out : List Pt}
    (hd : ∀ q ∈ seq, |q.x| ≤ L ∧ |q.y| ≤ L) (h : interpolateSequence64 eng step seq = .ok out) :
    RefinesUpTo (L / 10 ^ 13) (r * step + L / 10 ^ 13) seq out := by
  cases seq with
  | nil => cases h
  | cons p seq =>
    obtain ⟨rest, h1, h⟩ := bind_ok.mp h
    cases h
    have hμ := two_zpow_pos (-52)
    have hμ2 : (2 : ℚ) ^ (-52 : ℤ) * 400 ≤ 1 / 10 ^ 13 := by norm_num
    have := interpolateFrom64_refines hm hL hr0 hr hs hsL hsd hd h1
    generalize (2 : ℚ) ^ (-52 : ℤ) = μ at *
    have hmm := mul_le_mul_of_nonneg_right hμ2 (show 0 ≤ L by linarith)
    have hm0 : 0 ≤ μ * L := by positivity
    have hrs : 0 ≤ r * step := mul_nonneg hr0 hs.le
    exact this.mono (by linarith) (by linarith) (by linarith)

/-- C130.  It succeeds for every path that does not stand still (in doubles). -/
theorem C130_samples_total {eng : SurfaceEngine} {step : ℚ} (hs : 0 < step) {seq : List Pt} (hne : seq ≠ [])
    (h : List.IsChain (fun p q : Pt => b64 (q.x - p.x) ≠ 0 ∨ b64 (q.y - p.y) ≠ 0) seq) :
    ∃ out, interpolateSequence64 eng step seq = .ok out := by
  have main : ∀ (seq : List Pt) (p : Pt), List.IsChain (fun p q : Pt => b64 (q.x - p.x) ≠ 0 ∨ b64 (q.y - p.y) ≠ 0) (p :: seq) →
      ∃ out, interpolateFrom64 eng step p seq = .ok out := by
    intro seq
    induction seq with
    | nil => intro p _; exact ⟨_, rfl⟩
    | cons q seq ih =>
      intro p h
      rw [List.isChain_cons_cons] at h
      obtain ⟨out, ho⟩ := ih q h.2
      have hv : (eng.strict && decide ((⟨b64 (q.x - p.x), b64 (q.y - p.y)⟩ : Pt) = ⟨0, 0⟩)) = false := by
        have : (⟨b64 (q.x - p.x), b64 (q.y - p.y)⟩ : Pt) ≠ ⟨0, 0⟩ := by
          intro hv
          injection hv with hx hy
          rcases h.1 with h | h
          · exact h hx
          · exact h hy
        simp [this]
      unfold interpolateFrom64
      dsimp only
      rw [hv, if_neg (by simp), if_neg hs.ne', ho]
      exact ⟨_, rfl⟩
  cases seq with
  | nil => exact absurd rfl hne
  | cons p seq =>
    obtain ⟨out, ho⟩ := main seq p h
    exact ⟨p :: out, by rw [interpolateSequence64, ho]; rfl⟩

/-- An engine for the examples: it measures the longer side. -/
def sideEngine : SurfaceEngine where
  scan := boxClipper
  norm := fun v => max |v.x| |v.y|
  strict := true
  bottom := -5
  drop := fun ps => ps.map (fun _ => -1)

theorem side_measures : Measures64 (3 / 2) sideEngine.norm where
  zero := by simp [sideEngine]
  pos := by
    intro v _ _ h
    by_contra hc
    have hc : max |v.x| |v.y| ≤ 0 := not_lt.mp hc
    have h1 : v.x = 0 := abs_nonpos_iff.mp ((le_max_left _ _).trans hc)
    have h2 : v.y = 0 := abs_nonpos_iff.mp ((le_max_right _ _).trans hc)
    exact h (by cases v; simp_all)
  near := by
    intro v _ _
    change _ ≤ (3 / 2 * max |v.x| |v.y|) ^ 2
    have h1 : v.x * v.x ≤ max |v.x| |v.y| ^ 2 := by
      rw [← abs_mul_abs_self, ← sq]
      exact pow_le_pow_left₀ (abs_nonneg _) (le_max_left _ _) 2
    have h2 : v.y * v.y ≤ max |v.x| |v.y| ^ 2 := by
      rw [← abs_mul_abs_self, ← sq]
      exact pow_le_pow_left₀ (abs_nonneg _) (le_max_right _ _) 2
    nlinarith [sq_nonneg (max |v.x| |v.y|)]
  double := by
    intro v hx hy
    change IsDouble (max |v.x| |v.y|)
    have ha : ∀ {x : ℚ}, IsDouble x → IsDouble |x| := by
      intro x hx
      rcases abs_choice x with h | h <;> rw [h]
      · exact hx
      · exact isDouble_neg hx
    rcases max_choice |v.x| |v.y| with h | h <;> rw [h]
    · exact ha hx
    · exact ha hy
  most := by
    intro v X _ _ hx hy
    change max |v.x| |v.y| ≤ 2 * X
    have := abs_nonneg v.x
    exact (max_le hx hy).trans (by linarith)

/-- The hypotheses of `C130_samples`, with a step of 0.3: five sample points on a line of length 1.4, the fourth not exactly three steps from the
start. -/
example : IsDouble (b64 (3 / 10)) ∧ (match interpolateSequence64 sideEngine (b64 (3 / 10)) [⟨0, 0⟩, ⟨b64 (7 / 5), 0⟩] with
    | .ok out => decide (out.length = 7 ∧ (out[4]?.map Pt.x) ≠ some (9 / 10) ∧ out[6]? = some ⟨b64 (7 / 5), 0⟩)
    | .error _ => false) = true :=
  ⟨b64_isDouble _, by decide +kernel⟩

end CQ
