import Verif.Py.Binary64
import Verif.Spec.Binary64
import Mathlib.Tactic.Linarith
import Mathlib.Tactic.Positivity
import Mathlib.Tactic.FieldSimp
import Mathlib.Tactic.Ring

namespace CQ

theorem abs_roundHalfEven (q : ℚ) : |(roundHalfEven q : ℚ) - q| ≤ 1 / 2 := by
  have h1 := Int.floor_le q
  have h2 := Int.lt_floor_add_one q
  unfold roundHalfEven
  rw [abs_le]
  split_ifs <;> push_cast <;> constructor <;> linarith

/-- Of all integers, the rounded one is nearest. -/
theorem roundHalfEven_nearest (q : ℚ) (k : ℤ) : |(roundHalfEven q : ℚ) - q| ≤ |(k : ℚ) - q| := by
  have h := abs_roundHalfEven q
  by_cases hk : k = roundHalfEven q
  · rw [hk]
  · have h1 : (1 : ℚ) ≤ |(k : ℚ) - roundHalfEven q| := by
      have : 1 ≤ |k - roundHalfEven q| := Int.one_le_abs (sub_ne_zero.mpr hk)
      exact_mod_cast this
    have h2 := abs_sub_le (k : ℚ) q (roundHalfEven q)
    rw [abs_sub_comm q] at h2
    linarith

theorem two_zpow_pos (e : ℤ) : (0 : ℚ) < 2 ^ e := zpow_pos (by norm_num) e

theorem b64_err_exp (x : ℚ) : |b64 x - x| ≤ 2 ^ (b64Exp x - 1) := by
  have hp := two_zpow_pos (b64Exp x)
  have h := abs_roundHalfEven (x / 2 ^ b64Exp x)
  have e : b64 x - x = ((roundHalfEven (x / 2 ^ b64Exp x) : ℚ) - x / 2 ^ b64Exp x) * 2 ^ b64Exp x := by
    rw [sub_mul, div_mul_cancel₀ _ hp.ne', b64]
  rw [e, abs_mul, abs_of_pos hp, zpow_sub_one₀ (by norm_num)]
  calc _ ≤ 1 / 2 * (2 : ℚ) ^ b64Exp x := mul_le_mul_of_nonneg_right h hp.le
    _ = _ := by ring

theorem b64_zero : b64 0 = 0 := by unfold b64; simp [roundHalfEven]

/-- The error of one operation: half a unit of the last place. -/
theorem b64_err (x : ℚ) : |b64 x - x| ≤ 2 ^ (-53 : ℤ) * |x| + 2 ^ (-1075 : ℤ) := by
  have h := b64_err_exp x
  by_cases hl : -1022 ≤ Int.log 2 |x|
  · have e : b64Exp x - 1 = Int.log 2 |x| + -53 := by unfold b64Exp; rw [max_eq_left hl]; ring
    rw [e, zpow_add₀ (by norm_num)] at h
    by_cases hx : x = 0
    · subst hx
      rw [b64_zero]
      norm_num
    · have h1 := Int.zpow_log_le_self (b := 2) (r := |x|) (by norm_num) (abs_pos.mpr hx)
      have h2 := two_zpow_pos (-53)
      have h3 := two_zpow_pos (-1075)
      push_cast at h1
      nlinarith
  · have e : b64Exp x - 1 = -1075 := by unfold b64Exp; rw [max_eq_right (by omega)]; ring
    rw [e] at h
    have := mul_nonneg (two_zpow_pos (-53)).le (abs_nonneg x)
    linarith

/-- Of all multiples of the unit of the last place, the rounded value is nearest. -/
theorem b64_nearest_grid (x : ℚ) (k : ℤ) : |b64 x - x| ≤ |k * 2 ^ b64Exp x - x| := by
  have hp := two_zpow_pos (b64Exp x)
  have h := roundHalfEven_nearest (x / 2 ^ b64Exp x) k
  have e : ∀ a : ℚ, a * 2 ^ b64Exp x - x = (a - x / 2 ^ b64Exp x) * 2 ^ b64Exp x := by
    intro a
    rw [sub_mul, div_mul_cancel₀ _ hp.ne']
  rw [b64, e, e, abs_mul, abs_mul]
  exact mul_le_mul_of_nonneg_right h (abs_nonneg _)

/-- The model of rounding against the standard: no double is nearer. -/
theorem b64_nearest (x : ℚ) {y : ℚ} (hy : IsDouble y) : |b64 x - x| ≤ |y - x| := by
  obtain ⟨m, e, hm, he, rfl⟩ := hy
  by_cases hx : x = 0
  · subst hx
    rw [b64_zero, sub_zero, abs_zero]
    exact abs_nonneg _
  by_cases hq : b64Exp x ≤ e
  · obtain ⟨n, hn⟩ := Int.eq_ofNat_of_zero_le (sub_nonneg.mpr hq)
    have h := b64_nearest_grid x (m * 2 ^ n)
    have : ((m * 2 ^ n : ℤ) : ℚ) * 2 ^ b64Exp x = m * 2 ^ e := by
      push_cast
      rw [mul_assoc, ← zpow_natCast, ← zpow_add₀ (by norm_num), ← hn]
      congr 2
      ring
    rwa [this] at h
  · have hl : b64Exp x = Int.log 2 |x| - 52 := by
      unfold b64Exp at hq ⊢
      omega
    have h1 := Int.zpow_log_le_self (b := 2) (r := |x|) (by norm_num) (abs_pos.mpr hx)
    push_cast at h1
    have hy : |(m : ℚ) * 2 ^ e| < 2 ^ Int.log 2 |x| := by
      have hm' : |(m : ℚ)| < 2 ^ (53 : ℤ) := by exact_mod_cast hm
      rw [abs_mul, abs_of_pos (two_zpow_pos e)]
      calc _ < (2 : ℚ) ^ (53 : ℤ) * 2 ^ e := mul_lt_mul_of_pos_right hm' (two_zpow_pos e)
        _ = 2 ^ (53 + e) := (zpow_add₀ (by norm_num) _ _).symm
        _ ≤ _ := zpow_le_zpow_right₀ (by norm_num) (by omega)
    have key : ∀ k : ℤ, (k : ℚ) * 2 ^ b64Exp x = (if 0 ≤ x then 1 else -1) * 2 ^ Int.log 2 |x| →
        |b64 x - x| ≤ |m * 2 ^ e - x| := by
      intro k hk
      have h := b64_nearest_grid x k
      rw [hk] at h
      have h3 := abs_sub_abs_le_abs_sub x (m * 2 ^ e)
      rw [abs_sub_comm x] at h3
      have h4 : |(if 0 ≤ x then 1 else -1) * 2 ^ Int.log 2 |x| - x| = |x| - 2 ^ Int.log 2 |x| := by
        split_ifs with h0
        · rw [abs_of_nonneg h0] at h1 ⊢
          rw [one_mul, abs_of_nonpos (by linarith)]; ring
        · rw [abs_of_neg (not_le.mp h0)] at h1 ⊢
          rw [abs_of_nonneg (by linarith)]; ring
      linarith
    refine key (if 0 ≤ x then 2 ^ 52 else -2 ^ 52) ?_
    have : (2 : ℚ) ^ (52 : ℤ) * 2 ^ b64Exp x = 2 ^ Int.log 2 |x| := by
      rw [← zpow_add₀ (by norm_num), hl]; congr 1; ring
    rw [← this]
    split_ifs <;> push_cast <;> norm_num

/-- Rounding gives a double. -/
theorem b64_isDouble (x : ℚ) : IsDouble (b64 x) := by
  have hp := two_zpow_pos (b64Exp x)
  have hq : -1074 ≤ b64Exp x := by unfold b64Exp; omega
  have hx : |x / 2 ^ b64Exp x| < 2 ^ 53 := by
    rw [abs_div, abs_of_pos hp, div_lt_iff₀ hp]
    have h := Int.lt_zpow_succ_log_self (b := 2) (by norm_num) |x|
    push_cast at h
    refine lt_of_lt_of_le h ?_
    have : (2 : ℚ) ^ 53 = 2 ^ (53 : ℤ) := by norm_num
    rw [this, ← zpow_add₀ (by norm_num)]
    refine zpow_le_zpow_right₀ (by norm_num) ?_
    unfold b64Exp
    omega
  have hm : |roundHalfEven (x / 2 ^ b64Exp x)| ≤ 2 ^ 53 := by
    have h := abs_roundHalfEven (x / 2 ^ b64Exp x)
    have h2 := abs_sub_abs_le_abs_sub (roundHalfEven (x / 2 ^ b64Exp x) : ℚ) (x / 2 ^ b64Exp x)
    have h3 : |(roundHalfEven (x / 2 ^ b64Exp x) : ℚ)| < 2 ^ 53 + 1 := by linarith
    have h4 : |roundHalfEven (x / 2 ^ b64Exp x)| < 2 ^ 53 + 1 := by exact_mod_cast h3
    omega
  by_cases he : |roundHalfEven (x / 2 ^ b64Exp x)| < 2 ^ 53
  · exact ⟨_, _, he, hq, rfl⟩
  · have he' : |roundHalfEven (x / 2 ^ b64Exp x)| = 2 ^ 53 := by omega
    have h2 : (2 : ℚ) ^ (b64Exp x + 1) = 2 ^ b64Exp x * 2 := zpow_add_one₀ (by norm_num) _
    rcases (abs_eq (by norm_num)).mp he' with h | h
    · exact ⟨2 ^ 52, b64Exp x + 1, by norm_num, by omega, by rw [b64, h, h2]; push_cast; ring⟩
    · exact ⟨-2 ^ 52, b64Exp x + 1, by norm_num, by omega, by rw [b64, h, h2]; push_cast; ring⟩

/-- So doubles are not changed. -/
theorem b64_double {x : ℚ} (h : IsDouble x) : b64 x = x := by
  have := b64_nearest x h
  rw [sub_self, abs_zero] at this
  exact sub_eq_zero.mp (abs_eq_zero.mp (le_antisymm this (abs_nonneg _)))

/-- Rounding does not pass a double. -/
theorem b64_le {x y : ℚ} (hy : IsDouble y) (h : x ≤ y) : b64 x ≤ y := by
  by_contra hlt
  have h1 := b64_nearest x hy
  rw [abs_of_nonneg (by linarith : 0 ≤ y - x), abs_of_nonneg (by linarith : 0 ≤ b64 x - x)] at h1
  linarith

theorem le_b64 {x y : ℚ} (hy : IsDouble y) (h : y ≤ x) : y ≤ b64 x := by
  by_contra hlt
  have h1 := b64_nearest x hy
  rw [abs_of_nonpos (by linarith : y - x ≤ 0), abs_of_nonpos (by linarith : b64 x - x ≤ 0)] at h1
  linarith

theorem isDouble_zero : IsDouble 0 := ⟨0, 0, by norm_num, by norm_num, by norm_num⟩

theorem isDouble_neg {x : ℚ} (h : IsDouble x) : IsDouble (-x) := by
  obtain ⟨m, e, hm, he, rfl⟩ := h
  exact ⟨-m, e, by rwa [abs_neg], he, by push_cast; ring⟩

/-- The error for values of a limited size. -/
theorem b64_err_le {x X : ℚ} (h : |x| ≤ X) (hX : 1 ≤ X) : |b64 x - x| ≤ 2 * 2 ^ (-53 : ℤ) * X := by
  have h1 := b64_err x
  have h2 := two_zpow_pos (-53)
  have h3 : (2 : ℚ) ^ (-1075 : ℤ) ≤ 2 ^ (-53 : ℤ) := zpow_le_zpow_right₀ (by norm_num) (by norm_num)
  nlinarith

end CQ
