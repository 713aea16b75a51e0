import Verif.Proofs.Decimal
import Verif.Model.Address
import Verif.Spec.Words

/-! Lemmas about the number printed in an axis word. -/

namespace CQ

/-- The number part of an axis word. -/
theorem axisWord_some (l : Char) (q : ℚ) (p : ℕ) :
    axisWord l (some q) p = l :: (optimizeFloat (.flt (decOf (pyRound q p) p))).str := rfl

theorem natAbs_digits_bounds {k : ℤ} (hk : k ≠ 0) :
    10 ^ ((Nat.digits 10 k.natAbs).length - 1) ≤ k.natAbs ∧
      k.natAbs < 10 ^ (Nat.digits 10 k.natAbs).length ∧ 0 < (Nat.digits 10 k.natAbs).length := by
  have h0 : k.natAbs ≠ 0 := by omega
  have hpos : 0 < (Nat.digits 10 k.natAbs).length :=
    List.length_pos_iff.2 (Nat.digits_ne_nil_iff_ne_zero.2 h0)
  refine ⟨?_, Nat.lt_base_pow_length_digits (by norm_num), hpos⟩
  have := Nat.base_pow_length_digits_le 10 k.natAbs (by norm_num) h0
  have e : (Nat.digits 10 k.natAbs).length = ((Nat.digits 10 k.natAbs).length - 1) + 1 := by omega
  rw [e, pow_succ] at this
  omega

/-- When the float form of `k/10^p` uses no exponent. -/
def SmallRange (k : ℤ) (p : ℕ) : Prop :=
  (k = 0 ∨ (10 : ℚ) ^ p ≤ 10000 * |(k : ℚ)|) ∧ |(k : ℚ)| < 10 ^ (p + 16)

theorem decOf_range {k : ℤ} {p : ℕ} (h : SmallRange k p) :
    -4 < (decOf k p).decpt ∧ (decOf k p).decpt ≤ 16 := by
  unfold decOf
  by_cases hk : k = 0
  · simp [hk]
  · simp only [if_neg hk]
    obtain ⟨h1, h2, h3⟩ := natAbs_digits_bounds hk
    obtain ⟨ha, hb⟩ := h
    have ha' := ha.resolve_left hk
    have hq : |(k : ℚ)| = ((k.natAbs : ℕ) : ℚ) := by
      rw [Nat.cast_natAbs]; simp
    rw [hq] at ha' hb
    have ha2 : 10 ^ p ≤ 10000 * k.natAbs := by exact_mod_cast ha'
    have hb2 : k.natAbs < 10 ^ (p + 16) := by exact_mod_cast hb
    have e1 : (Nat.digits 10 k.natAbs).length - 1 < p + 16 :=
      (Nat.pow_lt_pow_iff_right (by norm_num : 1 < 10)).1 (lt_of_le_of_lt h1 hb2)
    have e2 : p < (Nat.digits 10 k.natAbs).length + 4 := by
      apply (Nat.pow_lt_pow_iff_right (by norm_num : 1 < 10)).1
      rw [pow_add]; omega
    omega

theorem smallRange_of_le_four {q : ℚ} {p : ℕ} (hp : p ≤ 4) (hq : |q| < 2 ^ 53) :
    SmallRange (pyRound q p) p := by
  have hb := abs_rhe_sub_le (q * 10 ^ p)
  refine ⟨?_, ?_⟩
  · by_cases hk : pyRound q p = 0
    · exact Or.inl hk
    · right
      have h1 : (1 : ℤ) ≤ |pyRound q p| := Int.one_le_abs hk
      have h1' : (1 : ℚ) ≤ |(pyRound q p : ℚ)| := by exact_mod_cast h1
      have h2 : (10 : ℚ) ^ p ≤ 10 ^ 4 := pow_le_pow_right₀ (by norm_num) hp
      nlinarith
  · have h10 : (1 : ℚ) ≤ 10 ^ p := one_le_pow₀ (by norm_num)
    have h3 : |(pyRound q p : ℚ)| ≤ |q * 10 ^ p| + 1 / 2 := by
      have := abs_sub_abs_le_abs_sub (pyRound q p : ℚ) (q * 10 ^ p)
      unfold pyRound at *
      linarith
    have h4 : |q * 10 ^ p| = |q| * 10 ^ p := by
      rw [abs_mul, abs_of_pos (by positivity : (0 : ℚ) < 10 ^ p)]
    rw [pow_add]
    have h5 : |q| * 10 ^ p < 2 ^ 53 * 10 ^ p := by nlinarith
    calc |(pyRound q p : ℚ)| ≤ |q| * 10 ^ p + 1 / 2 := by rw [← h4]; exact h3
      _ < 2 ^ 53 * 10 ^ p + 1 * 10 ^ p := by linarith
      _ ≤ 10 ^ p * 10 ^ 16 := by nlinarith

/-- Reading back the printed number. -/
theorem readDec_optimize {k : ℤ} {p : ℕ} (h : SmallRange k p ∨ ∃ n : ℤ, (k : ℚ) / 10 ^ p = n) :
    readDec (optimizeFloat (.flt (decOf k p))).str = some ((k : ℚ) / 10 ^ p) := by
  simp only [optimizeFloat, decOf_value]
  split
  · rename_i he
    simp only [PyNum.str]
    rw [readDec_intText, ← he]
  · rename_i he
    simp only [PyNum.str]
    rcases h with h | ⟨n, hn⟩
    · rw [readDec_repr_fixed _ (decOf_wf k p) (decOf_range h).1 (decOf_range h).2, decOf_value]
    · exact absurd (by rw [hn, pyInt_intCast]) he

theorem printable_of_doubleLike {q : ℚ} {p : ℕ} (hp : p ≤ 4) (hq : DoubleLike q) :
    SmallRange (pyRound q p) p ∨ ∃ n : ℤ, (pyRound q p : ℚ) / 10 ^ p = n := by
  rcases hq with hq | ⟨n, rfl⟩
  · exact Or.inl (smallRange_of_le_four hp hq)
  · right
    refine ⟨n, ?_⟩
    have : pyRound (n : ℚ) p = n * 10 ^ p := by
      unfold pyRound
      rw [show (n : ℚ) * 10 ^ p = ((n * 10 ^ p : ℤ) : ℚ) by push_cast; rfl, rhe_intCast]
    rw [this]; push_cast; field_simp

end CQ
