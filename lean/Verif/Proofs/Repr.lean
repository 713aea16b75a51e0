import Verif.Proofs.Binary64
import Verif.Proofs.Words

/-! # Lemmas for C99: decimals of at most 15 digits and doubles -/

namespace CQ

/-- A decimal as integer times power of ten. -/
def DecFloat.mant (d : DecFloat) : ℤ := if d.neg then -(Nat.ofDigits 10 d.digs.reverse : ℕ) else (Nat.ofDigits 10 d.digs.reverse : ℕ)

theorem DecFloat.value_mant (d : DecFloat) : d.value = d.mant * (10 : ℚ) ^ (d.decpt - d.digs.length) := by
  unfold DecFloat.value DecFloat.mant
  cases d.neg <;> simp

theorem DecFloat.mant_lt {d : DecFloat} (hw : d.WF) : |d.mant| < 10 ^ d.digs.length := by
  have := Nat.ofDigits_lt_base_pow_length (b := 10) (l := d.digs.reverse) (by norm_num)
    (fun x hx => hw.1 x (by simpa using hx))
  rw [List.length_reverse] at this
  have h2 : |d.mant| = (Nat.ofDigits 10 d.digs.reverse : ℕ) := by
    unfold DecFloat.mant
    cases d.neg <;> simp
  rw [h2]
  exact_mod_cast this

/-- The relative error of rounding, away from underflow. -/
theorem b64_err_rel {x : ℚ} (h : 2 ^ (-1022 : ℤ) ≤ |x|) : |b64 x - x| ≤ 2 ^ (-53 : ℤ) * |x| := by
  have h0 := b64_err_exp x
  have hx : 0 < |x| := lt_of_lt_of_le (two_zpow_pos _) h
  have hl : -1022 ≤ Int.log 2 |x| := by
    have := (Int.zpow_le_iff_le_log (b := 2) (by norm_num) hx).mp (by exact_mod_cast h)
    exact this
  have e : b64Exp x - 1 = Int.log 2 |x| + -53 := by unfold b64Exp; rw [max_eq_left hl]; ring
  rw [e, zpow_add₀ (by norm_num)] at h0
  have h1 := Int.zpow_log_le_self (b := 2) (r := |x|) (by norm_num) hx
  push_cast at h1
  have h2 := two_zpow_pos (-53)
  nlinarith

/-- Two decimals of at most 15 digits that are read as the same double are equal. -/
theorem dec15_inj {m m' a b : ℤ} (hm : |m| < 10 ^ 15) (hab : a ≤ b)
    (h1 : 2 ^ (-1022 : ℤ) ≤ |(m : ℚ) * 10 ^ a|) (h2 : 2 ^ (-1022 : ℤ) ≤ |(m' : ℚ) * 10 ^ b|)
    (h : b64 (m * 10 ^ a) = b64 (m' * 10 ^ b)) : (m : ℚ) * 10 ^ a = m' * 10 ^ b := by
  by_contra hne
  have e1 := b64_err_rel h1
  have e2 := b64_err_rel h2
  rw [← h] at e2
  have hp : (0 : ℚ) < 10 ^ a := zpow_pos (by norm_num) _
  obtain ⟨n, hn⟩ := Int.eq_ofNat_of_zero_le (sub_nonneg.mpr hab)
  have hw : (m' : ℚ) * 10 ^ b = ((m' * 10 ^ n : ℤ) : ℚ) * 10 ^ a := by
    push_cast
    rw [mul_assoc, ← zpow_natCast, ← zpow_add₀ (by norm_num), ← hn]
    congr 2
    ring
  rw [hw] at hne e2
  have hmm : m ≠ m' * 10 ^ n := by
    intro hmm
    exact hne (by rw [← hmm])
  have hd : (1 : ℚ) ≤ |(m : ℚ) - (m' * 10 ^ n : ℤ)| := by
    have : 1 ≤ |m - m' * 10 ^ n| := Int.one_le_abs (sub_ne_zero.mpr hmm)
    exact_mod_cast this
  set w : ℚ := ((m' * 10 ^ n : ℤ) : ℚ)
  have hv : |(m : ℚ)| < 10 ^ 15 := by exact_mod_cast hm
  have hdist : 10 ^ a ≤ |(m : ℚ) * 10 ^ a - w * 10 ^ a| := by
    rw [← sub_mul, abs_mul, abs_of_pos hp]
    nlinarith
  have htri := abs_sub_le ((m : ℚ) * 10 ^ a) (b64 (m * 10 ^ a)) (w * 10 ^ a)
  rw [abs_sub_comm ((m : ℚ) * 10 ^ a) (b64 _)] at htri
  have hwv : |w * 10 ^ a| ≤ |(m : ℚ) * 10 ^ a| + |(m : ℚ) * 10 ^ a - w * 10 ^ a| := by
    have := abs_sub_abs_le_abs_sub (w * 10 ^ a) ((m : ℚ) * 10 ^ a)
    rw [abs_sub_comm (w * 10 ^ a)] at this
    linarith
  have hvb : |(m : ℚ) * 10 ^ a| < 10 ^ 15 * 10 ^ a := by
    rw [abs_mul, abs_of_pos hp]
    exact mul_lt_mul_of_pos_right hv hp
  have hu : (2 : ℚ) ^ (-53 : ℤ) = 1 / 9007199254740992 := by norm_num
  rw [hu] at e1 e2
  linarith

/-- Canonical digits are determined by the value. -/
theorem dec_unique {d d' : DecFloat} (hw : d.WF) (hw' : d'.WF) (hne : d.digs ≠ []) (hne' : d'.digs ≠ [])
    (h : d.value = d'.value) : d = d' := by
  have hpos : ∀ {d : DecFloat}, d.WF → d.digs ≠ [] → 0 < Nat.ofDigits 10 d.digs.reverse := by
    intro d hw hne
    have h1 := (abs_value_bounds d hw hne).1
    have h2 : (0 : ℚ) < 10 ^ (d.decpt - 1) := zpow_pos (by norm_num) _
    by_contra h0
    have h3 : Nat.ofDigits 10 d.digs.reverse = 0 := by omega
    have : d.value = 0 := by
      unfold DecFloat.value
      simp [h3]
    rw [this, abs_zero] at h1
    linarith
  have hneg : d.neg = d'.neg := by
    have key : ∀ {d : DecFloat}, d.WF → d.digs ≠ [] → (d.neg = true ↔ d.value < 0) := by
      intro d hw hne
      have h1 : (0 : ℚ) < (Nat.ofDigits 10 d.digs.reverse : ℕ) * (10 : ℚ) ^ (d.decpt - d.digs.length) :=
        mul_pos (by exact_mod_cast hpos hw hne) (zpow_pos (by norm_num) _)
      unfold DecFloat.value
      cases d.neg
      · simp only [Bool.false_eq_true, if_false, false_iff, not_lt]; exact h1.le
      · simp only [if_true, true_iff]; linarith
    rw [Bool.eq_iff_iff, key hw hne, key hw' hne', h]
  have hdec : d.decpt = d'.decpt := by
    have b := abs_value_bounds d hw hne
    have b' := abs_value_bounds d' hw' hne'
    rw [h] at b
    have l1 := lt_of_le_of_lt b.1 b'.2
    have l2 := lt_of_le_of_lt b'.1 b.2
    rw [zpow_lt_zpow_iff_right₀ (by norm_num)] at l1 l2
    omega
  have hmag : ∀ {d d' : DecFloat}, d.value = d'.value → d.neg = d'.neg → d.decpt = d'.decpt → d.digs.length ≤ d'.digs.length →
      Nat.ofDigits 10 d'.digs.reverse = Nat.ofDigits 10 d.digs.reverse * 10 ^ (d'.digs.length - d.digs.length) := by
    intro d d' h hneg hdec hl
    have h1 : ((Nat.ofDigits 10 d.digs.reverse : ℕ) : ℚ) * (10 : ℚ) ^ (d.decpt - d.digs.length)
        = (Nat.ofDigits 10 d'.digs.reverse : ℕ) * (10 : ℚ) ^ (d.decpt - d'.digs.length) := by
      unfold DecFloat.value at h
      rw [← hneg, ← hdec] at h
      cases hn : d.neg <;> simp only [hn, Bool.false_eq_true, if_false, if_true, neg_inj] at h <;> exact h
    have h2 : (10 : ℚ) ^ (d.decpt - d.digs.length)
        = 10 ^ (d.decpt - d'.digs.length) * 10 ^ (d'.digs.length - d.digs.length : ℕ) := by
      rw [← zpow_natCast, ← zpow_add₀ (by norm_num)]
      congr 1
      push_cast [hl]
      ring
    have h3 : (0 : ℚ) < 10 ^ (d.decpt - d'.digs.length) := zpow_pos (by norm_num) _
    rw [h2] at h1
    have h4 : ((Nat.ofDigits 10 d.digs.reverse : ℕ) : ℚ) * 10 ^ (d'.digs.length - d.digs.length : ℕ)
        = (Nat.ofDigits 10 d'.digs.reverse : ℕ) := by
      apply mul_right_cancel₀ h3.ne'
      linarith
    exact_mod_cast h4.symm
  have hlast : ∀ {d : DecFloat}, d.WF → d.digs ≠ [] → ¬ 10 ∣ Nat.ofDigits 10 d.digs.reverse := by
    intro d hw hne hdvd
    have h1 : d.digs.reverse ≠ [] := by simpa using hne
    obtain ⟨c, t, hct⟩ := List.exists_cons_of_ne_nil h1
    rw [hct, Nat.ofDigits_cons] at hdvd
    have hc : c < 10 := hw.1 c (by rw [← List.mem_reverse, hct]; simp)
    have hc0 : c ≠ 0 := by
      rintro rfl
      exact hw.2.2 (by rw [← List.head?_reverse, hct]; rfl)
    omega
  have hlen : d.digs.length = d'.digs.length := by
    by_contra hn
    rcases lt_or_gt_of_ne hn with hl | hl
    · have := hmag h hneg hdec hl.le
      exact hlast hw' hne' (this ▸ Dvd.dvd.mul_left (dvd_pow_self 10 (by omega)) _)
    · have := hmag h.symm hneg.symm hdec.symm hl.le
      exact hlast hw hne (this ▸ Dvd.dvd.mul_left (dvd_pow_self 10 (by omega)) _)
  have hd := hmag h hneg hdec hlen.le
  rw [hlen, Nat.sub_self, pow_zero, mul_one] at hd
  have := Nat.ofDigits_inj_of_len_eq (b := 10) (by norm_num) (by simp [hlen])
    (fun x hx => hw.1 x (by simpa using hx)) (fun x hx => hw'.1 x (by simpa using hx)) hd.symm
  have hdg : d.digs = d'.digs := List.reverse_injective this
  cases d; cases d'
  simp_all

/-- The smallest normal double. -/
theorem isDouble_two_zpow {e : ℤ} (h : -1074 ≤ e) : IsDouble (2 ^ e) := ⟨1, e, by norm_num, h, by norm_num⟩

/-- Numbers that are read as a normal double are not below the normal range. -/
theorem normal_of_b64 {x : ℚ} (h : 2 ^ (-1022 : ℤ) < |b64 x|) : 2 ^ (-1022 : ℤ) ≤ |x| := by
  by_contra hn
  rw [not_le, abs_lt] at hn
  have hd := isDouble_two_zpow (e := -1022) (by norm_num)
  have h1 := b64_le hd hn.2.le
  have h2 := le_b64 (isDouble_neg hd) hn.1.le
  exact absurd (abs_le.mpr ⟨h2, h1⟩) (not_le.mpr h)

/-- A nonzero `k / 10^p` is far above the smallest normal double, and so is its rounding. -/
theorem quotient_normal {k : ℤ} {p : ℕ} (hk : k ≠ 0) (hp : p ≤ 60) :
    2 ^ (-1022 : ℤ) ≤ |(k : ℚ) / 10 ^ p| ∧ 2 ^ (-1022 : ℤ) < |b64 ((k : ℚ) / 10 ^ p)| := by
  have h1 : (1 : ℚ) ≤ |(k : ℚ)| := by exact_mod_cast Int.one_le_abs hk
  have h2 : (10 : ℚ) ^ p ≤ 10 ^ 60 := pow_le_pow_right₀ (by norm_num) hp
  have h3 : (0 : ℚ) < 10 ^ p := by positivity
  have h4 : 1 / 10 ^ 60 ≤ |(k : ℚ) / 10 ^ p| := by
    rw [abs_div, abs_of_pos h3, div_le_div_iff₀ (by positivity) h3]
    nlinarith
  have h5 : (2 : ℚ) ^ (-1022 : ℤ) < 1 / 10 ^ 60 / 2 :=
    lt_of_le_of_lt (zpow_le_zpow_right₀ (by norm_num) (by norm_num : (-1022 : ℤ) ≤ -250)) (by norm_num)
  have h6 : (2 : ℚ) ^ (-1022 : ℤ) ≤ |(k : ℚ) / 10 ^ p| := by
    have : (0 : ℚ) < 1 / 10 ^ 60 := by positivity
    linarith
  refine ⟨h6, ?_⟩
  have h7 := b64_err_rel h6
  have h8 := abs_sub_abs_le_abs_sub ((k : ℚ) / 10 ^ p) (b64 ((k : ℚ) / 10 ^ p))
  rw [abs_sub_comm] at h8
  have h9 : (2 : ℚ) ^ (-53 : ℤ) ≤ 1 / 2 := by norm_num
  have h10 : (2 : ℚ) ^ (-53 : ℤ) * |(k : ℚ) / 10 ^ p| ≤ 1 / 2 * |(k : ℚ) / 10 ^ p| :=
    mul_le_mul_of_nonneg_right h9 (abs_nonneg _)
  linarith

theorem value_nil {d : DecFloat} (h : d.digs = []) : d.value = 0 := by
  unfold DecFloat.value
  simp [h]

/-- Decimals of at most 15 digits that are read as the same normal double are the same. -/
theorem dec15_unique {d d' : DecFloat} (hw : d.WF) (hw' : d'.WF) (hl : d.digs.length ≤ 15) (hl' : d'.digs.length ≤ 15)
    (hn : 2 ^ (-1022 : ℤ) < |b64 d.value|) (h : b64 d.value = b64 d'.value) : d = d' := by
  have key : ∀ {d : DecFloat}, d.WF → d.digs.length ≤ 15 → |d.mant| < 10 ^ 15 := by
    intro d hw hl
    exact lt_of_lt_of_le (DecFloat.mant_lt hw) (pow_le_pow_right₀ (by norm_num) hl)
  have ne : ∀ {d : DecFloat}, 2 ^ (-1022 : ℤ) < |b64 d.value| → d.digs ≠ [] := by
    intro d hn h0
    rw [value_nil h0, b64_zero, abs_zero] at hn
    exact absurd hn (not_lt.mpr (two_zpow_pos _).le)
  have hn' : 2 ^ (-1022 : ℤ) < |b64 d'.value| := by rw [← h]; exact hn
  refine dec_unique hw hw' (ne hn) (ne hn') ?_
  have n1 := normal_of_b64 hn
  have n2 := normal_of_b64 hn'
  rw [DecFloat.value_mant d, DecFloat.value_mant d'] at *
  rcases le_total (d.decpt - d.digs.length) (d'.decpt - d'.digs.length) with hab | hab
  · exact dec15_inj (key hw hl) hab n1 n2 h
  · exact (dec15_inj (key hw' hl') hab n2 n1 h.symm).symm

theorem decOf_length {k : ℤ} {p n : ℕ} (hk : |k| < 10 ^ n) : (decOf k p).digs.length ≤ n := by
  have h1 : k.natAbs < 10 ^ n := by
    have : (k.natAbs : ℤ) < 10 ^ n := by rw [Int.natCast_natAbs]; exact hk
    exact_mod_cast this
  have h2 := (Nat.digits_length_le_iff (b := 10) (by norm_num) k.natAbs (k := n)).mpr h1
  simp only [decOf, List.length_reverse]
  exact (List.length_dropWhile_le _ _).trans h2

theorem isDouble_int {z : ℤ} (h : |z| < 2 ^ 53) : IsDouble z := ⟨z, 0, h, by norm_num, by simp⟩

/-- Rounding to a double does not make an integer out of a fraction. -/
theorem b64_int_iff {k : ℤ} {p : ℕ} (hk : |k| < 10 ^ 15) (hp : p ≤ 60) (z : ℤ) :
    b64 ((k : ℚ) / 10 ^ p) = z ↔ (k : ℚ) / 10 ^ p = z := by
  have hp1 : (1 : ℚ) ≤ 10 ^ p := one_le_pow₀ (by norm_num)
  have hkq : |(k : ℚ)| < 10 ^ 15 := by exact_mod_cast hk
  have hv : |(k : ℚ) / 10 ^ p| ≤ 10 ^ 15 := by
    rw [abs_div, abs_of_pos (by linarith : (0 : ℚ) < 10 ^ p), div_le_iff₀ (by linarith)]
    nlinarith
  constructor
  · intro h
    by_cases hk0 : k = 0
    · subst hk0
      simpa [b64_zero] using h
    have hn := quotient_normal hk0 hp
    have hD : IsDouble ((10 ^ 15 : ℤ) : ℚ) := isDouble_int (by norm_num)
    have hzb : |(z : ℚ)| ≤ 10 ^ 15 := by
      rw [abs_le] at hv ⊢
      rw [← h]
      refine ⟨?_, ?_⟩
      · have := le_b64 (isDouble_neg hD) (x := (k : ℚ) / 10 ^ p) (by push_cast; exact hv.1)
        push_cast at this; exact this
      · have := b64_le hD (x := (k : ℚ) / 10 ^ p) (by push_cast; exact hv.2)
        push_cast at this; exact this
    have hzi : |z| < 2 ^ 53 := by
      have : |z| ≤ 10 ^ 15 := by exact_mod_cast hzb
      exact lt_of_le_of_lt this (by norm_num)
    have hb : b64 (z : ℚ) = z := b64_double (isDouble_int hzi)
    have e : (k : ℚ) / 10 ^ p = k * 10 ^ (-(p : ℤ)) := by rw [zpow_neg, zpow_natCast, div_eq_mul_inv]
    have e2 : (z : ℚ) = z * 10 ^ (0 : ℤ) := by simp
    have hz : 2 ^ (-1022 : ℤ) ≤ |(z : ℚ)| := by rw [← h]; exact hn.2.le
    rw [e, e2]
    refine dec15_inj hk (by omega) (by rw [← e]; exact hn.1) (by rw [← e2]; exact hz) ?_
    rw [← e, ← e2, h, hb]
  · intro h
    rw [h]
    refine b64_double (isDouble_int ?_)
    have : |z| ≤ 10 ^ 15 := by rw [h] at hv; exact_mod_cast hv
    exact lt_of_le_of_lt this (by norm_num)

end CQ
