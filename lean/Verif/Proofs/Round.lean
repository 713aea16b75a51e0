import Verif.Spec.Round
import Verif.Proofs.Decimal
import Verif.Model.Address

/-! Rounding: the model's `round` meets the specification. -/

namespace CQ

theorem pyRound_isRounded (p : ℕ) (q : ℚ) : IsRounded p q ((pyRound q p : ℚ) / 10 ^ p) := by
  have hp : (0 : ℚ) < 10 ^ p := by positivity
  have key : ∀ j : ℤ, |(j : ℚ) / 10 ^ p - q| = |(j : ℚ) - q * 10 ^ p| / 10 ^ p := by
    intro j
    rw [← abs_of_pos hp, ← abs_div, abs_of_pos hp]
    congr 1; field_simp
  refine ⟨pyRound q p, rfl, ?_, ?_⟩
  · intro j
    rw [key, key]
    exact div_le_div_of_nonneg_right (rhe_nearest _ j) hp.le
  · intro j hj h
    rw [key, key] at h
    have := rhe_tie_even (q * 10 ^ p) j hj ((div_left_inj' hp.ne').1 h)
    exact Int.even_iff.2 this

theorem isRounded_unique {p : ℕ} {q v w : ℚ} (hv : IsRounded p q v) (hw : IsRounded p q w) :
    v = w := by
  obtain ⟨k, rfl, hk, ek⟩ := hv
  obtain ⟨l, rfl, hl, el⟩ := hw
  have hp : (0 : ℚ) < 10 ^ p := by positivity
  by_cases hkl : k = l
  · rw [hkl]
  exfalso
  have heq : |(l : ℚ) / 10 ^ p - q| = |(k : ℚ) / 10 ^ p - q| := le_antisymm (hl k) (hk l)
  have e1 := ek l (Ne.symm hkl) heq
  have e2 := el k hkl heq.symm
  have scale : ∀ j : ℤ, |(j : ℚ) / 10 ^ p - q| = |(j : ℚ) - q * 10 ^ p| / 10 ^ p := by
    intro j
    rw [← abs_of_pos hp, ← abs_div, abs_of_pos hp]
    congr 1; field_simp
  have hn := rhe_nearest (q * 10 ^ p)
  have hb := abs_rhe_sub_le (q * 10 ^ p)
  have h1 := hk (roundHalfEven (q * 10 ^ p))
  have h2 := hl (roundHalfEven (q * 10 ^ p))
  rw [scale, scale, div_le_div_iff_of_pos_right hp] at h1 h2
  have a1 : |(k : ℚ) - q * 10 ^ p| ≤ 1 / 2 := h1.trans hb
  have a2 : |(l : ℚ) - q * 10 ^ p| ≤ 1 / 2 := h2.trans hb
  rw [abs_le] at a1 a2
  have d1 : ((k - l : ℤ) : ℚ) ≤ 1 := by push_cast; linarith
  have d2 : (-1 : ℚ) ≤ ((k - l : ℤ) : ℚ) := by push_cast; linarith
  have d1' : k - l ≤ 1 := by exact_mod_cast d1
  have d2' : -1 ≤ k - l := by exact_mod_cast d2
  obtain ⟨a, ha⟩ := e1
  obtain ⟨b, hb⟩ := e2
  omega

theorem rnd_isRounded (p : ℕ) (q : ℚ) : IsRounded p q (rnd p q) := by
  have hp : (0 : ℚ) < 10 ^ p := by positivity
  have key : rnd p q = (pyRound q p : ℚ) / 10 ^ p := by
    unfold rnd pyRound roundHalfEven
    set a := q * 10 ^ p with ha
    have h1 := Int.floor_le a
    have h2 := Int.lt_floor_add_one a
    by_cases c1 : a - ⌊a⌋ < 1 / 2
    · have hf : ⌊a + 1 / 2⌋ = ⌊a⌋ := by
        rw [Int.floor_eq_iff]; constructor <;> linarith
      rw [if_pos c1]
      simp only [hf]
      rw [if_neg]
      rintro ⟨h, -⟩
      linarith
    · have hf : ⌊a + 1 / 2⌋ = ⌊a⌋ + 1 := by
        rw [Int.floor_eq_iff]; push_cast; constructor <;> linarith
      rw [if_neg c1]
      simp only [hf]
      by_cases c2 : 1 / 2 < a - ⌊a⌋
      · rw [if_pos c2, if_neg]
        rintro ⟨h, -⟩
        push_cast at h; linarith
      · rw [if_neg c2]
        have heq : ((⌊a⌋ + 1 : ℤ) : ℚ) = a + 1 / 2 := by push_cast; linarith
        by_cases c3 : ⌊a⌋ % 2 = 0
        · rw [if_pos c3, if_pos ⟨heq, by rw [Int.even_iff]; omega⟩]
          push_cast; ring
        · rw [if_neg c3, if_neg]
          rintro ⟨-, h⟩
          rw [Int.even_iff] at h; omega
  rw [key]
  exact pyRound_isRounded p q

theorem pyRound_eq_rnd (p : ℕ) (q : ℚ) : (pyRound q p : ℚ) / 10 ^ p = rnd p q :=
  isRounded_unique (pyRound_isRounded p q) (rnd_isRounded p q)

theorem abs_rnd_sub_le (p : ℕ) (q : ℚ) : |rnd p q - q| ≤ 1 / (2 * 10 ^ p) := by
  rw [← pyRound_eq_rnd]
  have hp : (0 : ℚ) < 10 ^ p := by positivity
  have hb := abs_rhe_sub_le (q * 10 ^ p)
  have e : |(pyRound q p : ℚ) / 10 ^ p - q| = |(roundHalfEven (q * 10 ^ p) : ℚ) - q * 10 ^ p| / 10 ^ p := by
    rw [← abs_of_pos hp, ← abs_div, abs_of_pos hp]
    unfold pyRound
    congr 1; field_simp
  rw [e, div_le_iff₀ hp]
  calc _ ≤ 1 / 2 := hb
    _ = _ := by field_simp

end CQ
