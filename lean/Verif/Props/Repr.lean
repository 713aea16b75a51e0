import Verif.Model.Binary64
import Verif.Proofs.Repr

/-! # C99: the decimal digits that `repr` finds for a rounded number -/

namespace CQ

/-- C99.  The digits that `repr` finds for the double nearest to `k / 10^p` are the digits of `k / 10^p`: for every integer `k ≠ 0` of at
most 15 digits. -/
theorem C99_repr_digits {k : ℤ} {p : ℕ} (hk0 : k ≠ 0) (hk : |k| < 10 ^ 15) (hp : p ≤ 60) (d : DecFloat) :
    ReprDigits d (b64 ((k : ℚ) / 10 ^ p)) ↔ d = decOf k p := by
  have hn := (quotient_normal hk0 hp).2
  have hl := decOf_length (p := p) hk
  have hv := decOf_value k p
  rw [← hv] at hn ⊢
  constructor
  · intro h
    have h1 := h.shortest (decOf k p) (decOf_wf k p) rfl
    exact (dec15_unique (decOf_wf k p) h.wf hl (h1.trans hl) hn h.reads.symm).symm
  · rintro rfl
    refine ⟨decOf_wf k p, rfl, ?_, ?_⟩
    · intro d' hw' hd'
      by_contra hlt
      rw [not_le] at hlt
      have := dec15_unique (decOf_wf k p) hw' hl (hlt.le.trans hl) hn hd'.symm
      rw [this] at hlt
      exact absurd hlt (lt_irrefl _)
    · intro d' hw' hd' he
      rw [dec15_unique (decOf_wf k p) hw' hl (he.le.trans hl) hn hd'.symm]

/-- C99.  What `round`, `optimize_float` and `str` make of a coordinate on doubles is what the model of C01–C04 makes of it on exact
numbers, as long as the rounded coordinate has at most 15 digits: at the default precision, up to `10^12`. -/
theorem C99_axis_number {q : ℚ} {p : ℕ} (hk : |pyRound q p| < 10 ^ 15) (hp : p ≤ 60) (n : PyNum) :
    AxisNumber64 q p n ↔ n = optimizeFloat (.flt (decOf (pyRound q p) p)) := by
  unfold AxisNumber64
  generalize pyRound q p = k at *
  have hi : ∀ z : ℤ, b64 ((k : ℚ) / 10 ^ p) = z ↔ (k : ℚ) / 10 ^ p = z := fun z => b64_int_iff hk hp z
  simp only [optimizeFloat, decOf_value]
  by_cases hz : ∃ z : ℤ, (k : ℚ) / 10 ^ p = z
  · obtain ⟨z, hz⟩ := hz
    rw [(hi z).mpr hz, hz, pyInt_intCast, if_pos rfl, if_pos rfl]
  · rw [if_neg (fun h => hz ⟨_, (hi _).mp h⟩), if_neg (fun h => hz ⟨_, h⟩)]
    have hk0 : k ≠ 0 := by
      rintro rfl
      exact hz ⟨0, by simp⟩
    constructor
    · rintro ⟨d, hd, rfl⟩
      rw [(C99_repr_digits hk0 hk hp d).mp hd]
    · rintro rfl
      exact ⟨_, (C99_repr_digits hk0 hk hp _).mpr rfl, rfl⟩

/-- A double beyond the range of `C99_axis_number`: `2^49 + 1/8`. -/
def farCoordinate : ℚ := 4503599627370497 / 8

theorem far_double : b64 farCoordinate = farCoordinate :=
  b64_double ⟨4503599627370497, -3, by norm_num, by norm_num, by unfold farCoordinate; norm_num⟩

/-- Decimals of at most 16 digits that are read as this double are whole tenths, with or without a further digit. -/
theorem far_tenths {d : DecFloat} (hw : d.WF) (hl : d.digs.length ≤ 16) (h : b64 d.value = farCoordinate) :
    ∃ j : ℤ, d.value = j / 10 ∧ (j = 5629499534213121 ∨ j = 5629499534213122) ∧ d.digs.length = 16 := by
  have lo : farCoordinate - 1 / 8 < d.value := by
    by_contra hn
    have := b64_le (x := d.value) (y := farCoordinate - 1 / 8)
      ⟨4503599627370496, -3, by norm_num, by norm_num, by unfold farCoordinate; norm_num⟩ (not_lt.mp hn)
    rw [h] at this
    linarith
  have hi : d.value < farCoordinate + 1 / 8 := by
    by_contra hn
    have := le_b64 (x := d.value) (y := farCoordinate + 1 / 8)
      ⟨4503599627370498, -3, by norm_num, by norm_num, by unfold farCoordinate; norm_num⟩ (not_lt.mp hn)
    rw [h] at this
    linarith
  unfold farCoordinate at lo hi
  have hne : d.digs ≠ [] := by
    intro h0
    rw [value_nil h0] at lo
    norm_num at lo
  have hb := abs_value_bounds d hw hne
  rw [abs_of_pos (by linarith)] at hb
  have l1 : (10 : ℚ) ^ (d.decpt - 1) < 10 ^ (15 : ℤ) := by
    have : (562949953421313 : ℚ) ≤ 10 ^ (15 : ℤ) := by norm_num
    linarith [hb.1]
  have l2 : (10 : ℚ) ^ (14 : ℤ) < 10 ^ d.decpt := by
    have : (10 : ℚ) ^ (14 : ℤ) ≤ 562949953421312 := by norm_num
    linarith [hb.2]
  rw [zpow_lt_zpow_iff_right₀ (by norm_num)] at l1 l2
  have hdec : d.decpt = 15 := by omega
  have hv : d.value = ((d.mant * 10 ^ (16 - d.digs.length) : ℤ) : ℚ) / 10 := by
    rw [DecFloat.value_mant, hdec]
    push_cast
    rw [mul_div_assoc, ← zpow_natCast, div_eq_mul_inv, ← zpow_neg_one, ← zpow_add₀ (by norm_num)]
    congr 2
    push_cast [hl]
    ring
  have hj1 : (5629499534213120 : ℤ) < d.mant * 10 ^ (16 - d.digs.length) := by
    have : (5629499534213120 : ℚ) < ((d.mant * 10 ^ (16 - d.digs.length) : ℤ) : ℚ) := by rw [hv] at lo; linarith
    exact_mod_cast this
  have hj2 : d.mant * 10 ^ (16 - d.digs.length) < (5629499534213123 : ℤ) := by
    have : ((d.mant * 10 ^ (16 - d.digs.length) : ℤ) : ℚ) < (5629499534213123 : ℚ) := by rw [hv] at hi; linarith
    exact_mod_cast this
  refine ⟨_, hv, by omega, ?_⟩
  by_contra hlen
  have hdvd : (10 : ℤ) ∣ d.mant * 10 ^ (16 - d.digs.length) :=
    Dvd.dvd.mul_left (dvd_pow_self 10 (by omega)) _
  omega

theorem far_reads : b64 (decOf 5629499534213121 1).value = farCoordinate := by
  rw [decOf_value]
  decide +kernel

theorem far_repr : ReprDigits (decOf 5629499534213121 1) farCoordinate := by
  have hl : (decOf 5629499534213121 1).digs.length = 16 := by decide +kernel
  refine ⟨decOf_wf _ _, far_reads, ?_, ?_⟩
  · intro d' hw' hd'
    by_contra hlt
    obtain ⟨_, _, _, h⟩ := far_tenths hw' (by omega) hd'
    omega
  · intro d' hw' hd' he
    obtain ⟨j, hv, hj, _⟩ := far_tenths hw' (by omega) hd'
    rw [decOf_value, hv]
    unfold farCoordinate
    rcases hj with rfl | rfl <;> norm_num [abs_of_pos, abs_of_neg]

theorem far_pyRound : pyRound farCoordinate 3 = 562949953421312125 := by decide +kernel

/-- C99 fails beyond 15 digits: the coordinate 562949953421312.125, a double with three decimals, is printed as 562949953421312.1. -/
theorem C99_violated_far_out : AxisNumber64 farCoordinate 3 (.flt (decOf 5629499534213121 1)) ∧
    ∀ n, AxisNumber64 farCoordinate 3 n → 1 / 40 ≤ |n.value - farCoordinate| := by
  have hy : b64 ((pyRound farCoordinate 3 : ℚ) / 10 ^ 3) = farCoordinate := by
    rw [far_pyRound]
    have : ((562949953421312125 : ℤ) : ℚ) / 10 ^ 3 = farCoordinate := by unfold farCoordinate; norm_num
    rw [this, far_double]
  have hni : farCoordinate ≠ (pyInt farCoordinate : ℚ) := by decide +kernel
  unfold AxisNumber64
  simp only [hy, if_neg hni]
  refine ⟨⟨_, far_repr, rfl⟩, ?_⟩
  rintro n ⟨d, hd, rfl⟩
  have h1 := hd.shortest _ (decOf_wf 5629499534213121 1) far_reads
  have hl : (decOf 5629499534213121 1).digs.length = 16 := by decide +kernel
  obtain ⟨j, hv, hj, _⟩ := far_tenths hd.wf (by omega) hd.reads
  simp only [PyNum.value]
  rw [hv]
  unfold farCoordinate
  rcases hj with rfl | rfl <;> norm_num [abs_of_pos, abs_of_neg]

/-- C01 with doubles.  The number in an axis word reads back as the coordinate rounded to the nearest multiple of `10^-p`, ties to even,
for every coordinate below `10^11` and every precision up to four digits. -/
theorem C99_axis_word_partial {q : ℚ} {p : ℕ} (hp : p ≤ 4) (hq : |q| < 10 ^ 11 - 1) (n : PyNum) (hn : AxisNumber64 q p n) :
    ∃ v, readDec n.str = some v ∧ IsRounded p q v := by
  have hk : |pyRound q p| < 10 ^ 15 := by
    have h1 := abs_roundHalfEven (q * 10 ^ p)
    have h2 : (10 : ℚ) ^ p ≤ 10 ^ 4 := pow_le_pow_right₀ (by norm_num) hp
    have h3 : (0 : ℚ) < 10 ^ p := by positivity
    have h4 : |q * 10 ^ p| ≤ (10 ^ 11 - 1) * 10 ^ 4 := by
      rw [abs_mul, abs_of_pos h3]
      exact mul_le_mul hq.le h2 h3.le (by norm_num)
    have h5 : |(pyRound q p : ℚ)| < 10 ^ 15 := by
      unfold pyRound
      have := abs_sub_abs_le_abs_sub ((roundHalfEven (q * 10 ^ p) : ℤ) : ℚ) (q * 10 ^ p)
      linarith
    exact_mod_cast h5
  rw [(C99_axis_number hk (by omega) n).mp hn]
  refine ⟨_, readDec_optimize (printable_of_doubleLike hp (Or.inl ?_)), pyRound_isRounded p q⟩
  exact hq.trans (by norm_num)

/-- Non-vacuity: one third. -/
example : ∃ n, AxisNumber64 (1 / 3) 3 n ∧ n.str = "0.333".toList := by
  have hr : pyRound (1 / 3) 3 = 333 := by decide +kernel
  refine ⟨_, (C99_axis_number (by rw [hr]; norm_num) (by norm_num) _).mpr rfl, ?_⟩
  rw [hr]
  decide +kernel

end CQ
