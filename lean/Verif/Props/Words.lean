import Verif.Proofs.Words

/-! # C01-C04: the words of a block -/

namespace CQ

/-! ### C01 -/

/-- C01.  The number in an axis word reads back as the coordinate rounded to the nearest multiple of
`10^-p`, ties to even, for every double and every precision up to four digits. -/
theorem C01_axis_word_rounded (l : Char) (q : ℚ) (p : ℕ) (hp : p ≤ 4) (hq : DoubleLike q) :
    ∃ num v, axisWord l (some q) p = l :: num ∧ readDec num = some v ∧ IsRounded p q v := by
  refine ⟨_, _, axisWord_some l q p, readDec_optimize (printable_of_doubleLike hp hq), ?_⟩
  exact pyRound_isRounded p q

/-- C01, default precision: off by at most 0.0005. -/
theorem C01_axis_word_error (l : Char) (q : ℚ) (hq : DoubleLike q) :
    ∃ num v, axisWord l (some q) = l :: num ∧ readDec num = some v ∧ |v - q| ≤ 5 / 10000 := by
  refine ⟨_, _, axisWord_some l q 3, readDec_optimize (printable_of_doubleLike (by norm_num) hq), ?_⟩
  rw [pyRound_eq_rnd]
  have := abs_rnd_sub_le 3 q
  norm_num at this ⊢
  exact this

/-- The rounded value is determined by `IsRounded`, and the specification's `rnd` computes it. -/
theorem C01_rounded_unique (p : ℕ) (q v : ℚ) (h : IsRounded p q v) : v = rnd p q :=
  isRounded_unique h (rnd_isRounded p q)

/-- C01 for every precision, as long as the rounded value is not a nonzero number below `10^-4`
(Python switches to exponent notation there) and is below `10^16`. -/
theorem C01_axis_word_rounded_any_precision_partial (l : Char) (q : ℚ) (p : ℕ)
    (h1 : rnd p q = 0 ∨ 1 / 10000 ≤ |rnd p q|) (h2 : |rnd p q| < 10 ^ 16) :
    ∃ num v, axisWord l (some q) p = l :: num ∧ readDec num = some v ∧ IsRounded p q v := by
  refine ⟨_, _, axisWord_some l q p, readDec_optimize (Or.inl ?_), pyRound_isRounded p q⟩
  have hp : (0 : ℚ) < 10 ^ p := by positivity
  rw [← pyRound_eq_rnd] at h1 h2
  rw [abs_div, abs_of_pos hp] at h1 h2
  refine ⟨?_, ?_⟩
  · rcases h1 with h1 | h1
    · left
      have := (div_eq_zero_iff.1 h1).resolve_right hp.ne'
      exact_mod_cast this
    · right
      rw [div_le_div_iff₀ (by norm_num) hp] at h1
      linarith
  · rw [div_lt_iff₀ hp] at h2
    rw [pow_add]; linarith

/-- Why C01/C02 stop at precision 4: with precision 5 a coordinate of 0.00001 is printed as `1e-05`. -/
theorem C01_precision_five_exponent :
    axisWord 'X' (some (1 / 100000)) 5 = "X1e-05".toList ∧
      readDec (axisWord 'X' (some (1 / 100000)) 5).tail = none := by
  have h : axisWord 'X' (some (1 / 100000)) 5 = "X1e-05".toList := by
    have hr : pyRound (1 / 100000) 5 = 1 := by
      unfold pyRound
      rw [show (1 / 100000 : ℚ) * 10 ^ 5 = ((1 : ℤ) : ℚ) by norm_num, rhe_intCast]
    rw [axisWord_some, hr]
    have hv : (decOf 1 5).value = 1 / 100000 := by rw [decOf_value]; norm_num
    have hi : pyInt (1 / 100000) = 0 := by
      unfold pyInt
      rw [if_neg (by norm_num), Int.floor_eq_iff]; norm_num
    simp only [optimizeFloat, hv, hi]
    rw [if_neg (by norm_num)]
    simp only [PyNum.str]
    decide
  refine ⟨h, ?_⟩
  rw [h]
  exact readDec_none_of_e (by decide)

example : DoubleLike (1 / 3) ∧ (3 : ℕ) ≤ 4 := ⟨Or.inl (by norm_num [abs_of_pos]), by norm_num⟩
example : rnd 3 (5 / 2000) = 2 / 1000 ∧ rnd 3 (-1 / 3) = -333 / 1000 := by
  constructor
  · have : ⌊(5 / 2000 : ℚ) * 10 ^ 3 + 1 / 2⌋ = 3 := by rw [Int.floor_eq_iff]; norm_num
    unfold rnd; rw [this]; simp only; rw [if_pos ⟨by norm_num, by decide⟩]; norm_num
  · have : ⌊(-1 / 3 : ℚ) * 10 ^ 3 + 1 / 2⌋ = -333 := by rw [Int.floor_eq_iff]; norm_num
    unfold rnd; rw [this]; simp only; rw [if_neg (by norm_num)]; norm_num

/-! ### C02 -/

/-- C02.  The number of an axis word is a plain decimal without exponent, negative zero or superfluous
digits, for every double and every precision up to four. -/
theorem C02_axis_word_plain (l : Char) (q : ℚ) (p : ℕ) (hp : p ≤ 4) (hq : DoubleLike q) :
    ∃ num, axisWord l (some q) p = l :: num ∧ PlainDecimal p num := by
  refine ⟨_, axisWord_some l q p, ?_⟩
  simp only [optimizeFloat, decOf_value]
  split
  · exact plainDecimal_intText p _
  · rename_i he
    have hni : ¬ ∃ n : ℤ, (pyRound q p : ℚ) / 10 ^ p = n := by
      rintro ⟨n, hn⟩; exact he (by rw [hn, pyInt_intCast])
    rcases printable_of_doubleLike hp hq with h | h
    · exact plainDecimal_decOf h hni
    · exact absurd h hni

/-! ### C03 -/

/-- C03.  A reader recovers from the coordinate part exactly the known axes, in order, with their
rounded values. -/
theorem C03_axis_group_read (e : AddrVec) (p : ℕ) (hp : p ≤ 4) (he : DoubleVec e) :
    readLine (xyzText e p) = some { ps := expectedAxes p 'X' 'Y' 'Z' e.x e.y e.z } := by
  have L := axisGroup_lineOf (axisWord_lineOf (l := 'X') hp (by decide) he.1)
    (axisWord_lineOf (l := 'Y') hp (by decide) he.2.1)
    (axisWord_lineOf (l := 'Z') hp (by decide) he.2.2)
  rw [xyzText, L.read]
  have h3 := parseWords_axisToks (l := 'Z') (ws := []) (b := {}) hp (by decide) (by decide) he.2.2 rfl
  have h2 := parseWords_axisToks (l := 'Y') hp (by decide) (by decide) he.2.1 h3
  have h1 := parseWords_axisToks (l := 'X') hp (by decide) (by decide) he.1 h2
  rw [List.append_nil] at h1
  rw [List.append_assoc, h1]
  simp [expectedAxes]

/-- C03 for arc centres. -/
theorem C03_centre_group_read (c : Vec) (p : ℕ) (hp : p ≤ 4) (hx : DoubleLike c.x)
    (hy : DoubleLike c.y) (hz : DoubleLike c.z) :
    readLine (ijkText c p) = some { ps := [('I', rnd p c.x), ('J', rnd p c.y), ('K', rnd p c.z)] } := by
  have hx' : ∀ q, some c.x = some q → DoubleLike q := by rintro q ⟨⟩; exact hx
  have hy' : ∀ q, some c.y = some q → DoubleLike q := by rintro q ⟨⟩; exact hy
  have hz' : ∀ q, some c.z = some q → DoubleLike q := by rintro q ⟨⟩; exact hz
  have L := axisGroup_lineOf (axisWord_lineOf (l := 'I') hp (by decide) hx')
    (axisWord_lineOf (l := 'J') hp (by decide) hy')
    (axisWord_lineOf (l := 'K') hp (by decide) hz')
  rw [ijkText, L.read]
  have h3 := parseWords_axisToks (l := 'K') (ws := []) (b := {}) hp (by decide) (by decide) hz' rfl
  have h2 := parseWords_axisToks (l := 'J') hp (by decide) (by decide) hy' h3
  have h1 := parseWords_axisToks (l := 'I') hp (by decide) (by decide) hx' h2
  rw [List.append_nil] at h1
  rw [List.append_assoc, h1]
  simp

example : DoubleVec ⟨some (1 / 3), none, some (-10)⟩ :=
  ⟨by rintro q ⟨⟩; left; norm_num [abs_of_pos], by simp, by rintro q ⟨⟩; right; exact ⟨-10, by norm_num⟩⟩

/-! ### C04 -/

/-- C04 for integers: the word reads back as exactly the value. -/
theorem C04_integer_words (l : Char) (n : ℤ) :
    ∃ num, plainWord l (some (.int n)) = l :: num ∧ readDec num = some (n : ℚ) :=
  ⟨_, rfl, readDec_intText n⟩

/-- C04 for floats: the word reads back as exactly the value if and only if the value is 0 or its size is at
least 0.0001 and below 10^16.  (The full claim "for every finite float" fails outside that range.) -/
theorem C04_float_words_partial (l : Char) (d : DecFloat) (hw : d.WF) :
    (∃ num, plainWord l (some (.flt d)) = l :: num ∧ readDec num = some d.value) ↔
      (d.value = 0 ∨ (1 / 10000 ≤ |d.value| ∧ |d.value| < 10 ^ 16)) := by
  have hval0 : d.digs = [] → d.value = 0 := by
    intro h; unfold DecFloat.value; rw [h]; simp
  by_cases hne : d.digs = []
  · refine ⟨fun _ => Or.inl (hval0 hne), fun _ => ⟨_, rfl, ?_⟩⟩
    show readDec d.repr = _
    rw [hval0 hne]
    unfold DecFloat.repr
    rw [hne]
    cases d.neg <;> simp [readDec, readUnsigned, isDig, readNat, digVal]
  · obtain ⟨b1, b2⟩ := abs_value_bounds d hw hne
    have hv0 : d.value ≠ 0 := by
      intro h; rw [h, abs_zero] at b1
      have : (0 : ℚ) < (10 : ℚ) ^ (d.decpt - 1) := zpow_pos (by norm_num) _
      linarith
    have e16 : (10 : ℚ) ^ (16 : ℕ) = (10 : ℚ) ^ (16 : ℤ) := by norm_cast
    have em4 : (1 / 10000 : ℚ) = (10 : ℚ) ^ (-4 : ℤ) := by norm_num
    constructor
    · rintro ⟨num, hnum, hread⟩
      right
      have hnum' : num = d.repr := by
        have : (l :: d.repr : Text) = l :: num := hnum
        simpa using this.symm
      by_cases hr : -4 < d.decpt ∧ d.decpt ≤ 16
      · refine ⟨?_, ?_⟩
        · rw [em4]; exact (zpow_le_zpow_right₀ (by norm_num) (by omega)).trans b1
        · rw [e16]; exact b2.trans_le (zpow_le_zpow_right₀ (by norm_num) hr.2)
      · rw [hnum', readDec_repr_exp d hne hr] at hread
        simp at hread
    · intro h
      obtain ⟨h1, h2⟩ := h.resolve_left hv0
      refine ⟨_, rfl, readDec_repr_fixed d hw ?_ ?_⟩
      · by_contra hcon
        have : (10 : ℚ) ^ d.decpt ≤ (10 : ℚ) ^ (-4 : ℤ) := zpow_le_zpow_right₀ (by norm_num) (by omega)
        rw [em4] at h1
        linarith
      · by_contra hcon
        have : (10 : ℚ) ^ (16 : ℤ) ≤ (10 : ℚ) ^ (d.decpt - 1) := zpow_le_zpow_right₀ (by norm_num) (by omega)
        rw [e16] at h2
        linarith

/-- C04 is violated: a feed of 0.00001 prints as `F1e-05`, and a reader finds an unknown letter. -/
theorem C04_violated :
    plainWord 'F' (some (.flt ⟨false, [1], -4⟩)) = "F1e-05".toList ∧
      (DecFloat.mk false [1] (-4)).WF ∧
      ∀ m : Machine, m.ended = false → execLine m "G1 X1 F1e-05".toList = none := by
  refine ⟨by decide, ⟨by decide, by decide, by decide⟩, ?_⟩
  intro m hm
  have h1 : readLine "G1 X1 F1e-05".toList =
      some { gs := [10], ps := [('X', 1), ('F', 1), ('E', -5)] } := by
    rfl
  rw [execLine, h1]
  simp [hm]
  rfl

example : (DecFloat.mk false [1, 5] 4).WF ∧ (1 : ℚ) / 10000 ≤ |(DecFloat.mk false [1, 5] 4).value|
    ∧ |(DecFloat.mk false [1, 5] 4).value| < 10 ^ 16 := by
  refine ⟨⟨by decide, by decide, by decide⟩, ?_, ?_⟩ <;>
    norm_num [DecFloat.value, Nat.ofDigits_cons, zpow_ofNat]

end CQ
