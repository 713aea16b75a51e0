import Verif.Proofs.AxisWord
import Verif.Proofs.Round
import Verif.Proofs.Lex
import Verif.Spec.Intent

/-! Lemmas about axis groups and plain words. -/

namespace CQ

theorem natText_head_zero (n : ℕ) (h : (natText n).head? = some '0') : natText n = ['0'] := by
  unfold natText at h ⊢
  split
  · rfl
  · rename_i hn
    rw [if_neg hn] at h
    exfalso
    have hne : Nat.digits 10 n ≠ [] := Nat.digits_ne_nil_iff_ne_zero.2 hn
    have hl := Nat.getLast_digit_ne_zero 10 hn
    have hlt := Nat.digits_lt_base (by norm_num : 1 < 10) (List.getLast_mem hne)
    simp only [natDigs, List.head?_map, List.head?_reverse, List.getLast?_eq_getLast_of_ne_nil hne,
      Option.map_some, Option.some.injEq] at h
    exact hl ((digChar_inj_zero hlt).1 h)

theorem plainDecimal_intText (p : ℕ) (n : ℤ) : PlainDecimal p (intText n) := by
  unfold intText
  split
  · rename_i hn
    refine ⟨['-'], natText n.natAbs, [], by simp, Or.inr rfl, natText_ne_nil _, natText_digits _,
      natText_head_zero _, Or.inl rfl, ?_⟩
    intro h
    have h0 : natText n.natAbs = ['0'] := by simpa using h
    have := readNat_natText n.natAbs
    rw [h0] at this
    have h1 : readNat ['0'] = 0 := rfl
    omega
  · refine ⟨[], natText n.natAbs, [], by simp, Or.inl rfl, natText_ne_nil _, natText_digits _,
      natText_head_zero _, Or.inl rfl, ?_⟩
    intro h
    have := natText_digits n.natAbs '-' (by rw [h]; simp)
    revert this; decide

theorem decOf_digs_length (k : ℤ) (p : ℕ) (hk : k ≠ 0) :
    ((decOf k p).digs.length : ℤ) ≤ (decOf k p).decpt + p := by
  simp only [decOf, if_neg hk, List.length_reverse]
  have := List.length_dropWhile_le (p := (· == 0)) (l := Nat.digits 10 k.natAbs)
  omega

theorem plainDecimal_decOf {k : ℤ} {p : ℕ} (hr : SmallRange k p)
    (hni : ¬ ∃ n : ℤ, (k : ℚ) / 10 ^ p = n) : PlainDecimal p (decOf k p).repr := by
  have hk : k ≠ 0 := by rintro rfl; exact hni ⟨0, by simp⟩
  obtain ⟨w1, w2, w3⟩ := decOf_wf k p
  obtain ⟨r1, r2⟩ := decOf_range hr
  have hval := decOf_value k p
  have hlen := decOf_digs_length k p hk
  have hne : (decOf k p).digs ≠ [] := by
    intro h
    unfold DecFloat.value at hval
    rw [h] at hval
    have hp : (10 : ℚ) ^ p ≠ 0 := by positivity
    have h0 : (k : ℚ) / 10 ^ p = 0 := by rw [← hval]; simp
    have := (div_eq_zero_iff.1 h0).resolve_right hp
    exact hk (by exact_mod_cast this)
  generalize decOf k p = d at *
  -- the value is not an integer, so there is a fractional part
  have hfrac : d.decpt < d.digs.length := by
    by_contra hcon
    push Not at hcon
    apply hni
    rw [← hval]
    unfold DecFloat.value
    have e : d.decpt - d.digs.length = (((d.decpt - d.digs.length).toNat : ℕ) : ℤ) := by omega
    refine ⟨(if d.neg then -1 else 1) * (Nat.ofDigits 10 d.digs.reverse : ℕ)
      * 10 ^ (d.decpt - d.digs.length).toNat, ?_⟩
    rw [e, zpow_natCast]
    rcases d.neg <;> simp
  have hdig : ∀ c ∈ d.digs.map digChar, isDig c = true := by
    intro c hc; rw [List.mem_map] at hc; obtain ⟨x, hx, rfl⟩ := hc; exact isDig_digChar (w1 x hx)
  have hlast : (d.digs.map digChar).getLast? ≠ some '0' := by
    rw [List.getLast?_map]
    intro h
    rw [Option.map_eq_some_iff] at h
    obtain ⟨a, ha, hz⟩ := h
    have ha' := w1 a (List.mem_of_getLast? ha)
    rw [(digChar_inj_zero ha').1 hz] at ha
    exact w3 ha
  have hhead : (d.digs.map digChar).head? ≠ some '0' := by
    rw [List.head?_map]
    intro h
    rw [Option.map_eq_some_iff] at h
    obtain ⟨a, ha, hz⟩ := h
    have ha' := w1 a (List.mem_of_head? ha)
    rw [(digChar_inj_zero ha').1 hz] at ha
    exact w2 ha
  have hlen0 : 0 < d.digs.length := List.length_pos_iff.2 hne
  have hdot : ∀ a b : Text, ∀ s : Text, b ≠ [] → s ++ (a ++ '.' :: b) ≠ ['-', '0'] := by
    intro a b s hb h
    have : '.' ∈ (['-', '0'] : Text) := by rw [← h]; simp
    revert this; decide
  unfold DecFloat.repr
  have r12 : -4 < d.decpt ∧ d.decpt ≤ 16 := ⟨r1, r2⟩
  rw [if_neg hne, if_pos r12]
  set sign : Text := if d.neg then ['-'] else [] with hs
  have hsign : sign = [] ∨ sign = ['-'] := by rw [hs]; split <;> simp
  unfold fixedText
  by_cases c1 : d.decpt ≤ 0
  · rw [if_pos c1]
    refine ⟨sign, ['0'], '.' :: (List.replicate (-d.decpt).toNat '0' ++ d.digs.map digChar), by simp,
      hsign, by simp, by simp [isDig], by simp, Or.inr ⟨_, rfl, ?_, ?_, ?_, ?_⟩, ?_⟩
    · simp; omega
    · simp; omega
    · intro c hc
      rw [List.mem_append] at hc
      rcases hc with hc | hc
      · rw [List.mem_replicate] at hc; rw [hc.2]; decide
      · exact hdig c hc
    · rw [List.getLast?_append]
      rcases hg : (d.digs.map digChar).getLast? with _ | c
      · simp [hne] at hg
      · rw [hg] at hlast; simpa using hlast
    · exact hdot ['0'] _ sign (by simp [hne])
  · rw [if_neg c1, if_neg (by omega)]
    have hpos : 0 < d.decpt.toNat := by omega
    have hlt : d.decpt.toNat < d.digs.length := by omega
    refine ⟨sign, (d.digs.take d.decpt.toNat).map digChar,
      '.' :: (d.digs.drop d.decpt.toNat).map digChar, by simp, hsign, ?_, ?_, ?_,
      Or.inr ⟨_, rfl, ?_, ?_, ?_, ?_⟩, ?_⟩
    · simp [hne]; omega
    · intro c hc; exact hdig c (List.map_subset _ (List.take_subset _ _) hc)
    · intro h
      exfalso; apply hhead
      rw [List.map_take, List.head?_take, if_neg (by omega)] at h
      exact h
    · simp; omega
    · simp; omega
    · intro c hc; exact hdig c (List.map_subset _ (List.drop_subset _ _) hc)
    · rw [List.map_drop, List.getLast?_drop, if_neg (by simp; omega)]
      exact hlast
    · exact hdot _ _ sign (by simp; omega)

/-- Number text of an axis word. -/
def axisNum (p : ℕ) (q : ℚ) : Text := (optimizeFloat (.flt (decOf (pyRound q p) p))).str

theorem readDec_axisNum {p : ℕ} {q : ℚ} (hp : p ≤ 4) (hq : DoubleLike q) :
    readDec (axisNum p q) = some (rnd p q) := by
  rw [axisNum, readDec_optimize (printable_of_doubleLike hp hq), pyRound_eq_rnd]

/-- Words of an axis letter. -/
def axisToks (p : ℕ) (l : Char) (a : Option ℚ) : List (Char × Text) :=
  (a.map (fun q => (l, axisNum p q))).toList

theorem axisWord_lineOf {p : ℕ} {l : Char} {a : Option ℚ} (hp : p ≤ 4)
    (hl : isLetter l = true ∧ l.toUpper = l) (ha : ∀ q, a = some q → DoubleLike q) :
    LineOf (axisWord l a p) (axisToks p l a) := by
  rcases a with _ | q
  · exact LineOf.nil
  · rw [axisWord_some]
    exact LineOf.word (w := (l, axisNum p q))
      ⟨hl.1, hl.2, numChars_of_readDec (readDec_axisNum hp (ha q rfl))⟩

theorem axisGroup_lineOf {t1 t2 t3 : Text} {w1 w2 w3} (h1 : LineOf t1 w1) (h2 : LineOf t2 w2)
    (h3 : LineOf t3 w3) : LineOf (axisGroup t1 t2 t3) (w1 ++ w2 ++ w3) := by
  have e : ∀ {t : Text} {w}, LineOf t w → t = [] → w = [] := by
    intro t w h ht
    have := h.db
    rw [ht] at this
    rcases w with _ | ⟨a, w⟩
    · rfl
    · simp [wordsText, dropBlanks] at this
  unfold axisGroup
  by_cases c1 : t1 = [] <;> by_cases c2 : t2 = [] <;> by_cases c3 : t3 = []
  all_goals
    first
    | rw [e h1 c1] at *
    | skip
    first
    | rw [e h2 c2] at *
    | skip
    first
    | rw [e h3 c3] at *
    | skip
    simp only [c1, c2, c3, ne_eq, not_true_eq_false, not_false_eq_true, decide_true, decide_false,
      List.filter_cons_of_pos, List.filter_nil, Bool.false_eq_true, List.filter_cons_of_neg,
      joinSpace, List.append_nil, List.nil_append]
  · exact LineOf.nil
  · exact h3
  · exact h2
  · exact h2.append h3.space
  · exact h1
  · exact h1.append h3.space
  · exact h1.append h2.space
  · rw [List.append_assoc]; exact h1.append (h2.append h3.space).space

/-- Parsing axis tokens in front of others. -/
theorem parseWords_axisToks {p : ℕ} {l : Char} {a : Option ℚ} {ws : List (Char × Text)} {b : Block}
    (hp : p ≤ 4) (hG : l ≠ 'G') (hM : l ≠ 'M') (ha : ∀ q, a = some q → DoubleLike q)
    (hb : parseWords ws = some b) :
    parseWords (axisToks p l a ++ ws)
      = some { b with ps := (a.map (fun q => (l, rnd p q))).toList ++ b.ps } := by
  rcases a with _ | q
  · simpa [axisToks] using hb
  · simp [axisToks, parseWords, hb, hG, hM, readDec_axisNum hp (ha q rfl)]

theorem abs_value_bounds (d : DecFloat) (hw : d.WF) (hne : d.digs ≠ []) :
    (10 : ℚ) ^ (d.decpt - 1) ≤ |d.value| ∧ |d.value| < (10 : ℚ) ^ d.decpt := by
  obtain ⟨w1, w2, w3⟩ := hw
  have habs : |d.value| = (Nat.ofDigits 10 d.digs.reverse : ℕ) * (10 : ℚ) ^ (d.decpt - d.digs.length) := by
    unfold DecFloat.value
    have hnn : (0 : ℚ) ≤ (Nat.ofDigits 10 d.digs.reverse : ℕ) * (10 : ℚ) ^ (d.decpt - d.digs.length) :=
      mul_nonneg (Nat.cast_nonneg _) (zpow_pos (by norm_num) _).le
    cases d.neg
    · simp only [Bool.false_eq_true, if_false]; exact abs_of_nonneg hnn
    · simp only [if_true, abs_neg]; exact abs_of_nonneg hnn
  have hlen0 : 0 < d.digs.length := List.length_pos_iff.2 hne
  have hup : Nat.ofDigits 10 d.digs.reverse < 10 ^ d.digs.length := by
    have := Nat.ofDigits_lt_base_pow_length (b := 10) (l := d.digs.reverse) (by norm_num)
      (fun x hx => w1 x (by simpa using hx))
    simpa using this
  have hlo : 10 ^ (d.digs.length - 1) ≤ Nat.ofDigits 10 d.digs.reverse := by
    rcases hd : d.digs with _ | ⟨a, t⟩
    · exact absurd hd hne
    · rw [hd] at w2
      have ha : a ≠ 0 := by simpa using w2
      rw [List.reverse_cons, Nat.ofDigits_append]
      simp only [Nat.ofDigits_cons, Nat.ofDigits_nil, List.length_reverse, List.length_cons]
      have : 10 ^ t.length * 1 ≤ 10 ^ t.length * a := Nat.mul_le_mul_left _ (by omega)
      simp
      omega
  have hsplit : (10 : ℚ) ^ (d.decpt - 1) = (10 : ℚ) ^ (d.digs.length - 1) * (10 : ℚ) ^ (d.decpt - d.digs.length) := by
    rw [← zpow_natCast, ← zpow_add₀ (by norm_num)]; congr 1; omega
  have hsplit2 : (10 : ℚ) ^ d.decpt = (10 : ℚ) ^ d.digs.length * (10 : ℚ) ^ (d.decpt - d.digs.length) := by
    rw [← zpow_natCast, ← zpow_add₀ (by norm_num)]; congr 1; omega
  have hpos : (0 : ℚ) < (10 : ℚ) ^ (d.decpt - d.digs.length) := zpow_pos (by norm_num) _
  rw [habs, hsplit, hsplit2]
  constructor
  · apply mul_le_mul_of_nonneg_right _ hpos.le
    exact_mod_cast hlo
  · apply mul_lt_mul_of_pos_right _ hpos
    exact_mod_cast hup

end CQ
