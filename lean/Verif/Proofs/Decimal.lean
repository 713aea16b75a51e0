import Verif.Py.Float
import Mathlib.Data.List.TakeWhile
import Mathlib.Tactic.Linarith
import Mathlib.Tactic.FieldSimp
import Mathlib.Tactic.Ring
import Mathlib.Tactic.NormNum
import Mathlib.Tactic.Positivity
import Mathlib.Tactic.IntervalCases
import Mathlib.Tactic.Push

/-! Helper lemmas about rounding, printing and reading decimals. -/

namespace CQ

/-! ### rounding -/

theorem abs_rhe_sub_le (q : ℚ) : |(roundHalfEven q : ℚ) - q| ≤ 1 / 2 := by
  have h1 := Int.floor_le q
  have h2 := Int.lt_floor_add_one q
  unfold roundHalfEven
  split
  · rw [abs_le]; constructor <;> linarith
  split
  · push_cast; rw [abs_le]; constructor <;> linarith
  split
  · rw [abs_le]; constructor <;> linarith
  · push_cast; rw [abs_le]; constructor <;> linarith

/-- `roundHalfEven q` is a nearest integer to `q`. -/
theorem rhe_nearest (q : ℚ) (n : ℤ) : |(roundHalfEven q : ℚ) - q| ≤ |(n : ℚ) - q| := by
  by_cases hn : n = roundHalfEven q
  · rw [hn]
  have h := abs_rhe_sub_le q
  have h3 : (1 : ℚ) ≤ |(n : ℚ) - roundHalfEven q| := by
    have : (1 : ℤ) ≤ |n - roundHalfEven q| := Int.one_le_abs (by omega)
    have := (Int.cast_le (R := ℚ)).2 this
    simpa using this
  have h4 : |(n : ℚ) - roundHalfEven q| ≤ |(n : ℚ) - q| + |(roundHalfEven q : ℚ) - q| := by
    have := abs_sub_abs_le_abs_sub ((n : ℚ) - q) 0
    calc |(n : ℚ) - roundHalfEven q| = |((n : ℚ) - q) - ((roundHalfEven q : ℚ) - q)| := by ring_nf
      _ ≤ _ := abs_sub _ _
  linarith

/-- On a tie the even neighbour is chosen. -/
theorem rhe_tie_even (q : ℚ) (n : ℤ) (hn : n ≠ roundHalfEven q)
    (h : |(n : ℚ) - q| = |(roundHalfEven q : ℚ) - q|) : roundHalfEven q % 2 = 0 := by
  have hb := abs_rhe_sub_le q
  have h3 : (1 : ℚ) ≤ |(n : ℚ) - roundHalfEven q| := by
    have : (1 : ℤ) ≤ |n - roundHalfEven q| := Int.one_le_abs (by omega)
    have := (Int.cast_le (R := ℚ)).2 this
    simpa using this
  have h4 : |(n : ℚ) - roundHalfEven q| ≤ |(n : ℚ) - q| + |(roundHalfEven q : ℚ) - q| := by
    calc |(n : ℚ) - roundHalfEven q| = |((n : ℚ) - q) - ((roundHalfEven q : ℚ) - q)| := by ring_nf
      _ ≤ _ := abs_sub _ _
  have hhalf : |(roundHalfEven q : ℚ) - q| = 1 / 2 := by linarith
  have h1 := Int.floor_le q
  have h2 := Int.lt_floor_add_one q
  unfold roundHalfEven at hhalf ⊢
  by_cases c1 : q - ⌊q⌋ < 1 / 2
  · rw [if_pos c1, abs_of_nonpos (by linarith)] at hhalf; linarith
  rw [if_neg c1] at hhalf ⊢
  by_cases c2 : 1 / 2 < q - ⌊q⌋
  · rw [if_pos c2] at hhalf
    push_cast at hhalf
    rw [abs_of_nonneg (by linarith)] at hhalf; linarith
  rw [if_neg c2] at hhalf ⊢
  by_cases c3 : ⌊q⌋ % 2 = 0
  · rw [if_pos c3]; exact c3
  · rw [if_neg c3]; omega

theorem rhe_intCast (n : ℤ) : roundHalfEven (n : ℚ) = n := by
  unfold roundHalfEven; simp

theorem pyInt_intCast (n : ℤ) : pyInt (n : ℚ) = n := by
  unfold pyInt
  split
  · rw [← Int.cast_neg, Int.floor_intCast]; ring
  · simp

/-! ### digit characters -/

theorem isDig_digChar {d : ℕ} (h : d < 10) : isDig (digChar d) = true := by
  interval_cases d <;> decide

theorem digVal_digChar {d : ℕ} (h : d < 10) : digVal (digChar d) = d := by
  interval_cases d <;> decide

theorem digChar_ne_dot {d : ℕ} (h : d < 10) : digChar d ≠ '.' := by
  interval_cases d <;> decide

theorem digChar_ne_minus {d : ℕ} (h : d < 10) : digChar d ≠ '-' := by
  interval_cases d <;> decide

theorem digChar_ne_plus {d : ℕ} (h : d < 10) : digChar d ≠ '+' := by
  interval_cases d <;> decide

theorem digChar_inj_zero {d : ℕ} (h : d < 10) : digChar d = '0' ↔ d = 0 := by
  interval_cases d <;> decide

/-! ### reading digit strings -/

theorem readNat_append (a b : Text) : readNat (a ++ b) = readNat a * 10 ^ b.length + readNat b := by
  have key : ∀ (b : Text) (s : ℕ),
      b.foldl (fun a c => 10 * a + digVal c) s
        = s * 10 ^ b.length + b.foldl (fun a c => 10 * a + digVal c) 0 := by
    intro b
    induction b with
    | nil => intro s; simp
    | cons c t ih =>
      intro s
      simp only [List.foldl_cons, List.length_cons]
      rw [ih (10 * s + digVal c), ih (10 * 0 + digVal c)]
      ring
  unfold readNat
  rw [List.foldl_append, key b (List.foldl _ 0 a)]

theorem readNat_map_digChar (ds : List ℕ) (h : ∀ x ∈ ds, x < 10) :
    readNat (ds.map digChar) = Nat.ofDigits 10 ds.reverse := by
  induction ds using List.reverseRecOn with
  | nil => rfl
  | append_singleton l a ih =>
    rw [List.map_append, readNat_append, ih (fun x hx => h x (by simp [hx]))]
    rw [List.reverse_append]
    simp only [List.map_cons, List.map_nil, List.length_cons, List.length_nil, List.reverse_cons,
      List.reverse_nil, List.nil_append, List.singleton_append, Nat.ofDigits_cons]
    have : readNat [digChar a] = a := by
      simp only [readNat, List.foldl_cons, List.foldl_nil]
      rw [digVal_digChar (h a (by simp))]; simp
    rw [this]; ring

theorem readNat_zeros (n : ℕ) : readNat (List.replicate n '0') = 0 := by
  induction n with
  | zero => rfl
  | succ n ih =>
    rw [List.replicate_succ', readNat_append, ih]; simp [readNat, digVal]

theorem takeWhile_eq_self {p : Char → Bool} {t : Text} (h : ∀ c ∈ t, p c = true) :
    t.takeWhile p = t := by
  rw [List.takeWhile_eq_self_iff]; exact h

theorem dropWhile_eq_nil {p : Char → Bool} {t : Text} (h : ∀ c ∈ t, p c = true) :
    t.dropWhile p = [] := by
  rw [List.dropWhile_eq_nil_iff]; exact h

/-- Integers read back. -/
theorem readUnsigned_digits {t : Text} (h : ∀ c ∈ t, isDig c = true) (hne : t ≠ []) :
    readUnsigned t = some (readNat t : ℚ) := by
  unfold readUnsigned
  rw [takeWhile_eq_self h, dropWhile_eq_nil h]
  simp [hne]

theorem isDig_dot : isDig '.' = false := by decide

/-- Decimals read back. -/
theorem readUnsigned_point {a b : Text} (ha : ∀ c ∈ a, isDig c = true)
    (hb : ∀ c ∈ b, isDig c = true) (hne : a ≠ []) :
    readUnsigned (a ++ '.' :: b) = some ((readNat (a ++ b) : ℚ) / 10 ^ b.length) := by
  unfold readUnsigned
  have h1 : (a ++ '.' :: b).takeWhile isDig = a := by
    rw [List.takeWhile_append_of_pos ha]; simp [isDig_dot]
  have h2 : (a ++ '.' :: b).dropWhile isDig = '.' :: b := by
    rw [List.dropWhile_append_of_pos ha]; simp [isDig_dot]
  rw [h1, h2]
  have hall : b.all isDig = true := by simpa using hb
  simp only [hall, hne, ne_eq, not_false_eq_true, true_or, and_self, if_true, readNat_append]
  push_cast
  congr 1
  field_simp

theorem readDec_of_digit_head {c : Char} {t : Text} (h : isDig c = true) :
    readDec (c :: t) = readUnsigned (c :: t) := by
  have h1 : c ≠ '-' := by rintro rfl; revert h; decide
  have h2 : c ≠ '+' := by rintro rfl; revert h; decide
  simp [readDec, h1, h2]

/-! ### integers -/

theorem natDigs_lt {n x : ℕ} (h : x ∈ natDigs n) : x < 10 :=
  Nat.digits_lt_base (by norm_num) (by simpa [natDigs] using h)

theorem natText_digits (n : ℕ) : ∀ c ∈ natText n, isDig c = true := by
  unfold natText
  split
  · intro c hc; simp at hc; subst hc; decide
  · intro c hc
    rw [List.mem_map] at hc
    obtain ⟨d, hd, rfl⟩ := hc
    exact isDig_digChar (natDigs_lt hd)

theorem natDigs_ne_nil {n : ℕ} (h : n ≠ 0) : natDigs n ≠ [] := by
  simp [natDigs, Nat.digits_ne_nil_iff_ne_zero, h]

theorem natText_ne_nil (n : ℕ) : natText n ≠ [] := by
  unfold natText; split
  · simp
  · simp [natDigs_ne_nil ‹_›]

theorem readNat_natText (n : ℕ) : readNat (natText n) = n := by
  unfold natText
  split
  · subst_vars; rfl
  · rw [readNat_map_digChar _ (fun x hx => natDigs_lt hx)]
    simp [natDigs, Nat.ofDigits_digits]

theorem readDec_natText (n : ℕ) : readDec (natText n) = some (n : ℚ) := by
  have h := readUnsigned_digits (natText_digits n) (natText_ne_nil n)
  rw [readNat_natText] at h
  rw [← h]
  rcases hx : natText n with _ | ⟨c, t⟩
  · exact absurd hx (natText_ne_nil n)
  · exact readDec_of_digit_head (natText_digits n c (by simp [hx]))

/-- Printed integers read back as themselves. -/
theorem readDec_intText (n : ℤ) : readDec (intText n) = some (n : ℚ) := by
  unfold intText
  split
  · have h := readUnsigned_digits (natText_digits n.natAbs) (natText_ne_nil _)
    rw [readNat_natText] at h
    simp only [readDec, if_true, h, Option.map_some]
    congr 1
    have : ((n.natAbs : ℕ) : ℤ) = -n := by omega
    rw [← Int.cast_natCast, this]; push_cast; ring
  · rw [readDec_natText]
    congr 1
    have : ((n.natAbs : ℕ) : ℤ) = n := by omega
    rw [← Int.cast_natCast, this]

/-! ### floats -/

theorem fixedText_shape (ds : List ℕ) (decpt : ℤ) (hds : ∀ x ∈ ds, x < 10) (hne : ds ≠ []) :
    ∃ a b : Text, fixedText ds decpt = a ++ '.' :: b ∧ a ≠ [] ∧ b ≠ [] ∧
      (∀ c ∈ a, isDig c = true) ∧ (∀ c ∈ b, isDig c = true) ∧
      (readNat (a ++ b) : ℚ) / 10 ^ b.length
        = (Nat.ofDigits 10 ds.reverse : ℕ) * (10 : ℚ) ^ (decpt - ds.length) := by
  have hdig : ∀ c ∈ ds.map digChar, isDig c = true := by
    intro c hc; rw [List.mem_map] at hc; obtain ⟨d, hd, rfl⟩ := hc; exact isDig_digChar (hds d hd)
  have hz : ∀ n, ∀ c ∈ List.replicate n '0', isDig c = true := by
    intro n c hc; rw [List.mem_replicate] at hc; rw [hc.2]; decide
  have hlen : 0 < ds.length := List.length_pos_iff.2 hne
  unfold fixedText
  split
  · refine ⟨['0'], List.replicate (-decpt).toNat '0' ++ ds.map digChar, rfl, by simp, by simp [hne],
      by simp [isDig], ?_, ?_⟩
    · intro c hc; rw [List.mem_append] at hc; rcases hc with hc | hc
      · exact hz _ c hc
      · exact hdig c hc
    · have e1 : readNat (['0'] ++ (List.replicate (-decpt).toNat '0' ++ ds.map digChar))
          = Nat.ofDigits 10 ds.reverse := by
        rw [readNat_append, readNat_append, readNat_zeros, readNat_map_digChar ds hds]
        simp [readNat, digVal]
      rw [e1, List.length_append, List.length_replicate, List.length_map]
      rw [div_eq_mul_inv, ← zpow_natCast, ← zpow_neg]
      congr 2
      push_cast
      omega
  split
  · refine ⟨ds.map digChar ++ List.replicate (decpt - ds.length).toNat '0', ['0'], by simp,
      by simp [hne], by simp, ?_, by simp [isDig], ?_⟩
    · intro c hc; rw [List.mem_append] at hc; rcases hc with hc | hc
      · exact hdig c hc
      · exact hz _ c hc
    · rw [readNat_append, readNat_append, readNat_zeros, readNat_map_digChar ds hds,
        List.length_replicate]
      have hk : (decpt - ds.length) = (((decpt - ds.length).toNat : ℕ) : ℤ) := by omega
      generalize (decpt - ds.length).toNat = k at *
      rw [hk, zpow_natCast]
      simp [readNat, digVal]
  · rename_i h1 h2
    push Not at h1 h2
    have hd : (decpt.toNat : ℤ) = decpt := by omega
    have hlt : decpt.toNat < ds.length := by omega
    have hpos : 0 < decpt.toNat := by omega
    refine ⟨(ds.take decpt.toNat).map digChar, (ds.drop decpt.toNat).map digChar, rfl, ?_, ?_, ?_, ?_, ?_⟩
    · simp [hne]; omega
    · simp; omega
    · intro c hc; exact hdig c (List.map_subset _ (List.take_subset _ _) hc)
    · intro c hc; exact hdig c (List.map_subset _ (List.drop_subset _ _) hc)
    · rw [← List.map_append, List.take_append_drop, readNat_map_digChar ds hds, List.length_map,
        List.length_drop, div_eq_mul_inv, ← zpow_natCast, ← zpow_neg]
      congr 2
      omega

/-- In the positional range, a printed float reads back as its value. -/
theorem readDec_repr_fixed (d : DecFloat) (hw : d.WF) (h1 : -4 < d.decpt) (h2 : d.decpt ≤ 16) :
    readDec d.repr = some d.value := by
  obtain ⟨hw1, -, -⟩ := hw
  unfold DecFloat.repr DecFloat.value
  by_cases hne : d.digs = []
  · rw [hne]
    cases d.neg
    · simp [readDec, readUnsigned, isDig, readNat, digVal]
    · simp [readDec, readUnsigned, isDig, readNat, digVal]
  · have h12 : -4 < d.decpt ∧ d.decpt ≤ 16 := ⟨h1, h2⟩
    rw [if_neg hne, if_pos h12]
    obtain ⟨a, b, e, ha, hb, hda, hdb, hv⟩ := fixedText_shape d.digs d.decpt hw1 hne
    have hr : readUnsigned (fixedText d.digs d.decpt) = some ((readNat (a ++ b) : ℚ) / 10 ^ b.length) := by
      rw [e]; exact readUnsigned_point hda hdb ha
    rw [hv] at hr
    cases d.neg
    · simp only [Bool.false_eq_true, if_false, List.nil_append]
      rw [← hr]
      rcases a with _ | ⟨c, a⟩
      · exact absurd rfl ha
      · rw [e]; exact readDec_of_digit_head (hda c (by simp))
    · simp only [if_true, List.singleton_append]
      simp only [readDec, if_true, hr, Option.map_some]

/-- A text with a letter `e` in it is not a decimal number. -/
theorem readUnsigned_none_of_e {t : Text} (h : 'e' ∈ t) : readUnsigned t = none := by
  have he : isDig 'e' = false := by decide
  unfold readUnsigned
  have hmem : 'e' ∈ t.dropWhile isDig := by
    rw [← List.takeWhile_append_dropWhile (p := isDig) (l := t), List.mem_append] at h
    rcases h with h | h
    · have := List.mem_takeWhile_imp h; simp [he] at this
    · exact h
  split
  · rename_i h'; rw [h'] at hmem; simp at hmem
  · rename_i c fp h'
    rw [h'] at hmem
    rw [if_neg]
    rintro ⟨hc, hall, -⟩
    subst hc
    rw [List.mem_cons] at hmem
    rcases hmem with hmem | hmem
    · simp at hmem
    · rw [List.all_eq_true] at hall; have := hall _ hmem; simp [he] at this

theorem readDec_none_of_e {t : Text} (h : 'e' ∈ t) : readDec t = none := by
  rcases t with _ | ⟨c, t⟩
  · rfl
  · by_cases h1 : c = '-'
    · subst h1
      have h' : 'e' ∈ t := by simpa using h
      simp [readDec, readUnsigned_none_of_e h']
    by_cases h2 : c = '+'
    · subst h2
      have h' : 'e' ∈ t := by simpa using h
      simp [readDec, readUnsigned_none_of_e h']
    · simp [readDec, h1, h2, readUnsigned_none_of_e h]

theorem readDec_repr_exp (d : DecFloat) (hne : d.digs ≠ []) (h : ¬ (-4 < d.decpt ∧ d.decpt ≤ 16)) :
    readDec d.repr = none := by
  apply readDec_none_of_e
  unfold DecFloat.repr
  rw [if_neg hne, if_neg h]
  unfold expText
  simp

/-! ### `decOf` -/

theorem ofDigits_dropWhile_zero (l : List ℕ) :
    Nat.ofDigits 10 l = Nat.ofDigits 10 (l.dropWhile (· == 0)) * 10 ^ (l.length - (l.dropWhile (· == 0)).length) := by
  induction l with
  | nil => simp
  | cons a t ih =>
    by_cases h : a = 0
    · subst h
      have h1 : List.dropWhile (· == 0) (0 :: t) = List.dropWhile (· == 0) t := by simp
      rw [h1, Nat.ofDigits_cons, ih]
      have hle : (List.dropWhile (· == 0) t).length ≤ t.length := List.length_dropWhile_le _ _
      rw [List.length_cons, show t.length + 1 - (List.dropWhile (fun x => x == 0) t).length
        = (t.length - (List.dropWhile (fun x => x == 0) t).length) + 1 by omega, pow_succ]
      ring
    · simp [h]

theorem decOf_wf (k : ℤ) (p : ℕ) : (decOf k p).WF := by
  refine ⟨?_, ?_, ?_⟩
  · intro x hx
    simp only [decOf, List.mem_reverse] at hx
    exact Nat.digits_lt_base (by norm_num) ((List.dropWhile_sublist _).subset hx)
  · simp only [decOf, List.head?_reverse]
    intro h
    have hm := List.mem_of_getLast? h
    by_cases hk : k.natAbs = 0
    · rw [hk] at hm; simp at hm
    · have hne : Nat.digits 10 k.natAbs ≠ [] := Nat.digits_ne_nil_iff_ne_zero.2 hk
      have hl := Nat.getLast_digit_ne_zero 10 hk
      have hsuf := List.dropWhile_suffix (l := Nat.digits 10 k.natAbs) (p := (· == 0))
      obtain ⟨pre, hpre⟩ := hsuf
      have h2 : (Nat.digits 10 k.natAbs).getLast? = some 0 := by
        rw [← hpre, List.getLast?_append, h]; rfl
      rw [List.getLast?_eq_getLast_of_ne_nil hne] at h2
      exact hl (by simpa using h2)
  · simp only [decOf, List.getLast?_reverse]
    intro h
    rcases hd : (Nat.digits 10 k.natAbs).dropWhile (· == 0) with _ | ⟨c, t⟩
    · rw [hd] at h; simp at h
    · rw [hd] at h
      have := List.head_dropWhile_not (· == 0) (l := Nat.digits 10 k.natAbs) (by rw [hd]; simp)
      simp [hd] at this h
      exact this h

theorem decOf_value (k : ℤ) (p : ℕ) : (decOf k p).value = (k : ℚ) / 10 ^ p := by
  by_cases hk : k = 0
  · subst hk; simp [decOf, DecFloat.value]
  · have hd := ofDigits_dropWhile_zero (Nat.digits 10 k.natAbs)
    rw [Nat.ofDigits_digits] at hd
    have hle : ((Nat.digits 10 k.natAbs).dropWhile (· == 0)).length ≤ (Nat.digits 10 k.natAbs).length :=
      List.length_dropWhile_le _ _
    have key : ((Nat.ofDigits 10 ((Nat.digits 10 k.natAbs).dropWhile (· == 0)) : ℕ) : ℚ)
        * (10 : ℚ) ^ (((Nat.digits 10 k.natAbs).length : ℤ) - p
            - ((Nat.digits 10 k.natAbs).dropWhile (· == 0)).length) = (k.natAbs : ℚ) / 10 ^ p := by
      conv_rhs => rw [hd]
      push_cast
      rw [div_eq_mul_inv, mul_assoc, ← zpow_natCast, ← zpow_natCast, ← zpow_neg, ← zpow_add₀ (by norm_num)]
      congr 2
      omega
    unfold DecFloat.value decOf
    simp only [if_neg hk, List.reverse_reverse, List.length_reverse]
    rw [key]
    by_cases hneg : k < 0
    · simp only [hneg, decide_true, if_true]
      have : ((k.natAbs : ℕ) : ℤ) = -k := by omega
      rw [← Int.cast_natCast, this]; push_cast; ring
    · simp only [hneg, decide_false, Bool.false_eq_true, if_false]
      have : ((k.natAbs : ℕ) : ℤ) = k := by omega
      rw [← Int.cast_natCast, this]

end CQ
