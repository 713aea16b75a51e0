import Verif.Model.Scan64
import Verif.Props.Binary64
import Verif.Proofs.Repr

/-!
# Property C130: scanlines leave no gaps, in floating point
-/

namespace CQ

theorem roundHalfEven_neg (q : ℚ) : roundHalfEven (-q) = -roundHalfEven q := by
  unfold roundHalfEven
  rw [Int.floor_neg]
  rcases eq_or_lt_of_le (Int.floor_le q) with h | h
  · have hc : ⌈q⌉ = ⌊q⌋ := by rw [← h]; simp
    have h1 : -q - ((-⌈q⌉ : ℤ) : ℚ) = 0 := by rw [hc]; push_cast; linarith
    have h2 : q - ((⌊q⌋ : ℤ) : ℚ) = 0 := by linarith
    rw [h1, h2, hc]
    norm_num
  · have hc : ⌈q⌉ = ⌊q⌋ + 1 := by
      rw [Int.ceil_eq_iff]
      have := Int.lt_floor_add_one q
      push_cast
      constructor <;> linarith
    rw [hc]
    push_cast
    have hf := Int.lt_floor_add_one q
    generalize ⌊q⌋ = k at *
    split_ifs <;> first | omega | (exfalso; linarith)

theorem b64_neg (x : ℚ) : b64 (-x) = -b64 x := by
  unfold b64
  have : b64Exp (-x) = b64Exp x := by unfold b64Exp; rw [abs_neg]
  rw [this, neg_div, roundHalfEven_neg]
  push_cast
  ring

/-- `arange` upwards is `arange` downwards mirrored. -/
theorem arange64_up (F T s : ℚ) : arange64 F T s = (arange64 (-F) (-T) (-s)).map (fun x => -x) := by
  unfold arange64
  rw [List.map_map]
  have e : b64 (b64 (-T - -F) / -s) = b64 (b64 (T - F) / s) := by
    rw [show -T - -F = -(T - F) by ring, b64_neg, neg_div_neg_eq]
  rw [e]
  apply List.map_congr_left
  intro i _
  simp only [Function.comp]
  have e1 : b64 (-F + -s) = -b64 (F + s) := by rw [← b64_neg]; congr 1; ring
  rw [e1, show -b64 (F + s) - -F = -(b64 (F + s) - F) by ring, b64_neg, mul_neg, b64_neg,
    show -F + -b64 (i * b64 (b64 (F + s) - F)) = -(F + b64 (i * b64 (b64 (F + s) - F))) by ring, b64_neg]
  split_ifs <;> ring

/-- The values of `arange` upwards: the `i`th is `i` steps above the first, they end below the top, and the next would not. -/
theorem arange64_up_values {F T s M : ℚ} (hs : 0 < s) (hM : 1 ≤ M) (hF : |F| ≤ M) (hT : |T| ≤ M) (hsM : s ≤ M)
    (hn : (arange64 F T s).length ≤ 2 ^ 49) :
    let n := (arange64 F T s).length
    (∀ (i : ℕ) (v : ℚ), (arange64 F T s)[i]? = some v →
      |v - (F + i * s)| ≤ (4 * n + 12) * 2 ^ (-52 : ℤ) * M ∧ i * s ≤ T - F + 3 * 2 ^ (-52 : ℤ) * M) ∧
      T - F ≤ n * s + 3 * 2 ^ (-52 : ℤ) * M := by
  intro n
  have hF' : |-F| ≤ M := by rwa [abs_neg]
  have hT' : |-T| ≤ M := by rwa [abs_neg]
  have hc := abs_le.mp (arange64_count hs hM hF' hT' hsM)
  have hlen : n = ⌈b64 (b64 (-T - -F) / -s)⌉.toNat := by
    change (arange64 F T s).length = _
    rw [arange64_up]
    simp [arange64]
  have hv := fun {i n : ℕ} => arange64_value (i := i) (n := n) hs hM hF' hT' hsM
  generalize b64 (b64 (-T - -F) / -s) = r at hc hlen
  rw [show -F - -T = T - F by ring] at hc hv
  constructor
  · intro i v hi
    have hin : i < n := (List.getElem?_eq_some_iff.mp hi).1
    have his : i * s ≤ T - F + 3 * 2 ^ (-52 : ℤ) * M := by
      have h1 : (i : ℤ) < ⌈r⌉ := by omega
      have h2 : (i : ℚ) < r := by exact_mod_cast Int.lt_ceil.mp h1
      nlinarith [hc.2]
    refine ⟨?_, his⟩
    have h3 := hv hin.le hn his
    rw [arange64_up] at hi
    unfold arange64 at hi
    simp only [List.getElem?_map, Option.map_eq_some_iff] at hi
    obtain ⟨w, ⟨j, hj, rfl⟩, rfl⟩ := hi
    obtain ⟨_, rfl⟩ := List.getElem?_eq_some_iff.mp hj
    rw [List.getElem_range]
    rw [← abs_neg] at h3
    refine le_trans (le_of_eq ?_) h3
    congr 1
    ring
  · have h1 : r ≤ n := by
      have h0 := Int.le_ceil (r)
      have h2 : ⌈r⌉ ≤ (n : ℤ) := by omega
      have h3 : ((⌈r⌉ : ℤ) : ℚ) ≤ ((n : ℤ) : ℚ) := by exact_mod_cast h2
      push_cast at h3
      linarith
    have h4 := mul_le_mul_of_nonneg_right h1 hs.le
    linarith [hc.1]

/-- There are no more values than needed. -/
theorem arange64_up_length {F T s M : ℚ} (hs : 0 < s) (hM : 1 ≤ M) (hF : |F| ≤ M) (hT : |T| ≤ M) (hsM : s ≤ M) (hTF : F ≤ T) :
    (arange64 F T s).length * s ≤ T - F + s + passError 0 M := by
  have h := arange64_length (S := -F + s) (F := -F) (T := -T) hs hM (by rwa [abs_neg]) (by rwa [abs_neg]) hsM (by
    rw [show -F - (-F + s - s) = 0 by ring, abs_zero]
    have := two_zpow_pos (-52)
    positivity) (by linarith)
  rw [arange64_up, List.length_map]
  linarith

/-- The ends of the range of the scanlines. -/
theorem middle64 {a b D L : ℚ} (hL : 1 ≤ L) (ha : |a| ≤ L) (hb : |b| ≤ L) (hD : 0 ≤ D) (hD3 : D ≤ 3 * L) :
    |b64 (b64 (b64 (a + b) / 2) - b64 (D / 2)) - ((a + b) / 2 - D / 2)| ≤ 8 * 2 ^ (-52 : ℤ) * L ∧
      |b64 (b64 (b64 (a + b) / 2) + b64 (D / 2)) - ((a + b) / 2 + D / 2)| ≤ 8 * 2 ^ (-52 : ℤ) * L := by
  have hμ := two_zpow_pos (-52)
  have hμ2 : (2 : ℚ) ^ (-52 : ℤ) ≤ 1 / 64 := by norm_num
  have mu : ∀ {x X : ℚ}, |x| ≤ X → 1 ≤ X → |b64 x - x| ≤ 2 ^ (-52 : ℤ) * X := b64_err_mu
  generalize (2 : ℚ) ^ (-52 : ℤ) = μ at *
  have ha' := abs_le.mp ha
  have hb' := abs_le.mp hb
  have hm : μ * L ≤ 1 / 64 * L := mul_le_mul_of_nonneg_right hμ2 (by linarith)
  have hm0 : 0 ≤ μ * L := by positivity
  have e1 := abs_le.mp (mu (x := a + b) (X := 2 * L) (abs_le.mpr ⟨by linarith, by linarith⟩) (by linarith))
  have e2 := abs_le.mp (mu (x := b64 (a + b) / 2) (X := 2 * L) (abs_le.mpr ⟨by linarith, by linarith⟩) (by linarith))
  have e3 := abs_le.mp (mu (x := D / 2) (X := 2 * L) (abs_le.mpr ⟨by linarith, by linarith⟩) (by linarith))
  have e4 := abs_le.mp (mu (x := b64 (b64 (a + b) / 2) - b64 (D / 2)) (X := 3 * L) (abs_le.mpr ⟨by linarith, by linarith⟩) (by linarith))
  have e5 := abs_le.mp (mu (x := b64 (b64 (a + b) / 2) + b64 (D / 2)) (X := 3 * L) (abs_le.mpr ⟨by linarith, by linarith⟩) (by linarith))
  constructor <;> rw [abs_le] <;> constructor <;> linarith

set_option maxHeartbeats 600000 in
/-- C130.  The lines that are clipped to give the scanlines, computed in floating point from a rectangle with corners up to `L` around the
boundaries: each goes from left to right at one Y over the whole width of the rectangle, neighbouring lines are the stepover times the
tool diameter apart, no Y of the rectangle is further from the next lower line, and there are no more lines than that takes in the
square around the rectangle - all up to `passError`, which is a billionth of `L` for a million lines. -/
theorem C130_lines (eng : ScanClipper) {boundaries : List (List Pt)} {diameter stepover L left low right high D : ℚ}
    (hs : 2 ^ (-1074 : ℤ) ≤ diameter * stepover) (hsL : diameter * stepover ≤ L) (hL : 1 ≤ L)
    (hb : eng.bounds boundaries = (left, low, right, high)) (hD : eng.diagonal (left, low, right, high) = D)
    (hw : right - left ≤ D) (hh : high - low ≤ D) (hD0 : 0 ≤ D) (hD3 : D ≤ 3 * L)
    (h1 : |left| ≤ L) (h2 : |low| ≤ L) (h3 : |right| ≤ L) (h4 : |high| ≤ L) :
    ∃ templates, scanTemplates64 eng boundaries diameter stepover = .ok templates ∧
      let tol := passError templates.length (4 * L)
      (templates.length - 1) * (diameter * stepover) ≤ D + 2 + tol ∧
      (templates.length ≤ 2 ^ 49 →
        (∀ l ∈ templates, l.1.y = l.2.y ∧ l.1.x ≤ left + tol ∧ right - tol ≤ l.2.x) ∧
        (∀ i : ℕ, ∀ l l', templates[i]? = some l → templates[i + 1]? = some l' →
          |l'.1.y - (l.1.y + diameter * stepover)| ≤ tol) ∧
        ∀ y, low ≤ y → y ≤ high → passError 0 (4 * L) < high - low →
          ∃ l ∈ templates, l.1.y ≤ y + tol ∧ y ≤ l.1.y + diameter * stepover + tol) := by
  obtain ⟨x1, x2⟩ := middle64 hL h1 h3 hD0 hD3
  obtain ⟨y1, y2⟩ := middle64 hL h2 h4 hD0 hD3
  have hs0 : 0 < b64 (diameter * stepover) :=
    lt_of_lt_of_le (two_zpow_pos (-1074)) (le_b64 (isDouble_two_zpow (by norm_num)) hs)
  have hs1 := abs_le.mp (b64_err_mu (x := diameter * stepover) (X := L)
    (abs_le.mpr ⟨by have := two_zpow_pos (-1074); linarith, hsL⟩) hL)
  unfold scanTemplates64
  simp only [hb, hD, if_neg hs0.ne', maxBounds64]
  generalize b64 (diameter * stepover) = s at *
  generalize diameter * stepover = ds at *
  have lx := Int.floor_le (b64 (b64 (b64 (left + right) / 2) - b64 (D / 2)))
  have rx := Int.le_ceil (b64 (b64 (b64 (left + right) / 2) + b64 (D / 2)))
  have by1 := Int.floor_le (b64 (b64 (b64 (low + high) / 2) - b64 (D / 2)))
  have by2 := Int.lt_floor_add_one (b64 (b64 (b64 (low + high) / 2) - b64 (D / 2)))
  have ty1 := Int.le_ceil (b64 (b64 (b64 (low + high) / 2) + b64 (D / 2)))
  have ty2 := Int.ceil_lt_add_one (b64 (b64 (b64 (low + high) / 2) + b64 (D / 2)))
  generalize ⌊b64 (b64 (b64 (left + right) / 2) - b64 (D / 2))⌋ = A at *
  generalize ⌈b64 (b64 (b64 (left + right) / 2) + b64 (D / 2))⌉ = C at *
  generalize ⌊b64 (b64 (b64 (low + high) / 2) - b64 (D / 2))⌋ = B at *
  generalize ⌈b64 (b64 (b64 (low + high) / 2) + b64 (D / 2))⌉ = T at *
  have hμ := two_zpow_pos (-52)
  have hμ2 : (2 : ℚ) ^ (-52 : ℤ) ≤ 1 / 64 := by norm_num
  have hlen := @arange64_up_length B T s (4 * L) hs0 (by linarith)
  have hval := @arange64_up_values B T s (4 * L) hs0 (by linarith)
  unfold passError at hlen ⊢
  generalize (2 : ℚ) ^ (-52 : ℤ) = μ at *
  have hm : μ * L ≤ 1 / 64 * L := mul_le_mul_of_nonneg_right hμ2 (by linarith)
  have hm0 : 0 ≤ μ * L := by positivity
  have x1 := abs_le.mp x1
  have x2 := abs_le.mp x2
  have y1 := abs_le.mp y1
  have y2 := abs_le.mp y2
  have h1' := abs_le.mp h1
  have h2' := abs_le.mp h2
  have h3' := abs_le.mp h3
  have h4' := abs_le.mp h4
  have hF : |(B : ℚ)| ≤ 4 * L := abs_le.mpr ⟨by linarith, by linarith⟩
  have hT : |(T : ℚ)| ≤ 4 * L := abs_le.mpr ⟨by linarith, by linarith⟩
  have hBT : (B : ℚ) ≤ T := by
    have : b64 (b64 (b64 (low + high) / 2) - b64 (D / 2)) ≤ b64 (b64 (b64 (low + high) / 2) + b64 (D / 2)) := by
      have hp : 0 ≤ b64 (D / 2) := le_b64 isDouble_zero (by linarith)
      refine b64_le (b64_isDouble _) ?_
      have := le_b64 (b64_isDouble (b64 (low + high) / 2)) (x := b64 (b64 (low + high) / 2) + b64 (D / 2)) (by linarith)
      linarith
    linarith
  replace hlen := hlen hF hT (by linarith) hBT
  replace hval := hval hF hT (by linarith)
  refine ⟨_, rfl, ?_⟩
  rw [List.length_map]
  dsimp only at hval ⊢
  generalize hvs : arange64 (B : ℚ) T s = vs at *
  have hn0 : (0 : ℚ) ≤ vs.length := Nat.cast_nonneg _
  have hnm : 0 ≤ (vs.length : ℚ) * (μ * L) := mul_nonneg hn0 hm0
  push_cast at hlen
  refine ⟨?_, fun hn => ⟨?_, ?_, ?_⟩⟩
  · rcases Nat.eq_zero_or_pos vs.length with h0 | h0
    · rw [h0]; push_cast; linarith
    · have hn1 : (1 : ℚ) ≤ vs.length := by exact_mod_cast h0
      have hd := mul_le_mul_of_nonneg_left (show ds - s ≤ μ * L by linarith) (show (0 : ℚ) ≤ vs.length - 1 by linarith)
      have hnm1 := mul_le_mul_of_nonneg_right hn1 hm0
      linarith
  · intro l hl
    obtain ⟨y, -, rfl⟩ := List.mem_map.mp hl
    refine ⟨rfl, ?_, ?_⟩
    · simp only; linarith
    · simp only; linarith
  · intro i l l' e1 e2
    obtain ⟨v, hv, rfl⟩ := Option.map_eq_some_iff.mp (List.getElem?_map .. ▸ e1)
    obtain ⟨v', hv', rfl⟩ := Option.map_eq_some_iff.mp (List.getElem?_map .. ▸ e2)
    have b1 := abs_le.mp ((hval hn).1 i v hv).1
    have b2 := abs_le.mp ((hval hn).1 (i + 1) v' hv').1
    push_cast at b2
    simp only
    rw [abs_le]
    constructor <;> linarith
  · intro y hy1 hy2 hgap
    obtain ⟨g1, g2⟩ := hval hn
    have hpos : 0 < (vs.length : ℚ) * s := by push_cast at hgap; linarith
    have hn1 : 0 < vs.length := by
      rcases Nat.eq_zero_or_pos vs.length with h0 | h0
      · rw [h0] at hpos; simp at hpos
      · exact h0
    have hk : ∃ k < vs.length, (B : ℚ) + k * s ≤ y + 8 * μ * L ∧ y ≤ B + k * s + s + 20 * μ * L := by
      rcases lt_or_ge y B with hyB | hyB
      · exact ⟨0, hn1, by push_cast; linarith, by push_cast; linarith⟩
      · have hq : 0 ≤ (y - B) / s := div_nonneg (by linarith) hs0.le
        have f1 := Nat.floor_le hq
        have f2 := Nat.lt_floor_add_one ((y - B) / s)
        rw [le_div_iff₀ hs0] at f1
        rw [div_lt_iff₀ hs0] at f2
        rcases lt_or_ge ⌊(y - B) / s⌋₊ vs.length with hlt | hge
        · exact ⟨_, hlt, by linarith, by linarith⟩
        · obtain ⟨m, hm'⟩ : ∃ m, vs.length = m + 1 := ⟨vs.length - 1, by omega⟩
          have hmf : (m : ℚ) ≤ (⌊(y - B) / s⌋₊ : ℕ) := by exact_mod_cast (by omega : m ≤ ⌊(y - B) / s⌋₊)
          have := mul_le_mul_of_nonneg_right hmf hs0.le
          rw [hm'] at g2
          push_cast at g2
          exact ⟨m, by omega, by linarith, by linarith⟩
    obtain ⟨k, hkn, k1, k2⟩ := hk
    have hget : vs[k]? = some vs[k] := List.getElem?_eq_getElem hkn
    have b1 := abs_le.mp (g1 k _ hget).1
    refine ⟨_, List.mem_map.mpr ⟨vs[k], List.getElem_mem hkn, rfl⟩, ?_, ?_⟩
    · simp only; linarith
    · simp only; linarith

/-- C130, in numbers: with coordinates up to a metre and a stepover of at least a tenth of a millimetre, the errors are below a
millionth of a millimetre. -/
theorem C130_millimetres (eng : ScanClipper) {boundaries : List (List Pt)} {diameter stepover left low right high D : ℚ}
    (hs : 1 / 10 ≤ diameter * stepover) (hsL : diameter * stepover ≤ 1000)
    (hb : eng.bounds boundaries = (left, low, right, high)) (hD : eng.diagonal (left, low, right, high) = D)
    (hw : right - left ≤ D) (hh : high - low ≤ D) (hD0 : 0 ≤ D) (hD3 : D ≤ 3000)
    (h1 : |left| ≤ 1000) (h2 : |low| ≤ 1000) (h3 : |right| ≤ 1000) (h4 : |high| ≤ 1000) :
    ∃ templates, scanTemplates64 eng boundaries diameter stepover = .ok templates ∧
      (∀ l ∈ templates, l.1.y = l.2.y ∧ l.1.x ≤ left + 1 / 1000000 ∧ right - 1 / 1000000 ≤ l.2.x) ∧
      (∀ i : ℕ, ∀ l l', templates[i]? = some l → templates[i + 1]? = some l' →
        |l'.1.y - (l.1.y + diameter * stepover)| ≤ 1 / 1000000) ∧
      ∀ y, low ≤ y → y ≤ high → 1 / 1000000 < high - low →
        ∃ l ∈ templates, l.1.y ≤ y + 1 / 1000000 ∧ y ≤ l.1.y + diameter * stepover + 1 / 1000000 := by
  obtain ⟨templates, h, g1, g2⟩ := C130_lines eng (L := 1000) (le_trans (le_trans (zpow_le_zpow_right₀ (by norm_num) (by norm_num : (-1074 : ℤ) ≤ -4)) (by norm_num)) hs) hsL (by norm_num) hb hD hw hh hD0
    (by linarith) h1 h2 h3 h4
  have hn : (templates.length : ℚ) ≤ 50000 := by
    unfold passError at g1
    norm_num at g1
    by_contra hc
    rw [not_le] at hc
    nlinarith
  have hn' : templates.length ≤ 50000 := by exact_mod_cast hn
  obtain ⟨a, b, c⟩ := g2 (le_trans hn' (by norm_num))
  have ht : passError templates.length (4 * 1000) ≤ 1 / 1000000 := by
    unfold passError
    norm_num
    linarith
  have h0 : passError 0 (4 * 1000) ≤ 1 / 1000000 := by unfold passError; norm_num
  generalize passError templates.length (4 * 1000) = tol at *
  generalize passError 0 (4 * 1000) = tol0 at *
  refine ⟨templates, h, ?_, ?_, ?_⟩
  · intro l hl
    obtain ⟨e1, e2, e3⟩ := a l hl
    exact ⟨e1, by linarith, by linarith⟩
  · intro i l l' e1 e2
    exact (b i l l' e1 e2).trans ht
  · intro y y1 y2 y3
    obtain ⟨l, hl, e1, e2⟩ := c y y1 y2 (by linarith)
    exact ⟨l, hl, by linarith, by linarith⟩

/-- A clipper for the examples: the boundaries are in a rectangle of 3 by 4, from -1 to 2 and from 0 to 4. -/
def boxClipper : ScanClipper where
  bounds := fun _ => (-1, 0, 2, 4)
  diagonal := fun _ => 5
  clip := fun _ ls => .ok ls

/-- The hypotheses of `C130_lines` and `C130_millimetres`: a tool of 3.175 with a stepover of 0.8, as doubles.  The third scanline is not
exactly two steps above the first. -/
example : (1 : ℚ) / 10 ≤ b64 (3175 / 1000) * b64 (8 / 10) ∧ b64 (3175 / 1000) * b64 (8 / 10) ≤ 1000 ∧
    boxClipper.bounds [] = (-1, 0, 2, 4) ∧ boxClipper.diagonal (-1, 0, 2, 4) = 5 ∧
    (match scanTemplates64 boxClipper [] (b64 (3175 / 1000)) (b64 (8 / 10)) with
      | .ok [a, b, c] => decide (a.1.y = -1 ∧ b.1.y ≠ 77 / 50 ∧ rnd 3 b.1.y = 77 / 50 ∧ rnd 3 c.1.y = 102 / 25 ∧ a.1.x = -2 ∧ a.2.x = 3 ∧
          c.1.y ≠ -1 + 2 * (b64 (3175 / 1000) * b64 (8 / 10)))
      | _ => false) = true := by
  refine ⟨by decide +kernel, by decide +kernel, rfl, rfl, by decide +kernel⟩

end CQ
