import Verif.Spec.EdgeTabs64
import Verif.Model.EdgeTabs64
import Verif.Props.Tabs64Wire

/-! # C133: tabs along edges in floating point -/

namespace CQ

/-- Python's `//` on floats is the floor of the quotient, as long as that is not astronomical. -/
theorem floorDiv64_eq {x y : ℚ} (hx : 0 ≤ x) (hy : 2 ^ (-200 : ℤ) ≤ y) (hq : x ≤ 2 ^ 50 * y) : floorDiv64 x y = ⌊x / y⌋ := by
  have hy0 : 0 < y := lt_of_lt_of_le (two_zpow_pos _) hy
  have hfl : (0 : ℤ) ≤ ⌊x / y⌋ := Int.floor_nonneg.mpr (by positivity)
  have hle : ((⌊x / y⌋ : ℤ) : ℚ) ≤ 2 ^ 50 := (Int.floor_le _).trans ((div_le_iff₀ hy0).mpr hq)
  unfold floorDiv64
  simp only
  generalize ⌊x / y⌋ = n at *
  rw [show x - (x - y * n) = y * n from by ring]
  rcases hfl.eq_or_lt with h0 | h0
  · subst h0
    simp [b64_zero]
  have hn1 : (1 : ℚ) ≤ n := by exact_mod_cast h0
  have hn0 : (0 : ℚ) < n := by linarith
  have h1022 : (2 : ℚ) ^ (-1022 : ℤ) ≤ 2 ^ (-200 : ℤ) := zpow_le_zpow_right₀ (by norm_num) (by norm_num)
  have hyn : y ≤ y * n := le_mul_of_one_le_right hy0.le hn1
  have e1 := b64_err_rel (x := y * n) (by rw [abs_of_pos (by positivity)]; linarith)
  rw [abs_of_pos (by positivity : 0 < y * n)] at e1
  have hd : |b64 (y * n) / y - n| ≤ 2 ^ (-53 : ℤ) * n := by
    rw [show b64 (y * n) / y - n = (b64 (y * n) - y * n) / y from by field_simp, abs_div, abs_of_pos hy0, div_le_iff₀ hy0]
    linarith
  have h53 : (2 : ℚ) ^ (-53 : ℤ) = 1 / 9007199254740992 := by norm_num
  rw [h53] at hd
  have hle' : (n : ℚ) ≤ 1125899906842624 := hle.trans (by norm_num)
  have hd' := abs_le.mp hd
  have hq1 : 1 / 2 ≤ b64 (y * n) / y := by linarith [hd'.1]
  have hq2 : b64 (y * n) / y ≤ 2 * n := by linarith [hd'.2]
  have e2 := b64_err_rel (x := b64 (y * n) / y) (by
    rw [abs_of_pos (by linarith)]
    exact le_trans (le_trans h1022 (by norm_num)) hq1)
  rw [abs_of_pos (by linarith : 0 < b64 (y * n) / y), h53] at e2
  have e2' := abs_le.mp e2
  generalize b64 (b64 (y * n) / y) = d at *
  have hd3 : n - 3 / 8 ≤ d := by linarith [hd'.1, e2'.1]
  have hd4 : d ≤ n + 3 / 8 := by linarith [hd'.2, e2'.2]
  rw [if_neg (by intro h; rw [h] at hd3; linarith)]
  rcases le_or_gt (n : ℚ) d with h | h
  · have hf : ⌊d⌋ = n := by
      rw [Int.floor_eq_iff]
      exact ⟨h, by linarith⟩
    rw [hf, if_neg]
    rw [not_lt]
    have hhalf : IsDouble (1 / 2 : ℚ) := ⟨1, -1, by norm_num, by norm_num, by norm_num⟩
    exact b64_le hhalf (by linarith)
  · have hf : ⌊d⌋ = n - 1 := by
      rw [Int.floor_eq_iff]
      push_cast
      exact ⟨by linarith, by linarith⟩
    rw [hf, if_pos, sub_add_cancel]
    have h58 : IsDouble (5 / 8 : ℚ) := ⟨5, -3, by norm_num, by norm_num, by norm_num⟩
    have := le_b64 (x := d - ((n - 1 : ℤ) : ℚ)) h58 (by push_cast; linarith)
    exact lt_of_lt_of_le (by norm_num) this

/-- The tabs of one edge. -/
theorem edgeDs64_close {k : ℕ} {t : EdgeTabs} {len : Edge → ℚ} {e : Edge} (hsel : TabKind t.only e) (hL : 0 < e.length)
    (hw : 2 ^ (-200 : ℤ) ≤ t.width) (hbig : e.length ≤ 2 ^ (200 : ℤ)) (hcount : e.length ≤ 2 ^ 49 * t.spacing) (hk : (k : ℚ) ≤ 2 ^ 49)
    (hlen : NearLength k e.length (len e)) (hm : (8 * k + 64) * 2 ^ (-52 : ℤ) * e.length < t.width)
    (hs : 3 * t.width + (8 * k + 64) * 2 ^ (-52 : ℤ) * e.length < 2 * t.spacing) :
    ∃ (n : ℕ) (ds : List (ℚ × ℚ)), t.edgeDs64 len e = .ok ds ∧ n * t.spacing ≤ e.length + k * 2 ^ (-52 : ℤ) * e.length ∧
      e.length - k * 2 ^ (-52 : ℤ) * e.length < (n + 1) * t.spacing ∧ ds.length = n ∧
      (∀ i (h : i < ds.length), |ds[i].1 - ((i + 1) / (n + 1) - t.width / e.length / 2)| ≤ edgeTabError k ∧
        |ds[i].2 - ((i + 1) / (n + 1) + t.width / e.length / 2)| ≤ edgeTabError k) ∧ Increasing (edgeTransitions ds) := by
  have hw0 : 0 < t.width := lt_of_lt_of_le (two_zpow_pos _) hw
  have hs0 : t.width ≤ t.spacing := by
    have : 0 < (8 * (k : ℚ) + 64) * 2 ^ (-52 : ℤ) * e.length := by
      have := two_zpow_pos (-52)
      positivity
    linarith
  have hspos : 0 < t.spacing := by linarith
  have hk2 : (k : ℚ) * 2 ^ (-52 : ℤ) ≤ 1 / 8 := by
    calc (k : ℚ) * 2 ^ (-52 : ℤ) ≤ 2 ^ 49 * 2 ^ (-52 : ℤ) := mul_le_mul_of_nonneg_right hk (two_zpow_pos _).le
      _ = 1 / 8 := by norm_num
  have hfd : 0 ≤ len e → len e ≤ 2 ^ 50 * t.spacing → floorDiv64 (len e) t.spacing = ⌊len e / t.spacing⌋ :=
    fun h1 h2 => floorDiv64_eq h1 (hw.trans hs0) h2
  have hhc : t.width ≤ e.length → |b64 (b64 (1 / len e) * b64 (t.width / 2)) - 1 / e.length * (t.width / 2)| ≤ (k + 4) * 2 ^ (-52 : ℤ) :=
    fun h => halfD_close hL hlen (hk2.trans (by norm_num)) hw h hbig
  obtain ⟨B, hB, hlc⟩ : ∃ B : ℚ, 2 ^ 50 + 1 ≤ B ∧ ∀ n i : ℕ, i < n → ((n + 1 : ℕ) : ℚ) ≤ B →
      |b64 ((i + 1 : ℕ) * b64 (1 / (n + 1 : ℕ))) - ((i + 1 : ℕ) : ℚ) / (n + 1 : ℕ)| ≤ 3 * 2 ^ (-52 : ℤ) :=
    ⟨2 ^ (400 : ℤ), le_trans (by norm_num) (zpow_le_zpow_right₀ (by norm_num) (by norm_num : (60 : ℤ) ≤ 400)),
      fun n i hi hn => linspace_close (by omega) hn⟩
  have herr : ∀ {x X : ℚ}, |x| ≤ X → 1 ≤ X → |b64 x - x| ≤ 2 ^ (-52 : ℤ) * X := b64_err_mu
  unfold NearLength at hlen
  unfold edgeTabError
  have hμ0 : (0 : ℚ) < 2 ^ (-52 : ℤ) := two_zpow_pos _
  have hμ1 : (2 : ℚ) ^ (-52 : ℤ) ≤ 1 / 1000 := by norm_num
  clear hw hbig hk
  generalize (2 : ℚ) ^ (-52 : ℤ) = μ at *
  have hlen' := abs_le.mp hlen
  have hkl : (k : ℚ) * μ * e.length ≤ 1 / 8 * e.length := mul_le_mul_of_nonneg_right hk2 hL.le
  have hl0 : 0 < len e := by linarith [hlen'.1]
  have hcnt : floorDiv64 (len e) t.spacing = ⌊len e / t.spacing⌋ := by
    apply hfd hl0.le
    have : (2 : ℚ) ^ 50 * t.spacing = 2 * (2 ^ 49 * t.spacing) := by ring
    linarith [hlen'.2]
  obtain ⟨n, hn⟩ : ∃ n : ℕ, ⌊len e / t.spacing⌋ = n := Int.eq_ofNat_of_zero_le (Int.floor_nonneg.mpr (by positivity))
  have hn1 : (n : ℚ) * t.spacing ≤ len e := by
    rw [← le_div_iff₀ hspos]
    have := Int.floor_le (len e / t.spacing)
    rw [hn] at this
    exact_mod_cast this
  have hn2 : len e < (n + 1) * t.spacing := by
    rw [← div_lt_iff₀ hspos]
    have := Int.lt_floor_add_one (len e / t.spacing)
    rw [hn] at this
    exact_mod_cast this
  have hcond : (t.only.isSome && decide (t.only ≠ some e.geom)) = false := by
    rcases hsel with h | h <;> simp [h]
  by_cases h0 : n = 0
  · subst h0
    refine ⟨0, [], ?_, by linarith [hlen'.2], by linarith [hlen'.1], rfl, by simp, ?_⟩
    · simp only [EdgeTabs.edgeDs64, hcond, Bool.false_eq_true, if_false, hspos.ne', hcnt, hn]
      rfl
    · simp [edgeTransitions, Increasing]
  have hnpos : 0 < n := Nat.pos_of_ne_zero h0
  have hn1q : (1 : ℚ) ≤ n := by exact_mod_cast hnpos
  have hM : 0 < (8 * (k : ℚ) + 64) * μ * e.length := by positivity
  have hwL : t.width ≤ e.length := by
    have h1 : t.spacing ≤ n * t.spacing := le_mul_of_one_le_left hspos.le hn1q
    linarith [hlen'.2]
  have hh := hhc hwL
  have hN : ((n + 1 : ℕ) : ℚ) ≤ B := by
    have h1 : (n : ℚ) ≤ 2 ^ 50 := by
      by_contra h
      have := mul_lt_mul_of_pos_right (not_le.mp h) hspos
      have h2 : (2 : ℚ) ^ 50 * t.spacing = 2 * (2 ^ 49 * t.spacing) := by ring
      linarith [hlen'.2]
    push_cast
    linarith
  have hlin := fun (i : ℕ) (hi : i < n) => hlc n i hi hN
  have hhalf : 1 / e.length * (t.width / 2) = t.width / e.length / 2 := by ring
  rw [hhalf] at hh
  have hhw : t.width / e.length ≤ 1 := (div_le_one hL).mpr hwL
  have hhw0 : 0 < t.width / e.length := by positivity
  have hwE : (8 * k + 64) * μ < t.width / e.length := by rw [lt_div_iff₀ hL]; exact hm
  have hwid : t.width = t.width / e.length * e.length := by field_simp
  have hgap : 2 ≤ n → t.width / e.length + 2 * ((k + 10) * μ) < 1 / (n + 1) := by
    intro h2
    have h2q : (2 : ℚ) ≤ n := by exact_mod_cast h2
    rw [lt_div_iff₀ (by linarith)]
    -- multiply by the length
    have hk0 : (0 : ℚ) ≤ k * μ := by positivity
    have h3 : n * (3 * t.width + (8 * k + 64) * μ * e.length) ≤ n * (2 * t.spacing) := mul_le_mul_of_nonneg_left hs.le (by linarith)
    have h4 : n * (2 * t.spacing) ≤ 2 * (e.length + k * μ * e.length) := by linarith [hlen'.2]
    have h5 : n * (3 * (t.width / e.length) + (8 * k + 64) * μ) ≤ 2 * (1 + k * μ) := by
      have : n * (3 * (t.width / e.length) + (8 * k + 64) * μ) * e.length ≤ 2 * (1 + k * μ) * e.length := by
        calc _ = n * (3 * t.width + (8 * k + 64) * μ * e.length) := by field_simp
          _ ≤ _ := h3.trans (h4.trans (by linarith))
      exact le_of_mul_le_mul_right this hL
    have h6 : 2 * (k * μ) ≤ n * (k * μ) := mul_le_mul_of_nonneg_right h2q hk0
    have h7 : 2 * μ ≤ n * μ := mul_le_mul_of_nonneg_right h2q hμ0.le
    have h8 : 2 * (t.width / e.length) ≤ n * (t.width / e.length) := mul_le_mul_of_nonneg_right h2q hhw0.le
    have e1 : n * (3 * (t.width / e.length) + (8 * k + 64) * μ) = 3 * (n * (t.width / e.length)) + 8 * (n * (k * μ)) + 64 * (n * μ) := by ring
    have e2 : (t.width / e.length + 2 * ((k + 10) * μ)) * (n + 1) =
        n * (t.width / e.length) + t.width / e.length + 2 * (n * (k * μ)) + 2 * (k * μ) + 20 * (n * μ) + 20 * μ := by ring
    rw [e2]
    rw [e1] at h5
    linarith
  have hend : t.width / e.length / 2 + (k + 10) * μ < 1 / (n + 1) := by
    rcases Nat.lt_or_ge n 2 with h | h
    · have hn' : n = 1 := by omega
      subst hn'
      have h5 : 3 * (t.width / e.length) + (8 * k + 64) * μ ≤ 2 * (1 + k * μ) := by
        have : (3 * (t.width / e.length) + (8 * k + 64) * μ) * e.length ≤ 2 * (1 + k * μ) * e.length := by
          calc _ = 3 * t.width + (8 * k + 64) * μ * e.length := by field_simp
            _ ≤ _ := by push_cast at hn1; linarith [hlen'.2]
        exact le_of_mul_le_mul_right this hL
      push_cast
      have hk0 : (0 : ℚ) ≤ k * μ := by positivity
      linarith
    · have := hgap h
      have h1 : 0 < (k + 10) * μ := by positivity
      linarith
  have hE : (k + 10) * μ = k * μ + 10 * μ := by ring
  have hh' := abs_le.mp hh
  have hpos : ∀ i : ℕ, i < n → 1 / ((n : ℚ) + 1) ≤ (i + 1) / (n + 1) ∧ ((i : ℚ) + 1) / (n + 1) + 1 / (n + 1) ≤ 1 := by
    intro i hi
    have hi' : (i : ℚ) + 1 ≤ n := by exact_mod_cast hi
    have hi0 : (0 : ℚ) ≤ i := Nat.cast_nonneg i
    constructor
    · gcongr; linarith
    · rw [← add_div, div_le_one (by linarith)]; linarith
  -- the list
  let H := b64 (b64 (1 / len e) * b64 (t.width / 2))
  let ds := (List.range n).map (fun i : ℕ => (b64 (b64 ((i + 1 : ℕ) * b64 (1 / (n + 1 : ℕ))) - H), b64 (b64 ((i + 1 : ℕ) * b64 (1 / (n + 1 : ℕ))) + H)))
  have hds : t.edgeDs64 len e = .ok ds := by
    simp only [EdgeTabs.edgeDs64, hcond, Bool.false_eq_true, if_false, hspos.ne', hcnt, hn]
    rw [if_neg (by omega)]
    rfl
  have hlends : ds.length = n := by simp [ds]
  have hclose : ∀ i (h : i < ds.length), |ds[i].1 - ((i + 1) / (n + 1) - t.width / e.length / 2)| ≤ (k + 10) * μ ∧
      |ds[i].2 - ((i + 1) / (n + 1) + t.width / e.length / 2)| ≤ (k + 10) * μ := by
    intro i hi
    have hin : i < n := by rw [hlends] at hi; exact hi
    obtain ⟨p1, p2⟩ := hpos i hin
    have l1 := abs_le.mp (hlin i hin)
    have hn3 : (0 : ℚ) < 1 / (n + 1) := by positivity
    simp only [ds, List.getElem_map, List.getElem_range]
    push_cast at l1 ⊢
    have hkμ : (k + 4) * μ = k * μ + 4 * μ := by ring
    rw [hkμ] at hh'
    have a1 := abs_le.mp (herr (x := b64 (((i : ℚ) + 1) * b64 (1 / (n + 1))) - H) (X := 3)
      (abs_le.mpr ⟨by linarith [l1.1, hh'.2], by linarith [l1.2, hh'.1]⟩) (by norm_num))
    have a2 := abs_le.mp (herr (x := b64 (((i : ℚ) + 1) * b64 (1 / (n + 1))) + H) (X := 3)
      (abs_le.mpr ⟨by linarith [l1.1, hh'.1], by linarith [l1.2, hh'.2]⟩) (by norm_num))
    constructor <;> rw [abs_le] <;> constructor <;> linarith [l1.1, l1.2, hh'.1, hh'.2, a1.1, a1.2, a2.1, a2.2]
  refine ⟨n, ds, hds, by linarith [hlen'.2], by linarith [hlen'.1], hlends, hclose, ?_⟩
  rw [edgeTransitions_pairwise]
  refine ⟨one_pos, ?_, ?_⟩
  · intro d hd
    obtain ⟨i, hi, rfl⟩ := List.getElem_of_mem hd
    obtain ⟨c1, c2⟩ := hclose i hi
    obtain ⟨p1, p2⟩ := hpos i (by rw [hlends] at hi; exact hi)
    rw [abs_le] at c1 c2
    have hk0 : (0 : ℚ) ≤ k * μ := by positivity
    refine ⟨by linarith [c1.1], by linarith [c1.2, c2.1], by linarith [c2.2]⟩
  · rw [List.pairwise_iff_getElem]
    intro i j hi hj hij
    obtain ⟨c1, c2⟩ := hclose i hi
    obtain ⟨c3, c4⟩ := hclose j hj
    rw [abs_le] at c1 c2 c3 c4
    have h2 := hgap (by rw [hlends] at hi hj; omega)
    have h6 : ((i : ℚ) + 1) / (n + 1) + 1 / (n + 1) ≤ (j + 1) / (n + 1) := by
      rw [← add_div]
      gcongr
      exact_mod_cast hij
    have hk0 : (0 : ℚ) ≤ k * μ := by positivity
    refine ⟨by linarith [c2.2, c3.1], by linarith [c1.2, c3.1], by linarith [c1.2, c4.1], by linarith [c2.2, c4.1]⟩

/-- What the transitions of an edge mark. -/
theorem edgeMarks_close {k : ℕ} {spacing width : ℚ} {only : Option Geom} {e : Edge} (hL : 0 < e.length) (hsel : TabKind only e) {n : ℕ}
    {ds : List (ℚ × ℚ)} (h1 : n * spacing ≤ e.length + k * 2 ^ (-52 : ℤ) * e.length)
    (h2 : e.length - k * 2 ^ (-52 : ℤ) * e.length < (n + 1) * spacing) (hlen : ds.length = n)
    (hc : ∀ i (h : i < ds.length), |ds[i].1 - ((i + 1) / (n + 1) - width / e.length / 2)| ≤ edgeTabError k ∧
        |ds[i].2 - ((i + 1) / (n + 1) + width / e.length / 2)| ≤ edgeTabError k) :
    NearEdgeMarks k (edgeTabError k) spacing width only e (edgeTransitions ds) := by
  refine ⟨fun _ => ⟨n, h1, h2, fun x hx => ?_⟩, fun h => absurd hsel h⟩
  rw [edgeTransitions_marked]
  -- a comparison with a rounded end is a comparison with the end
  have hcmp : ∀ a a' : ℚ, |a' - a| ≤ edgeTabError k → edgeTabError k * e.length < |x * e.length - a * e.length| → (a' ≤ x ↔ a ≤ x) := by
    intro a a' ha hx
    rw [← sub_mul, abs_mul, abs_of_pos hL] at hx
    have hx' := lt_of_mul_lt_mul_right hx hL.le
    have h3 := lt_of_le_of_lt ha hx'
    rcases lt_or_ge x a with h | h
    · rw [abs_of_neg (by linarith : x - a < 0), abs_lt] at h3
      exact ⟨fun h' => by linarith [h3.1], fun h' => by linarith⟩
    · rw [abs_of_nonneg (by linarith : 0 ≤ x - a), abs_lt] at h3
      exact ⟨fun _ => h, fun _ => by linarith [h3.2]⟩
  have hend : ∀ i (hi : i < ds.length), (ds[i].1 ≤ x ↔ (i + 1) * (e.length / (n + 1)) - width / 2 ≤ x * e.length) ∧
      (ds[i].2 ≤ x ↔ (i + 1) * (e.length / (n + 1)) + width / 2 ≤ x * e.length) := by
    intro i hi
    obtain ⟨c1, c2⟩ := hc i hi
    obtain ⟨a1, a2⟩ := hx i (by rw [hlen] at hi; exact hi)
    have e1 : ((i + 1) / (n + 1) - width / e.length / 2) * e.length = (i + 1) * (e.length / (n + 1)) - width / 2 := by
      field_simp
    have e2 : ((i + 1) / (n + 1) + width / e.length / 2) * e.length = (i + 1) * (e.length / (n + 1)) + width / 2 := by
      field_simp
    rw [← e1] at a1 ⊢
    rw [← e2] at a2 ⊢
    rw [hcmp _ _ c1 a1, hcmp _ _ c2 a2, mul_le_mul_iff_left₀ hL, mul_le_mul_iff_left₀ hL]
    exact ⟨Iff.rfl, Iff.rfl⟩
  constructor
  · rintro ⟨d, hd, hd1, hd2⟩
    obtain ⟨i, hi, rfl⟩ := List.getElem_of_mem hd
    exact ⟨i, by rw [hlen] at hi; exact hi, (hend i hi).1.mp hd1, not_le.mp (fun h => not_le.mpr hd2 ((hend i hi).2.mpr h))⟩
  · rintro ⟨i, hi, hd1, hd2⟩
    have hi' : i < ds.length := by rw [hlen]; exact hi
    exact ⟨ds[i], List.getElem_mem hi', (hend i hi').1.mpr hd1, not_le.mp (fun h => not_le.mpr hd2 ((hend i hi').2.mp h))⟩

/-- The transitions of tabs along the edges, whose lengths are known up to `k` units of rounding. -/
theorem edgeTransitions64_fit {w : List Edge} (hpos : ∀ e ∈ w, 0 < e.length) {t : EdgeTabs} {k : ℕ} (hk : (k : ℚ) ≤ 2 ^ 49)
    (hw : 2 ^ (-200 : ℤ) ≤ t.width) {len : Edge → ℚ} (hlen : ∀ e ∈ w, NearLength k e.length (len e))
    (hbig : ∀ e ∈ w, e.length ≤ 2 ^ (200 : ℤ)) (hcount : ∀ e ∈ w, e.length ≤ 2 ^ 49 * t.spacing)
    (hm : ∀ e ∈ w, (8 * k + 64) * 2 ^ (-52 : ℤ) * e.length < t.width)
    (hs : ∀ e ∈ w, 3 * t.width + (8 * k + 64) * 2 ^ (-52 : ℤ) * e.length < 2 * t.spacing) :
    ∃ dss, mapE (t.edgeDs64 len) w = .ok dss ∧ (dss.map edgeTransitions).length = w.length ∧
      (∀ ts ∈ dss.map edgeTransitions, ProperTransitions ts) ∧ TabsMeet (dss.map edgeTransitions) ∧
      List.Forall₂ (NearEdgeMarks k (edgeTabError k) t.spacing t.width t.only) w (dss.map edgeTransitions) := by
  have hfull : ∀ ds : List (ℚ × ℚ), FullEdge (edgeTransitions ds) := by
    intro ds
    refine ⟨rfl, ?_⟩
    unfold edgeTransitions
    rw [← List.cons_append, List.getLast?_append]
    rfl
  have hedge : ∀ e ∈ w, ∃ ds, t.edgeDs64 len e = .ok ds ∧ ProperTransitions (edgeTransitions ds) ∧
      NearEdgeMarks k (edgeTabError k) t.spacing t.width t.only e (edgeTransitions ds) := by
    intro e he
    by_cases ho : TabKind t.only e
    · obtain ⟨n, ds, h1, h2, h3, h4, h5, h6⟩ := edgeDs64_close ho (hpos e he) hw (hbig e he) (hcount e he) hk (hlen e he) (hm e he) (hs e he)
      exact ⟨ds, h1, ⟨h6, hfull ds, (edgeTransitions_alternates ds).1⟩, edgeMarks_close (hpos e he) ho h2 h3 h4 h5⟩
    · have ho' := ho
      unfold TabKind at ho'
      push Not at ho'
      obtain ⟨g, hg⟩ := Option.ne_none_iff_exists'.mp ho'.1
      refine ⟨[], ?_, ⟨by simp [edgeTransitions, Increasing], hfull [], trivial⟩, fun h => absurd h ho, fun _ x => ?_⟩
      · unfold EdgeTabs.edgeDs64
        rw [if_pos]
        rw [Bool.and_eq_true, decide_eq_true_eq]
        exact ⟨by rw [hg]; rfl, ho'.2⟩
      · rw [edgeTransitions_marked]
        simp
  obtain ⟨dss, hd⟩ := mapE_total (f := t.edgeDs64 len) (as := w) (fun e he => let ⟨ds, h, _⟩ := hedge e he; ⟨ds, h⟩)
  have hd2 := mapE_ok.mp hd
  have hpr : ∀ ts ∈ dss.map edgeTransitions, ProperTransitions ts := by
    intro ts hts
    obtain ⟨ds, hds, rfl⟩ := List.mem_map.mp hts
    obtain ⟨e, he, h⟩ := mapE_mem hd hds
    obtain ⟨ds', h', hp, -⟩ := hedge e he
    rw [h] at h'
    cases h'
    exact hp
  have hmeet : TabsMeet (dss.map edgeTransitions) := by
    have hno : ∀ ts ∈ dss.map edgeTransitions, ¬ StartsTab ts ∧ ¬ EndsTab ts := by
      intro ts hts
      obtain ⟨ds, -, rfl⟩ := List.mem_map.mp hts
      exact (edgeTransitions_alternates ds).2
    constructor
    · rw [List.isChain_iff_getElem]
      intro i hi
      exact iff_of_false (hno _ (List.getElem_mem _)).2 (hno _ (List.getElem_mem _)).1
    · intro a b ha hb
      exact iff_of_false (hno b (List.mem_of_getLast? hb)).2 (hno a (List.mem_of_head? ha)).1
  refine ⟨dss, hd, by rw [List.length_map]; exact hd2.length_eq.symm, hpr, hmeet, ?_⟩
  rw [List.forall₂_map_right_iff]
  refine forall₂_mem hd2 (fun e he ds h => ?_)
  obtain ⟨ds', h', -, hm'⟩ := hedge e he
  rw [h] at h'
  cases h'
  exact hm'

/-- C133 (what is missing: a spacing of at most one and a half widths, and numbers of tabs at lengths that are multiples of the spacing up to
rounding).  Tabs along the edges of a flat pass whose positions are computed in floating point, with lengths of edges that are right up to
`k` units of rounding: the pass becomes a connected wire that follows the pass at its height outside the tabs, and at the top of the tabs
inside them; every edge of the selected kind has as many tabs as the spacing fits into its length, evenly spaced and of the given width,
up to the error of rounding. -/
theorem C133_edge_tabs_partial {cad : Cad} (hA : Assembles cad) {ze tabZ : ℚ} (hz : ze < tabZ) {w : List Edge}
    (hne : w ≠ []) (hbox : cad.zmin w < tabZ) (hflat : ∀ e ∈ w, FlatEdge ze e) (hpos : ∀ e ∈ w, 0 < e.length) (hch : Chained w)
    {t : EdgeTabs} {k : ℕ} (hk : (k : ℚ) ≤ 2 ^ 49) (hw : 2 ^ (-200 : ℤ) ≤ t.width) {len : Edge → ℚ}
    (hlen : ∀ e ∈ w, NearLength k e.length (len e)) (hbig : ∀ e ∈ w, e.length ≤ 2 ^ (200 : ℤ))
    (hcount : ∀ e ∈ w, e.length ≤ 2 ^ 49 * t.spacing)
    (hm : ∀ e ∈ w, (8 * k + 64) * 2 ^ (-52 : ℤ) * e.length < t.width)
    (hs : ∀ e ∈ w, 3 * t.width + (8 * k + 64) * 2 ^ (-52 : ℤ) * e.length < 2 * t.spacing) :
    ∃ tss w', applyEdgeTabs64 cad len tabZ t w = .ok w' ∧ TabbedWire tabZ w tss w' ∧ Chained w' ∧ (Closes w → Closes w') ∧
      w'.Pairwise (fun a b => a.id ≠ b.id) ∧
      List.Forall₂ (NearEdgeMarks k (edgeTabError k) t.spacing t.width t.only) w tss ∧ ∀ ts ∈ tss, FullEdge ts := by
  obtain ⟨dss, hd, h1, h2, h3, h4⟩ := edgeTransitions64_fit hpos hk hw hlen hbig hcount hm hs
  obtain ⟨new, w', g1, g2, g3, g4, g5, g6⟩ := tabEdges_assembled hA hz hne hflat hch h1 h2 h3
  refine ⟨_, w', ?_, g3, g4, g5, g6, h4, fun ts hts => (h2 ts hts).full⟩
  unfold applyEdgeTabs64
  rw [if_neg (not_le.mpr hbox), hd, ok_bind, g1, ok_bind, g2]

/-- The transitions in millimetres. -/
theorem edgeTransitions64_millimetres {w : List Edge} (hpos : ∀ e ∈ w, 0 < e.length) {t : EdgeTabs} (hw : 1 / 10 ^ 5 ≤ t.width)
    (hs : 3 * t.width + 1 / 10 ^ 5 ≤ 2 * t.spacing) {len : Edge → ℚ} (hlen : ∀ e ∈ w, NearLength 1000 e.length (len e))
    (hbig : ∀ e ∈ w, e.length ≤ 10 ^ 5) :
    ∃ dss, mapE (t.edgeDs64 len) w = .ok dss ∧ (dss.map edgeTransitions).length = w.length ∧
      (∀ ts ∈ dss.map edgeTransitions, ProperTransitions ts) ∧ TabsMeet (dss.map edgeTransitions) ∧
      List.Forall₂ (NearEdgeMarks 1000 (3 / 10 ^ 13) t.spacing t.width t.only) w (dss.map edgeTransitions) := by
  have h52 : (2 : ℚ) ^ (-52 : ℤ) = 1 / 4503599627370496 := by norm_num
  have hsmall : ∀ e ∈ w, (8 * ((1000 : ℕ) : ℚ) + 64) * 2 ^ (-52 : ℤ) * e.length < 1 / 10 ^ 5 := by
    intro e he
    have := hbig e he
    rw [h52]
    norm_num at this ⊢
    linarith
  have hw5 : (0 : ℚ) < 1 / 10 ^ 5 := by norm_num
  obtain ⟨dss, h1, h2, h3, h4, h6⟩ := edgeTransitions64_fit hpos (t := t) (k := 1000) (by norm_num)
    (le_trans (by norm_num) hw) hlen (fun e he => (hbig e he).trans (by norm_num))
    (fun e he => by
      have := hbig e he
      norm_num at this hw hs ⊢
      linarith)
    (fun e he => lt_of_lt_of_le (hsmall e he) hw) (fun e he => lt_of_lt_of_le (add_lt_add_of_le_of_lt le_rfl (hsmall e he)) hs)
  refine ⟨dss, h1, h2, h3, h4, ?_⟩
  refine forall₂_mem h6 (fun e he ts h => ⟨fun hsel => ?_, h.2⟩)
  obtain ⟨n, g1, g2, g3⟩ := h.1 hsel
  refine ⟨n, g1, g2, fun x hx => g3 x (fun i hi => ?_)⟩
  have hE : edgeTabError 1000 * e.length ≤ 3 / 10 ^ 13 * e.length := by
    apply mul_le_mul_of_nonneg_right _ (hpos e he).le
    unfold edgeTabError
    rw [h52]
    norm_num
  exact ⟨lt_of_le_of_lt hE (hx i hi).1, lt_of_le_of_lt hE (hx i hi).2⟩

/-- C133 in millimetres: edges of at most 100 m whose length is known up to 1000 units of rounding, and tabs wider than 10 nm that are
spaced by more than one and a half widths and 10 nm: their ends are right up to a part of `3 / 10^13` of the length of the edge. -/
theorem C133_millimetres_partial {cad : Cad} (hA : Assembles cad) {ze tabZ : ℚ} (hz : ze < tabZ) {w : List Edge}
    (hne : w ≠ []) (hbox : cad.zmin w < tabZ) (hflat : ∀ e ∈ w, FlatEdge ze e) (hpos : ∀ e ∈ w, 0 < e.length) (hch : Chained w)
    {t : EdgeTabs} (hw : 1 / 10 ^ 5 ≤ t.width) (hs : 3 * t.width + 1 / 10 ^ 5 ≤ 2 * t.spacing) {len : Edge → ℚ}
    (hlen : ∀ e ∈ w, NearLength 1000 e.length (len e)) (hbig : ∀ e ∈ w, e.length ≤ 10 ^ 5) :
    ∃ tss w', applyEdgeTabs64 cad len tabZ t w = .ok w' ∧ TabbedWire tabZ w tss w' ∧ Chained w' ∧ (Closes w → Closes w') ∧
      w'.Pairwise (fun a b => a.id ≠ b.id) ∧
      List.Forall₂ (NearEdgeMarks 1000 (3 / 10 ^ 13) t.spacing t.width t.only) w tss ∧ ∀ ts ∈ tss, FullEdge ts := by
  obtain ⟨dss, hd, h1, h2, h3, h4⟩ := edgeTransitions64_millimetres hpos hw hs hlen hbig
  obtain ⟨new, w', g1, g2, g3, g4, g5, g6⟩ := tabEdges_assembled hA hz hne hflat hch h1 h2 h3
  refine ⟨_, w', ?_, g3, g4, g5, g6, h4, fun ts hts => (h2 ts hts).full⟩
  unfold applyEdgeTabs64
  rw [if_neg (not_le.mpr hbox), hd, ok_bind, g1, ok_bind, g2]

/-- A plate of 8 by 8 mm. -/
def eightPlate : List Edge :=
  outline [(1, ⟨0, 0⟩, ⟨8, 0⟩, 8), (2, ⟨8, 0⟩, ⟨8, 8⟩, 8), (3, ⟨8, 8⟩, ⟨0, 8⟩, 8), (4, ⟨0, 8⟩, ⟨0, 0⟩, 8)]

theorem eightPlate_flat : ∀ e ∈ eightPlate, FlatEdge (-1) e := by
  intro e he
  simp only [eightPlate, outline, List.map_cons, List.map_nil, List.mem_cons, List.not_mem_nil, or_false] at he
  rcases he with rfl | rfl | rfl | rfl <;> exact lineEdge_flat (by norm_num)

/-- The hypotheses of C133 hold for a plate of 8 by 8 mm with a spacing of 1.6 mm and tabs of 1 mm. -/
example : Assembles strictCad ∧ strictCad.zmin eightPlate = -1 ∧ (∀ e ∈ eightPlate, FlatEdge (-1) e ∧ 0 < e.length ∧ e.length ≤ 10 ^ 5) ∧
    Chained eightPlate ∧ EdgeTabs.new (b64 (16 / 10)) 1 1 = .ok ⟨b64 (16 / 10), 1, 1, none⟩ ∧ 3 * (1 : ℚ) + 1 / 10 ^ 5 ≤ 2 * b64 (16 / 10) ∧
    (∀ e ∈ eightPlate, NearLength 1000 e.length e.length) ∧
    ∃ w', applyEdgeTabs64 strictCad Edge.length (-1 / 2) ⟨b64 (16 / 10), 1, 1, none⟩ eightPlate = .ok w' ∧ w'.length = 68 := by
  have hl : ∀ e ∈ eightPlate, 0 < e.length ∧ e.length ≤ 10 ^ 5 := by decide +kernel
  refine ⟨strictCad_assembles, by decide +kernel, fun e he => ⟨eightPlate_flat e he, hl e he⟩, by decide +kernel, ?_, by decide +kernel, ?_, ?_⟩
  · unfold EdgeTabs.new
    rw [if_neg (by decide +kernel)]
  · intro e he
    unfold NearLength
    rw [sub_self, abs_zero]
    have := (hl e he).1
    have := two_zpow_pos (-52)
    positivity
  · have hm : (match applyEdgeTabs64 strictCad Edge.length (-1 / 2) ⟨b64 (16 / 10), 1, 1, none⟩ eightPlate with
        | .ok w' => decide (w'.length = 68) | .error _ => false) = true := by decide +kernel
    cases h : applyEdgeTabs64 strictCad Edge.length (-1 / 2) ⟨b64 (16 / 10), 1, 1, none⟩ eightPlate with
    | error e => rw [h] at hm; cases hm
    | ok w' =>
      rw [h] at hm
      exact ⟨w', rfl, by simpa using hm⟩

/-- C133 does not hold in full.  An edge of 8 mm with a spacing of 1.6 mm, of which there are five in 8 mm, gets four tabs: the double for 1.6 is
larger than 1.6.  And with a spacing of 1.1 mm and a width of 1 mm – accepted by the constructor – the two tabs of an edge of 2.2 mm
overlap. -/
theorem C133_violated :
    (∀ e : Edge, e.length = 8 → 5 * (16 / 10 : ℚ) = e.length ∧
      ∃ ds, EdgeTabs.edgeDs64 ⟨b64 (16 / 10), 1, 1, none⟩ Edge.length e = .ok ds ∧ ds.length = 4) ∧
    (∀ e : Edge, e.length = b64 (22 / 10) → ∃ t d1 d2, EdgeTabs.new (b64 (11 / 10)) 1 1 = .ok t ∧
      t.edgeDs64 Edge.length e = .ok [d1, d2] ∧ d2.1 < d1.2 ∧ ¬ Increasing (edgeTransitions [d1, d2])) := by
  constructor
  · intro e he
    have hf : floorDiv64 8 (b64 (16 / 10)) = 4 := by decide +kernel
    have hs : b64 (16 / 10) ≠ 0 := by decide +kernel
    have hds : ∃ ds, EdgeTabs.edgeDs64 ⟨b64 (16 / 10), 1, 1, none⟩ Edge.length e = .ok ds ∧ ds.length = 4 := by
      simp only [EdgeTabs.edgeDs64, Option.isSome_none, Bool.false_and, Bool.false_eq_true, if_false, hs, he, hf]
      rw [if_neg (by norm_num)]
      exact ⟨_, rfl, by simp⟩
    exact ⟨by rw [he]; norm_num, hds⟩
  · intro e he
    have hf : floorDiv64 (b64 (22 / 10)) (b64 (11 / 10)) = 2 := by decide +kernel
    have hs : b64 (11 / 10) ≠ 0 := by decide +kernel
    let h := b64 (b64 (1 / b64 (22 / 10)) * b64 (1 / 2))
    let c1 := b64 (((0 + 1 : ℕ) : ℚ) * b64 (1 / ((2 + 1 : ℕ) : ℚ)))
    let c2 := b64 (((1 + 1 : ℕ) : ℚ) * b64 (1 / ((2 + 1 : ℕ) : ℚ)))
    have hlt : b64 (c2 - h) < b64 (c1 + h) := by decide +kernel
    refine ⟨⟨b64 (11 / 10), 1, 1, none⟩, (b64 (c1 - h), b64 (c1 + h)), (b64 (c2 - h), b64 (c2 + h)), ?_, ?_, hlt, ?_⟩
    · unfold EdgeTabs.new
      rw [if_neg (by decide +kernel)]
    · simp only [EdgeTabs.edgeDs64, Option.isSome_none, Bool.false_and, Bool.false_eq_true, if_false, hs, he, hf]
      rw [if_neg (by norm_num)]
      rfl
    · rw [edgeTransitions_pairwise]
      rintro ⟨-, -, h⟩
      have := (List.pairwise_cons.mp h).1 _ (List.mem_singleton.mpr rfl)
      exact absurd this.1 (not_lt.mpr hlt.le)

end CQ
