import Verif.Model.Tabs64
import Verif.Spec.Tabs64
import Verif.Props.TabTotal
import Verif.Props.Binary64
import Verif.Proofs.Repr

/-!
# C131: tabs around a wire in floating point
-/

namespace CQ

/-- Ends of a range up to `ε`. -/
def CloseRange (ε : ℚ) (d d' : ℚ × ℚ) : Prop := |d'.1 - d.1| ≤ ε ∧ |d'.2 - d.2| ≤ ε

/-- The same kind of transition, at the same end of the edge or up to `c` of the wire at the same place of it (`f` is the part
of the wire that the edge is). -/
def CloseTr (f c : ℚ) (p q : ℚ × Transition) : Prop :=
  p.2 = q.2 ∧ |q.1 - p.1| * f ≤ c ∧ (p.1 = 0 ↔ q.1 = 0) ∧ (p.1 = 1 ↔ q.1 = 1)

/-- The value is more than `g` away from both ends of the range. -/
def OffEnds (g : ℚ) (r : ℚ × ℚ) (v : ℚ) : Prop := g < |v - r.1| ∧ g < |v - r.2|

theorem wireDToEdgeD_close {ε g v v' : ℚ} {r r' : ℚ × ℚ} (hμ : 2 ^ (-52 : ℤ) ≤ ε) (hr : CloseRange ε r r')
    (hr0 : 0 ≤ r.1) (hr1 : r.2 ≤ 1) (hv : |v' - v| ≤ ε) (hg : 48 * ε ≤ g) (h1 : r.1 + g < v) (h2 : v + g < r.2) :
    CloseTr (r.2 - r.1) (24 * ε) (wireDToEdgeD v r, k) (wireDToEdgeD64 v' r', k) := by
  obtain ⟨r1, r2⟩ := r
  obtain ⟨s1, s2⟩ := r'
  obtain ⟨ha, hb⟩ := hr
  simp only at *
  have hμ0 : (0 : ℚ) < 2 ^ (-52 : ℤ) := two_zpow_pos _
  have hε : 0 < ε := lt_of_lt_of_le hμ0 hμ
  have hsmall : 96 * ε < 1 := by linarith
  rw [abs_le] at ha hb hv
  have e1 := b64_err_mu (x := v' - s1) (X := 2) (by rw [abs_le]; constructor <;> linarith) (by norm_num)
  have e2 := b64_err_mu (x := s2 - s1) (X := 2) (by rw [abs_le]; constructor <;> linarith) (by norm_num)
  have hcl : ∀ q : ℚ, 0 ≤ q → q ≤ 1 → min (max q 0) 1 = q := by
    intro q hq0 hq1; rw [max_eq_left hq0, min_eq_left hq1]
  have hf : 0 < r2 - r1 := by linarith
  have hp0 : 0 < (v - r1) / (r2 - r1) := div_pos (by linarith) hf
  have hp1 : (v - r1) / (r2 - r1) < 1 := by rw [div_lt_one hf]; linarith
  unfold wireDToEdgeD64 wireDToEdgeD
  simp only
  rw [hcl _ hp0.le hp1.le]
  have hN : |b64 (v' - s1) - (v - r1)| ≤ 4 * ε := by
    rw [abs_le] at e1 ⊢; constructor <;> linarith
  have hF : |b64 (s2 - s1) - (r2 - r1)| ≤ 4 * ε := by
    rw [abs_le] at e2 ⊢; constructor <;> linarith
  generalize b64 (v' - s1) = N at *
  generalize b64 (s2 - s1) = F at *
  rw [abs_le] at hN hF
  have hF0 : (r2 - r1) ≤ 2 * F := by linarith
  have hFpos : 0 < F := by linarith
  have hNpos : 0 < N := by linarith
  have hNF : N < F := by linarith
  have hq01 : |N / F| ≤ 1 := by
    rw [abs_of_pos (div_pos hNpos hFpos), div_le_one hFpos]; exact hNF.le
  have e3 := b64_err_mu hq01 le_rfl
  have hkey : |N / F - (v - r1) / (r2 - r1)| * (r2 - r1) ≤ 16 * ε := by
    have : (N / F - (v - r1) / (r2 - r1)) * (r2 - r1) = ((N - (v - r1)) * (r2 - r1) - (v - r1) * (F - (r2 - r1))) / F := by
      field_simp; ring
    rw [← abs_of_pos hf, ← abs_mul, abs_of_pos hf, this, abs_div, abs_of_pos hFpos, div_le_iff₀ hFpos, abs_le]
    have hvr : 0 ≤ v - r1 := by linarith
    have hvr' : v - r1 ≤ r2 - r1 := by linarith
    have p1 : (N - (v - r1)) * (r2 - r1) ≤ 4 * ε * (r2 - r1) := mul_le_mul_of_nonneg_right hN.2 hf.le
    have p2 : -(4 * ε) * (r2 - r1) ≤ (N - (v - r1)) * (r2 - r1) := mul_le_mul_of_nonneg_right hN.1 hf.le
    have p3 : (v - r1) * (F - (r2 - r1)) ≤ (v - r1) * (4 * ε) := mul_le_mul_of_nonneg_left hF.2 hvr
    have p4 : (v - r1) * (-(4 * ε)) ≤ (v - r1) * (F - (r2 - r1)) := mul_le_mul_of_nonneg_left hF.1 hvr
    have p5 : (v - r1) * (4 * ε) ≤ (r2 - r1) * (4 * ε) := mul_le_mul_of_nonneg_right hvr' (by linarith)
    have p6 : (r2 - r1) * (8 * ε) ≤ 2 * F * (8 * ε) := mul_le_mul_of_nonneg_right hF0 (by linarith)
    constructor <;> linarith
  generalize N / F = Q at *
  generalize b64 Q = q at *
  have hqp : |q - (v - r1) / (r2 - r1)| * (r2 - r1) ≤ 24 * ε := by
    have t1 : |q - (v - r1) / (r2 - r1)| ≤ |q - Q| + |Q - (v - r1) / (r2 - r1)| := abs_sub_le _ _ _
    have t2 : |q - Q| * (r2 - r1) ≤ 1 * ε := by
      have : |q - Q| ≤ ε := by linarith
      have hf1 : r2 - r1 ≤ 1 := by linarith
      calc |q - Q| * (r2 - r1) ≤ ε * 1 := by
            apply mul_le_mul this hf1 hf.le hε.le
        _ = 1 * ε := by ring
    have t3 := mul_le_mul_of_nonneg_right t1 hf.le
    linarith [add_mul |q - Q| |Q - (v - r1) / (r2 - r1)| (r2 - r1)]
  have hq' : |q * (r2 - r1) - (v - r1)| ≤ 24 * ε := by
    have : q * (r2 - r1) - (v - r1) = (q - (v - r1) / (r2 - r1)) * (r2 - r1) := by field_simp
    rw [this, abs_mul, abs_of_pos hf]; exact hqp
  rw [abs_le] at hq'
  have hq0 : 0 < q := by
    by_contra h
    have : q * (r2 - r1) ≤ 0 := mul_nonpos_of_nonpos_of_nonneg (not_lt.mp h) hf.le
    linarith
  have hq1 : q < 1 := by
    by_contra h
    have : 1 * (r2 - r1) ≤ q * (r2 - r1) := mul_le_mul_of_nonneg_right (not_lt.mp h) hf.le
    linarith
  rw [hcl _ hq0.le hq1.le]
  exact ⟨rfl, hqp, ⟨fun h => absurd h hp0.ne', fun h => absurd h hq0.ne'⟩, ⟨fun h => absurd h hp1.ne, fun h => absurd h hq1.ne⟩⟩

theorem closeTr_end {f c : ℚ} (hc : 0 ≤ c) {p : ℚ × Transition} : CloseTr f c p p := by
  refine ⟨rfl, by simpa using hc, Iff.rfl, Iff.rfl⟩

theorem tabTransitions_close {ε g : ℚ} {r r' d d' : ℚ × ℚ} (hμ : 2 ^ (-52 : ℤ) ≤ ε) (hr : CloseRange ε r r')
    (hr0 : 0 ≤ r.1) (hr1 : r.2 ≤ 1) (hd : CloseRange ε d d') (hg : 48 * ε ≤ g) (h1 : OffEnds g r d.1) (h2 : OffEnds g r d.2) :
    List.Forall₂ (CloseTr (r.2 - r.1) (24 * ε)) (tabTransitions r d) (tabTransitions64 r' d') := by
  have hε : 0 < ε := lt_of_lt_of_le (two_zpow_pos _) hμ
  have dec : ∀ x x' y y', |x' - x| ≤ ε → |y' - y| ≤ ε → g < |x - y| → ((x ≤ y ↔ x' ≤ y') ∧ (x < y ↔ x' < y') ∧ (y < x ↔ y' < x')) := by
    intro x x' y y' hx hy h
    rw [abs_le] at hx hy
    rcases lt_abs.mp h with h | h
    · exact ⟨⟨fun _ => by linarith, fun _ => by linarith⟩, ⟨fun _ => by linarith, fun _ => by linarith⟩,
        ⟨fun _ => by linarith, fun _ => by linarith⟩⟩
    · exact ⟨⟨fun _ => by linarith, fun _ => by linarith⟩, ⟨fun _ => by linarith, fun _ => by linarith⟩,
        ⟨fun _ => by linarith, fun _ => by linarith⟩⟩
  have c1 := dec d.1 d'.1 r.1 r'.1 hd.1 hr.1 h1.1
  have c2 := dec d.1 d'.1 r.2 r'.2 hd.1 hr.2 h1.2
  have c3 := dec d.2 d'.2 r.1 r'.1 hd.2 hr.1 h2.1
  have c4 := dec d.2 d'.2 r.2 r'.2 hd.2 hr.2 h2.2
  have inside : ∀ v, OffEnds g r v → r.1 < v ∧ v ≤ r.2 → r.1 + g < v ∧ v + g < r.2 := by
    intro v hv h
    constructor
    · rcases lt_abs.mp hv.1 with h' | h' <;> linarith [h.1]
    · rcases lt_abs.mp hv.2 with h' | h' <;> linarith [h.2]
  unfold tabTransitions tabTransitions64
  refine List.rel_append (List.rel_append ?_ ?_) ?_
  · simp only [← c1.1, ← c3.2.2]
    split
    · exact .cons (closeTr_end (by linarith)) .nil
    · exact .nil
  · simp only [← c1.2.2, ← c2.1]
    split
    · rename_i h
      obtain ⟨i1, i2⟩ := inside _ h1 h
      exact .cons (wireDToEdgeD_close hμ hr hr0 hr1 hd.1 hg i1 i2) .nil
    · exact .nil
  · simp only [← c3.2.2, ← c4.1]
    split
    · rename_i h
      obtain ⟨i1, i2⟩ := inside _ h2 h
      exact .cons (wireDToEdgeD_close hμ hr hr0 hr1 hd.2 hg i1 i2) .nil
    · exact .nil

theorem pad_close {f c : ℚ} (hc : 0 ≤ c) {ts ts' : List (ℚ × Transition)} (h : List.Forall₂ (CloseTr f c) ts ts') :
    List.Forall₂ (CloseTr f c) (padBack (padFront ts)) (padBack (padFront ts')) := by
  have hfront : List.Forall₂ (CloseTr f c) (padFront ts) (padFront ts') := by
    unfold padFront
    cases h with
    | nil => simpa using closeTr_end hc
    | @cons a b _ _ hab ht =>
      by_cases h0 : a.1 = 0
      · simp only [List.head?_cons, Option.map_some, h0, hab.2.2.1.mp h0, if_true]; exact .cons hab ht
      · have h0' : b.1 ≠ 0 := fun h => h0 (hab.2.2.1.mpr h)
        simp only [List.head?_cons, Option.map_some, Option.some.injEq, h0, h0', if_false]
        exact .cons (closeTr_end hc) (.cons hab ht)
  generalize padFront ts = us at hfront
  generalize padFront ts' = us' at hfront
  unfold padBack
  have hlast : (us.getLast?.map Prod.fst = some 1 ↔ us'.getLast?.map Prod.fst = some 1) := by
    induction hfront with
    | nil => simp
    | @cons a b l l' hab ht ih =>
      cases ht with
      | nil => simpa using hab.2.2.2
      | cons _ _ => rw [List.getLast?_cons_cons, List.getLast?_cons_cons]; exact ih
  by_cases hl : us.getLast?.map Prod.fst = some 1
  · rw [if_pos hl, if_pos (hlast.mp hl)]; exact hfront
  · rw [if_neg hl, if_neg (fun h => hl (hlast.mpr h))]
    exact List.rel_append hfront (.cons (closeTr_end hc) .nil)

theorem wireTransitions_close {ε g : ℚ} {r r' : ℚ × ℚ} (hμ : 2 ^ (-52 : ℤ) ≤ ε) (hr : CloseRange ε r r')
    (hr0 : 0 ≤ r.1) (hr1 : r.2 ≤ 1) (hg : 48 * ε ≤ g) {ds ds' : List (ℚ × ℚ)} (hd : List.Forall₂ (CloseRange ε) ds ds')
    (hoff : ∀ d ∈ ds, OffEnds g r d.1 ∧ OffEnds g r d.2) :
    List.Forall₂ (CloseTr (r.2 - r.1) (24 * ε)) (wireTransitions r ds) (wireTransitions64 r' ds') := by
  have hε : 0 < ε := lt_of_lt_of_le (two_zpow_pos _) hμ
  unfold wireTransitions wireTransitions64
  apply pad_close (by linarith)
  induction hd with
  | nil => exact .nil
  | cons hab _ ih =>
    rw [List.flatMap_cons, List.flatMap_cons]
    exact List.rel_append (tabTransitions_close hμ hr hr0 hr1 hab hg (hoff _ (by simp)).1 (hoff _ (by simp)).2)
      (ih (fun d hd => hoff d (by simp [hd])))

/-! ### Errors of the ranges -/

theorem edgeRanges_close {k : ℕ} {L total : ℚ} (hL : 0 < L) (ht : NearLength k L total) (hk : k * (2 : ℚ) ^ (-52 : ℤ) ≤ 1 / 2)
    (ls : List ℚ) : ∀ (prev prev' E : ℚ), (∀ l ∈ ls, 0 ≤ l) → 0 ≤ prev → prev + ls.sum / L ≤ 1 → |prev' - prev| ≤ E → E + 2 * k * 2 ^ (-52 : ℤ) * (ls.sum / L) + 4 * ls.length * 2 ^ (-52 : ℤ) ≤ 1 →
      List.Forall₂ (CloseRange (E + 2 * k * 2 ^ (-52 : ℤ) * (ls.sum / L) + 4 * ls.length * 2 ^ (-52 : ℤ)))
        (edgeRangesFrom L prev ls) (edgeRangesFrom64 total prev' ls) := by
  have hμ0 : (0 : ℚ) < 2 ^ (-52 : ℤ) := two_zpow_pos _
  have herr : ∀ {x X : ℚ}, |x| ≤ X → 1 ≤ X → |b64 x - x| ≤ 2 ^ (-52 : ℤ) * X := b64_err_mu
  unfold NearLength at ht
  generalize (2 : ℚ) ^ (-52 : ℤ) = μ at *
  induction ls with
  | nil => intro _ _ _ _ _ _ _ _; exact .nil
  | cons l ls ih =>
    intro prev prev' E hls h0 h1 hp hE
    have hl : 0 ≤ l := hls l (by simp)
    have hls' : ∀ l ∈ ls, 0 ≤ l := fun x hx => hls x (by simp [hx])
    have hs0 : 0 ≤ ls.sum / L := div_nonneg (List.sum_nonneg hls') hL.le
    have hE0 : 0 ≤ E := le_trans (abs_nonneg _) hp
    have hk0 : (0 : ℚ) ≤ k := Nat.cast_nonneg k
    have hm0 : (0 : ℚ) ≤ ls.length := Nat.cast_nonneg _
    have hlL : 0 ≤ l / L := div_nonneg hl hL.le
    rw [List.sum_cons, add_div] at h1 hE ⊢
    rw [List.length_cons, Nat.cast_succ] at hE ⊢
    unfold edgeRangesFrom edgeRangesFrom64
    have htp : L / 2 ≤ total := by
      have := (abs_le.mp ht).1
      have : k * μ * L ≤ 1 / 2 * L := mul_le_mul_of_nonneg_right hk hL.le
      linarith
    have htp0 : 0 < total := by linarith
    have hq : |l / total - l / L| ≤ l / L * (2 * (k * μ)) := by
      have e : l / total - l / L = l / L * ((L - total) / total) := by field_simp
      rw [e, abs_mul, abs_of_nonneg hlL, abs_div, abs_of_pos htp0, abs_sub_comm]
      apply mul_le_mul_of_nonneg_left _ hlL
      rw [div_le_iff₀ htp0]
      have : 2 * (k * μ) * (L / 2) ≤ 2 * (k * μ) * total :=
        mul_le_mul_of_nonneg_left htp (by positivity)
      linarith
    have hl1 : l / L ≤ 1 := by linarith
    have e1 := herr (x := l / total) (X := 2) (by
      rw [abs_le] at hq ⊢
      have : l / L * (2 * (k * μ)) ≤ 1 * 1 := mul_le_mul hl1 (by linarith) (by positivity) (by norm_num)
      constructor <;> linarith) (by norm_num)
    have hstep : |b64 (l / total) - l / L| ≤ l / L * (2 * (k * μ)) + 2 * μ := by
      have := abs_sub_le (b64 (l / total)) (l / total) (l / L)
      linarith
    generalize b64 (l / total) = q at *
    have hkl : l / L * (2 * (k * μ)) ≤ 1 * (2 * (k * μ)) :=
      mul_le_mul_of_nonneg_right hl1 (by positivity)
    have hsum : |prev' + q - (prev + l / L)| ≤ E + (l / L * (2 * (k * μ)) + 2 * μ) := by
      rw [abs_le] at *
      constructor <;> linarith [hp.1, hp.2, hstep.1, hstep.2]
    have hm : (0 : ℚ) ≤ ls.length * μ := by positivity
    have e2 := herr (x := prev' + q) (X := 2) (by
      have hks : 0 ≤ k * μ * (ls.sum / L) := by positivity
      rw [abs_le] at hsum ⊢
      constructor <;> linarith [hsum.1, hsum.2]) (by norm_num)
    have hnext : |b64 (prev' + q) - (prev + l / L)| ≤ E + l / L * (2 * (k * μ)) + 4 * μ := by
      have := abs_sub_le (b64 (prev' + q)) (prev' + q) (prev + l / L)
      linarith
    generalize b64 (prev' + q) = nx at *
    have hks : 0 ≤ k * μ * (ls.sum / L) := by positivity
    refine .cons ⟨?_, ?_⟩ ?_
    · simp only
      have : 0 ≤ l / L * (2 * (k * μ)) := by positivity
      linarith
    · simp only
      have := abs_min_sub_min_le_max nx 1 (prev + l / L) 1
      rw [sub_self, abs_zero, max_eq_left (abs_nonneg _)] at this
      linarith
    · have := ih (prev + l / L) nx (E + l / L * (2 * (k * μ)) + 4 * μ) hls' (by linarith) (by linarith)
        hnext (by linarith)
      refine this.imp ?_
      rintro a b ⟨h1, h2⟩
      exact ⟨by linarith, by linarith⟩

theorem halfD_close {k : ℕ} {L W w : ℚ} (hL : 0 < L) (hW : NearLength k L W) (hk : k * (2 : ℚ) ^ (-52 : ℤ) ≤ 1 / 2)
    (hw : 2 ^ (-200 : ℤ) ≤ w) (hwL : w ≤ L) (hbig : L ≤ 2 ^ (200 : ℤ)) :
    |b64 (b64 (1 / W) * b64 (w / 2)) - 1 / L * (w / 2)| ≤ (k + 4) * 2 ^ (-52 : ℤ) := by
  have hμ0 : (0 : ℚ) < 2 ^ (-52 : ℤ) := two_zpow_pos _
  have hw0 : 0 < w := lt_of_lt_of_le (two_zpow_pos _) hw
  unfold NearLength at hW
  have hu : (2 : ℚ) ^ (-53 : ℤ) = 2 ^ (-52 : ℤ) / 2 := by norm_num
  have hμ1 : (2 : ℚ) ^ (-52 : ℤ) ≤ 1 / 4 := by norm_num
  have herr : ∀ {x X : ℚ}, |x| ≤ X → 1 ≤ X → |b64 x - x| ≤ 2 ^ (-52 : ℤ) * X := b64_err_mu
  have hrel : ∀ {x : ℚ}, 2 ^ (-1022 : ℤ) ≤ |x| → |b64 x - x| ≤ 2 ^ (-52 : ℤ) / 2 * |x| := by
    intro x hx; rw [← hu]; exact b64_err_rel hx
  clear hu
  generalize (2 : ℚ) ^ (-52 : ℤ) = μ at *
  rw [abs_le] at hW
  have hkL : k * μ * L ≤ 1 / 2 * L := mul_le_mul_of_nonneg_right hk hL.le
  have hW1 : L / 2 ≤ W := by linarith [hW.1]
  have hW2 : W ≤ 2 * L := by linarith [hW.2]
  have hW0 : 0 < W := by linarith
  have hinv : (2 : ℚ) ^ (-1022 : ℤ) ≤ |1 / W| := by
    rw [abs_of_pos (by positivity), le_div_iff₀ hW0]
    have hW3 : W ≤ 2 ^ (201 : ℤ) := by
      have : (2 : ℚ) ^ (201 : ℤ) = 2 * 2 ^ (200 : ℤ) := by norm_num
      rw [this]; linarith
    calc (2 : ℚ) ^ (-1022 : ℤ) * W ≤ 2 ^ (-1022 : ℤ) * 2 ^ (201 : ℤ) := mul_le_mul_of_nonneg_left hW3 (two_zpow_pos _).le
      _ = 2 ^ (-821 : ℤ) := by rw [← zpow_add₀ (by norm_num)]; rfl
      _ ≤ 2 ^ (0 : ℤ) := zpow_le_zpow_right₀ (by norm_num) (by norm_num)
      _ = 1 := zpow_zero _
  have e1 := hrel hinv
  have hhalf : (2 : ℚ) ^ (-1022 : ℤ) ≤ |w / 2| := by
    rw [abs_of_pos (by positivity)]
    have h1 : (2 : ℚ) ^ (-1022 : ℤ) ≤ 2 ^ (-201 : ℤ) := zpow_le_zpow_right₀ (by norm_num) (by norm_num)
    have h2 : (2 : ℚ) ^ (-201 : ℤ) = 2 ^ (-200 : ℤ) / 2 := by norm_num
    rw [h2] at h1
    exact h1.trans (by gcongr)
  have e2 := hrel hhalf
  have hi0 : 0 < 1 / W := by positivity
  rw [abs_of_pos hi0] at e1
  rw [abs_of_pos (by positivity : 0 < w / 2)] at e2
  -- relative deviations
  obtain ⟨x, hx, hx'⟩ : ∃ x, b64 (1 / W) = 1 / W * (1 + x) ∧ |x| ≤ μ / 2 := by
    refine ⟨(b64 (1 / W) - 1 / W) / (1 / W), by field_simp; ring, ?_⟩
    rw [abs_div, abs_of_pos hi0, div_le_iff₀ hi0]; exact e1
  obtain ⟨y, hy, hy'⟩ : ∃ y, b64 (w / 2) = w / 2 * (1 + y) ∧ |y| ≤ μ / 2 := by
    refine ⟨(b64 (w / 2) - w / 2) / (w / 2), by field_simp; ring, ?_⟩
    rw [abs_div, abs_of_pos (by positivity : 0 < w / 2), div_le_iff₀ (by positivity)]; exact e2
  rw [hx, hy]
  have hh : 1 / W * (w / 2) ≤ 1 := by
    rw [one_div, inv_mul_le_iff₀ hW0]; linarith
  have hh0 : 0 < 1 / W * (w / 2) := by positivity
  have hd : |1 / W * (w / 2) - 1 / L * (w / 2)| ≤ k * μ := by
    have e : 1 / W * (w / 2) - 1 / L * (w / 2) = w / L * ((L - W) / (2 * W)) := by field_simp
    rw [e, abs_mul, abs_of_pos (by positivity : 0 < w / L), abs_div, abs_of_pos (by linarith : 0 < 2 * W)]
    have h1 : w / L ≤ 1 := by rw [div_le_one hL]; exact hwL
    have h2 : |L - W| / (2 * W) ≤ k * μ := by
      rw [div_le_iff₀ (by linarith)]
      have : k * μ * L ≤ k * μ * (2 * W) :=
        mul_le_mul_of_nonneg_left (by linarith) (by positivity)
      rw [abs_le]; constructor <;> linarith [hW.1, hW.2]
    calc w / L * (|L - W| / (2 * W)) ≤ 1 * (k * μ) := mul_le_mul h1 h2 (by positivity) (by norm_num)
      _ = _ := by ring
  have hP : 1 / W * (1 + x) * (w / 2 * (1 + y)) = 1 / W * (w / 2) * (1 + (x + y + x * y)) := by ring
  rw [hP]
  generalize 1 / W * (w / 2) = h at *
  generalize 1 / L * (w / 2) = h' at *
  have hxy : |x * y| ≤ μ / 2 := by
    rw [abs_mul]
    calc |x| * |y| ≤ μ / 2 * 1 := mul_le_mul hx' (by linarith) (abs_nonneg _) (by linarith)
      _ = _ := by ring
  rw [abs_le] at hxy hx' hy' hd
  have hz : |x + y + x * y| ≤ 3 / 2 * μ := by rw [abs_le]; constructor <;> linarith
  have hhz : |h * (x + y + x * y)| ≤ 3 / 2 * μ := by
    rw [abs_mul, abs_of_pos hh0]
    calc h * |x + y + x * y| ≤ 1 * (3 / 2 * μ) := mul_le_mul hh hz (abs_nonneg _) (by norm_num)
      _ = _ := by ring
  have : |b64 (h * (1 + (x + y + x * y))) - h * (1 + (x + y + x * y))| ≤ μ * 2 := by
    apply herr _ (by norm_num)
    rw [mul_add, mul_one]
    rw [abs_le] at hhz ⊢
    constructor <;> linarith
  rw [abs_le] at hhz this ⊢
  constructor <;> linarith

theorem linspace_close {n k : ℕ} (hk : k < n) (hn : (n : ℚ) ≤ 2 ^ (400 : ℤ)) :
    |b64 (k * b64 (1 / n)) - k / n| ≤ 3 * 2 ^ (-52 : ℤ) := by
  have hn0 : (0 : ℚ) < n := by exact_mod_cast Nat.zero_lt_of_lt hk
  have hkn : (k : ℚ) ≤ n := by exact_mod_cast hk.le
  have hk0 : (0 : ℚ) ≤ k := Nat.cast_nonneg k
  have hu : (2 : ℚ) ^ (-53 : ℤ) = 2 ^ (-52 : ℤ) / 2 := by norm_num
  have hμ1 : (2 : ℚ) ^ (-52 : ℤ) ≤ 1 / 4 := by norm_num
  have hμ0 : (0 : ℚ) < 2 ^ (-52 : ℤ) := two_zpow_pos _
  have herr : ∀ {x X : ℚ}, |x| ≤ X → 1 ≤ X → |b64 x - x| ≤ 2 ^ (-52 : ℤ) * X := b64_err_mu
  have hrel : |b64 (1 / n) - 1 / n| ≤ 2 ^ (-52 : ℤ) / 2 * (1 / n) := by
    have := b64_err_rel (x := 1 / (n : ℚ)) (by
      rw [abs_of_pos (by positivity), le_div_iff₀ hn0]
      calc (2 : ℚ) ^ (-1022 : ℤ) * n ≤ 2 ^ (-1022 : ℤ) * 2 ^ (400 : ℤ) := mul_le_mul_of_nonneg_left hn (two_zpow_pos _).le
        _ = 2 ^ (-622 : ℤ) := by rw [← zpow_add₀ (by norm_num)]; rfl
        _ ≤ 2 ^ (0 : ℤ) := zpow_le_zpow_right₀ (by norm_num) (by norm_num)
        _ = 1 := zpow_zero _)
    rwa [hu, abs_of_pos (by positivity : (0 : ℚ) < 1 / n)] at this
  clear hu
  generalize (2 : ℚ) ^ (-52 : ℤ) = μ at *
  generalize b64 (1 / n) = s at *
  have h1 : |k * s - k / n| ≤ μ / 2 := by
    have e : (k : ℚ) * s - k / n = k * (s - 1 / n) := by ring
    rw [e, abs_mul, abs_of_nonneg hk0]
    calc (k : ℚ) * |s - 1 / n| ≤ k * (μ / 2 * (1 / n)) := mul_le_mul_of_nonneg_left hrel hk0
      _ = μ / 2 * (k / n) := by ring
      _ ≤ μ / 2 * 1 := mul_le_mul_of_nonneg_left ((div_le_one hn0).mpr hkn) (by linarith)
      _ = μ / 2 := by ring
  have hq : (k : ℚ) / n ≤ 1 := (div_le_one hn0).mpr hkn
  have hq0 : 0 ≤ (k : ℚ) / n := by positivity
  have h2 := herr (x := k * s) (X := 2) (by rw [abs_le] at h1 ⊢; constructor <;> linarith) (by norm_num)
  rw [abs_le] at *
  constructor <;> linarith

theorem wireTabRange_close {μ E d d' h h' ε : ℚ} (hμ : μ = 2 ^ (-52 : ℤ)) (hd : |d' - d| ≤ 3 * μ) (hh : |h' - h| ≤ E)
    (hd0 : 0 ≤ d) (hd1 : d ≤ 1) (hh0 : 0 < h) (hh1 : h ≤ 1 / 2) (hE : E + 9 * μ ≤ ε) (hε : ε ≤ 1 / 4)
    (ha : ε < |d - h|) (hb : ε < |d + h - 1|) : List.Forall₂ (CloseRange ε) (wireTabRange h d) (wireTabRange64 h' d') := by
  have herr : ∀ {x X : ℚ}, |x| ≤ X → 1 ≤ X → |b64 x - x| ≤ μ * X := by rw [hμ]; exact b64_err_mu
  have hμ0 : 0 < μ := by rw [hμ]; exact two_zpow_pos _
  clear hμ
  have hE0 : 0 ≤ E := le_trans (abs_nonneg _) hh
  rw [abs_le] at hd hh
  have e1 := herr (x := d' - h') (X := 2) (by rw [abs_le]; constructor <;> linarith) (by norm_num)
  have e2 := herr (x := d' + h') (X := 2) (by rw [abs_le]; constructor <;> linarith) (by norm_num)
  unfold wireTabRange64 wireTabRange
  simp only
  generalize b64 (d' - h') = a at *
  generalize b64 (d' + h') = b at *
  rw [abs_le] at e1 e2
  have f1 := herr (x := a + 1) (X := 4) (by rw [abs_le]; constructor <;> linarith) (by norm_num)
  have f2 := herr (x := b + 1) (X := 4) (by rw [abs_le]; constructor <;> linarith) (by norm_num)
  have f3 := herr (x := a - 1) (X := 4) (by rw [abs_le]; constructor <;> linarith) (by norm_num)
  have f4 := herr (x := b - 1) (X := 4) (by rw [abs_le]; constructor <;> linarith) (by norm_num)
  generalize b64 (a + 1) = a1 at *
  generalize b64 (b + 1) = b1 at *
  generalize b64 (a - 1) = a2 at *
  generalize b64 (b - 1) = b2 at *
  rw [abs_le] at f1 f2 f3 f4
  have c1 : d - h < 0 ↔ a < 0 := by
    rcases lt_abs.mp ha with h | h
    · exact ⟨fun _ => by linarith, fun _ => by linarith⟩
    · exact ⟨fun _ => by linarith, fun _ => by linarith⟩
  have c2 : d + h > 1 ↔ b > 1 := by
    rcases lt_abs.mp hb with h | h
    · exact ⟨fun _ => by linarith, fun _ => by linarith⟩
    · exact ⟨fun _ => by linarith, fun _ => by linarith⟩
  simp only [c1, c2]
  refine List.rel_append (List.rel_append ?_ ?_) ?_
  · refine .cons ⟨?_, ?_⟩ .nil <;> simp only [abs_le] <;> constructor <;> linarith
  · split
    · refine .cons ⟨?_, ?_⟩ .nil <;> simp only [abs_le] <;> constructor <;> linarith
    · exact .nil
  · split
    · refine .cons ⟨?_, ?_⟩ .nil <;> simp only [abs_le] <;> constructor <;> linarith
    · exact .nil

/-! ### What closeness keeps -/

theorem zoneRanges_mem {n : ℕ} (hn : 0 < n) {h : ℚ} {d : ℚ × ℚ} (hd : d ∈ zoneRanges n h) :
    ∃ k : ℕ, k ≤ n ∧ d = ((k : ℚ) / n - h, (k : ℚ) / n + h) := by
  have hn0 : (n : ℚ) ≠ 0 := by exact_mod_cast hn.ne'
  simp only [zoneRanges, List.mem_cons, List.mem_map] at hd
  rcases hd with rfl | rfl | ⟨k, hk, rfl⟩
  · exact ⟨0, Nat.zero_le _, by simp⟩
  · exact ⟨n, le_rfl, by rw [div_self hn0]⟩
  · have := List.mem_range.mp hk
    exact ⟨k + 1, by omega, by push_cast; rfl⟩

/-- The ends of the tabs are apart. -/
theorem zoneEnds_apart {n : ℕ} (hn : 0 < n) {h g : ℚ} (h1 : g < 2 * h) (h2 : 2 * h + g < 1 / n) (hg : 0 ≤ g) {u v : ℚ}
    (hu : ∃ d ∈ zoneRanges n h, u = d.1 ∨ u = d.2) (hv : ∃ d ∈ zoneRanges n h, v = d.1 ∨ v = d.2) (huv : u < v) : g < v - u := by
  have hn0 : (0 : ℚ) < n := by exact_mod_cast hn
  obtain ⟨d, hd, hu⟩ := hu
  obtain ⟨d', hd', hv⟩ := hv
  obtain ⟨i, -, rfl⟩ := zoneRanges_mem hn hd
  obtain ⟨j, -, rfl⟩ := zoneRanges_mem hn hd'
  simp only at hu hv
  rcases lt_trichotomy i j with hij | rfl | hij
  · have hs : (i : ℚ) / n + 1 / n ≤ j / n := by rw [← add_div]; gcongr; exact_mod_cast hij
    rcases hu with rfl | rfl <;> rcases hv with rfl | rfl <;> linarith
  · rcases hu with rfl | rfl <;> rcases hv with rfl | rfl <;> linarith
  · have hs : (j : ℚ) / n + 1 / n ≤ i / n := by rw [← add_div]; gcongr; exact_mod_cast hij
    rcases hu with rfl | rfl <;> rcases hv with rfl | rfl <;> linarith

/-- Where the transitions of an edge lie. -/
theorem wireTransitions_at {r : ℚ × ℚ} (hr : r.1 < r.2) {ds : List (ℚ × ℚ)} {p : ℚ × Transition} (hp : p ∈ wireTransitions r ds) :
    p.1 = 0 ∨ p.1 = 1 ∨ ∃ v, (∃ d ∈ ds, v = d.1 ∨ v = d.2) ∧ p.1 * (r.2 - r.1) = v - r.1 := by
  have hf : 0 < r.2 - r.1 := by linarith
  have hval : ∀ v, r.1 < v ∧ v ≤ r.2 → wireDToEdgeD v r * (r.2 - r.1) = v - r.1 := by
    rintro v ⟨h1, h2⟩
    unfold wireDToEdgeD
    rw [max_eq_left (div_nonneg (by linarith) hf.le), min_eq_left ((div_le_one hf).mpr (by linarith)), div_mul_cancel₀ _ hf.ne']
  have hcore : ∀ p ∈ ds.flatMap (tabTransitions r), p.1 = 0 ∨ p.1 = 1 ∨
      ∃ v, (∃ d ∈ ds, v = d.1 ∨ v = d.2) ∧ p.1 * (r.2 - r.1) = v - r.1 := by
    intro p hp
    obtain ⟨d, hd, hp⟩ := List.mem_flatMap.mp hp
    unfold tabTransitions at hp
    rcases List.mem_append.mp hp with hp | hp
    · rcases List.mem_append.mp hp with hp | hp
      · split at hp
        · simp only [List.mem_singleton] at hp; subst hp; exact Or.inl rfl
        · cases hp
      · split at hp
        · rename_i hc
          simp only [List.mem_singleton] at hp; subst hp
          exact Or.inr (Or.inr ⟨d.1, ⟨d, hd, Or.inl rfl⟩, hval _ hc⟩)
        · cases hp
    · split at hp
      · rename_i hc
        simp only [List.mem_singleton] at hp; subst hp
        exact Or.inr (Or.inr ⟨d.2, ⟨d, hd, Or.inr rfl⟩, hval _ hc⟩)
      · cases hp
  have hfront : ∀ p ∈ padFront (ds.flatMap (tabTransitions r)), p.1 = 0 ∨ p.1 = 1 ∨
      ∃ v, (∃ d ∈ ds, v = d.1 ∨ v = d.2) ∧ p.1 * (r.2 - r.1) = v - r.1 := by
    intro p hp
    unfold padFront at hp
    split at hp
    · exact hcore p hp
    · rcases List.mem_cons.mp hp with rfl | hp
      · exact Or.inl rfl
      · exact hcore p hp
  unfold wireTransitions padBack at hp
  split at hp
  · exact hfront p hp
  · rcases List.mem_append.mp hp with hp | hp
    · exact hfront p hp
    · simp only [List.mem_singleton] at hp; subst hp; exact Or.inr (Or.inl rfl)

theorem increasing_close {f c : ℚ} (hf : 0 < f) {ts ts' : List (ℚ × Transition)} (h : List.Forall₂ (CloseTr f c) ts ts')
    (hi : Increasing ts) (hgap : ∀ p ∈ ts, ∀ q ∈ ts, p.1 < q.1 → 2 * c < (q.1 - p.1) * f) : Increasing ts' := by
  unfold Increasing at *
  induction h with
  | nil => exact List.Pairwise.nil
  | @cons a a' l l' ha hl ih =>
    rw [List.pairwise_cons] at hi ⊢
    refine ⟨?_, ih hi.2 (fun p hp q hq => hgap p (by simp [hp]) q (by simp [hq]))⟩
    intro b' hb'
    obtain ⟨b, hb, hbb⟩ : ∃ b ∈ l, CloseTr f c b b' := by
      clear ih hgap hi
      induction hl with
      | nil => cases hb'
      | cons hxy _ ih =>
        rcases List.mem_cons.mp hb' with rfl | hb'
        · exact ⟨_, by simp, hxy⟩
        · obtain ⟨b, h1, h2⟩ := ih hb'
          exact ⟨b, by simp [h1], h2⟩
    have hg := hgap a (by simp) b (by simp [hb]) (hi.1 b hb)
    by_contra hcon
    have hcon := not_lt.mp hcon
    have h1 := ha.2.1
    have h2 := hbb.2.1
    have h3 : (b'.1 - a'.1) * f ≤ 0 := mul_nonpos_of_nonpos_of_nonneg (by linarith) hf.le
    have h4 : -|b'.1 - b.1| * f ≤ (b'.1 - b.1) * f := mul_le_mul_of_nonneg_right (neg_abs_le _) hf.le
    have h5 : (a'.1 - a.1) * f ≤ |a'.1 - a.1| * f := mul_le_mul_of_nonneg_right (le_abs_self _) hf.le
    linarith

theorem fullEdge_close {f c : ℚ} {ts ts' : List (ℚ × Transition)} (h : List.Forall₂ (CloseTr f c) ts ts') (hf : FullEdge ts) :
    FullEdge ts' := by
  obtain ⟨h0, h1⟩ := hf
  constructor
  · cases h with
    | nil => cases h0
    | cons hab _ =>
      simp only [List.head?_cons, Option.map_some, Option.some.injEq] at h0 ⊢
      exact hab.2.2.1.mp h0
  · clear h0
    induction h with
    | nil => cases h1
    | @cons a b l l' hab ht ih =>
      cases ht with
      | nil =>
        simp only [List.getLast?_singleton, Option.map_some, Option.some.injEq] at h1 ⊢
        exact hab.2.2.2.mp h1
      | cons _ _ => rw [List.getLast?_cons_cons] at h1 ⊢; exact ih h1

theorem alternates_close {f c : ℚ} {ts ts' : List (ℚ × Transition)} (h : List.Forall₂ (CloseTr f c) ts ts') (ha : Alternates ts) :
    Alternates ts' := by
  induction h with
  | nil => exact trivial
  | @cons a a' l l' hab ht ih =>
    cases ht with
    | nil => exact trivial
    | @cons b b' l l' hbb ht =>
      cases ht with
      | nil => exact trivial
      | cons hcc ht =>
        exact ⟨by rw [← hab.1, ← hbb.1]; exact ha.1, ih ha.2⟩

theorem startsTab_close {f c : ℚ} {ts ts' : List (ℚ × Transition)} (h : List.Forall₂ (CloseTr f c) ts ts') :
    StartsTab ts ↔ StartsTab ts' := by
  cases h with
  | nil => exact Iff.rfl
  | cons hab _ => simp only [StartsTab, hab.1]

theorem endsTab_close {f c : ℚ} {ts ts' : List (ℚ × Transition)} (h : List.Forall₂ (CloseTr f c) ts ts') :
    EndsTab ts ↔ EndsTab ts' := by
  induction h with
  | nil => exact Iff.rfl
  | @cons a a' l l' hab ht ih =>
    cases ht with
    | nil => exact Iff.rfl
    | @cons b b' l l' hbb ht =>
      cases ht with
      | nil => simp only [EndsTab, hab.1]
      | cons hcc ht => exact ih

theorem marked_close {x : ℚ} {ts ts' : List (ℚ × Transition)}
    (h : List.Forall₂ (fun p p' : ℚ × Transition => p.2 = p'.2 ∧ (p.1 ≤ x ↔ p'.1 ≤ x)) ts ts') :
    MarkedTab ts x ↔ MarkedTab ts' x := by
  induction h with
  | nil => exact Iff.rfl
  | @cons a a' l l' hab ht ih =>
    cases ht with
    | nil => exact Iff.rfl
    | @cons b b' l l' hbb ht =>
      simp only [MarkedTab]
      rw [ih, hab.1, hab.2, ← not_le, ← not_le, hbb.2]

theorem forall₂_mem {α β : Type} {R S : α → β → Prop} {l : List α} {l' : List β} (h : List.Forall₂ R l l')
    (hs : ∀ a ∈ l, ∀ b, R a b → S a b) : List.Forall₂ S l l' := by
  induction h with
  | nil => exact .nil
  | cons hab _ ih => exact .cons (hs _ (by simp) _ hab) (ih (fun a ha => hs a (by simp [ha])))

end CQ
