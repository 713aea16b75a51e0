import Verif.Spec.Drill64
import Verif.Spec.Binary64
import Verif.Model.Drill64
import Verif.Props.Binary64
import Verif.Props.Drill
import Verif.Proofs.Repr

/-! # C137: drilling in floating point -/

namespace CQ

/-! ### errors of rounding -/

/-- The difference of two doubles is rounded with a relative error, even when it is tiny. -/
theorem b64_sub_err {a b : ℚ} (ha : IsDouble a) (hb : IsDouble b) : |b64 (a - b) - (a - b)| ≤ 2 ^ (-53 : ℤ) * |a - b| := by
  by_cases h : 2 ^ (-1022 : ℤ) ≤ |a - b|
  · exact b64_err_rel h
  · push Not at h
    have hd : IsDouble (a - b) := by
      obtain ⟨m, e, -, he, rfl⟩ := ha
      obtain ⟨n, f, -, hf, rfl⟩ := hb
      have grid : ∀ (m e : ℤ), -1074 ≤ e → ∃ k : ℤ, (m : ℚ) * 2 ^ e = k * 2 ^ (-1074 : ℤ) := by
        intro m e he
        obtain ⟨t, ht⟩ := Int.eq_ofNat_of_zero_le (by omega : 0 ≤ e + 1074)
        refine ⟨m * 2 ^ t, ?_⟩
        push_cast
        rw [mul_assoc, ← zpow_natCast, ← zpow_add₀ (by norm_num)]
        congr 2
        omega
      obtain ⟨k, hk⟩ := grid m e he
      obtain ⟨l, hl⟩ := grid n f hf
      have e1 : (m : ℚ) * 2 ^ e - n * 2 ^ f = ((k - l : ℤ) : ℚ) * 2 ^ (-1074 : ℤ) := by rw [hk, hl]; push_cast; ring
      rw [e1] at h ⊢
      refine ⟨k - l, -1074, ?_, le_refl _, rfl⟩
      rw [abs_mul, abs_of_pos (two_zpow_pos _)] at h
      have h2 : (2 : ℚ) ^ (-1022 : ℤ) = 2 ^ (52 : ℕ) * 2 ^ (-1074 : ℤ) := by
        rw [← zpow_natCast, ← zpow_add₀ (by norm_num)]; norm_num
      rw [h2] at h
      have h3 := lt_of_mul_lt_mul_right h (two_zpow_pos _).le
      have h4 : |k - l| < 2 ^ 52 := by exact_mod_cast h3
      omega
    rw [b64_double hd, sub_self, abs_zero]
    have := two_zpow_pos (-53)
    positivity

/-- The arithmetic of the errors of `dist2`. -/
theorem dist2_err_arith {u η dx dy a b sa sb r : ℚ} (hu0 : 0 < u) (hu : u ≤ 1 / 1000) (hη : 0 < η)
    (ha : |a - dx| ≤ u * |dx|) (hb : |b - dy| ≤ u * |dy|)
    (hsa : |sa - a * a| ≤ 2 * u * (a * a) + η) (hsb : |sb - b * b| ≤ 2 * u * (b * b) + η)
    (hr : |r - (sa + sb)| ≤ u * |sa + sb| + η / 2) :
    |r - (dx * dx + dy * dy)| ≤ 8 * u * (dx * dx + dy * dy) + 4 * η := by
  have sq : ∀ {a dx : ℚ}, |a - dx| ≤ u * |dx| → |a * a - dx * dx| ≤ (2 * u + u * u) * (dx * dx) := by
    intro a dx h
    have h1 : |a + dx| ≤ (2 + u) * |dx| := by
      calc |a + dx| = |(a - dx) + 2 * dx| := by congr 1; ring
        _ ≤ |a - dx| + |2 * dx| := abs_add_le _ _
        _ ≤ u * |dx| + 2 * |dx| := by rw [abs_mul]; simpa using h
        _ = _ := by ring
    rw [show a * a - dx * dx = (a - dx) * (a + dx) by ring, abs_mul]
    calc |a - dx| * |a + dx| ≤ (u * |dx|) * ((2 + u) * |dx|) := mul_le_mul h h1 (abs_nonneg _) (by positivity)
      _ = (2 * u + u * u) * (|dx| * |dx|) := by ring
      _ = _ := by rw [abs_mul_abs_self]
  have part : ∀ {a dx sa : ℚ}, |a - dx| ≤ u * |dx| → |sa - a * a| ≤ 2 * u * (a * a) + η →
      |sa - dx * dx| ≤ 5 * u * (dx * dx) + η := by
    intro a dx sa h h'
    have h1 := sq h
    have h2 := abs_le.mp h1
    have h3 := abs_le.mp h'
    have hd := mul_self_nonneg dx
    have k1 : u * u * (dx * dx) ≤ u * (1 / 1000) * (dx * dx) :=
      mul_le_mul_of_nonneg_right (mul_le_mul_of_nonneg_left hu hu0.le) hd
    have k2 : 2 * u * (a * a) ≤ 2 * u * ((1 + 2 * u + u * u) * (dx * dx)) :=
      mul_le_mul_of_nonneg_left (by linarith [h2.2]) (by linarith)
    have k3 : 2 * u * (2 * u + u * u) ≤ u * (1 / 100) := by nlinarith
    have k4 := mul_le_mul_of_nonneg_right k3 hd
    have k5 : 2 * u * ((1 + 2 * u + u * u) * (dx * dx)) = 2 * u * (dx * dx) + 2 * u * (2 * u + u * u) * (dx * dx) := by ring
    have k6 : 0 ≤ u * (dx * dx) := mul_nonneg hu0.le hd
    rw [abs_le]
    constructor <;> nlinarith
  have pa := abs_le.mp (part ha hsa)
  have pb := abs_le.mp (part hb hsb)
  have hD : 0 ≤ dx * dx + dy * dy := by nlinarith [mul_self_nonneg dx, mul_self_nonneg dy]
  generalize dx * dx = X at *
  generalize dy * dy = Y at *
  have hS : |sa + sb| ≤ (1 + 5 * u) * (X + Y) + 2 * η := by
    rw [abs_le]
    constructor <;> nlinarith
  have hr' := abs_le.mp hr
  have k1 : u * |sa + sb| ≤ u * ((1 + 5 * u) * (X + Y) + 2 * η) := mul_le_mul_of_nonneg_left hS hu0.le
  have k2 : u * (5 * u) ≤ u * (5 / 1000) := mul_le_mul_of_nonneg_left (by linarith) hu0.le
  have k3 := mul_le_mul_of_nonneg_right k2 hD
  have k4 : u * (2 * η) ≤ 1 / 1000 * (2 * η) := mul_le_mul_of_nonneg_right hu (by linarith)
  have k5 : 0 ≤ u * (X + Y) := mul_nonneg hu0.le hD
  have k6 : u * ((1 + 5 * u) * (X + Y) + 2 * η) = u * (X + Y) + u * (5 * u) * (X + Y) + u * (2 * η) := by ring
  rw [abs_le]
  constructor <;> nlinarith

/-- How well `dist2` is computed on doubles. -/
theorem dist2F_err {sq : ℚ → ℚ} (hs : SquaresUpToUlp sq) {p q : Pt} (hpx : IsDouble p.x) (hpy : IsDouble p.y) (hqx : IsDouble q.x)
    (hqy : IsDouble q.y) : |dist2F sq p q - sqDist p q| ≤ 2 ^ (-50 : ℤ) * sqDist p q + 2 ^ (-1072 : ℤ) := by
  have e1 : (2 : ℚ) ^ (-50 : ℤ) = 8 * 2 ^ (-53 : ℤ) := by norm_num
  have e2 : (2 : ℚ) ^ (-1072 : ℤ) = 4 * 2 ^ (-1074 : ℤ) := by
    rw [show (4 : ℚ) = 2 ^ (2 : ℤ) by norm_num, ← zpow_add₀ (by norm_num)]; norm_num
  have e3 : (2 : ℚ) ^ (-52 : ℤ) = 2 * 2 ^ (-53 : ℤ) := by norm_num
  have e4 : (2 : ℚ) ^ (-1075 : ℤ) = 2 ^ (-1074 : ℤ) / 2 := by
    rw [div_eq_mul_inv, ← zpow_neg_one, ← zpow_add₀ (by norm_num)]; norm_num
  have h1 := hs (b64 (p.x - q.x))
  have h2 := hs (b64 (p.y - q.y))
  have h3 := b64_err (sq (b64 (p.x - q.x)) + sq (b64 (p.y - q.y)))
  rw [e3] at h1 h2
  rw [e4] at h3
  rw [e1, e2]
  exact dist2_err_arith (two_zpow_pos _) (by norm_num) (two_zpow_pos _) (b64_sub_err hpx hqx) (b64_sub_err hpy hqy) h1 h2 h3

/-- A distance computed as not greater is not greater up to rounding. -/
theorem sqDist_of_dist2F {sq : ℚ → ℚ} (hs : SquaresUpToUlp sq) {p q r : Pt} (hpx : IsDouble p.x) (hpy : IsDouble p.y)
    (hqx : IsDouble q.x) (hqy : IsDouble q.y) (hrx : IsDouble r.x) (hry : IsDouble r.y) (h : dist2F sq p r ≤ dist2F sq p q) :
    sqDist p r ≤ (1 + 2 ^ (-48 : ℤ)) * sqDist p q + 2 ^ (-1070 : ℤ) := by
  have h1 := abs_le.mp (dist2F_err hs hpx hpy hrx hry)
  have h2 := abs_le.mp (dist2F_err hs hpx hpy hqx hqy)
  have e2 : (2 : ℚ) ^ (-1070 : ℤ) = 4 * 2 ^ (-1072 : ℤ) := by
    rw [show (4 : ℚ) = 2 ^ (2 : ℤ) by norm_num, ← zpow_add₀ (by norm_num)]; norm_num
  have hη := two_zpow_pos (-1072)
  rw [e2]
  generalize (2 : ℚ) ^ (-1072 : ℤ) = η at *
  have hq : 0 ≤ sqDist p q := by unfold sqDist; nlinarith [mul_self_nonneg (p.x - q.x), mul_self_nonneg (p.y - q.y)]
  norm_num at h1 h2 ⊢
  linarith

/-! ### the order of the holes -/

theorem pickNearestFrom64_spec (sq : ℚ → ℚ) (p : Pt) (os : List Pt) (best : Pt) :
    let r := pickNearestFrom64 sq p (dist2F sq p best) best os
    r ∈ best :: os ∧ ∀ q ∈ best :: os, dist2F sq p r ≤ dist2F sq p q := by
  induction os generalizing best with
  | nil => simp [pickNearestFrom64]
  | cons o os ih =>
    simp only [pickNearestFrom64]
    by_cases h : dist2F sq p o < dist2F sq p best
    · rw [if_pos h]
      obtain ⟨h1, h2⟩ := ih o
      refine ⟨by simp only [List.mem_cons] at h1 ⊢; tauto, ?_⟩
      intro q hq
      rw [List.mem_cons] at hq
      rcases hq with rfl | hq
      · exact (h2 o (by simp)).trans h.le
      · exact h2 q hq
    · rw [if_neg h]
      obtain ⟨h1, h2⟩ := ih best
      refine ⟨by simp only [List.mem_cons] at h1 ⊢; tauto, ?_⟩
      intro q hq
      simp only [List.mem_cons] at hq
      rcases hq with rfl | rfl | hq
      · exact h2 _ (by simp)
      · exact (h2 best (by simp)).trans (not_lt.mp h)
      · exact h2 q (by simp [hq])

theorem nextHole64_spec {sq : ℚ → ℚ} {last : Option Pt} {ps : List Pt} {r : Pt} (h : nextHole64 sq last ps = .ok r) :
    r ∈ ps ∧ (last = none → ps.head? = some r) ∧ ∀ l, last = some l → ∀ q ∈ ps, dist2F sq l r ≤ dist2F sq l q := by
  cases last with
  | none =>
    cases ps with
    | nil => cases h
    | cons p ps => cases h; simp
  | some l =>
    cases ps with
    | nil => cases h
    | cons p ps =>
      have hr : pickNearestFrom64 sq l (dist2F sq l p) p ps = r := Except.ok.inj h
      have := pickNearestFrom64_spec sq l ps p
      rw [hr] at this
      exact ⟨this.1, by simp, fun l' hl => by cases hl; exact this.2⟩

theorem orderHoles64_total (sq : ℚ → ℚ) (n : ℕ) (last : Option Pt) (ps : List Pt) (h : ps.length ≤ n) :
    ∃ os, orderHoles64 sq n last ps = .ok os := by
  induction n generalizing last ps with
  | zero =>
    cases ps with
    | nil => exact ⟨[], rfl⟩
    | cons p ps => simp at h
  | succ n ih =>
    cases ps with
    | nil => exact ⟨[], rfl⟩
    | cons p ps =>
      obtain ⟨r, hr⟩ : ∃ r, nextHole64 sq last (p :: ps) = .ok r := by cases last <;> exact ⟨_, rfl⟩
      have hmem := (nextHole64_spec hr).1
      obtain ⟨os, ho⟩ := ih (some r) ((p :: ps).erase r) (by
        rw [List.length_erase_of_mem hmem]; simp at h ⊢; exact h)
      exact ⟨r :: os, by simp only [orderHoles64]; rw [hr, ok_bind, ho, ok_bind]⟩

theorem orderHoles64_spec {sq : ℚ → ℚ} {n : ℕ} {last : Option Pt} {ps os : List Pt} (h : orderHoles64 sq n last ps = .ok os) :
    os.Perm ps ∧ (last = none → os.head? = ps.head?) ∧
      (∀ l o, last = some l → os.head? = some o → ∀ q ∈ ps, dist2F sq l o ≤ dist2F sq l q) ∧
      ∀ pre a b post, os = pre ++ a :: b :: post → ∀ q ∈ b :: post, dist2F sq a b ≤ dist2F sq a q := by
  induction n generalizing last ps os with
  | zero =>
    cases ps with
    | nil => cases h; simp
    | cons p ps => cases h
  | succ n ih =>
    cases ps with
    | nil => cases h; simp
    | cons p ps =>
      simp only [orderHoles64] at h
      obtain ⟨r, hr, h⟩ := bind_ok.mp h
      obtain ⟨rest, h1, h⟩ := bind_ok.mp h
      cases h
      obtain ⟨hm, hn, hl⟩ := nextHole64_spec hr
      obtain ⟨i1, -, i3, i4⟩ := ih h1
      refine ⟨(i1.cons r).trans (List.perm_cons_erase hm).symm, fun h => by rw [hn h]; rfl, ?_, ?_⟩
      · intro l o h ho
        cases ho
        exact hl l h
      · intro pre a b post he q hq
        cases pre with
        | nil =>
          cases he
          exact i3 _ b rfl rfl q (i1.mem_iff.mp hq)
        | cons x pre =>
          cases he
          exact i4 pre a b post rfl q hq

/-! ### what is drilled -/

theorem drillVectors64_spec {center : List Edge → Except Err Vec} {world : Vec → Vec} {o : DrillObj} {vs : List Vec}
    (h : drillVectors64 center world o = .ok vs) : ∃ cs, HoleCentres center o cs ∧ vs = cs.map world := by
  cases o with
  | vector v => cases h; exact ⟨[v], rfl, rfl⟩
  | wire w =>
    obtain ⟨c, h1, h⟩ := bind_ok.mp h
    cases h
    exact ⟨[c], ⟨c, h1, rfl⟩, rfl⟩
  | face outer inners =>
    cases inners with
    | nil =>
      simp only [drillVectors64, ne_eq, not_true_eq_false, if_false] at h
      obtain ⟨c, h1, h⟩ := bind_ok.mp h
      cases h
      exact ⟨[c], ⟨c, h1, rfl⟩, rfl⟩
    | cons i is =>
      rw [drillVectors64, if_pos (by simp), mapE_ok] at h
      have : ∀ {ws : List (List Edge)} {vs : List Vec}, List.Forall₂ (fun w v => (do
          let c ← center w
          Except.ok (world c)) = Except.ok v) ws vs →
          ∃ cs, List.Forall₂ (fun w c => center w = .ok c) ws cs ∧ vs = cs.map world := by
        intro ws vs h
        induction h with
        | nil => exact ⟨[], .nil, rfl⟩
        | cons h1 _ ih =>
          obtain ⟨c, h2, h3⟩ := bind_ok.mp h1
          cases h3
          obtain ⟨cs, h4, rfl⟩ := ih
          exact ⟨c :: cs, .cons h2 h4, rfl⟩
      obtain ⟨cs, h1, h2⟩ := this h
      exact ⟨cs, h1, h2⟩
  | other => cases h

theorem drillVectors64_total {center : List Edge → Except Err Vec} {world : Vec → Vec} {o : DrillObj} {cs : List Vec}
    (h : HoleCentres center o cs) : drillVectors64 center world o = .ok (cs.map world) := by
  cases o with
  | vector v => rw [show cs = [v] from h]; rfl
  | wire w =>
    obtain ⟨c, h1, rfl⟩ := h
    simp only [drillVectors64]; rw [h1, ok_bind]; rfl
  | face outer inners =>
    cases inners with
    | nil =>
      obtain ⟨c, h1, rfl⟩ := h
      simp only [drillVectors64, ne_eq, not_true_eq_false, if_false]
      rw [h1, ok_bind]; rfl
    | cons i is =>
      rw [drillVectors64, if_pos (by simp), mapE_ok]
      have key : ∀ {ws : List (List Edge)} {cs : List Vec}, List.Forall₂ (fun w c => center w = .ok c) ws cs →
          List.Forall₂ (fun w v => (do
            let c ← center w
            Except.ok (world c)) = Except.ok v) ws (cs.map world) := by
        intro ws cs h
        induction h with
        | nil => exact .nil
        | cons h1 _ ih => exact .cons (by rw [h1, ok_bind]) ih
      exact key h
  | other => cases h

/-! ### C137 -/

/-- C137.  Drilling in floating point, whatever the rounding of the kernel: the tool goes into the material exactly at the requested positions,
each as often as requested, beginning with the first one, and each hole is followed by one that is nearest to it up to rounding. -/
theorem C137_order {sq : ℚ → ℚ} (hs : SquaresUpToUlp sq) {world : Vec → Vec} (hw : ∀ v, IsDouble (world v).x ∧ IsDouble (world v).y)
    {center : List Edge → Except Err Vec} {objs : List DrillObj} {d : ℚ} {j : Job}
    {cs : List Motion} (h : drill64 sq world center (some objs) (some d) j = .ok cs) :
    ∃ centres ps, List.Forall₂ (HoleCentres center) objs centres ∧
      workedAt cs = ps.map (fun p : Pt => (some p.x, some p.y)) ∧
      HolesMoves j.opSafeHeight (-|d|) j.feed {} ps cs ∧
      ps.Perm (centres.flatten.map (fun v => (world v).xy)) ∧
      ps.head? = (centres.flatten.map (fun v => (world v).xy)).head? ∧ ps ≠ [] ∧ NearestOrderUpTo ps := by
  simp only [drill64] at h
  obtain ⟨vss, h1, h'⟩ := bind_ok.mp h
  clear h
  have : ∃ centres, List.Forall₂ (HoleCentres center) objs centres ∧ vss.flatten = centres.flatten.map world := by
    rw [mapE_ok] at h1
    clear h'
    induction h1 with
    | nil => exact ⟨[], .nil, rfl⟩
    | cons h2 _ ih =>
      obtain ⟨cs, h3, rfl⟩ := drillVectors64_spec h2
      obtain ⟨css, h4, h5⟩ := ih
      exact ⟨cs :: css, .cons h3 h4, by simp [h5]⟩
  obtain ⟨centres, hc, hf⟩ := this
  rw [hf, List.map_map] at h'
  split at h'
  · cases h'
  · rename_i hne
    obtain ⟨ps, ho, h⟩ := bind_ok.mp h'
    cases h
    obtain ⟨o1, o2, -, o4⟩ := orderHoles64_spec ho
    refine ⟨centres, ps, hc, holesMoves_worked (drillHoles_moves j _ _ ps), drillHoles_moves j _ _ ps, o1, o2 rfl, ?_, ?_⟩
    · rintro rfl
      exact hne (List.nil_perm.mp o1)
    · intro pre a b post he q hq
      have hp : ∀ p ∈ ps, IsDouble p.x ∧ IsDouble p.y := by
        intro p hp
        have := o1.mem_iff.mp hp
        rw [List.mem_map] at this
        obtain ⟨v, -, rfl⟩ := this
        exact hw v
      have ha := hp a (by rw [he]; simp)
      have hb := hp b (by rw [he]; simp)
      have hq' := hp q (by rw [he]; simp only [List.mem_append, List.mem_cons] at hq ⊢; tauto)
      exact sqDist_of_dist2F hs ha.1 ha.2 hq'.1 hq'.2 hb.1 hb.2 (o4 pre a b post he q hq)

/-- C137.  The same requests are accepted as with exact arithmetic (C52). -/
theorem C137_accepted (sq : ℚ → ℚ) (world : Vec → Vec) (center : List Edge → Except Err Vec) (o : Option (List DrillObj))
    (depth : Option ℚ) (j : Job) :
    (∃ cs, drill64 sq world center o depth j = .ok cs) ↔ ∃ objs d centres, o = some objs ∧ depth = some d ∧
      List.Forall₂ (HoleCentres center) objs centres ∧ centres.flatten ≠ [] := by
  constructor
  · rintro ⟨cs, h⟩
    cases o with
    | none => cases h
    | some objs =>
      cases depth with
      | none => cases h
      | some d =>
        simp only [drill64] at h
        obtain ⟨vss, h1, h'⟩ := bind_ok.mp h
        have : ∃ centres, List.Forall₂ (HoleCentres center) objs centres ∧ vss.flatten = centres.flatten.map world := by
          rw [mapE_ok] at h1
          clear h' h
          induction h1 with
          | nil => exact ⟨[], .nil, rfl⟩
          | cons h2 _ ih =>
            obtain ⟨cs, h3, rfl⟩ := drillVectors64_spec h2
            obtain ⟨css, h4, h5⟩ := ih
            exact ⟨cs :: css, .cons h3 h4, by simp [h5]⟩
        obtain ⟨centres, hc, hf⟩ := this
        refine ⟨objs, d, centres, rfl, rfl, hc, ?_⟩
        intro hn
        rw [hf, hn] at h'
        cases h'
  · rintro ⟨objs, d, centres, rfl, rfl, hc, hn⟩
    have h1 : mapE (drillVectors64 center world) objs = .ok (centres.map (List.map world)) := by
      rw [mapE_ok]
      clear hn
      induction hc with
      | nil => exact .nil
      | cons h _ ih => exact .cons (drillVectors64_total h) ih
    simp only [drill64]
    rw [h1, ok_bind, if_neg (by
      rw [← List.map_flatten, List.map_map]
      simpa using hn)]
    obtain ⟨os, ho⟩ := orderHoles64_total sq _ none _ (le_refl _)
    exact ⟨_, by rw [ho, ok_bind]⟩

/-- C137.  Where no two distances from one hole are almost equal, the order is a nearest-neighbour order exactly. -/
theorem C137_separated {ps : List Pt} (h : NearestOrderUpTo ps) (hw : WellSeparated ps) : NearestOrder ps := by
  intro pre a b post he q hq
  by_contra hlt
  push Not at hlt
  have h1 := h pre a b post he q hq
  have h2 := hw a (by rw [he]; simp) q (by rw [he]; simp only [List.mem_append, List.mem_cons] at hq ⊢; tauto) b
    (by rw [he]; simp) hlt
  linarith

/-- C137.  Holes on a binary grid with up to about four million lines each way are well separated: there the order is exact. -/
theorem C137_grid {ps : List Pt} (k : ℕ) (hk : k ≤ 500)
    (hg : ∀ p ∈ ps, ∃ m n : ℤ, |m| ≤ 2 ^ 22 ∧ |n| ≤ 2 ^ 22 ∧ p.x = m / 2 ^ k ∧ p.y = n / 2 ^ k) : WellSeparated ps := by
  have key : ∀ a ∈ ps, ∀ b ∈ ps, ∃ z : ℤ, 0 ≤ z ∧ z ≤ 2 ^ 47 ∧ sqDist a b * 4 ^ k = z := by
    intro a ha b hb
    obtain ⟨m, n, hm, hn, hx, hy⟩ := hg a ha
    obtain ⟨m', n', hm', hn', hx', hy'⟩ := hg b hb
    refine ⟨(m - m') * (m - m') + (n - n') * (n - n'), by nlinarith [mul_self_nonneg (m - m'), mul_self_nonneg (n - n')], ?_, ?_⟩
    · rw [abs_le] at hm hn hm' hn'
      have h1 : (m - m') * (m - m') ≤ 2 ^ 23 * 2 ^ 23 := by nlinarith
      have h2 : (n - n') * (n - n') ≤ 2 ^ 23 * 2 ^ 23 := by nlinarith
      norm_num at h1 h2 ⊢
      omega
    · have e : (4 : ℚ) ^ k = 2 ^ k * 2 ^ k := by rw [← mul_pow]; norm_num
      unfold sqDist
      rw [hx, hy, hx', hy', e]
      have : (2 : ℚ) ^ k ≠ 0 := by positivity
      push_cast
      field_simp
  intro a ha b hb c hc hlt
  obtain ⟨z, hz0, hz, ez⟩ := key a ha b hb
  obtain ⟨w, -, -, ew⟩ := key a ha c hc
  have hp : (0 : ℚ) < 4 ^ k := by positivity
  have h1 : (z : ℚ) < w := by rw [← ez, ← ew]; exact mul_lt_mul_of_pos_right hlt hp
  have h2 : (z : ℚ) + 1 ≤ w := by exact_mod_cast h1
  have h3 : (z : ℚ) ≤ 2 ^ 47 := by exact_mod_cast hz
  have h4 : (2 : ℚ) ^ (-1070 : ℤ) * 4 ^ k ≤ 1 / 4 := by
    have e : (4 : ℚ) ^ k = 2 ^ ((2 * k : ℕ) : ℤ) := by
      rw [zpow_natCast, pow_mul]; norm_num
    rw [e, ← zpow_add₀ (by norm_num), show (1 / 4 : ℚ) = 2 ^ (-2 : ℤ) by norm_num]
    exact zpow_le_zpow_right₀ (by norm_num) (by push_cast; omega)
  refine lt_of_mul_lt_mul_right (a := 4 ^ k) ?_ hp.le
  rw [ew, add_mul, mul_assoc, ez]
  norm_num at h3 h4 ⊢
  linarith

/-! ### examples -/

/-- A library that rounds squares to the nearest double is one of those meant. -/
theorem squares_b64 : SquaresUpToUlp (fun x => b64 (x * x)) := by
  intro x
  have h := b64_err (x * x)
  have h1 : (2 : ℚ) ^ (-53 : ℤ) ≤ 2 ^ (-52 : ℤ) := zpow_le_zpow_right₀ (by norm_num) (by norm_num)
  have h2 : (2 : ℚ) ^ (-1075 : ℤ) ≤ 2 ^ (-1074 : ℤ) := zpow_le_zpow_right₀ (by norm_num) (by norm_num)
  have h3 := mul_self_nonneg x
  rw [abs_of_nonneg h3] at h
  nlinarith

/-- The tolerance is needed: of the holes at `(1, 2^-30)` and `(1, 0)` the first, which is farther from the origin, is drilled next. -/
theorem C137_violated_exact : ∃ ps, orderHoles64 (fun x => b64 (x * x)) 3 none [⟨0, 0⟩, ⟨1, 1 / 2 ^ 30⟩, ⟨1, 0⟩] = .ok ps ∧ ¬ NearestOrder ps := by
  refine ⟨[⟨0, 0⟩, ⟨1, 1 / 2 ^ 30⟩, ⟨1, 0⟩], by decide +kernel, ?_⟩
  intro h
  have := h [] ⟨0, 0⟩ ⟨1, 1 / 2 ^ 30⟩ [⟨1, 0⟩] rfl ⟨1, 0⟩ (by simp)
  norm_num [sqDist] at this

/-- A kernel that rounds the coordinates, for a work plane that is the plane of the world. -/
def world64 (v : Vec) : Vec := ⟨b64 v.x, b64 v.y, b64 v.z⟩

example : ∃ (cs : List Motion) (centres : List (List Vec)) (ps : List Pt), drill64 (fun x => b64 (x * x)) world64 drillCenter (some [.vector ⟨1 / 10, 2 / 10, 0⟩, .vector ⟨5, 7, 0⟩,
      .vector ⟨3 / 10, 1 / 3, 0⟩]) (some 3) demoInit = .ok cs ∧
    workedAt cs = ps.map (fun p : Pt => (some p.x, some p.y)) ∧ ps.Perm (centres.flatten.map (fun v => (world64 v).xy)) ∧
    NearestOrderUpTo ps := by
  obtain ⟨cs, h⟩ := (C137_accepted (fun x => b64 (x * x)) world64 drillCenter (some [.vector ⟨1 / 10, 2 / 10, 0⟩, .vector ⟨5, 7, 0⟩,
      .vector ⟨3 / 10, 1 / 3, 0⟩]) (some 3) demoInit).mpr ⟨_, _, [[⟨1 / 10, 2 / 10, 0⟩], [⟨5, 7, 0⟩], [⟨3 / 10, 1 / 3, 0⟩]], rfl, rfl,
        .cons rfl (.cons rfl (.cons rfl .nil)), by simp⟩
  obtain ⟨centres, ps, -, h2, -, h4, -, -, h5⟩ := C137_order squares_b64 (fun v => ⟨b64_isDouble _, b64_isDouble _⟩) h
  exact ⟨cs, centres, ps, h, h2, h4, h5⟩

/-- And the order of the holes there: the second hole given comes last. -/
example : orderHoles64 (fun x => b64 (x * x)) 3 none ([⟨1 / 10, 2 / 10, 0⟩, ⟨5, 7, 0⟩, ⟨3 / 10, 1 / 3, 0⟩].map (fun v => (world64 v).xy)) =
    .ok ([⟨1 / 10, 2 / 10, 0⟩, ⟨3 / 10, 1 / 3, 0⟩, ⟨5, 7, 0⟩].map (fun v => (world64 v).xy)) := by decide +kernel

/-- A grid of quarters. -/
example : WellSeparated [⟨1 / 4, 3⟩, ⟨2, 7 / 4⟩, ⟨-5 / 2, 0⟩] := by
  refine C137_grid 2 (by norm_num) ?_
  intro p hp
  simp only [List.mem_cons, List.not_mem_nil, or_false] at hp
  rcases hp with rfl | rfl | rfl
  · exact ⟨1, 12, by norm_num, by norm_num, by norm_num, by norm_num⟩
  · exact ⟨8, 7, by norm_num, by norm_num, by norm_num, by norm_num⟩
  · exact ⟨-10, 0, by norm_num, by norm_num, by norm_num, by norm_num⟩

end CQ
