import Verif.Props.Tabs64

/-!
# C131: tabs around a wire in floating point
-/

namespace CQ

theorem forall₂_get {α β : Type} {R : α → β → Prop} {l : List α} {l' : List β} (h : List.Forall₂ R l l') {i : ℕ} {a : α}
    (ha : l[i]? = some a) : ∃ b, l'[i]? = some b ∧ R a b := by
  induction h generalizing i with
  | nil => cases ha
  | cons hab _ ih =>
    cases i with
    | zero => simp only [List.getElem?_cons_zero, Option.some.injEq] at ha ⊢; subst ha; exact ⟨_, rfl, hab⟩
    | succ i => simp only [List.getElem?_cons_succ] at ha ⊢; exact ih ha

/-- The transitions in floating point are close to the exact ones. -/
theorem transitions64_close {t : WireTabs} {n k : ℕ} (hn : 0 < n) (hc : t.count = n) (hw : 2 ^ (-200 : ℤ) ≤ t.width)
    {edges : List Edge} (hne : edges ≠ []) {L : ℚ} (hL : L = (edges.map Edge.length).sum) (hbig : L ≤ 2 ^ (200 : ℤ)) {δ : ℚ}
    (hδ0 : 0 ≤ δ) (hap : EndsApart δ n t.width L edges) (hδ : 2 * tabError edges.length k * L ≤ δ) {W total : ℚ}
    (hW : NearLength k L W) (htotal : NearLength k L total) :
    ∃ tss', t.transitions64 W total edges = .ok tss' ∧ tss'.length = edges.length ∧
      ∀ pre e post, edges = pre ++ e :: post → ∃ ts', tss'[pre.length]? = some ts' ∧
        List.Forall₂ (CloseTr (e.length / L) (tabError edges.length k))
          (wireTransitions ((pre.map Edge.length).sum / L, ((pre.map Edge.length).sum + e.length) / L)
            (zoneRanges n (1 / L * (t.width / 2)))) ts' := by
  have hn0 : (0 : ℚ) < n := by exact_mod_cast hn
  have hn1 : (1 : ℚ) ≤ n := by exact_mod_cast hn
  have hw0 : 0 < t.width := lt_of_lt_of_le (two_zpow_pos _) hw
  have hLn : t.width + δ < L / n := hap.between
  have hLpos : 0 < L := by
    have : 0 < L / n := by linarith
    by_contra h
    exact absurd (div_nonpos_of_nonpos_of_nonneg (not_lt.mp h) hn0.le) (not_le.mpr this)
  have hfit : t.width * n < L := by
    have : t.width < L / n := by linarith
    rwa [lt_div_iff₀ hn0] at this
  have hwL : t.width ≤ L := by
    have : t.width * 1 ≤ t.width * n := mul_le_mul_of_nonneg_left hn1 hw0.le
    linarith
  have hlen : ∀ e ∈ edges, 0 < e.length := fun e he => lt_of_le_of_lt hδ0 (hap.edges e he)
  -- the error, as a part of the length
  obtain ⟨ε, hε⟩ : ∃ ε : ℚ, ε = (2 * k + 4 * edges.length + 12) * 2 ^ (-52 : ℤ) := ⟨_, rfl⟩
  have htE : tabError edges.length k = 24 * ε := by unfold tabError; rw [hε]; ring
  rw [htE] at hδ ⊢
  have hg : 48 * ε ≤ δ / L := by rw [le_div_iff₀ hLpos]; linarith
  have hm1 : (1 : ℚ) ≤ edges.length := by exact_mod_cast List.length_pos_iff.mpr hne
  have hδL : δ / L < 1 / 2 := by
    rw [div_lt_iff₀ hLpos]
    have h1 : L / n ≤ L := div_le_self hLpos.le hn1
    linarith [hap.tabs]
  have hμ0 : (0 : ℚ) < 2 ^ (-52 : ℤ) := two_zpow_pos _
  have hk0 : (0 : ℚ) ≤ k := Nat.cast_nonneg k
  have hkμ : 0 ≤ k * (2 : ℚ) ^ (-52 : ℤ) := by positivity
  have hmμ : 1 * (2 : ℚ) ^ (-52 : ℤ) ≤ edges.length * 2 ^ (-52 : ℤ) := mul_le_mul_of_nonneg_right hm1 hμ0.le
  have hεx : ε = 2 * (k * (2 : ℚ) ^ (-52 : ℤ)) + 4 * (edges.length * 2 ^ (-52 : ℤ)) + 12 * 2 ^ (-52 : ℤ) := by rw [hε]; ring
  clear hε
  obtain ⟨μ, hμ⟩ : ∃ μ : ℚ, μ = 2 ^ (-52 : ℤ) := ⟨_, rfl⟩
  rw [← hμ] at hμ0 hkμ hmμ hεx
  have hkhalf : k * μ ≤ 1 / 2 := by linarith
  have hμε : μ ≤ ε := by linarith
  -- tabs
  have hn400 : (n : ℚ) ≤ 2 ^ (400 : ℤ) := by
    have h1 : 2 ^ (-200 : ℤ) * (n : ℚ) ≤ 2 ^ (200 : ℤ) := by
      have : 2 ^ (-200 : ℤ) * (n : ℚ) ≤ t.width * n := mul_le_mul_of_nonneg_right hw hn0.le
      exact this.trans (hfit.le.trans hbig)
    have h2 : (2 : ℚ) ^ (400 : ℤ) = 2 ^ (200 : ℤ) * 2 ^ (200 : ℤ) := by rw [← zpow_add₀ (by norm_num)]; rfl
    have h3 : (2 : ℚ) ^ (200 : ℤ) * 2 ^ (-200 : ℤ) = 1 := by rw [← zpow_add₀ (by norm_num)]; rfl
    calc (n : ℚ) = 2 ^ (200 : ℤ) * (2 ^ (-200 : ℤ) * n) := by rw [← mul_assoc, h3, one_mul]
      _ ≤ 2 ^ (200 : ℤ) * 2 ^ (200 : ℤ) := mul_le_mul_of_nonneg_left h1 (two_zpow_pos _).le
      _ = _ := h2.symm
  have hWpos : 0 < W := by
    have h1 := (abs_le.mp hW).1
    rw [← hμ] at h1
    have : k * μ * L ≤ 1 / 2 * L := mul_le_mul_of_nonneg_right hkhalf hLpos.le
    linarith
  have htpos : 0 < total := by
    have h1 := (abs_le.mp htotal).1
    rw [← hμ] at h1
    have : k * μ * L ≤ 1 / 2 * L := mul_le_mul_of_nonneg_right hkhalf hLpos.le
    linarith
  have hhc : |b64 (b64 (1 / W) * b64 (t.width / 2)) - 1 / L * (t.width / 2)| ≤ (k + 4) * μ := by
    rw [hμ]; exact halfD_close hLpos hW (by rw [← hμ]; exact hkhalf) hw hwL hbig
  have hh0 : 0 < 1 / L * (t.width / 2) := by positivity
  have hh1 : 1 / L * (t.width / 2) ≤ 1 / 2 := by
    rw [one_div, inv_mul_le_iff₀ hLpos]; linarith
  -- distances as parts of the length
  have hscale : ∀ (i : ℕ) (c : ℚ), |c / L - (i / n - 1 / L * (t.width / 2))| = |c - (i * (L / n) - t.width / 2)| / L ∧
      |c / L - (i / n + 1 / L * (t.width / 2))| = |c - (i * (L / n) + t.width / 2)| / L := by
    intro i c
    rw [← abs_of_pos hLpos, ← abs_div, ← abs_div, abs_of_pos hLpos]
    constructor <;> congr 1 <;> field_simp
  have happ : ∀ pre post, edges = pre ++ post → ∀ i : ℕ, i ≤ n →
      δ / L < |(pre.map Edge.length).sum / L - (i / n - 1 / L * (t.width / 2))| ∧
      δ / L < |(pre.map Edge.length).sum / L - (i / n + 1 / L * (t.width / 2))| := by
    intro pre post h i hi
    rw [(hscale i _).1, (hscale i _).2]
    exact ⟨div_lt_div_of_pos_right (hap.corners pre post h i hi).1 hLpos,
      div_lt_div_of_pos_right (hap.corners pre post h i hi).2 hLpos⟩
  have hds : ∃ ds', t.tabDs64 W = .ok ds' ∧ List.Forall₂ (CloseRange ε) (zoneRanges n (1 / L * (t.width / 2))) ds' := by
    have hex := tabDs_eq hn hc hLpos hw0 hfit
    unfold WireTabs.tabDs at hex
    rw [if_neg hLpos.ne', if_neg (by omega), hc, Int.toNat_natCast] at hex
    rw [← Except.ok.inj hex]
    unfold WireTabs.tabDs64
    rw [if_neg hWpos.ne', if_neg (by omega), hc, Int.toNat_natCast]
    refine ⟨_, rfl, ?_⟩
    have : ∀ l : List ℕ, (∀ i ∈ l, i < n) → List.Forall₂ (CloseRange ε)
        (l.flatMap (fun i : ℕ => wireTabRange (1 / L * (t.width / 2)) (i / n)))
        (l.flatMap (fun i : ℕ => wireTabRange64 (b64 (b64 (1 / W) * b64 (t.width / 2))) (b64 (i * b64 (1 / n))))) := by
      intro l hl
      induction l with
      | nil => exact .nil
      | cons i l ih =>
        rw [List.flatMap_cons, List.flatMap_cons]
        refine List.rel_append ?_ (ih (fun x hx => hl x (by simp [hx])))
        have hi := hl i (by simp)
        have c0 := (happ [] edges rfl i hi.le).1
        have c1 := (happ edges [] (by simp) i hi.le).2
        rw [← hL, div_self hLpos.ne'] at c1
        simp only [List.map_nil, List.sum_nil, zero_div, zero_sub, abs_neg] at c0
        refine wireTabRange_close hμ (by rw [hμ]; exact linspace_close hi hn400) hhc (by positivity)
          ((div_le_one hn0).mpr (by exact_mod_cast hi.le)) hh0 hh1 ?_ (by linarith) (by linarith) ?_
        · linarith
        · rw [abs_sub_comm] at c1; linarith
    exact this _ (fun i hi => List.mem_range.mp hi)
  obtain ⟨ds', hds', hdc⟩ := hds
  -- edges
  have hrc := edgeRanges_close (k := k) hLpos htotal (by rw [← hμ]; exact hkhalf) (edges.map Edge.length) 0 0 0
    (by intro l hl; obtain ⟨e, he, rfl⟩ := List.mem_map.mp hl; exact (hlen e he).le) le_rfl
    (by rw [← hL, div_self hLpos.ne', zero_add]) (by simp) (by
      rw [← hμ, ← hL, div_self hLpos.ne', List.length_map]; linarith)
  rw [← hμ, ← hL, div_self hLpos.ne', List.length_map] at hrc
  have hlen2 : ∀ (ls : List ℚ) p, (edgeRangesFrom L p ls).length = ls.length := by
    intro ls
    induction ls with
    | nil => intro p; rfl
    | cons l ls ih => intro p; simp [edgeRangesFrom, ih]
  have htr : t.transitions64 W total edges = .ok ((edgeRangesFrom64 total 0 (edges.map Edge.length)).map
      (fun r => wireTransitions64 r ds')) := by
    unfold WireTabs.transitions64 edgeRanges64
    rw [hds', ok_bind, if_neg (by rintro ⟨-, h⟩; exact htpos.ne' h), ok_bind]
  refine ⟨_, htr, by rw [List.length_map, ← hrc.length_eq, hlen2, List.length_map], ?_⟩
  intro pre e post hedges
  have hpos : ∀ l : List Edge, (∀ e ∈ l, e ∈ edges) → 0 ≤ (l.map Edge.length).sum := by
    intro l hl
    apply List.sum_nonneg
    intro x hx
    obtain ⟨y, hy, rfl⟩ := List.mem_map.mp hx
    exact (hlen y (hl y hy)).le
  have hb0 : 0 ≤ (post.map Edge.length).sum := hpos post (by intro x hx; rw [hedges]; simp [hx])
  have ha0 : 0 ≤ (pre.map Edge.length).sum := hpos pre (by intro x hx; rw [hedges]; simp [hx])
  have hsum : L = (pre.map Edge.length).sum + e.length + (post.map Edge.length).sum := by
    rw [hL, hedges]; simp; ring
  have hget : (edgeRangesFrom L 0 (edges.map Edge.length))[pre.length]? =
      some ((pre.map Edge.length).sum / L, ((pre.map Edge.length).sum + e.length) / L) := by
    have := edgeRangesFrom_get (L := L) (pre.map Edge.length) (post.map Edge.length) e.length 0
    rw [List.length_map] at this
    rw [hedges, List.map_append, List.map_cons, this, zero_add, zero_add, min_eq_left]
    rw [div_le_one hLpos]; linarith
  obtain ⟨r', hr', hcl⟩ := forall₂_get hrc hget
  refine ⟨_, by rw [List.getElem?_map, hr']; rfl, ?_⟩
  have hoff : ∀ d ∈ zoneRanges n (1 / L * (t.width / 2)),
      OffEnds (δ / L) ((pre.map Edge.length).sum / L, ((pre.map Edge.length).sum + e.length) / L) d.1 ∧
      OffEnds (δ / L) ((pre.map Edge.length).sum / L, ((pre.map Edge.length).sum + e.length) / L) d.2 := by
    intro d hd
    obtain ⟨i, hi, rfl⟩ := zoneRanges_mem hn hd
    have c1 := happ pre (e :: post) hedges i hi
    have c2 := happ (pre ++ [e]) post (by simp [hedges]) i hi
    rw [List.map_append, List.sum_append, List.map_singleton, List.sum_singleton] at c2
    unfold OffEnds
    simp only
    exact ⟨⟨by rw [abs_sub_comm]; exact c1.1, by rw [abs_sub_comm]; exact c2.1⟩,
      ⟨by rw [abs_sub_comm]; exact c1.2, by rw [abs_sub_comm]; exact c2.2⟩⟩
  have := wireTransitions_close (by rw [← hμ]; exact hμε) (ε := ε) ⟨hcl.1.trans (by linarith), hcl.2.trans (by linarith)⟩
    (by positivity) ((div_le_one hLpos).mpr (by linarith)) hg hdc hoff
  rwa [show (((pre.map Edge.length).sum + e.length) / L - (pre.map Edge.length).sum / L) = e.length / L from by ring] at this

theorem increasing_le_last {ts : List (ℚ × Transition)} (hi : Increasing ts) {b : ℚ} (hl : ts.getLast?.map Prod.fst = some b) :
    ∀ p ∈ ts, p.1 ≤ b := by
  unfold Increasing at hi
  induction ts with
  | nil => intro p hp; cases hp
  | cons a l ih =>
    rw [List.pairwise_cons] at hi
    cases l with
    | nil =>
      intro p hp
      simp only [List.mem_singleton] at hp
      simp only [List.getLast?_singleton, Option.map_some, Option.some.injEq] at hl
      rw [hp, hl]
    | cons c l =>
      rw [List.getLast?_cons_cons] at hl
      intro p hp
      rcases List.mem_cons.mp hp with rfl | hp
      · exact (hi.1 c (by simp)).le.trans (ih hi.2 hl c (by simp))
      · exact ih hi.2 hl p hp

theorem head_le_increasing {ts : List (ℚ × Transition)} (hi : Increasing ts) {b : ℚ} (hl : ts.head?.map Prod.fst = some b) :
    ∀ p ∈ ts, b ≤ p.1 := by
  unfold Increasing at hi
  cases ts with
  | nil => intro p hp; cases hp
  | cons a l =>
    rw [List.pairwise_cons] at hi
    simp only [List.head?_cons, Option.map_some, Option.some.injEq] at hl
    intro p hp
    rcases List.mem_cons.mp hp with rfl | hp
    · exact hl.ge
    · rw [← hl]; exact (hi.1 p hp).le

/-- The transitions in floating point: they mark the zones up to the error, are in order, and fit together. -/
theorem transitions64_fit {t : WireTabs} {n k : ℕ} (hn : 0 < n) (hc : t.count = n) (hw : 2 ^ (-200 : ℤ) ≤ t.width)
    {w : List Edge} (hne : w ≠ []) {L : ℚ} (hL : L = (w.map Edge.length).sum) (hbig : L ≤ 2 ^ (200 : ℤ)) {δ : ℚ}
    (hδ0 : 0 ≤ δ) (hap : EndsApart δ n t.width L w) (hδ : 2 * tabError w.length k * L ≤ δ) {W total : ℚ}
    (hW : NearLength k L W) (htotal : NearLength k L total) (hfirst : FirstTabApart n t.width L w) :
    ∃ tss, t.transitions64 W total w = .ok tss ∧ tss.length = w.length ∧ (∀ ts ∈ tss, ProperTransitions ts) ∧ TabsMeet tss ∧
      NearMarks (tabError w.length k * L) n t.width L w tss := by
  have hn0 : (0 : ℚ) < n := by exact_mod_cast hn
  have hw0 : 0 < t.width := lt_of_lt_of_le (two_zpow_pos _) hw
  have hLn : t.width + δ < L / n := hap.between
  have hLpos : 0 < L := by
    have : 0 < L / n := by linarith
    by_contra h
    exact absurd (div_nonpos_of_nonpos_of_nonneg (not_lt.mp h) hn0.le) (not_le.mpr this)
  have hfit : t.width * n < L := by
    have : t.width < L / n := by linarith
    rwa [lt_div_iff₀ hn0] at this
  have hlen : ∀ e ∈ w, 0 < e.length := fun e he => lt_of_le_of_lt hδ0 (hap.edges e he)
  have hmul : (n : ℚ) * (L / n) = L := by field_simp
  have hpos : ∀ l : List Edge, (∀ e ∈ l, e ∈ w) → 0 ≤ (l.map Edge.length).sum := by
    intro l hl
    apply List.sum_nonneg
    intro x hx
    obtain ⟨y, hy, rfl⟩ := List.mem_map.mp hx
    exact (hlen y (hl y hy)).le
  have hcorner : ∀ pre post, w = pre ++ post → ∀ i : ℤ, (pre.map Edge.length).sum ≠ i * (L / n) - t.width / 2 ∧
      (pre.map Edge.length).sum ≠ i * (L / n) + t.width / 2 := by
    intro pre post h i
    have h0 : 0 ≤ (pre.map Edge.length).sum := hpos pre (by intro x hx; rw [h]; simp [hx])
    have h1 : (pre.map Edge.length).sum ≤ L := by
      have := hpos post (by intro x hx; rw [h]; simp [hx])
      rw [hL, h, List.map_append, List.sum_append]; linarith
    have hLn0 : 0 < L / n := by linarith
    rcases lt_or_ge i 0 with hi | hi
    · have : (i : ℚ) * (L / n) ≤ -1 * (L / n) := by
        apply mul_le_mul_of_nonneg_right _ hLn0.le
        exact_mod_cast Int.le_sub_one_of_lt hi
      constructor <;> intro h <;> linarith
    · rcases le_or_gt i n with hi' | hi'
      · obtain ⟨m, rfl⟩ := Int.eq_ofNat_of_zero_le hi
        have := hap.corners pre post h m (by exact_mod_cast hi')
        constructor
        · intro heq
          rw [heq] at this
          simp only [Int.cast_natCast, sub_self, abs_zero] at this
          linarith [this.1]
        · intro heq
          rw [heq] at this
          simp only [Int.cast_natCast, sub_self, abs_zero] at this
          linarith [this.2]
      · have : ((n : ℚ) + 1) * (L / n) ≤ i * (L / n) := by
          apply mul_le_mul_of_nonneg_right _ hLn0.le
          exact_mod_cast hi'
        rw [add_mul, hmul] at this
        constructor <;> intro h <;> linarith
  obtain ⟨tss, htr, hlent, hproper, hmeet, hmarks⟩ := wireTabs_fit hne hlen hn hc hw0 hL hfit hfirst hcorner
  obtain ⟨tss', htr', hlent', hclose⟩ := transitions64_close hn hc hw hne hL hbig hδ0 hap hδ hW htotal
  -- the exact transitions, edge by edge
  have hexact : ∀ pre e post, w = pre ++ e :: post → tss[pre.length]? =
      some (wireTransitions ((pre.map Edge.length).sum / L, ((pre.map Edge.length).sum + e.length) / L)
        (zoneRanges n (1 / L * (t.width / 2)))) := by
    intro pre e post h
    have hrange : edgeRanges (w.map Edge.length) = .ok (edgeRangesFrom L 0 (w.map Edge.length)) := by
      unfold edgeRanges
      rw [if_neg (by rintro ⟨-, h⟩; rw [← hL] at h; exact hLpos.ne' h), ← hL]
    simp only [Tabs.transitions, tabDs_eq hn hc hLpos hw0 hfit, ok_bind, hrange] at htr
    cases htr
    have hb0 : 0 ≤ (post.map Edge.length).sum := hpos post (by intro x hx; rw [h]; simp [hx])
    have hsum : L = (pre.map Edge.length).sum + e.length + (post.map Edge.length).sum := by
      rw [hL, h]; simp; ring
    have := edgeRangesFrom_get (L := L) (pre.map Edge.length) (post.map Edge.length) e.length 0
    rw [List.length_map] at this
    rw [List.getElem?_map, h, List.map_append, List.map_cons, this, zero_add, zero_add, min_eq_left]
    · rfl
    · rw [div_le_one hLpos]; linarith
  have hsplit : ∀ i (hi : i < w.length), w = w.take i ++ w[i] :: w.drop (i + 1) := by
    intro i hi
    rw [List.getElem_cons_drop, List.take_append_drop]
  -- kinds are the same
  have hkinds : ∀ i (hi : i < w.length), ∃ ts ts' f c, tss[i]? = some ts ∧ tss'[i]? = some ts' ∧ List.Forall₂ (CloseTr f c) ts ts' := by
    intro i hi
    obtain ⟨ts', g1, g2⟩ := hclose _ _ _ (hsplit i hi)
    have g3 := hexact _ _ _ (hsplit i hi)
    rw [List.length_take, min_eq_left hi.le] at g1 g3
    exact ⟨_, _, _, _, g3, g1, g2⟩
  refine ⟨tss', htr', hlent', ?_, ⟨?_, ?_⟩, ?_⟩
  · intro ts' hts'
    obtain ⟨i, hi, rfl⟩ := List.mem_iff_getElem.mp hts'
    have hi' : i < w.length := by omega
    obtain ⟨ts', g1, g2⟩ := hclose _ _ _ (hsplit i hi')
    have g3 := hexact _ _ _ (hsplit i hi')
    rw [List.length_take, min_eq_left hi'.le] at g1 g3
    rw [List.getElem?_eq_getElem hi] at g1
    cases g1
    have hp := hproper _ (List.mem_of_getElem? g3)
    have hel := hap.edges w[i] (List.getElem_mem hi')
    have hel0 := hlen w[i] (List.getElem_mem hi')
    generalize hA : ((w.take i).map Edge.length).sum = A at *
    have hrr : A / L < (A + w[i].length) / L := by
      apply div_lt_div_of_pos_right _ hLpos; linarith
    have hf : (A + w[i].length) / L - A / L = w[i].length / L := by ring
    refine ⟨increasing_close (by positivity) g2 hp.increasing ?_, fullEdge_close g2 hp.full, alternates_close g2 hp.alternates⟩
    have hgL : 2 * tabError w.length k ≤ δ / L := by rw [le_div_iff₀ hLpos]; exact hδ
    have hfg : δ / L < w[i].length / L := div_lt_div_of_pos_right hel hLpos
    have hends : ∀ v, (∃ d ∈ zoneRanges n (1 / L * (t.width / 2)), v = d.1 ∨ v = d.2) →
        δ / L < |A / L - v| ∧ δ / L < |(A + w[i].length) / L - v| := by
      rintro v ⟨d, hd, hv⟩
      obtain ⟨j, hj, rfl⟩ := zoneRanges_mem hn hd
      have c1 := hap.corners (w.take i) (w.drop i) (List.take_append_drop _ _).symm j hj
      have c2 := hap.corners (w.take i ++ [w[i]]) (w.drop (i + 1)) (by rw [List.append_assoc]; exact hsplit i hi') j hj
      rw [List.map_append, List.sum_append, List.map_singleton, List.sum_singleton] at c2
      rw [hA] at c1 c2
      have hscale : ∀ c : ℚ, |c / L - (j / n - 1 / L * (t.width / 2))| = |c - (j * (L / n) - t.width / 2)| / L ∧
          |c / L - (j / n + 1 / L * (t.width / 2))| = |c - (j * (L / n) + t.width / 2)| / L := by
        intro c
        rw [← abs_of_pos hLpos, ← abs_div, ← abs_div, abs_of_pos hLpos]
        constructor <;> congr 1 <;> field_simp
      rcases hv with rfl | rfl
      · rw [(hscale _).1, (hscale _).1]
        exact ⟨div_lt_div_of_pos_right c1.1 hLpos, div_lt_div_of_pos_right c2.1 hLpos⟩
      · rw [(hscale _).2, (hscale _).2]
        exact ⟨div_lt_div_of_pos_right c1.2 hLpos, div_lt_div_of_pos_right c2.2 hLpos⟩
    have hhw : 2 * (1 / L * (t.width / 2)) = t.width / L := by field_simp
    have z1 : δ / L < 2 * (1 / L * (t.width / 2)) := by rw [hhw]; exact div_lt_div_of_pos_right hap.tabs hLpos
    have z2 : 2 * (1 / L * (t.width / 2)) + δ / L < 1 / n := by
      rw [hhw, ← add_div, div_lt_div_iff₀ hLpos hn0, one_mul, ← lt_div_iff₀ hn0]; exact hLn
    have z0 : 0 ≤ δ / L := by positivity
    have hfpos : 0 < w[i].length / L := by positivity
    intro p hp q hq hpq
    have hP := wireTransitions_at hrr hp
    have hQ := wireTransitions_at hrr hq
    simp only [hf] at hP hQ
    have hA2 : (A + w[i].length) / L = A / L + w[i].length / L := by ring
    have hlt : p.1 * (w[i].length / L) < q.1 * (w[i].length / L) := mul_lt_mul_of_pos_right hpq hfpos
    rw [sub_mul]
    rcases hP with hP | hP | ⟨u, hu, hP⟩ <;> rcases hQ with hQ | hQ | ⟨v, hv, hQ⟩
    · linarith
    · rw [hP, hQ]; linarith
    · have := (hends v hv).1
      rw [hP, zero_mul] at hlt ⊢
      rw [abs_of_neg (by linarith)] at this
      linarith
    · linarith
    · linarith
    · exfalso
      obtain ⟨d, hd, _⟩ := hv
      have hq1 : q.1 ≤ 1 := by
        have hinc := (hproper _ (List.mem_of_getElem? g3)).increasing
        have hfull := (hproper _ (List.mem_of_getElem? g3)).full.2
        exact increasing_le_last hinc hfull q hq
      linarith
    · exfalso
      have hp0 : 0 ≤ p.1 := by
        have hinc := (hproper _ (List.mem_of_getElem? g3)).increasing
        have hfull := (hproper _ (List.mem_of_getElem? g3)).full.1
        exact head_le_increasing hinc hfull p hp
      linarith
    · have := (hends u hu).2
      rw [hQ, one_mul] at hlt ⊢
      rw [hP] at hlt ⊢
      rw [abs_of_pos (by linarith)] at this
      linarith
    · have := zoneEnds_apart hn z1 z2 z0 hu hv (by linarith)
      linarith
  · rw [List.isChain_iff_getElem]
    intro i hi
    have hm := hmeet.1
    rw [List.isChain_iff_getElem] at hm
    obtain ⟨ts, ts', f, c, a1, a2, a3⟩ := hkinds i (by omega)
    obtain ⟨us, us', f', c', b1, b2, b3⟩ := hkinds (i + 1) (by omega)
    have := hm i (by omega)
    rw [List.getElem?_eq_getElem (by omega)] at a1 a2 b1 b2
    cases a1; cases a2; cases b1; cases b2
    rw [← endsTab_close a3, ← startsTab_close b3]
    exact this
  · intro a b ha hb
    have hwl : 0 < w.length := List.length_pos_iff.mpr hne
    rw [List.head?_eq_getElem?] at ha
    rw [List.getLast?_eq_getElem?] at hb
    obtain ⟨ts, ts', f, c, a1, a2, a3⟩ := hkinds 0 hwl
    obtain ⟨us, us', f', c', b1, b2, b3⟩ := hkinds (w.length - 1) (by omega)
    rw [hlent', b2] at hb
    rw [a2] at ha
    cases ha; cases hb
    rw [← endsTab_close b3, ← startsTab_close a3]
    refine hmeet.2 _ _ (by rw [List.head?_eq_getElem?]; exact a1) (by rw [List.getLast?_eq_getElem?, hlent]; exact b1)
  · intro pre e post h
    obtain ⟨ts', g1, g2⟩ := hclose pre e post h
    have g3 := hexact pre e post h
    obtain ⟨ts, g4, g5⟩ := hmarks pre e post h
    rw [g3] at g4
    cases g4
    refine ⟨ts', g1, ?_⟩
    intro x hx0 hx1 haway
    rw [← g5 x hx0 hx1, ← marked_close]
    have hel0 := hlen e (by rw [h]; simp)
    generalize (pre.map Edge.length).sum = A at *
    have hrr : A / L < (A + e.length) / L := by
      apply div_lt_div_of_pos_right _ hLpos; linarith
    have hf : (A + e.length) / L - A / L = e.length / L := by ring
    have hfpos : 0 < e.length / L := by positivity
    refine forall₂_mem g2 ?_
    intro p hp q hpq
    refine ⟨hpq.1, ?_⟩
    have hP := wireTransitions_at hrr hp
    simp only [hf] at hP
    rcases hP with hP | hP | ⟨v, ⟨d, hd, hv⟩, hP⟩
    · rw [hP, hpq.2.2.1.mp hP]
    · rw [hP, hpq.2.2.2.mp hP]
    · obtain ⟨j, hj, rfl⟩ := zoneRanges_mem hn hd
      have haw := haway j hj
      have hfar : tabError w.length k < |x - p.1| * (e.length / L) := by
        have e1 : |x - p.1| * (e.length / L) = |(A + x * e.length) / L - v| := by
          rw [← abs_of_pos hfpos, ← abs_mul, sub_mul, hP]; congr 1; ring
        rw [e1]
        have hscale : ∀ c : ℚ, |c / L - (j / n - 1 / L * (t.width / 2))| = |c - (j * (L / n) - t.width / 2)| / L ∧
            |c / L - (j / n + 1 / L * (t.width / 2))| = |c - (j * (L / n) + t.width / 2)| / L := by
          intro c
          rw [← abs_of_pos hLpos, ← abs_div, ← abs_div, abs_of_pos hLpos]
          constructor <;> congr 1 <;> field_simp
        rcases hv with rfl | rfl
        · rw [(hscale _).1, lt_div_iff₀ hLpos]; exact haw.1
        · rw [(hscale _).2, lt_div_iff₀ hLpos]; exact haw.2
      have hlt : |q.1 - p.1| < |x - p.1| := lt_of_mul_lt_mul_right (lt_of_le_of_lt hpq.2.1 hfar) hfpos.le
      rcases lt_or_ge x p.1 with hxp | hxp
      · rw [abs_of_neg (by linarith : x - p.1 < 0), abs_lt] at hlt
        exact ⟨fun h => absurd h (not_le.mpr hxp), fun h => by linarith [hlt.1]⟩
      · rw [abs_of_nonneg (by linarith : 0 ≤ x - p.1), abs_lt] at hlt
        exact ⟨fun _ => by linarith [hlt.2], fun _ => hxp⟩

/-- C131 (what is missing: tabs that begin or end at a corner of the contour, up to rounding; some of them are refused and others are
left out).  Tabs around a flat pass whose positions are computed in floating point: if the ends of the tabs are further from
the corners and from each other than `δ`, which only has to be above twice the error of rounding, the pass becomes a connected wire that
follows the pass at its height outside the tabs, and at the top of the tabs inside them; the ends of the tabs are where
they are to be, up to the error of rounding. -/
theorem C131_tabs_partial {cad : Cad} (hA : Assembles cad) {ze tabZ : ℚ} (hz : ze < tabZ) {w : List Edge}
    (hne : w ≠ []) (hbox : cad.zmin w < tabZ) (hflat : ∀ e ∈ w, FlatEdge ze e) (hch : Chained w)
    {t : WireTabs} {n k : ℕ} (hn : 0 < n) (hc : t.count = n) (hw : 2 ^ (-200 : ℤ) ≤ t.width) {L : ℚ}
    (hL : L = (w.map Edge.length).sum) (hbig : L ≤ 2 ^ (200 : ℤ)) {δ : ℚ} (hδ0 : 0 ≤ δ) (hap : EndsApart δ n t.width L w)
    (hδ : 2 * tabError w.length k * L ≤ δ) {total : ℚ} (hW : NearLength k L (cad.wireLength w)) (htotal : NearLength k L total)
    (hfirst : FirstTabApart n t.width L w) :
    ∃ tss w', applyTabs64 cad total tabZ t w = .ok w' ∧ TabbedWire tabZ w tss w' ∧ Chained w' ∧ (Closes w → Closes w') ∧
      w'.Pairwise (fun a b => a.id ≠ b.id) ∧ NearMarks (tabError w.length k * L) n t.width L w tss ∧ ∀ ts ∈ tss, FullEdge ts := by
  obtain ⟨tss, h1, h2, h3, h4, h5⟩ := transitions64_fit hn hc hw hne hL hbig hδ0 hap hδ hW htotal hfirst
  obtain ⟨new, w', g1, g2, g3, g4, g5, g6⟩ := tabEdges_assembled hA hz hne hflat hch h2 h3 h4
  refine ⟨tss, w', ?_, g3, g4, g5, g6, h5, fun ts hts => (h3 ts hts).full⟩
  unfold applyTabs64
  rw [if_neg (not_le.mpr hbox), h1, ok_bind, g1, ok_bind, g2]

/-- The transitions in millimetres. -/
theorem transitions64_millimetres {w : List Edge} (hne : w ≠ []) (hm : w.length ≤ 1000) {t : WireTabs} {n : ℕ} (hn : 0 < n)
    (hc : t.count = n) {L : ℚ} (hL : L = (w.map Edge.length).sum) (hbig : L ≤ 10 ^ 5) (hap : EndsApart (1 / 10 ^ 5) n t.width L w)
    {W total : ℚ} (hW : NearLength 1000 L W) (htotal : NearLength 1000 L total) (hfirst : FirstTabApart n t.width L w) :
    ∃ tss, t.transitions64 W total w = .ok tss ∧ tss.length = w.length ∧ (∀ ts ∈ tss, ProperTransitions ts) ∧ TabsMeet tss ∧
      NearMarks (5 / 10 ^ 6) n t.width L w tss := by
  have hw : (2 : ℚ) ^ (-200 : ℤ) ≤ t.width := le_trans (by norm_num) hap.tabs.le
  have hb : L ≤ 2 ^ (200 : ℤ) := hbig.trans (by norm_num)
  have hn0 : (0 : ℚ) < n := by exact_mod_cast hn
  have hLpos : 0 ≤ L := by
    have h1 := hap.between
    have h2 := hap.tabs
    by_contra h
    have := div_nonpos_of_nonpos_of_nonneg (not_le.mp h).le hn0.le
    linarith
  have hmq : (w.length : ℚ) ≤ 1000 := by exact_mod_cast hm
  have hE : tabError w.length 1000 ≤ 5 / 10 ^ 11 := by
    unfold tabError
    push_cast
    have : (2 : ℚ) ^ (-52 : ℤ) = 1 / 4503599627370496 := by norm_num
    rw [this]
    linarith
  have hEL : tabError w.length 1000 * L ≤ 5 / 10 ^ 6 := by
    calc tabError w.length 1000 * L ≤ 5 / 10 ^ 11 * 10 ^ 5 := mul_le_mul hE hbig hLpos (by norm_num)
      _ = 5 / 10 ^ 6 := by norm_num
  obtain ⟨tss, h1, h2, h3, h4, h6⟩ := transitions64_fit hn hc hw hne hL hb (by norm_num) hap (k := 1000) (by linarith) hW htotal hfirst
  refine ⟨tss, h1, h2, h3, h4, ?_⟩
  intro pre e post h
  obtain ⟨ts, g1, g2⟩ := h6 pre e post h
  exact ⟨ts, g1, fun x hx0 hx1 ha => g2 x hx0 hx1 (fun j hj => ⟨lt_of_le_of_lt hEL (ha j hj).1, lt_of_le_of_lt hEL (ha j hj).2⟩)⟩

/-- C131 in millimetres: contours of at most 1000 edges and 100 m, whose length and sum of lengths are known up to 1000 units
of rounding, and tabs that end at least 10 nm from the corners and from each other: their ends are right up to 5 nm. -/
theorem C131_millimetres_partial {cad : Cad} (hA : Assembles cad) {ze tabZ : ℚ} (hz : ze < tabZ) {w : List Edge}
    (hne : w ≠ []) (hbox : cad.zmin w < tabZ) (hflat : ∀ e ∈ w, FlatEdge ze e) (hch : Chained w) (hm : w.length ≤ 1000)
    {t : WireTabs} {n : ℕ} (hn : 0 < n) (hc : t.count = n) {L : ℚ}
    (hL : L = (w.map Edge.length).sum) (hbig : L ≤ 10 ^ 5) (hap : EndsApart (1 / 10 ^ 5) n t.width L w)
    {total : ℚ} (hW : NearLength 1000 L (cad.wireLength w)) (htotal : NearLength 1000 L total)
    (hfirst : FirstTabApart n t.width L w) :
    ∃ tss w', applyTabs64 cad total tabZ t w = .ok w' ∧ TabbedWire tabZ w tss w' ∧ Chained w' ∧ (Closes w → Closes w') ∧
      w'.Pairwise (fun a b => a.id ≠ b.id) ∧ NearMarks (5 / 10 ^ 6) n t.width L w tss ∧ ∀ ts ∈ tss, FullEdge ts := by
  obtain ⟨tss, h1, h2, h3, h4, h5⟩ := transitions64_millimetres hne hm hn hc hL hbig hap hW htotal hfirst
  obtain ⟨new, w', g1, g2, g3, g4, g5, g6⟩ := tabEdges_assembled hA hz hne hflat hch h2 h3 h4
  refine ⟨tss, w', ?_, g3, g4, g5, g6, h5, fun ts hts => (h3 ts hts).full⟩
  unfold applyTabs64
  rw [if_neg (not_le.mpr hbox), h1, ok_bind, g1, ok_bind, g2]

/-- A plate of 35 by 30 mm. -/
def tabPlate : List Edge :=
  outline [(1, ⟨0, 0⟩, ⟨35, 0⟩, 35), (2, ⟨35, 0⟩, ⟨35, 30⟩, 30), (3, ⟨35, 30⟩, ⟨0, 30⟩, 35), (4, ⟨0, 30⟩, ⟨0, 0⟩, 30)]

theorem tabPlate_flat : ∀ e ∈ tabPlate, FlatEdge (-1) e := by
  intro e he
  simp only [tabPlate, outline, List.map_cons, List.map_nil, List.mem_cons, List.not_mem_nil, or_false] at he
  rcases he with rfl | rfl | rfl | rfl <;> exact lineEdge_flat (by norm_num)

/-- The plate with four tabs of width 4 meets the hypotheses of `C131_millimetres_partial`: the nearest end of a tab is half a
millimetre from a corner. -/
example : Assembles strictCad ∧ strictCad.zmin tabPlate = -1 ∧ (∀ e ∈ tabPlate, FlatEdge (-1) e) ∧ Chained tabPlate ∧
    Closes tabPlate ∧ tabPlate.length ≤ 1000 ∧ (130 : ℚ) = (tabPlate.map Edge.length).sum ∧
    EndsApart (1 / 10 ^ 5) 4 4 130 tabPlate ∧ NearLength 1000 130 (strictCad.wireLength tabPlate) ∧
    FirstTabApart 4 4 130 tabPlate := by
  have split5 : ∀ pre post, tabPlate = pre ++ post → (pre.map Edge.length).sum = 0 ∨ (pre.map Edge.length).sum = 35 ∨
      (pre.map Edge.length).sum = 65 ∨ (pre.map Edge.length).sum = 100 ∨ (pre.map Edge.length).sum = 130 := by
    intro pre post h
    have hp : pre = tabPlate.take pre.length := by rw [h]; simp
    have hl : pre.length ≤ 4 := by
      have := congrArg List.length h
      simp only [List.length_append] at this
      have h4 : tabPlate.length = 4 := rfl
      omega
    rw [hp]
    generalize pre.length = m at hl
    interval_cases m <;> decide +kernel
  refine ⟨strictCad_assembles, by decide +kernel, tabPlate_flat, by decide +kernel, ?_, by decide +kernel, by decide +kernel,
    ⟨?_, by norm_num, by norm_num, by decide +kernel⟩, ?_, ?_⟩
  · intro a b ha hb; cases ha; cases hb; decide +kernel
  · intro pre post h k hk
    rcases split5 pre post h with h | h | h | h | h <;> rw [h] <;> interval_cases k <;> norm_num <;> decide +kernel
  · unfold NearLength
    have : strictCad.wireLength tabPlate = 130 := by decide +kernel
    rw [this, sub_self, abs_zero]; positivity
  · intro pre e post h
    have h1 := split5 pre (e :: post) h
    have h2 := split5 (pre ++ [e]) post (by simp [h])
    rw [List.map_append, List.sum_append, List.map_singleton, List.sum_singleton] at h2
    have he : 0 < e.length ∧ e.length ≤ 35 := by
      have : ∀ e ∈ tabPlate, 0 < e.length ∧ e.length ≤ 35 := by decide +kernel
      exact this e (by rw [h]; simp)
    obtain ⟨he, he'⟩ := he
    right
    rcases h1 with h1 | h1 | h1 | h1 | h1 <;> rw [h1] at h2 ⊢ <;> rcases h2 with h2 | h2 | h2 | h2 | h2 <;>
      first
      | (exfalso; linarith)
      | (left; rw [h2]; norm_num; done)
      | (right; norm_num; done)

/-- C131 does not hold in full.  On a plate of 35 by 30 mm, four tabs of width 5 mm are refused, because the last one ends at a
corner up to rounding; with a width of `5 - 2^-50` mm they are refused as well, although the exact positions would give a
pass with tabs; and with a width of `5 - 2^-47` mm the pass is cut without any tab, where the exact positions would give
tabs. -/
theorem C131_violated : Assembles strictCad ∧ strictCad.zmin tabPlate < -1 / 2 ∧ (∀ e ∈ tabPlate, FlatEdge (-1) e) ∧
    Chained tabPlate ∧ IsDouble (5 - 1 / 2 ^ 50 : ℚ) ∧ IsDouble (5 - 1 / 2 ^ 47 : ℚ) ∧
    applyTabs64 strictCad 130 (-1 / 2) ⟨4, 5, 1⟩ tabPlate = .error .stdFail ∧
    applyTabs64 strictCad 130 (-1 / 2) ⟨4, 5 - 1 / 2 ^ 50, 1⟩ tabPlate = .error .stdFail ∧
    (∃ w', applyTabs strictCad (-1 / 2) (.wire ⟨4, 5 - 1 / 2 ^ 50, 1⟩) tabPlate = .ok w' ∧ w'.length = 20) ∧
    applyTabs64 strictCad 130 (-1 / 2) ⟨4, 5 - 1 / 2 ^ 47, 1⟩ tabPlate = .ok tabPlate ∧
    (∃ w', applyTabs strictCad (-1 / 2) (.wire ⟨4, 5 - 1 / 2 ^ 47, 1⟩) tabPlate = .ok w' ∧ w'.length = 20) := by
  have herr : ∀ x : Except Err (List Edge), (match x with | .error .stdFail => true | _ => false) = true → x = .error .stdFail := by
    intro x hx
    match x with
    | .error .stdFail => rfl
    | .ok _ => cases hx
  have hok : ∀ x : Except Err (List Edge), (match x with | .ok w' => decide (w'.length = 20) | .error _ => false) = true →
      ∃ w', x = .ok w' ∧ w'.length = 20 := by
    intro x hx
    cases x with
    | error _ => cases hx
    | ok w' => exact ⟨w', rfl, by simpa using hx⟩
  refine ⟨strictCad_assembles, by decide +kernel, tabPlate_flat, by decide +kernel, ?_, ?_, herr _ (by decide +kernel),
    herr _ (by decide +kernel), hok _ (by decide +kernel), ?_, hok _ (by decide +kernel)⟩
  · have : b64 (5 - 1 / 2 ^ 50) = 5 - 1 / 2 ^ 50 := by decide +kernel
    rw [← this]; exact b64_isDouble _
  · have : b64 (5 - 1 / 2 ^ 47) = 5 - 1 / 2 ^ 47 := by decide +kernel
    rw [← this]; exact b64_isDouble _
  · have hm : (match WireTabs.transitions64 ⟨4, 5 - 1 / 2 ^ 47, 1⟩ (strictCad.wireLength tabPlate) 130 tabPlate with
        | .ok tss => (match tabEdges (-1 / 2) tabPlate tss with | .ok new => decide (¬ Chained new) | .error _ => false)
        | .error _ => false) = true := by decide +kernel
    unfold applyTabs64
    rw [if_neg (by decide +kernel)]
    cases h1 : WireTabs.transitions64 ⟨4, 5 - 1 / 2 ^ 47, 1⟩ (strictCad.wireLength tabPlate) 130 tabPlate with
    | error e => rw [h1] at hm; cases hm
    | ok tss =>
      rw [h1] at hm
      simp only at hm
      rw [ok_bind]
      cases h2 : tabEdges (-1 / 2) tabPlate tss with
      | error e => rw [h2] at hm; cases hm
      | ok new =>
        rw [h2] at hm
        have hc : ¬ Chained new := by simpa using hm
        rw [ok_bind, show strictCad.assemble new = .error .stdFail from if_neg hc]

end CQ
