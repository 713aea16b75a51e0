import Verif.Spec.Tabs
import Verif.Proofs.Except
import Verif.Props.Profile
import Mathlib.Tactic.Ring
import Mathlib.Tactic.Linarith
import Mathlib.Tactic.FieldSimp
import Mathlib.Tactic.Positivity
import Mathlib.Algebra.Order.Floor.Semiring

/-! # C49, C50: tabs -/

namespace CQ

theorem linspace_inner (c : ℕ) :
    (linspace 0 1 (c + 2)).tail.dropLast = (List.range c).map (fun k : ℕ => ((k : ℚ) + 1) / (c + 1)) := by
  have h1 : (linspace 0 1 (c + 2)).tail = (List.range (c + 1)).map (fun k : ℕ => ((k : ℚ) + 1) / (c + 1)) := by
    unfold linspace
    rw [show c + 2 = (c + 1) + 1 from rfl, List.range_succ_eq_map, List.map_cons, List.tail_cons, List.map_map]
    refine List.map_congr_left fun k _ => ?_
    simp only [Function.comp, Nat.cast_succ]
    rw [show ((c : ℚ) + 1 + 1 - 1) = c + 1 from by ring]
    ring
  rw [h1, List.range_succ, List.map_append]
  simp

/-- C49.  For every edge of the selected kind and every accepted configuration (with a positive width), there are
`⌊length / spacing⌋` tabs; they have the requested width, their centres divide the edge evenly, and they lie inside it. -/
theorem C49_tabs {spacing width height : ℚ} {only : Option Geom} {t : EdgeTabs}
    (hnew : EdgeTabs.new spacing width height only = .ok t) (hw : 0 < width) {e : Edge} (hL : 0 < e.length)
    (ho : only = none ∨ only = some e.geom) :
    ∃ ds, t.edgeDs e = .ok ds ∧ ds.length = ⌊e.length / spacing⌋₊ ∧ ∀ (k : ℕ) (d : ℚ × ℚ), ds[k]? = some d →
      (d.1 + d.2) / 2 = (k + 1) / (ds.length + 1) ∧ (d.2 - d.1) * e.length = width ∧ 0 < d.1 ∧ d.1 < d.2 ∧ d.2 < 1 := by
  have hsw : width < spacing ∧ t = ⟨spacing, width, height, only⟩ := by
    unfold EdgeTabs.new at hnew
    split at hnew
    · cases hnew
    · rename_i h; cases hnew; exact ⟨not_le.mp h, rfl⟩
  obtain ⟨hsw, rfl⟩ := hsw
  have hs : 0 < spacing := hw.trans hsw
  have hcond : (only.isSome && decide (only ≠ some e.geom)) = false := by
    rcases ho with rfl | rfl <;> simp
  have hq : 0 ≤ e.length / spacing := by positivity
  have hfl : ⌊e.length / spacing⌋ = (⌊e.length / spacing⌋₊ : ℤ) := (Int.natCast_floor_eq_floor hq).symm
  set n := ⌊e.length / spacing⌋₊ with hn
  have hnL : (n : ℚ) * spacing ≤ e.length := (le_div_iff₀ hs).mp (Nat.floor_le hq)
  simp only [EdgeTabs.edgeDs, hcond, Bool.false_eq_true, if_false, hs.ne', hfl]
  by_cases h0 : n = 0
  · refine ⟨[], by simp [h0], by simp [h0], by simp⟩
  · have hpos : 0 < n := Nat.pos_of_ne_zero h0
    refine ⟨_, by rw [if_neg (by omega)], ?_, ?_⟩
    · simp [linspace_inner]
    · intro k d hd
      rw [Int.toNat_natCast, linspace_inner, List.map_map, List.getElem?_map] at hd
      have hk : k < n := by
        by_contra hk
        rw [List.getElem?_eq_none (by simpa using not_lt.mp hk)] at hd
        cases hd
      rw [List.getElem?_eq_getElem (by simpa using hk)] at hd
      simp only [List.getElem_range, Option.map_some, Option.some.injEq, Function.comp] at hd
      subst hd
      simp only [Int.toNat_natCast, linspace_inner, List.length_map, List.length_range]
      have hn1 : (0 : ℚ) < n + 1 := by positivity
      have hk' : (k : ℚ) + 1 ≤ n := by exact_mod_cast hk
      have hk0 : (0 : ℚ) ≤ k := by positivity
      have hn1' : (1 : ℚ) ≤ n := by exact_mod_cast hpos
      -- half a tab is less than the distance between centres
      have hhalf : 1 / e.length * (width / 2) < 1 / (n + 1) := by
        rw [one_div_mul_eq_div, div_div, div_lt_div_iff₀ (by positivity) hn1]
        nlinarith
      have hc0 : 1 / (n + 1 : ℚ) ≤ ((k : ℚ) + 1) / (n + 1) := by
        gcongr; linarith
      have hc1 : ((k : ℚ) + 1) / (n + 1) + 1 / (n + 1) ≤ 1 := by
        rw [← add_div, div_le_one hn1]; linarith
      have hpw : 0 < 1 / e.length * (width / 2) := by positivity
      refine ⟨by ring, ?_, by linarith, by linarith, by linarith⟩
      field_simp
      ring

/-- C49: edges of other kinds than the selected one have no tabs. -/
theorem C49_other_kinds {t : EdgeTabs} {g : Geom} (ho : t.only = some g) {e : Edge} (hg : e.geom ≠ g) :
    t.edgeDs e = .ok [] := by
  simp [EdgeTabs.edgeDs, ho, Ne.symm hg]

theorem edgeTransitions_marked (ds : List (ℚ × ℚ)) (x : ℚ) :
    MarkedTab (edgeTransitions ds) x ↔ ∃ d ∈ ds, d.1 ≤ x ∧ x < d.2 := by
  unfold edgeTransitions
  have key : ∀ (p : ℚ), MarkedTab ((p, .normal) :: (ds.flatMap (fun d => [(d.1, Transition.tab), (d.2, .normal)]) ++
      [(1, .normal)])) x ↔ ∃ d ∈ ds, d.1 ≤ x ∧ x < d.2 := by
    induction ds with
    | nil => intro p; simp [MarkedTab]
    | cons d ds ih =>
      intro p
      simp only [List.flatMap_cons, List.cons_append, List.nil_append, MarkedTab, List.mem_cons, exists_eq_or_imp,
        reduceCtorEq, false_and, false_or, true_and]
      rw [← ih d.2]
  exact key 0

theorem edgeTransitions_pairwise {ds : List (ℚ × ℚ)} : Increasing (edgeTransitions ds) ↔
    (0 : ℚ) < 1 ∧ (∀ d ∈ ds, 0 < d.1 ∧ d.1 < d.2 ∧ d.2 < 1) ∧ ds.Pairwise (fun a b => a.2 < b.1 ∧ a.1 < b.1 ∧ a.1 < b.2 ∧ a.2 < b.2) := by
  unfold edgeTransitions Increasing
  have hmem : ∀ (ds : List (ℚ × ℚ)) (P : ℚ → Prop), (∀ a ∈ ds.flatMap (fun d => [(d.1, Transition.tab), (d.2, .normal)]), P a.1) ↔
      ∀ d ∈ ds, P d.1 ∧ P d.2 := by
    intro ds P
    simp only [List.mem_flatMap, List.mem_cons, List.not_mem_nil, or_false]
    constructor
    · intro h d hd
      exact ⟨h (d.1, .tab) ⟨d, hd, Or.inl rfl⟩, h (d.2, .normal) ⟨d, hd, Or.inr rfl⟩⟩
    · rintro h a ⟨d, hd, rfl | rfl⟩
      · exact (h d hd).1
      · exact (h d hd).2
  rw [List.pairwise_cons]
  have h1 : (∀ a' ∈ ds.flatMap (fun d => [(d.1, Transition.tab), (d.2, .normal)]) ++ [((1 : ℚ), Transition.normal)], (0 : ℚ) < a'.1) ↔
      (∀ d ∈ ds, 0 < d.1 ∧ 0 < d.2) ∧ (0 : ℚ) < 1 := by
    rw [List.forall_mem_append, hmem ds (fun z => 0 < z)]
    simp
  rw [h1, List.pairwise_append]
  have h2 : (ds.flatMap (fun d => [(d.1, Transition.tab), (d.2, .normal)])).Pairwise (fun a b => a.1 < b.1) ↔
      (∀ d ∈ ds, d.1 < d.2) ∧ ds.Pairwise (fun a b => a.2 < b.1 ∧ a.1 < b.1 ∧ a.1 < b.2 ∧ a.2 < b.2) := by
    induction ds with
    | nil => simp
    | cons d ds ih =>
      simp only [List.flatMap_cons, List.cons_append, List.nil_append, List.pairwise_cons, List.mem_cons, forall_eq_or_imp]
      have ih' : (ds.flatMap (fun d => [(d.1, Transition.tab), (d.2, .normal)])).Pairwise (fun a b => a.1 < b.1) ↔
          (∀ d ∈ ds, d.1 < d.2) ∧ ds.Pairwise (fun a b => a.2 < b.1 ∧ a.1 < b.1 ∧ a.1 < b.2 ∧ a.2 < b.2) := by
        apply ih
        rw [List.forall_mem_append, hmem ds (fun z => 0 < z)]
        simp
      rw [ih', hmem ds (fun z => d.1 < z), hmem ds (fun z => d.2 < z)]
      constructor
      · rintro ⟨⟨a, b⟩, c, f, g⟩
        exact ⟨⟨a, f⟩, fun x hx => ⟨(c x hx).1, (b x hx).1, (b x hx).2, (c x hx).2⟩, g⟩
      · rintro ⟨⟨a, f⟩, c, g⟩
        exact ⟨⟨a, fun x hx => ⟨(c x hx).2.1, (c x hx).2.2.1⟩⟩, fun x hx => ⟨(c x hx).1, (c x hx).2.2.2⟩, f, g⟩
  rw [h2]
  have h3 : (∀ a ∈ ds.flatMap (fun d => [(d.1, Transition.tab), (d.2, .normal)]), ∀ b ∈ [((1 : ℚ), Transition.normal)], a.1 < b.1) ↔
      ∀ d ∈ ds, d.1 < 1 ∧ d.2 < 1 := by
    rw [← hmem ds (fun z => z < 1)]
    simp
  rw [h3]
  constructor
  · rintro ⟨⟨a, b⟩, ⟨c, d⟩, -, f⟩
    exact ⟨b, fun x hx => ⟨(a x hx).1, c x hx, (f x hx).2⟩, d⟩
  · rintro ⟨a, b, c⟩
    exact ⟨⟨fun x hx => ⟨(b x hx).1, (b x hx).1.trans (b x hx).2.1⟩, a⟩, ⟨fun x hx => (b x hx).2.1, c⟩, by simp,
      fun x hx => ⟨(b x hx).2.1.trans (b x hx).2.2, (b x hx).2.2⟩⟩

/-- C49 (as far as it holds).  The transitions of an edge mark exactly its tabs; and they are in increasing order (the
tabs do not overlap or touch) **if and only if** there is at most one tab, or the edge is longer than one more tab than it
has. -/
theorem C49_transitions_partial {spacing width height : ℚ} {only : Option Geom} {t : EdgeTabs}
    (hnew : EdgeTabs.new spacing width height only = .ok t) (hw : 0 < width) {e : Edge} (hL : 0 < e.length)
    (ho : only = none ∨ only = some e.geom) :
    ∃ ds, t.edgeDs e = .ok ds ∧ FullEdge (edgeTransitions ds) ∧
      (∀ x, MarkedTab (edgeTransitions ds) x ↔ ∃ d ∈ ds, d.1 ≤ x ∧ x < d.2) ∧
      (Increasing (edgeTransitions ds) ↔ ds.length ≤ 1 ∨ width * (ds.length + 1) < e.length) := by
  obtain ⟨ds, h1, -, h3⟩ := C49_tabs hnew hw hL ho
  refine ⟨ds, h1, ⟨rfl, ?_⟩, edgeTransitions_marked ds, ?_⟩
  · unfold edgeTransitions
    rw [← List.cons_append, List.getLast?_append]
    rfl
  · rw [edgeTransitions_pairwise]
    have hcen : ∀ k (h : k < ds.length), (ds[k].1 = (k + 1) / (ds.length + 1) - width / e.length / 2 ∧
        ds[k].2 = (k + 1) / (ds.length + 1) + width / e.length / 2) := by
      intro k hk
      obtain ⟨a, b, -⟩ := h3 k ds[k] (List.getElem?_eq_getElem hk)
      have hb : ds[k].2 - ds[k].1 = width / e.length := by rw [← b]; field_simp
      constructor <;> linarith
    have hn1 : (0 : ℚ) < ds.length + 1 := by positivity
    constructor
    · rintro ⟨-, -, h⟩
      by_contra hcon
      push Not at hcon
      obtain ⟨hlen, hle⟩ := hcon
      have := (List.pairwise_iff_getElem.mp h 0 1 (by omega) (by omega) (by omega)).1
      rw [(hcen 0 (by omega)).2, (hcen 1 (by omega)).1] at this
      push_cast at this
      have h5 : width / e.length < 1 / (ds.length + 1) := by
        have : (1 + 1 : ℚ) / (ds.length + 1) - (0 + 1) / (ds.length + 1) = 1 / (ds.length + 1) := by
          rw [← sub_div]; norm_num
        linarith
      rw [div_lt_div_iff₀ hL hn1] at h5
      linarith
    · intro h
      refine ⟨one_pos, ?_, ?_⟩
      · intro d hd
        obtain ⟨k, hk, rfl⟩ := List.getElem_of_mem hd
        exact (h3 k ds[k] (List.getElem?_eq_getElem hk)).2.2
      · rw [List.pairwise_iff_getElem]
        intro i j hi hj hij
        rcases h with h | h
        · omega
        · have h5 : width / e.length < 1 / (ds.length + 1) := by
            rw [div_lt_div_iff₀ hL hn1]; linarith
          have h6 : ((i : ℚ) + 1) / (ds.length + 1) + 1 / (ds.length + 1) ≤ (j + 1) / (ds.length + 1) := by
            rw [← add_div]
            gcongr
            exact_mod_cast hij
          have h7 : 0 < width / e.length := by positivity
          rw [(hcen i hi).1, (hcen i hi).2, (hcen j hj).1, (hcen j hj).2]
          refine ⟨?_, ?_, ?_, ?_⟩ <;> linarith

/-- C49: a spacing of more than one and a half tab widths is enough for every edge. -/
theorem C49_wide_spacing {spacing width height : ℚ} {only : Option Geom} {t : EdgeTabs}
    (hnew : EdgeTabs.new spacing width height only = .ok t) (hw : 0 < width) (hs : 3 * width < 2 * spacing) {e : Edge}
    (hL : 0 < e.length) (ho : only = none ∨ only = some e.geom) :
    ∃ ds, t.edgeDs e = .ok ds ∧ Increasing (edgeTransitions ds) := by
  obtain ⟨ds, h1, -, -, h4⟩ := C49_transitions_partial hnew hw hL ho
  obtain ⟨ds', h1', h2, -⟩ := C49_tabs hnew hw hL ho
  rw [h1] at h1'
  cases h1'
  refine ⟨ds, h1, h4.mpr ?_⟩
  by_cases hl : ds.length ≤ 1
  · exact Or.inl hl
  · right
    have hspos : 0 < spacing := by linarith
    have hnL : (ds.length : ℚ) * spacing ≤ e.length := by
      rw [h2]
      exact (le_div_iff₀ hspos).mp (Nat.floor_le (by positivity))
    have h2' : (2 : ℚ) ≤ ds.length := by exact_mod_cast Nat.lt_of_not_le hl
    nlinarith

/-- C49 is false: with a spacing of 11/10 and a width of 1 – accepted by the constructor – the two tabs of an edge of
length 22/10 overlap. -/
theorem C49_violated (e : Edge) (hL : e.length = 22 / 10) : ∃ t d1 d2, EdgeTabs.new (11 / 10) 1 1 = .ok t ∧
    t.edgeDs e = .ok [d1, d2] ∧ d2.1 < d1.2 ∧ ¬ Increasing (edgeTransitions [d1, d2]) := by
  refine ⟨⟨11 / 10, 1, 1, none⟩, (1 / 3 - 5 / 22, 1 / 3 + 5 / 22), (2 / 3 - 5 / 22, 2 / 3 + 5 / 22),
    by unfold EdgeTabs.new; rw [if_neg (by norm_num)], ?_, by norm_num, ?_⟩
  · simp only [EdgeTabs.edgeDs, Option.isSome_none, Bool.false_and, Bool.false_eq_true, if_false]
    rw [if_neg (by norm_num), hL, show ⌊(22 / 10 : ℚ) / (11 / 10)⌋ = 2 from by norm_num, if_neg (by norm_num)]
    simp only [show (2 : ℤ).toNat = 2 from rfl, linspace_inner, List.range_succ, List.range_zero]
    norm_num
  · rw [edgeTransitions_pairwise]
    norm_num

/-- The hypotheses of C49 hold for a straight edge of length 10 with spacing 3 and width 1, which gets 3 tabs. -/
example : ∃ t, EdgeTabs.new 3 1 1 = .ok t ∧ (0 : ℚ) < 1 ∧ ⌊(10 : ℚ) / 3⌋₊ = 3 ∧ (3 : ℚ) * 1 < 2 * 3 :=
  ⟨⟨3, 1, 1, none⟩, by decide +kernel, one_pos, (Nat.floor_eq_iff (by norm_num)).mpr (by norm_num), by norm_num⟩

/-! ### C50 -/

/-- The tab touches the edge. -/
def Touches (r t : ℚ × ℚ) : Prop := t.1 ≤ r.2 ∧ r.1 < t.2

theorem tabTransitions_touch {r t : ℚ × ℚ} (hr : r.1 < r.2) (h : Touches r t) :
    tabTransitions r t = ((if t.1 ≤ r.1 then 0 else (t.1 - r.1) / (r.2 - r.1)), .tab) ::
      (if t.2 ≤ r.2 then [((t.2 - r.1) / (r.2 - r.1), .normal)] else []) := by
  obtain ⟨h1, h2⟩ := h
  have hd : 0 < r.2 - r.1 := by linarith
  have hclamp : ∀ d, r.1 < d → d ≤ r.2 → wireDToEdgeD d r = (d - r.1) / (r.2 - r.1) := by
    intro d ha hb
    unfold wireDToEdgeD
    rw [max_eq_left (by apply div_nonneg <;> linarith), min_eq_left (by rw [div_le_one hd]; linarith)]
  unfold tabTransitions
  by_cases ha : t.1 ≤ r.1
  · rw [if_pos ⟨ha, h2⟩, if_neg (by intro h; linarith [h.1]), if_pos ha]
    by_cases hb : t.2 ≤ r.2
    · rw [if_pos ⟨h2, hb⟩, if_pos hb, hclamp _ h2 hb]; rfl
    · rw [if_neg (fun h => hb h.2), if_neg hb]; rfl
  · rw [if_neg (fun h => ha h.1), if_pos ⟨not_le.mp ha, h1⟩, if_neg ha, hclamp _ (not_le.mp ha) h1]
    by_cases hb : t.2 ≤ r.2
    · rw [if_pos ⟨h2, hb⟩, if_pos hb, hclamp _ h2 hb]; rfl
    · rw [if_neg (fun h => hb h.2), if_neg hb]; rfl

theorem tabTransitions_away {r t : ℚ × ℚ} (hr : r.1 < r.2) (ht : t.1 < t.2) (h : ¬ Touches r t) : tabTransitions r t = [] := by
  unfold tabTransitions
  unfold Touches at h
  rw [if_neg, if_neg, if_neg]
  · rfl
  all_goals
    rintro ⟨a, b⟩
    apply h
    constructor <;> linarith

theorem padBack_append (u : List (ℚ × Transition)) {v : List (ℚ × Transition)} (hv : v ≠ []) :
    padBack (u ++ v) = u ++ padBack v := by
  unfold padBack
  rw [List.getLast?_append_of_ne_nil _ hv]
  split
  · rfl
  · rw [List.append_assoc]

theorem padBack_last {v : List (ℚ × Transition)} : (padBack v).getLast?.map Prod.fst = some 1 := by
  unfold padBack
  split
  · assumption
  · simp

theorem padBack_ne {v : List (ℚ × Transition)} (hv : v ≠ []) : padBack v ≠ [] := by
  unfold padBack
  split
  · exact hv
  · simp

/-- The tabs that touch an edge, in order along the wire and apart from each other. -/
theorem wireTransitions_sorted {r : ℚ × ℚ} (hr : r.1 < r.2) {ds : List (ℚ × ℚ)} (hne : ds ≠ [])
    (ht : ∀ t ∈ ds, t.1 < t.2 ∧ Touches r t) (hp : ds.Pairwise (fun a b => a.2 < b.1)) :
    ∃ p T, ds.flatMap (tabTransitions r) = (p, .tab) :: T ∧ 0 ≤ p ∧
      (∀ t, ds.head? = some t → p = if t.1 ≤ r.1 then 0 else (t.1 - r.1) / (r.2 - r.1)) ∧
      Increasing (padBack ((p, .tab) :: T)) ∧
      ∀ x, 0 ≤ x → x < 1 → (MarkedTab (padBack ((p, .tab) :: T)) x ↔
        ∃ t ∈ ds, t.1 ≤ r.1 + x * (r.2 - r.1) ∧ r.1 + x * (r.2 - r.1) < t.2) := by
  have hd : 0 < r.2 - r.1 := by linarith
  have hlow : ∀ t : ℚ × ℚ, ∀ x, 0 ≤ x → ((if t.1 ≤ r.1 then 0 else (t.1 - r.1) / (r.2 - r.1)) ≤ x ↔
      t.1 ≤ r.1 + x * (r.2 - r.1)) := by
    intro t x hx
    have := mul_nonneg hx hd.le
    split
    · exact ⟨fun _ => by linarith, fun _ => hx⟩
    · rw [div_le_iff₀ hd]
      constructor <;> intro h <;> linarith
  have hhigh : ∀ (z x : ℚ), x < (z - r.1) / (r.2 - r.1) ↔ r.1 + x * (r.2 - r.1) < z := by
    intro z x
    rw [lt_div_iff₀ hd]
    constructor <;> intro h <;> linarith
  have hp0 : ∀ t : ℚ × ℚ, 0 ≤ (if t.1 ≤ r.1 then 0 else (t.1 - r.1) / (r.2 - r.1)) := by
    intro t
    split
    · exact le_rfl
    · rename_i h
      apply div_nonneg _ hd.le
      linarith
  induction ds with
  | nil => exact absurd rfl hne
  | cons t ds ih =>
    obtain ⟨hlt, htouch⟩ := ht t (by simp)
    have hpp : (if t.1 ≤ r.1 then 0 else (t.1 - r.1) / (r.2 - r.1)) < (t.2 - r.1) / (r.2 - r.1) := by
      split
      · apply div_pos _ hd; linarith [htouch.2]
      · exact div_lt_div_of_pos_right (by linarith) hd
    rw [List.flatMap_cons, tabTransitions_touch hr htouch]
    by_cases hds : ds = []
    · subst hds
      refine ⟨_, _, by rw [List.flatMap_nil, List.append_nil], hp0 t, by simp, ?_⟩
      by_cases hb : t.2 ≤ r.2
      · simp only [if_pos hb]
        have hle1 : (t.2 - r.1) / (r.2 - r.1) ≤ 1 := by rw [div_le_one hd]; linarith
        by_cases h1 : (t.2 - r.1) / (r.2 - r.1) = 1
        · have hpb : padBack [((if t.1 ≤ r.1 then 0 else (t.1 - r.1) / (r.2 - r.1)), Transition.tab),
              ((t.2 - r.1) / (r.2 - r.1), .normal)] = [((if t.1 ≤ r.1 then 0 else (t.1 - r.1) / (r.2 - r.1)), Transition.tab),
              ((t.2 - r.1) / (r.2 - r.1), .normal)] := by simp [padBack, h1]
          rw [hpb]
          refine ⟨by simpa [Increasing] using hpp, ?_⟩
          intro x hx hx1
          simp only [MarkedTab, true_and, or_false, hlow t x hx, hhigh, List.mem_singleton, exists_eq_left]
        · have hpb : padBack [((if t.1 ≤ r.1 then 0 else (t.1 - r.1) / (r.2 - r.1)), Transition.tab),
              ((t.2 - r.1) / (r.2 - r.1), .normal)] = [((if t.1 ≤ r.1 then 0 else (t.1 - r.1) / (r.2 - r.1)), Transition.tab),
              ((t.2 - r.1) / (r.2 - r.1), .normal), (1, .ignore)] := by simp [padBack, h1]
          have hlt1 := lt_of_le_of_ne hle1 h1
          rw [hpb]
          refine ⟨?_, ?_⟩
          · simp only [Increasing, List.pairwise_cons, List.mem_cons, List.not_mem_nil, or_false, forall_eq_or_imp, forall_eq,
              hpp, hlt1, hpp.trans hlt1, false_imp_iff, implies_true, List.Pairwise.nil, and_true]
          · intro x hx hx1
            simp only [MarkedTab, true_and, or_false, reduceCtorEq, false_and, hlow t x hx, hhigh, List.mem_singleton, exists_eq_left]
      · simp only [if_neg hb]
        have hle1 : (if t.1 ≤ r.1 then 0 else (t.1 - r.1) / (r.2 - r.1)) ≤ 1 := by
          split
          · exact zero_le_one
          · rw [div_le_one hd]; linarith [htouch.1]
        generalize hpe : (if t.1 ≤ r.1 then 0 else (t.1 - r.1) / (r.2 - r.1)) = p at *
        have hy : ∀ x, x < 1 → r.1 + x * (r.2 - r.1) < t.2 := by
          intro x hx
          nlinarith [not_le.mp hb]
        by_cases h1 : p = 1
        · have hpb : padBack [(p, Transition.tab)] = [(p, .tab)] := by simp [padBack, h1]
          rw [hpb]
          refine ⟨by simp [Increasing], ?_⟩
          intro x hx hx1
          have := hlow t x hx
          rw [hpe, h1] at this
          simp only [MarkedTab, List.mem_singleton, exists_eq_left, false_iff, not_and]
          intro h
          linarith [this.mpr h]
        · have hpb : padBack [(p, Transition.tab)] = [(p, .tab), (1, .ignore)] := by simp [padBack, h1]
          rw [hpb]
          refine ⟨by simpa [Increasing] using lt_of_le_of_ne hle1 h1, ?_⟩
          intro x hx hx1
          have := hlow t x hx
          rw [hpe] at this
          simp only [MarkedTab, true_and, or_false, this, hx1, and_true, List.mem_singleton, exists_eq_left, hy x hx1]
    · rw [List.pairwise_cons] at hp
      obtain ⟨p', T', h1, h2, h3, h4, h5⟩ := ih hds (fun x hx => ht x (by simp [hx])) hp.2
      obtain ⟨t', ds', rfl⟩ := List.exists_cons_of_ne_nil hds
      have hgap := hp.1 t' (by simp)
      have ht' := ht t' (by simp)
      have hb : t.2 ≤ r.2 := by linarith [ht'.2.1]
      have hgt : ¬ t'.1 ≤ r.1 := by
        have := htouch.2
        linarith
      have hp' : p' = (t'.1 - r.1) / (r.2 - r.1) := by
        rw [h3 t' rfl, if_neg hgt]
      have hmid : (t.2 - r.1) / (r.2 - r.1) < p' := by
        rw [hp']; exact div_lt_div_of_pos_right (by linarith) hd
      refine ⟨_, ((t.2 - r.1) / (r.2 - r.1), .normal) :: (p', .tab) :: T', by rw [if_pos hb, h1]; rfl, hp0 t, by simp, ?_⟩
      have hpb : ∀ q : ℚ, padBack ((q, Transition.tab) :: ((t.2 - r.1) / (r.2 - r.1), .normal) :: (p', .tab) :: T') =
          (q, .tab) :: ((t.2 - r.1) / (r.2 - r.1), .normal) :: padBack ((p', .tab) :: T') := by
        intro q
        exact padBack_append [(q, .tab), ((t.2 - r.1) / (r.2 - r.1), .normal)] (by simp)
      rw [hpb]
      obtain ⟨R, hR⟩ : ∃ R, padBack ((p', Transition.tab) :: T') = (p', .tab) :: R := by
        unfold padBack
        split
        · exact ⟨_, rfl⟩
        · exact ⟨_, rfl⟩
      rw [hR] at h4 h5 ⊢
      constructor
      · have hall : ∀ b ∈ (p', Transition.tab) :: R, p' ≤ b.1 := by
          intro b hb
          rcases List.mem_cons.mp hb with rfl | hb
          · exact le_rfl
          · exact ((List.pairwise_cons.mp h4).1 b hb).le
        unfold Increasing
        rw [List.pairwise_cons, List.pairwise_cons]
        refine ⟨?_, ?_, h4⟩
        · intro b hb
          rcases List.mem_cons.mp hb with rfl | hb
          · exact hpp
          · exact hpp.trans (hmid.trans_le (hall b hb))
        · intro b hb
          exact hmid.trans_le (hall b hb)
      · intro x hx hx1
        have := h5 x hx hx1
        simp only [MarkedTab, true_and, reduceCtorEq, false_and, false_or, hlow t x hx, hhigh]
        rw [this]
        simp only [List.mem_cons, exists_eq_or_imp]

/-- The transitions of one edge when the tabs that touch it come in order and apart from each other. -/
theorem wireTransitions_spec {r : ℚ × ℚ} (hr : r.1 < r.2) {ds : List (ℚ × ℚ)} (ht : ∀ t ∈ ds, t.1 < t.2)
    (hp : ds.Pairwise (fun a b => Touches r a → Touches r b → a.2 < b.1)) :
    Increasing (wireTransitions r ds) ∧ FullEdge (wireTransitions r ds) ∧
      ∀ x, 0 ≤ x → x < 1 → (MarkedTab (wireTransitions r ds) x ↔
        ∃ t ∈ ds, t.1 ≤ r.1 + x * (r.2 - r.1) ∧ r.1 + x * (r.2 - r.1) < t.2) := by
  classical
  have hd : 0 < r.2 - r.1 := by linarith
  have hfilter : ds.flatMap (tabTransitions r) = (ds.filter (fun t => decide (Touches r t))).flatMap (tabTransitions r) := by
    clear hp
    induction ds with
    | nil => rfl
    | cons t ds ih =>
      rw [List.flatMap_cons, ih (fun x hx => ht x (by simp [hx]))]
      by_cases h : Touches r t
      · rw [List.filter_cons_of_pos (by simpa using h), List.flatMap_cons]
      · rw [List.filter_cons_of_neg (by simpa using h), tabTransitions_away hr (ht t (by simp)) h, List.nil_append]
  have hpf : (ds.filter (fun t => decide (Touches r t))).Pairwise (fun a b => a.2 < b.1) := by
    rw [List.pairwise_filter]
    refine hp.imp ?_
    intro a b h ha hb
    exact h (by simpa using ha) (by simpa using hb)
  have htouch : ∀ x, 0 ≤ x → x < 1 → ∀ t ∈ ds, t.1 ≤ r.1 + x * (r.2 - r.1) → r.1 + x * (r.2 - r.1) < t.2 → Touches r t := by
    intro x hx hx1 t _ h1 h2
    constructor <;> nlinarith
  have hmem : ∀ x, 0 ≤ x → x < 1 → ((∃ t ∈ ds.filter (fun t => decide (Touches r t)), t.1 ≤ r.1 + x * (r.2 - r.1) ∧
      r.1 + x * (r.2 - r.1) < t.2) ↔ ∃ t ∈ ds, t.1 ≤ r.1 + x * (r.2 - r.1) ∧ r.1 + x * (r.2 - r.1) < t.2) := by
    intro x hx hx1
    constructor
    · rintro ⟨t, h1, h2⟩; exact ⟨t, (List.mem_filter.mp h1).1, h2⟩
    · rintro ⟨t, h1, h2⟩
      exact ⟨t, List.mem_filter.mpr ⟨h1, by simpa using htouch x hx hx1 t h1 h2.1 h2.2⟩, h2⟩
  unfold wireTransitions
  rw [hfilter]
  by_cases hnil : ds.filter (fun t => decide (Touches r t)) = []
  · have h0 : padBack (padFront ([].flatMap (tabTransitions r))) = [(0, .normal), (1, .ignore)] := by
      simp [padBack, padFront]
    rw [hnil] at hmem ⊢
    rw [h0]
    refine ⟨by simp [Increasing], ⟨rfl, rfl⟩, ?_⟩
    intro x hx hx1
    rw [← hmem x hx hx1]
    simp [MarkedTab]
  · obtain ⟨p, T, h1, h2, -, h4, h5⟩ := wireTransitions_sorted hr hnil (fun t h => ⟨ht t (List.mem_filter.mp h).1,
      by simpa using (List.mem_filter.mp h).2⟩) hpf
    rw [h1]
    by_cases hp0 : p = 0
    · have : padFront ((p, Transition.tab) :: T) = (p, .tab) :: T := by simp [padFront, hp0]
      rw [this]
      refine ⟨h4, ⟨?_, padBack_last⟩, ?_⟩
      · unfold padBack
        split <;> simp [hp0]
      · intro x hx hx1
        rw [h5 x hx hx1, hmem x hx hx1]
    · have : padFront ((p, Transition.tab) :: T) = (0, .normal) :: (p, .tab) :: T := by simp [padFront, hp0]
      rw [this]
      have hpb := padBack_append [(0, Transition.normal)] (v := (p, Transition.tab) :: T) (by simp)
      rw [List.singleton_append, List.singleton_append] at hpb
      obtain ⟨R, hR⟩ : ∃ R, padBack ((p, Transition.tab) :: T) = (p, .tab) :: R := by
        unfold padBack
        split
        · exact ⟨_, rfl⟩
        · exact ⟨_, rfl⟩
      refine ⟨?_, ⟨by rw [hpb]; rfl, padBack_last⟩, ?_⟩
      · rw [hpb]
        unfold Increasing
        rw [List.pairwise_cons]
        refine ⟨?_, h4⟩
        have hpos := lt_of_le_of_ne h2 (Ne.symm hp0)
        rw [hR] at h4 ⊢
        intro b hb
        rcases List.mem_cons.mp hb with rfl | hb
        · exact hpos
        · exact hpos.trans ((List.pairwise_cons.mp h4).1 b hb)
      · intro x hx hx1
        rw [← hmem x hx hx1, ← h5 x hx hx1, hpb, hR]
        simp [MarkedTab]

theorem alternates_of_chain {l : List (ℚ × Transition)}
    (h : List.IsChain (fun a b : ℚ × Transition => a.2 = .tab ↔ b.2 ≠ .tab) l) :
    Alternates l ∧ ∀ x, Alternates (l ++ [x]) := by
  induction l with
  | nil => exact ⟨trivial, fun _ => trivial⟩
  | cons a l ih =>
    cases l with
    | nil => exact ⟨trivial, fun _ => trivial⟩
    | cons b l =>
      obtain ⟨h1, h2⟩ := List.isChain_cons_cons.mp h
      obtain ⟨i1, i2⟩ := ih h2
      constructor
      · cases l with
        | nil => trivial
        | cons c l => exact ⟨h1, i1⟩
      · intro x
        have := i2 x
        cases l with
        | nil => exact ⟨h1, trivial⟩
        | cons c l => exact ⟨h1, this⟩

theorem wireTransitions_alternates {r : ℚ × ℚ} (hr : r.1 < r.2) {ds : List (ℚ × ℚ)} (ht : ∀ t ∈ ds, t.1 < t.2)
    (hp : ds.Pairwise (fun a b => Touches r a → Touches r b → a.2 < b.1)) : Alternates (wireTransitions r ds) := by
  have hchain : List.IsChain (fun a b : ℚ × Transition => a.2 = .tab ↔ b.2 ≠ .tab) (ds.flatMap (tabTransitions r)) ∧
      (∀ x, (ds.flatMap (tabTransitions r)).head? = some x → x.2 = .tab ∧ ∃ t ∈ ds, Touches r t) := by
    induction ds with
    | nil => simp
    | cons t ds ih =>
      rw [List.pairwise_cons] at hp
      obtain ⟨i1, i2⟩ := ih (fun x hx => ht x (by simp [hx])) hp.2
      rw [List.flatMap_cons]
      by_cases htouch : Touches r t
      · rw [tabTransitions_touch hr htouch]
        cases hf : ds.flatMap (tabTransitions r) with
        | nil =>
          refine ⟨?_, ?_⟩
          · split <;> split <;> simp
          · intro x hx
            cases hx
            exact ⟨rfl, t, by simp, htouch⟩
        | cons y ys =>
          rw [hf] at i1 i2
          obtain ⟨h1, t', ht', htouch'⟩ := i2 y rfl
          have hb : t.2 ≤ r.2 := ((hp.1 t' ht' htouch htouch').trans_le htouch'.1).le
          rw [if_pos hb]
          refine ⟨?_, ?_⟩
          · refine List.isChain_cons_cons.mpr ⟨by simp, List.isChain_cons_cons.mpr ⟨by simp [h1], i1⟩⟩
          · intro x hx
            cases hx
            exact ⟨rfl, t, by simp, htouch⟩
      · rw [tabTransitions_away hr (ht t (by simp)) htouch, List.nil_append]
        refine ⟨i1, fun x hx => ?_⟩
        obtain ⟨a, t', b, c⟩ := i2 x hx
        exact ⟨a, t', by simp [b], c⟩
  have hfront : List.IsChain (fun a b : ℚ × Transition => a.2 = .tab ↔ b.2 ≠ .tab)
      (padFront (ds.flatMap (tabTransitions r))) := by
    unfold padFront
    split
    · exact hchain.1
    · cases hf : ds.flatMap (tabTransitions r) with
      | nil => simp
      | cons y ys =>
        rw [hf] at hchain
        exact List.isChain_cons_cons.mpr ⟨by simp [(hchain.2 y rfl).1], hchain.1⟩
  unfold wireTransitions padBack
  split
  · exact (alternates_of_chain hfront).1
  · exact (alternates_of_chain hfront).2 _

/-- The tab ranges of a wire: the one around the start, its copy around the end, then the others. -/
def zoneRanges (n : ℕ) (h : ℚ) : List (ℚ × ℚ) :=
  (-h, h) :: (1 - h, 1 + h) :: (List.range (n - 1)).map (fun k : ℕ => (((k : ℚ) + 1) / n - h, ((k : ℚ) + 1) / n + h))

theorem tabDs_eq {t : WireTabs} {n : ℕ} (hn : 0 < n) (hc : t.count = n) {L : ℚ} (hL : 0 < L) (hw : 0 < t.width)
    (hfit : t.width * n < L) :
    t.tabDs L = .ok (zoneRanges n (1 / L * (t.width / 2))) := by
  have hn0 : (0 : ℚ) < n := by exact_mod_cast hn
  have hhpos : 0 < 1 / L * (t.width / 2) := by positivity
  have hh : 2 * (1 / L * (t.width / 2)) * n < 1 := by
    have : 2 * (1 / L * (t.width / 2)) * n = t.width * n / L := by field_simp
    rw [this, div_lt_one hL]; exact hfit
  unfold WireTabs.tabDs
  rw [if_neg hL.ne', if_neg (by omega), hc, Int.toNat_natCast]
  generalize 1 / L * (t.width / 2) = h at *
  obtain ⟨m, rfl⟩ : ∃ m, n = m + 1 := ⟨n - 1, by omega⟩
  have hh1 : h < 1 := by
    have : (1 : ℚ) ≤ (m + 1 : ℕ) := by exact_mod_cast hn
    nlinarith
  rw [List.range_succ_eq_map, List.flatMap_cons, List.flatMap_map]
  have h0 : wireTabRange h (((0 : ℕ) : ℚ) / (m + 1 : ℕ)) = [(-h, h), (1 - h, 1 + h)] := by
    unfold wireTabRange
    rw [if_pos (by simpa using hhpos), if_neg (by simpa using hh1.le)]
    simp only [Nat.cast_zero, zero_div, zero_sub, zero_add, List.append_nil, List.singleton_append]
    rw [show -h + 1 = 1 - h from by ring, show h + 1 = 1 + h from by ring]
  rw [h0]
  have hrest : ∀ l : List ℕ, (∀ k ∈ l, k < m) → l.flatMap (fun k : ℕ => wireTabRange h ((Nat.succ k : ℕ) / (m + 1 : ℕ))) =
      l.map (fun k : ℕ => ((((k : ℚ) + 1) / (m + 1 : ℕ) - h), ((k : ℚ) + 1) / (m + 1 : ℕ) + h)) := by
    intro l hl
    induction l with
    | nil => rfl
    | cons k l ih =>
      rw [List.flatMap_cons, List.map_cons, ih (fun x hx => hl x (by simp [hx]))]
      have hk : (k : ℚ) + 1 ≤ m := by exact_mod_cast hl k (by simp)
      have hk0 : (0 : ℚ) ≤ k := by positivity
      have hm1 : ((m + 1 : ℕ) : ℚ) = m + 1 := by push_cast; rfl
      have a1 : h < ((k : ℚ) + 1) / (m + 1 : ℕ) := by
        rw [lt_div_iff₀ hn0]; nlinarith
      have a2 : ((k : ℚ) + 1) / (m + 1 : ℕ) + h < 1 := by
        rw [← lt_sub_iff_add_lt, div_lt_iff₀ hn0]
        rw [hm1] at hh ⊢
        nlinarith
      unfold wireTabRange
      rw [Nat.cast_succ, if_neg (by linarith), if_neg (by linarith)]
      rfl
  rw [hrest _ (by simp)]
  rfl

/-- The zones, in fractions of the wire. -/
theorem inZone_iff {n : ℕ} (hn : 0 < n) {w L : ℚ} (hL : 0 < L) (hw : 0 < w) (hfit : w * n < L) {y : ℚ} (h0 : 0 ≤ y) (h1 : y < 1) :
    InZone n w L (y * L) ↔ ∃ t ∈ zoneRanges n (1 / L * (w / 2)), t.1 ≤ y ∧ y < t.2 := by
  unfold zoneRanges
  have hn0 : (0 : ℚ) < n := by exact_mod_cast hn
  have hh : 2 * (1 / L * (w / 2)) * n < 1 := by
    have : 2 * (1 / L * (w / 2)) * n = w * n / L := by field_simp
    rw [this, div_lt_one hL]; exact hfit
  have hhpos : 0 < 1 / L * (w / 2) := by positivity
  have hz : InZone n w L (y * L) ↔ ∃ k : ℤ, k / n - 1 / L * (w / 2) ≤ y ∧ y < k / n + 1 / L * (w / 2) := by
    unfold InZone
    refine exists_congr fun k => ?_
    have e1 : (k : ℚ) * (L / n) - w / 2 = (k / n - 1 / L * (w / 2)) * L := by field_simp
    have e2 : (k : ℚ) * (L / n) + w / 2 = (k / n + 1 / L * (w / 2)) * L := by field_simp
    rw [e1, e2, mul_le_mul_iff_left₀ hL, mul_lt_mul_iff_left₀ hL]
  rw [hz]
  generalize 1 / L * (w / 2) = h at *
  simp only [List.mem_cons, exists_eq_or_imp, List.mem_map, List.mem_range]
  constructor
  · rintro ⟨k, ha, hb⟩
    have hk0 : 0 ≤ k := by
      by_contra hneg
      have : (k : ℚ) ≤ -1 := by exact_mod_cast (by omega : k ≤ -1)
      have h3 : (k : ℚ) / n ≤ -1 / n := by gcongr
      have h4 : h < 1 / n := by rw [lt_div_iff₀ hn0]; nlinarith
      have : (-1 : ℚ) / n = -(1 / n) := by ring
      linarith
    have hkn : k ≤ n := by
      by_contra hneg
      have : (n : ℚ) + 1 ≤ k := by exact_mod_cast (by omega : (n : ℤ) + 1 ≤ k)
      have h3 : ((n : ℚ) + 1) / n ≤ k / n := by gcongr
      have h4 : h < 1 / n := by rw [lt_div_iff₀ hn0]; nlinarith
      have : ((n : ℚ) + 1) / n = 1 + 1 / n := by field_simp
      linarith
    rcases eq_or_lt_of_le hk0 with rfl | hkpos
    · left; simpa using ⟨by simpa using ha, by simpa using hb⟩
    · rcases eq_or_lt_of_le hkn with rfl | hklt
      · right; left
        have : (((n : ℤ) : ℚ) / n) = 1 := by
          rw [Int.cast_natCast]; exact div_self hn0.ne'
        rw [this] at ha hb
        exact ⟨ha, hb⟩
      · right; right
        refine ⟨_, ⟨(k - 1).toNat, by omega, rfl⟩, ?_⟩
        have hc : (((k - 1).toNat : ℕ) : ℚ) + 1 = k := by
          have : (((k - 1).toNat : ℕ) : ℤ) = k - 1 := Int.toNat_of_nonneg (by omega)
          have h2 : (((k - 1).toNat : ℕ) : ℚ) = ((k - 1 : ℤ) : ℚ) := by exact_mod_cast this
          rw [h2]; push_cast; ring
        simp only [hc]
        exact ⟨ha, hb⟩
  · rintro (⟨ha, hb⟩ | ⟨ha, hb⟩ | ⟨_, ⟨k, hk, rfl⟩, ha, hb⟩)
    · exact ⟨0, by simpa using ha, by simpa using hb⟩
    · refine ⟨n, ?_, ?_⟩ <;> rw [Int.cast_natCast, div_self hn0.ne'] <;> assumption
    · exact ⟨(k : ℤ) + 1, by push_cast; exact ha, by push_cast; exact hb⟩

theorem edgeRangesFrom_get {L : ℚ} (pre post : List ℚ) (l prev : ℚ) :
    (edgeRangesFrom L prev (pre ++ l :: post))[pre.length]? =
      some (prev + pre.sum / L, min (prev + (pre.sum + l) / L) 1) := by
  induction pre generalizing prev with
  | nil => simp [edgeRangesFrom]
  | cons a pre ih =>
    simp only [List.cons_append, edgeRangesFrom, List.length_cons, List.getElem?_cons_succ, ih, List.sum_cons]
    rw [show prev + a / L + pre.sum / L = prev + (a + pre.sum) / L from by ring,
      show prev + a / L + (pre.sum + l) / L = prev + (a + pre.sum + l) / L from by ring]

/-- C50 (as far as it holds, see `C50_violated`).  For every wire of edges with positive lengths and every number of tabs
that fit, the transitions of an edge are in increasing order and mark exactly its parts inside the tab zones – if there is
one tab only, or the edge ends before the last half zone, or the edge begins after the last but one zone. -/
theorem C50_zones_partial {t : WireTabs} {n : ℕ} (hn : 0 < n) (hc : t.count = n) (hw : 0 < t.width) {edges pre post : List Edge}
    {e : Edge} (hedges : edges = pre ++ e :: post) (hlen : ∀ e ∈ edges, 0 < e.length) {L : ℚ}
    (hL : L = (edges.map Edge.length).sum) (hfit : t.width * n < L) {a : ℚ} (ha : a = (pre.map Edge.length).sum)
    (hedge : n = 1 ∨ a + e.length + t.width / 2 < L ∨ (n - 1 : ℚ) * (L / n) + t.width / 2 ≤ a) :
    ∃ tss ts, Tabs.transitions (.wire t) L edges = .ok tss ∧ tss[pre.length]? = some ts ∧ tss.length = edges.length ∧
      ProperTransitions ts ∧
      ∀ x, 0 ≤ x → x < 1 → (MarkedTab ts x ↔ InZone n t.width L (a + x * e.length)) := by
  have hn0 : (0 : ℚ) < n := by exact_mod_cast hn
  have hpos : ∀ l : List Edge, (∀ e ∈ l, e ∈ edges) → 0 ≤ (l.map Edge.length).sum := by
    intro l hl
    apply List.sum_nonneg
    intro x hx
    obtain ⟨y, hy, rfl⟩ := List.mem_map.mp hx
    exact (hlen y (hl y hy)).le
  have ha0 : 0 ≤ a := ha ▸ hpos pre (by intro x hx; rw [hedges]; simp [hx])
  have hb0 : 0 ≤ (post.map Edge.length).sum := hpos post (by intro x hx; rw [hedges]; simp [hx])
  have hel : 0 < e.length := hlen e (by rw [hedges]; simp)
  have hsum : L = a + e.length + (post.map Edge.length).sum := by
    rw [hL, hedges, ha]; simp; ring
  have hLpos : 0 < L := by linarith
  have hrange : edgeRanges (edges.map Edge.length) = .ok (edgeRangesFrom L 0 (edges.map Edge.length)) := by
    unfold edgeRanges
    rw [if_neg (by rintro ⟨-, h⟩; rw [← hL] at h; exact hLpos.ne' h), ← hL]
  have hget : (edgeRangesFrom L 0 (edges.map Edge.length))[pre.length]? = some (a / L, (a + e.length) / L) := by
    have := edgeRangesFrom_get (L := L) (pre.map Edge.length) (post.map Edge.length) e.length 0
    rw [List.length_map] at this
    rw [hedges, List.map_append, List.map_cons, this, ← ha, zero_add, zero_add, min_eq_left]
    rw [div_le_one hLpos]; linarith
  have hlen2 : ∀ (ls : List ℚ) p, (edgeRangesFrom L p ls).length = ls.length := by
    intro ls
    induction ls with
    | nil => intro p; rfl
    | cons l ls ih => intro p; simp [edgeRangesFrom, ih]
  have htr : Tabs.transitions (.wire t) L edges = .ok ((edgeRangesFrom L 0 (edges.map Edge.length)).map
      (fun r => wireTransitions r (zoneRanges n (1 / L * (t.width / 2))))) := by
    simp only [Tabs.transitions, tabDs_eq hn hc hLpos hw hfit, ok_bind, hrange]
  refine ⟨_, _, htr, by rw [List.getElem?_map, hget]; rfl, by simp [hlen2], ?_⟩
  have hr : a / L < (a + e.length) / L := by
    apply div_lt_div_of_pos_right _ hLpos; linarith
  have hspan : ∀ x, a / L + x * ((a + e.length) / L - a / L) = (a + x * e.length) / L := by
    intro x; field_simp; ring
  have hhpos : 0 < 1 / L * (t.width / 2) := by positivity
  have hh : 2 * (1 / L * (t.width / 2)) * n < 1 := by
    have : 2 * (1 / L * (t.width / 2)) * n = t.width * n / L := by field_simp
    rw [this, div_lt_one hLpos]; exact hfit
  have hhlt : 2 * (1 / L * (t.width / 2)) < 1 / n := by rwa [lt_div_iff₀ hn0]
  have hn1 : (1 : ℚ) ≤ n := by exact_mod_cast hn
  have hinv : 1 / (n : ℚ) ≤ 1 := by rw [div_le_one hn0]; exact hn1
  have hord : ∀ d ∈ zoneRanges n (1 / L * (t.width / 2)), d.1 < d.2 := by
      intro d hd
      simp only [zoneRanges, List.mem_cons, List.mem_map] at hd
      rcases hd with rfl | rfl | ⟨k, -, rfl⟩ <;> simp only <;> linarith
  have hpw : (zoneRanges n (1 / L * (t.width / 2))).Pairwise (fun x y => Touches (a / L, (a + e.length) / L) x →
      Touches (a / L, (a + e.length) / L) y → x.2 < y.1) := by
      unfold zoneRanges
      rw [List.pairwise_cons, List.pairwise_cons]
      have hmid : ∀ k : ℕ, 1 / (n : ℚ) ≤ ((k : ℚ) + 1) / n := by
        intro k
        gcongr
        have : (0 : ℚ) ≤ k := by positivity
        linarith
      refine ⟨?_, ?_, ?_⟩
      · intro d hd _ _
        rcases List.mem_cons.mp hd with rfl | hd
        · simp only; linarith
        · obtain ⟨k, -, rfl⟩ := List.mem_map.mp hd
          simp only
          linarith [hmid k]
      · intro d hd h1 h2
        exfalso
        obtain ⟨k, hk, rfl⟩ := List.mem_map.mp hd
        have hk := List.mem_range.mp hk
        obtain ⟨h1, -⟩ := h1
        obtain ⟨-, h2⟩ := h2
        simp only at h1 h2
        have hkn : (k : ℚ) + 1 ≤ n - 1 := by
          have : k + 1 + 1 ≤ n := by omega
          have : ((k + 1 + 1 : ℕ) : ℚ) ≤ n := by exact_mod_cast this
          push_cast at this
          linarith
        rcases hedge with h | h | h
        · omega
        · have e1 : 1 - 1 / L * (t.width / 2) = (L - t.width / 2) / L := by field_simp
          rw [e1, div_le_div_iff_of_pos_right hLpos] at h1
          linarith
        · have e2 : ((k : ℚ) + 1) / n + 1 / L * (t.width / 2) = (((k : ℚ) + 1) * (L / n) + t.width / 2) / L := by field_simp
          rw [e2, div_lt_div_iff_of_pos_right hLpos] at h2
          have : ((k : ℚ) + 1) * (L / n) ≤ (n - 1) * (L / n) := by gcongr
          linarith
      · rw [List.pairwise_map]
        refine List.pairwise_lt_range.imp ?_
        intro i j hij _ _
        simp only
        have : ((i : ℚ) + 1) / n + 1 / n ≤ (j + 1) / n := by
          rw [← add_div]; gcongr; exact_mod_cast hij
        linarith
  have hkey := wireTransitions_spec (r := (a / L, (a + e.length) / L)) hr hord hpw
  refine ⟨⟨hkey.1, hkey.2.1, wireTransitions_alternates hr hord hpw⟩, ?_⟩
  intro x hx hx1
  rw [hkey.2.2 x hx hx1]
  simp only [hspan]
  have hy1 : (a + x * e.length) / L < 1 := by rw [div_lt_one hLpos]; nlinarith
  have hy0 : 0 ≤ (a + x * e.length) / L := by positivity
  rw [← inZone_iff hn hLpos hw hfit hy0 hy1, div_mul_cancel₀ _ hLpos.ne']

/-- A square with sides of length 6 meets the hypotheses of C50 on every edge, for three tabs of width 1. -/
example : ∀ (pre post : List Edge) (e : Edge), innerSquare = pre ++ e :: post →
    ((3 : ℕ) = 1 ∨ (pre.map Edge.length).sum + e.length + 1 / 2 < 24 ∨
      ((3 : ℕ) - 1 : ℚ) * (24 / (3 : ℕ)) + 1 / 2 ≤ (pre.map Edge.length).sum) ∧ (24 : ℚ) = (innerSquare.map Edge.length).sum ∧
      (1 : ℚ) * (3 : ℕ) < 24 ∧ ∀ e ∈ innerSquare, 0 < e.length := by
  intro pre post e h
  refine ⟨?_, by decide +kernel, by norm_num, by decide +kernel⟩
  match pre, h with
  | [], h => cases h; right; left; decide +kernel
  | [_], h => cases h; right; left; decide +kernel
  | [_, _], h => cases h; right; left; decide +kernel
  | [_, _, _], h => cases h; right; right; decide +kernel
  | _ :: _ :: _ :: _ :: _ :: _, h => cases h
  | [_, _, _, _], h => cases h

/-- C50 is false: for a square with sides of length 6 and four tabs of width 1 – one at each corner – the transitions of
the last side are not in order, and the half of the first tab that lies there is not marked. -/
theorem C50_violated : ∃ tss ts, Tabs.transitions (.wire ⟨4, 1, 1⟩) 24 innerSquare = .ok tss ∧ tss[3]? = some ts ∧
    ¬ Increasing ts ∧ ¬ MarkedTab ts (23 / 24) ∧ InZone 4 1 24 (18 + 23 / 24 * 6) := by
  have hm : (match Tabs.transitions (.wire ⟨4, 1, 1⟩) 24 innerSquare with
      | .ok tss => decide (tss[3]? = some [(0, .normal), (11 / 12, .tab), (0, .tab), (1 / 12, .normal), (1, .ignore)])
      | .error _ => false) = true := by decide +kernel
  cases h : Tabs.transitions (.wire ⟨4, 1, 1⟩) 24 innerSquare with
  | error e => rw [h] at hm; cases hm
  | ok tss =>
    rw [h] at hm
    refine ⟨tss, _, rfl, of_decide_eq_true hm, ?_, ?_, 4, by norm_num, by norm_num⟩
    · simp [Increasing]
    · simp only [MarkedTab]
      norm_num
      intro h; cases h

end CQ
