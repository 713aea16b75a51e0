import Verif.Props.TabRun
import Verif.Spec.TabTotal

/-! # C105: which tabs around a contour are refused -/

namespace CQ

theorem makeLine_error {p q : Vec} {x : Err} (h : makeLine p q = .error x) : x = .stdFail := by
  unfold makeLine at h
  split at h <;> cases h
  rfl

theorem tabSegments_error {z : ℚ} {e : Edge} {x : Err} (ts : List (ℚ × Transition)) :
    ∀ prev, tabSegments z e prev ts = .error x → x = .stdFail := by
  induction ts with
  | nil => intro prev h; cases h
  | cons t1 ts ih =>
    intro prev h
    cases ts with
    | nil => cases h
    | cons t2 ts =>
      rw [tabSegments_cons] at h
      cases hc : tabConnector prev (tabPiece z e t1 t2) with
      | error y =>
        rw [hc] at h
        cases h
        cases prev with
        | none => cases hc
        | some p =>
          unfold tabConnector at hc
          simp only at hc
          cases hm : makeLine (edgeEndPoint p) (edgeStartPoint (tabPiece z e t1 t2)) with
          | error y => rw [hm] at hc; cases hc; exact makeLine_error hm
          | ok c => rw [hm] at hc; cases hc
      | ok c =>
        rw [hc, ok_bind] at h
        cases hr : tabSegments z e (some (tabPiece z e t1 t2)) (t2 :: ts) with
        | error y => rw [hr] at h; cases h; exact ih _ hr
        | ok rest => rw [hr] at h; cases h

theorem tabEdges_error {z : ℚ} {x : Err} (es : List Edge) :
    ∀ tss, tabEdges z es tss = .error x → x = .stdFail := by
  induction es with
  | nil => intro tss h; cases h
  | cons e es ih =>
    intro tss h
    cases tss with
    | nil => cases h
    | cons ts tss =>
      unfold tabEdges at h
      cases h1 : tabEdge z e ts with
      | error y =>
        rw [h1] at h
        cases h
        unfold tabEdge at h1
        split at h1
        · cases h1
        · exact tabSegments_error _ _ h1
      | ok ps =>
        rw [h1, ok_bind] at h
        cases h2 : tabEdges z es tss with
        | error y => rw [h2] at h; cases h; exact ih _ h2
        | ok rest => rw [h2] at h; cases h

/-- Two tabs in a row cannot be connected. -/
theorem tabSegments_stuck {z : ℚ} {e : Edge} (hr : e.reversed = false) {t1 t2 t3 : ℚ × Transition} (h1 : t1.2 = .tab)
    (h2 : t2.2 = .tab) (pre post : List (ℚ × Transition)) :
    ∀ prev, tabSegments z e prev (pre ++ t1 :: t2 :: t3 :: post) = .error .stdFail := by
  have hbase : ∀ prev, ∀ out, tabSegments z e prev (t1 :: t2 :: t3 :: post) ≠ .ok out := by
    intro prev out h
    rw [tabSegments_cons] at h
    obtain ⟨c, -, h⟩ := bind_ok.mp h
    obtain ⟨rest, h, -⟩ := bind_ok.mp h
    rw [tabSegments_cons] at h
    obtain ⟨c, h, -⟩ := bind_ok.mp h
    have : tabConnector (some (tabPiece z e t1 t2)) (tabPiece z e t2 t3) = .error .stdFail := by
      simp [tabConnector, tabPiece, h1, h2, edgeOrientedParam, hr, edgeEndPoint, edgeStartPoint, projectEdge, sliceEdge,
        makeLine]
      rfl
    rw [this] at h
    cases h
  have key : ∀ prev, ∀ out, tabSegments z e prev (pre ++ t1 :: t2 :: t3 :: post) ≠ .ok out := by
    induction pre with
    | nil => exact hbase
    | cons a pre ih =>
      intro prev out h
      cases pre with
      | nil =>
        simp only [List.cons_append, List.nil_append] at h
        rw [tabSegments_cons] at h
        obtain ⟨c, -, h⟩ := bind_ok.mp h
        obtain ⟨rest, h, -⟩ := bind_ok.mp h
        exact ih _ _ h
      | cons b pre =>
        simp only [List.cons_append] at h
        rw [tabSegments_cons] at h
        obtain ⟨c, -, h⟩ := bind_ok.mp h
        obtain ⟨rest, h, -⟩ := bind_ok.mp h
        exact ih _ _ h
  intro prev
  cases h : tabSegments z e prev (pre ++ t1 :: t2 :: t3 :: post) with
  | error x => rw [tabSegments_error _ _ h]
  | ok out => exact absurd h (key prev out)

/-- The transitions of a tab on an edge begin with a transition to tab. -/
theorem tabTransitions_head {r d : ℚ × ℚ} (hd : d.1 < d.2) {t : ℚ × Transition}
    (h : (tabTransitions r d).head? = some t) : t.2 = .tab ∧ (d.1 < r.2 → t.1 ≠ 1) := by
  unfold tabTransitions at h
  by_cases h1 : d.1 ≤ r.1 ∧ r.1 < d.2
  · rw [if_pos h1] at h
    cases h
    exact ⟨rfl, fun _ => by norm_num⟩
  · rw [if_neg h1] at h
    by_cases h2 : r.1 < d.1 ∧ d.1 ≤ r.2
    · rw [if_pos h2] at h
      cases h
      refine ⟨rfl, fun h3 => ?_⟩
      have hp : 0 < r.2 - r.1 := by linarith
      have : (d.1 - r.1) / (r.2 - r.1) < 1 := by rw [div_lt_one hp]; linarith
      have h4 : max ((d.1 - r.1) / (r.2 - r.1)) 0 < 1 := max_lt this one_pos
      unfold wireDToEdgeD
      exact ((min_le_left _ _).trans_lt h4).ne
    · rw [if_neg h2] at h
      exfalso
      split at h
      · rename_i h3
        have := not_and.mp h2
        by_cases h4 : d.1 ≤ r.1
        · exact h1 ⟨h4, h3.1⟩
        · exact this (not_le.mp h4) (by linarith [h3.2])
      · cases h

theorem flatMap_head {α β : Type} {f : α → List β} {P : β → Prop} {l : List α} (hP : ∀ a ∈ l, ∀ b, (f a).head? = some b → P b)
    {a : α} (ha : a ∈ l) (hne : f a ≠ []) : ∃ b rest, l.flatMap f = b :: rest ∧ P b := by
  induction l with
  | nil => cases ha
  | cons c l ih =>
    rw [List.flatMap_cons]
    cases hc : f c with
    | nil =>
      rw [List.nil_append]
      rcases List.mem_cons.mp ha with rfl | ha
      · exact absurd hc hne
      · exact ih (fun x hx => hP x (by simp [hx])) ha
    | cons b rest => exact ⟨b, _, rfl, hP c (by simp) b (by rw [hc]; rfl)⟩

/-- On an edge that reaches into the end of the first tab, and back into another one, two transitions to tab follow each
other. -/
theorem wireTransitions_stuck {n : ℕ} (hn : 2 ≤ n) {h : ℚ} (hpos : 0 < h) (hfit : 2 * h * n < 1) {r : ℚ × ℚ}
    (hr2 : r.2 ≤ 1) (hend : 1 - h ≤ r.2) (hback : r.1 < ((n : ℚ) - 1) / n + h) :
    ∃ pre t1 t2 t3 post, wireTransitions r (zoneRanges n h) = pre ++ t1 :: t2 :: t3 :: post ∧ t1.2 = .tab ∧ t2.2 = .tab := by
  have hn0 : (0 : ℚ) < n := by exact_mod_cast (by omega : 0 < n)
  have hsub : ((n : ℚ) - 1) / n = 1 - 1 / n := by field_simp
  have hinv : 2 * h < 1 / n := by rwa [lt_div_iff₀ hn0]
  have hsecond : ∃ x, tabTransitions r (1 - h, 1 + h) = [(x, .tab)] := by
    refine ⟨wireDToEdgeD (1 - h) r, ?_⟩
    unfold tabTransitions
    rw [if_neg (by rintro ⟨h1, -⟩; simp only at h1; linarith), if_pos ⟨by simp only; linarith, hend⟩,
      if_neg (by rintro ⟨-, h1⟩; simp only at h1; linarith)]
    rfl
  obtain ⟨x, hx⟩ := hsecond
  have hrest : ∀ d ∈ (List.range (n - 1)).map (fun k : ℕ => (((k : ℚ) + 1) / n - h, ((k : ℚ) + 1) / n + h)),
      d.1 < d.2 ∧ d.1 < r.2 := by
    intro d hd
    obtain ⟨k, hk, rfl⟩ := List.mem_map.mp hd
    have hk := List.mem_range.mp hk
    have : ((k : ℚ) + 1) / n ≤ (n - 1) / n := by
      gcongr
      have : ((k + 1 + 1 : ℕ) : ℚ) ≤ n := by exact_mod_cast (by omega : k + 1 + 1 ≤ n)
      push_cast at this
      linarith
    simp only
    constructor <;> linarith
  obtain ⟨t2, rest, hflat, ht2, ht2'⟩ := flatMap_head (f := tabTransitions r) (P := fun t => t.2 = .tab ∧ t.1 ≠ 1)
    (l := (List.range (n - 1)).map (fun k : ℕ => (((k : ℚ) + 1) / n - h, ((k : ℚ) + 1) / n + h)))
    (a := (((n - 2 : ℕ) : ℚ) + 1) / n - h |> fun y => (y, (((n - 2 : ℕ) : ℚ) + 1) / n + h))
    (by
      intro d hd t ht
      have := tabTransitions_head (hrest d hd).1 ht
      exact ⟨this.1, this.2 (hrest d hd).2⟩)
    (List.mem_map.mpr ⟨n - 2, List.mem_range.mpr (by omega), rfl⟩)
    (by
      have hc : (((n - 2 : ℕ) : ℚ) + 1) = n - 1 := by
        rw [Nat.cast_sub hn]; push_cast; ring
      simp only [hc]
      unfold tabTransitions
      by_cases h1 : ((n : ℚ) - 1) / n - h ≤ r.1
      · rw [if_pos ⟨h1, hback⟩]; simp
      · rw [if_neg (fun g => h1 g.1), if_pos ⟨not_le.mp h1, by simp only; linarith⟩]; simp)
  have hds : (zoneRanges n h).flatMap (tabTransitions r) = tabTransitions r (-h, h) ++ (x, .tab) :: t2 :: rest := by
    unfold zoneRanges
    rw [List.flatMap_cons, List.flatMap_cons, hx, hflat]
    rfl
  obtain ⟨pre, hpre⟩ : ∃ pre, padFront ((zoneRanges n h).flatMap (tabTransitions r)) = pre ++ (x, .tab) :: t2 :: rest := by
    rw [hds]
    unfold padFront
    split
    · exact ⟨_, rfl⟩
    · exact ⟨_, by rw [← List.cons_append]⟩
  unfold wireTransitions padBack
  rw [hpre]
  cases hrest' : rest with
  | nil =>
    rw [if_neg (by
      rw [List.getLast?_append, List.getLast?_cons_cons, List.getLast?_singleton]
      simpa using ht2')]
    exact ⟨pre, (x, .tab), t2, _, [], by simp; rfl, rfl, ht2⟩
  | cons t3 rest =>
    split
    · exact ⟨pre, (x, .tab), t2, t3, rest, rfl, rfl, ht2⟩
    · exact ⟨pre, (x, .tab), t2, t3, rest ++ [(1, .ignore)], by simp, rfl, ht2⟩

theorem tabEdges_stuck {z : ℚ} (pre : List Edge) : ∀ {e : Edge} {post : List Edge} {tss : List (List (ℚ × Transition))}
    {ts : List (ℚ × Transition)}, tss[pre.length]? = some ts → tabEdge z e ts = .error .stdFail →
    tabEdges z (pre ++ e :: post) tss = .error .stdFail := by
  induction pre with
  | nil =>
    intro e post tss ts h1 h2
    cases tss with
    | nil => cases h1
    | cons t tss =>
      cases h1
      show tabEdges z (e :: post) (ts :: tss) = _
      unfold tabEdges
      rw [h2]
      rfl
  | cons a pre ih =>
    intro e post tss ts h1 h2
    cases tss with
    | nil => cases h1
    | cons t tss =>
      have := ih (post := post) (tss := tss) (by simpa using h1) h2
      cases h : tabEdges z (a :: pre ++ e :: post) (t :: tss) with
      | error x => rw [tabEdges_error _ _ h]
      | ok out =>
        rw [List.cons_append] at h
        unfold tabEdges at h
        obtain ⟨ps, -, h⟩ := bind_ok.mp h
        obtain ⟨rest, h, -⟩ := bind_ok.mp h
        rw [this] at h
        cases h

/-- C105, refusals.  A flat pass with edges in their own direction, below the top of the tabs, is refused by the geometry
kernel if one of its edges reaches into the half of the first tab before the end of the wire and back into another tab: the
code asks for a line between two equal points. -/
theorem C105_refused {cad : Cad} {ze tabZ : ℚ} (hz : ze < tabZ) {w : List Edge} (hbox : cad.zmin w = ze)
    (hlen : ∀ e ∈ w, 0 < e.length) (hdir : ∀ e ∈ w, e.reversed = false) {t : WireTabs} {n : ℕ} (hn : 0 < n)
    (hc : t.count = n) (hw : 0 < t.width) {L : ℚ} (hL : L = (w.map Edge.length).sum) (hcad : cad.wireLength w = L)
    (hfit : t.width * n < L) (hnot : ¬ FirstTabApart n t.width L w) :
    applyTabs cad tabZ (.wire t) w = .error .stdFail := by
  simp only [FirstTabApart, not_forall, not_or, not_lt, not_le] at hnot
  obtain ⟨pre, e, post, hsplit, hn1, hend, hback⟩ := hnot
  have hn2 : 2 ≤ n := by omega
  have hn0 : (0 : ℚ) < n := by exact_mod_cast hn
  have hLpos : 0 < L := lt_of_le_of_lt (by positivity) hfit
  have hel : 0 < e.length := hlen e (by rw [hsplit]; simp)
  have hpost : 0 ≤ (post.map Edge.length).sum := by
    apply List.sum_nonneg
    intro x hx
    obtain ⟨y, hy, rfl⟩ := List.mem_map.mp hx
    exact (hlen y (by rw [hsplit]; simp [hy])).le
  have hsum : L = (pre.map Edge.length).sum + e.length + (post.map Edge.length).sum := by
    rw [hL, hsplit]; simp; ring
  generalize ha : (pre.map Edge.length).sum = a at *
  have hrange : edgeRanges (w.map Edge.length) = .ok (edgeRangesFrom L 0 (w.map Edge.length)) := by
    unfold edgeRanges
    rw [if_neg (by rintro ⟨-, h⟩; rw [← hL] at h; exact hLpos.ne' h), ← hL]
  have hget : (edgeRangesFrom L 0 (w.map Edge.length))[pre.length]? = some (a / L, (a + e.length) / L) := by
    have := edgeRangesFrom_get (L := L) (pre.map Edge.length) (post.map Edge.length) e.length 0
    rw [List.length_map] at this
    rw [hsplit, List.map_append, List.map_cons, this, ha, zero_add, zero_add, min_eq_left]
    rw [div_le_one hLpos]; linarith
  have htr : Tabs.transitions (.wire t) L w = .ok ((edgeRangesFrom L 0 (w.map Edge.length)).map
      (fun r => wireTransitions r (zoneRanges n (1 / L * (t.width / 2))))) := by
    simp only [Tabs.transitions, tabDs_eq hn hc hLpos hw hfit, ok_bind, hrange]
  obtain ⟨p, t1, t2, t3, q, hts, ht1, ht2⟩ := wireTransitions_stuck hn2 (h := 1 / L * (t.width / 2)) (by positivity)
    (by
      have : 2 * (1 / L * (t.width / 2)) * n = t.width * n / L := by field_simp
      rw [this, div_lt_one hLpos]; exact hfit)
    (r := (a / L, (a + e.length) / L))
    (by simp only; rw [div_le_one hLpos]; linarith)
    (by
      simp only
      have e1 : 1 - 1 / L * (t.width / 2) = (L - t.width / 2) / L := by field_simp
      rw [e1, div_le_div_iff_of_pos_right hLpos]; linarith)
    (by
      simp only
      have e2 : ((n : ℚ) - 1) / n + 1 / L * (t.width / 2) = ((n - 1 : ℚ) * (L / n) + t.width / 2) / L := by field_simp
      rw [e2, div_lt_div_iff_of_pos_right hLpos]; exact hback)
  have hedge : tabEdge tabZ e (p ++ t1 :: t2 :: t3 :: q) = .error .stdFail := by
    unfold tabEdge
    rw [if_neg (by
      intro h
      have := List.all_eq_true.mp h t1 (by simp)
      rw [ht1] at this
      simp at this)]
    exact tabSegments_stuck (hdir e (by rw [hsplit]; simp)) ht1 ht2 p q none
  unfold applyTabs
  rw [if_neg (by rw [hbox]; exact not_le.mpr hz), hcad, htr, ok_bind, hsplit, tabEdges_stuck pre ?_ hedge]
  · rfl
  · rw [← hsplit, List.getElem?_map, hget, Option.map_some, hts]

theorem tabEdges_total {ze z : ℚ} (hz : ze ≠ z) (es : List Edge) : ∀ (tss : List (List (ℚ × Transition))),
    (∀ e ∈ es, FlatEdge ze e) → (∀ ts ∈ tss, ProperTransitions ts) → ∃ out, tabEdges z es tss = .ok out := by
  induction es with
  | nil => intro tss _ _; exact ⟨[], by unfold tabEdges; rfl⟩
  | cons e es ih =>
    intro tss hf hp
    cases tss with
    | nil => exact ⟨[], by unfold tabEdges; rfl⟩
    | cons ts tss =>
      obtain ⟨rest, hr⟩ := ih tss (fun x hx => hf x (by simp [hx])) (fun x hx => hp x (by simp [hx]))
      have h1 : ∃ ps, tabEdge z e ts = .ok ps := by
        unfold tabEdge
        split
        · exact ⟨_, rfl⟩
        · match ts, hp ts (by simp) with
          | [], _ => exact ⟨[], rfl⟩
          | [a], _ => exact ⟨[], rfl⟩
          | t1 :: t2 :: ts, hpt =>
            obtain ⟨r, h2, -⟩ := tabSegments_spec hz (hf e (by simp)) ts t1 t2 hpt.alternates
            exact ⟨_, h2 none⟩
      obtain ⟨ps, h1⟩ := h1
      unfold tabEdges
      rw [h1, ok_bind, hr]
      exact ⟨_, rfl⟩

/-- C105 (what is missing: contours with an edge that reaches into both the first and another tab; they are refused).  A
flat pass with edges in their own direction, and tabs around it that fit, is made **if and only if** it is not below the
top of the tabs, or no edge that reaches into the half of the first tab before the end of the wire reaches back into
another tab. -/
theorem C105_tabs_partial {cad : Cad} {tabZ : ℚ} {w : List Edge} (hflat : ∀ e ∈ w, FlatEdge (cad.zmin w) e)
    (hlen : ∀ e ∈ w, 0 < e.length) (hdir : ∀ e ∈ w, e.reversed = false) {t : WireTabs} {n : ℕ} (hn : 0 < n)
    (hc : t.count = n) (hw : 0 < t.width) {L : ℚ} (hL : L = (w.map Edge.length).sum) (hcad : cad.wireLength w = L)
    (hfit : t.width * n < L) :
    (∃ w', applyTabs cad tabZ (.wire t) w = .ok w') ↔ tabZ ≤ cad.zmin w ∨ FirstTabApart n t.width L w := by
  by_cases hz : tabZ ≤ cad.zmin w
  · exact ⟨fun _ => Or.inl hz, fun _ => ⟨w, C51_above hz⟩⟩
  have hz' := not_le.mp hz
  constructor
  · rintro ⟨w', h⟩
    by_contra hcon
    rw [C105_refused hz' rfl hlen hdir hn hc hw hL hcad hfit (fun h => hcon (Or.inr h))] at h
    cases h
  · rintro (h | hap)
    · exact absurd h hz
    have hLpos : 0 < L := lt_of_le_of_lt (by positivity) hfit
    have hne : w ≠ [] := by rintro rfl; simp at hL; linarith
    have hC := fun (pre : List Edge) (e : Edge) (post : List Edge) (h : w = pre ++ e :: post) =>
      C50_zones_partial hn hc hw h hlen hL hfit rfl (hap pre e post h)
    obtain ⟨e0, es0, hw0⟩ := List.exists_cons_of_ne_nil hne
    obtain ⟨tss, -, htr, -, hlent, -⟩ := hC [] e0 es0 hw0
    have hall : ∀ ts ∈ tss, ProperTransitions ts := by
      intro ts hts
      obtain ⟨i, hi, rfl⟩ := List.getElem_of_mem hts
      have hi' : i < w.length := by omega
      obtain ⟨tss', ts', g1, g2, -, g3, -⟩ := hC (w.take i) w[i] (w.drop (i + 1)) (by
        rw [List.getElem_cons_drop, List.take_append_drop])
      rw [htr] at g1
      cases g1
      rw [List.length_take, min_eq_left hi'.le, List.getElem?_eq_getElem hi] at g2
      cases g2
      exact g3
    obtain ⟨out, hout⟩ := tabEdges_total (z := tabZ) hz'.ne w tss hflat hall
    unfold applyTabs
    rw [if_neg hz, hcad, htr, ok_bind, hout, ok_bind]
    cases cad.assemble out with
    | ok w' => exact ⟨w', rfl⟩
    | error _ => exact ⟨w, rfl⟩

theorem mapE_error {α β : Type} {f : α → Except Err β} {l : List α} {a : α} (ha : a ∈ l) {x : Err} (h : f a = .error x) :
    ∃ y, mapE f l = .error y := by
  cases hm : mapE f l with
  | error y => exact ⟨y, rfl⟩
  | ok out =>
    obtain ⟨b, -, hb⟩ := mapE_mem' hm ha
    rw [h] at hb
    cases hb

/-- C105: a profile that has such a contour is refused, whatever the stepdown. -/
theorem C105_profile_refused {cad : Cad} {j : Job} {wire : List Edge} {offset r : ℚ} {stepdown : Option ℚ}
    {bases : List (List Edge)} (hr : j.toolRadius = some r)
    (ho : offsetWire cad (wire.map (Edge.toLocal j.top)) (offset * r) = .ok bases) {b : List Edge} (hb : b ∈ bases)
    (hlen : ∀ e ∈ b, 0 < e.length) (hdir : ∀ e ∈ b, e.reversed = false) {t : WireTabs} {n : ℕ} (hn : 0 < n)
    (hc : t.count = n) (hw : 0 < t.width) (hheight : 0 < t.height) {L : ℚ} (hL : L = (b.map Edge.length).sum)
    (hcad : cad.wireLength b = L) (hfit : t.width * n < L) (hnot : ¬ FirstTabApart n t.width L b) :
    ∃ x, profile cad j wire offset stepdown (some (.wire t)) = .error x := by
  have hbase : applyTabs cad (cad.zmin b + t.height) (.wire t) b = .error .stdFail :=
    C105_refused (by linarith) rfl hlen hdir hn hc hw hL hcad hfit hnot
  have hfeat : ∃ x, profileFeature cad j.top stepdown (some (.wire t)) b = .error x := by
    unfold profileFeature
    cases hl : profileLayers cad j.top b stepdown with
    | error x => exact ⟨x, rfl⟩
    | ok layers =>
      rw [ok_bind]
      refine mapE_error (a := b) ?_ hbase
      unfold profileLayers at hl
      cases stepdown with
      | none => cases hl; simp
      | some s =>
        simp only at hl
        split at hl
        · cases hl; simp
        · obtain ⟨ls, -, hl⟩ := bind_ok.mp hl
          cases hl
          simp
  obtain ⟨x, hx⟩ := hfeat
  obtain ⟨y, hy⟩ := mapE_error hb hx
  refine ⟨y, ?_⟩
  simp only [profile, profileWires, hr, ho, ok_bind, hy]
  rfl

/-- C105 is false for every contour of a single edge, such as a circle: with two or more tabs around it the profile is
refused, whatever their width and height (as long as they fit), and whatever the depth and the stepdown. -/
theorem C105_violated {cad : Cad} {j : Job} {wire : List Edge} {offset r : ℚ} {stepdown : Option ℚ}
    {bases : List (List Edge)} (hr : j.toolRadius = some r)
    (ho : offsetWire cad (wire.map (Edge.toLocal j.top)) (offset * r) = .ok bases) {e : Edge} (he : [e] ∈ bases)
    (hlen : 0 < e.length) (hdir : e.reversed = false) {t : WireTabs} {n : ℕ} (hn : 2 ≤ n) (hc : t.count = n)
    (hw : 0 < t.width) (hheight : 0 < t.height) (hcad : cad.wireLength [e] = e.length) (hfit : t.width * n < e.length) :
    ∃ x, profile cad j wire offset stepdown (some (.wire t)) = .error x := by
  refine C105_profile_refused hr ho he (by simpa using hlen) (by simpa using hdir) (by omega) hc hw hheight
    (L := e.length) (by simp) hcad hfit ?_
  intro hap
  have hn0 : (0 : ℚ) < n := by exact_mod_cast (by omega : 0 < n)
  have hn1 : (1 : ℚ) ≤ n := by exact_mod_cast (by omega : 1 ≤ n)
  rcases hap [] e [] rfl with h | h | h
  · omega
  · simp only [List.map_nil, List.sum_nil, zero_add] at h
    linarith
  · simp only [List.map_nil, List.sum_nil] at h
    have : 0 ≤ ((n : ℚ) - 1) * (e.length / n) := mul_nonneg (by linarith) (by positivity)
    linarith

/-- The square of side 6 meets the hypotheses of `C105_tabs_partial` with three tabs of width 1, which are apart, and with
four, which are not. -/
example : (∀ e ∈ innerSquare, FlatEdge (strictCad.zmin innerSquare) e) ∧ (∀ e ∈ innerSquare, 0 < e.length) ∧
    (∀ e ∈ innerSquare, e.reversed = false) ∧ (24 : ℚ) = (innerSquare.map Edge.length).sum ∧
    strictCad.wireLength innerSquare = 24 ∧ (1 : ℚ) * (4 : ℕ) < 24 ∧ FirstTabApart 3 1 24 innerSquare ∧
    ¬ FirstTabApart 4 1 24 innerSquare ∧ ∃ w', applyTabs strictCad (-1 / 2) (.wire ⟨3, 1, 1 / 2⟩) innerSquare = .ok w' := by
  have hz : strictCad.zmin innerSquare = -1 := by decide +kernel
  have hflat : ∀ e ∈ innerSquare, FlatEdge (strictCad.zmin innerSquare) e := by
    intro e he
    rw [hz]
    simp only [innerSquare, outline, List.map_cons, List.map_nil, List.mem_cons, List.not_mem_nil, or_false] at he
    rcases he with rfl | rfl | rfl | rfl <;> exact lineEdge_flat (by norm_num)
  have hap : FirstTabApart 3 1 24 innerSquare := by
    intro pre e post h
    match pre, h with
    | [], h => cases h; right; left; decide +kernel
    | [_], h => cases h; right; left; decide +kernel
    | [_, _], h => cases h; right; left; decide +kernel
    | [_, _, _], h => cases h; right; right; decide +kernel
    | _ :: _ :: _ :: _ :: _ :: _, h => cases h
    | [_, _, _, _], h => cases h
  refine ⟨hflat, by decide +kernel, by decide +kernel, by decide +kernel, by decide +kernel, by norm_num, hap, ?_, ?_⟩
  · intro h
    rcases h (innerSquare.take 3) _ [] rfl with h | h | h
    · omega
    · revert h; decide +kernel
    · revert h; decide +kernel
  · exact (C105_tabs_partial (n := 3) hflat (by decide +kernel) (by decide +kernel) (by norm_num) rfl (by norm_num)
      (L := 24) (by decide +kernel) (by decide +kernel) (by norm_num)).mpr (Or.inr hap)

/-- A closed contour of one edge: a spline around the square of side 6, at depth 1. -/
def loopEdge : Edge where
  id := 1
  geom := .bspline
  startPoint := ⟨0, 0, -1⟩
  endPoint := ⟨0, 0, -1⟩
  posParam := fun p => if p ≤ 6 then ⟨p, 0, -1⟩ else if p ≤ 12 then ⟨6, p - 6, -1⟩ else if p ≤ 18 then ⟨18 - p, 6, -1⟩ else ⟨0, 24 - p, -1⟩
  posLen := fun d => if 24 * d ≤ 6 then ⟨24 * d, 0, -1⟩ else if 24 * d ≤ 12 then ⟨6, 24 * d - 6, -1⟩
    else if 24 * d ≤ 18 then ⟨18 - 24 * d, 6, -1⟩ else ⟨0, 24 - 24 * d, -1⟩
  paramAt := fun d => 24 * d
  closed := true
  length := 24

/-- This contour and two tabs of width 1 and height 1/2 meet the hypotheses of `C105_violated`: the call is refused, while
without tabs it is not. -/
example : twoJob.toolRadius = some 1 ∧ (∃ e, offsetWire strictCad ([loopEdge].map (Edge.toLocal twoJob.top)) (1 * 1) = .ok [[e]] ∧
      0 < e.length ∧ e.reversed = false ∧ strictCad.wireLength [e] = e.length ∧ (1 : ℚ) * (2 : ℕ) < e.length) ∧
    (∃ x, profile strictCad twoJob [loopEdge] 1 none (some (.wire ⟨2, 1, 1 / 2⟩)) = .error x) ∧
    ∃ cs, profile strictCad twoJob [loopEdge] 1 none none = .ok cs := by
  have hr : twoJob.toolRadius = some 1 := by decide +kernel
  have ho : offsetWire strictCad ([loopEdge].map (Edge.toLocal twoJob.top)) (1 * 1) = .ok [[loopEdge.toLocal twoJob.top]] := by
    have hval : offsetValid strictCad [loopEdge.toLocal twoJob.top] = true := by decide +kernel
    change Except.ok (circleBugWorkaround strictCad [loopEdge.toLocal twoJob.top]
      ([[loopEdge.toLocal twoJob.top]].filter (offsetValid strictCad))) = _
    rw [show [[loopEdge.toLocal twoJob.top]].filter (offsetValid strictCad) = [[loopEdge.toLocal twoJob.top]] from by simp [hval]]
    simp [circleBugWorkaround, strictCad, flatCad]
  have hl : (loopEdge.toLocal twoJob.top).length = 24 := rfl
  have hcad : strictCad.wireLength [loopEdge.toLocal twoJob.top] = (loopEdge.toLocal twoJob.top).length := by
    show ([loopEdge.toLocal twoJob.top].map Edge.length).sum = _
    simp
  refine ⟨hr, ⟨_, ho, by rw [hl]; norm_num, rfl, hcad, by rw [hl]; norm_num⟩,
    C105_violated hr ho (List.mem_singleton.mpr rfl) (by rw [hl]; norm_num) rfl (le_refl 2) rfl (by norm_num) (by norm_num)
      hcad (by rw [hl]; norm_num), ?_⟩
  have hm : (match profile strictCad twoJob [loopEdge] 1 none none with
    | .ok _ => true | .error _ => false) = true := by decide +kernel
  cases h : profile strictCad twoJob [loopEdge] 1 none none with
  | error e => rw [h] at hm; cases hm
  | ok cs => exact ⟨cs, rfl⟩

end CQ
