import Verif.Props.ProfileClear
import Verif.Props.TabRun

/-! # C115: profiles with tabs keep the tool off the part -/

namespace CQ

/-- An edge that can be followed, and passes over points of `e` only. -/
structure Within (e p : Edge) : Prop where
  ok : EdgeOK p
  routable : Routable p
  shape : TrueShape p
  covers : ∀ q, p.covers q → e.covers q

theorem travel_round {e : Edge} {ze : ℚ} (h : FlatEdge ze e) (ht : TrueShape e) (hc : e.circular) (t : ℚ) :
    sqDist e.center.xy (e.travel t).xy = sqDist e.center.xy (e.travel 0).xy := by
  have := ht.round hc (e.paramAt (if e.reversed then 1 - t else t))
  rwa [h.consistent] at this

theorem flat_ok {e : Edge} {ze : ℚ} (h : FlatEdge ze e) : EdgeOK e :=
  ⟨(h.consistent 0).trans h.start, (h.consistent 1).trans h.fin, h.start, h.fin⟩

theorem piece_length (z : ℚ) (e : Edge) (t1 t2 : ℚ × Transition) : (tabPiece z e t1 t2).length = e.length * (t2.1 - t1.1) := by
  unfold tabPiece edgeOrientedParam
  split <;> split <;> simp only [projectEdge, sliceEdge] <;> ring

theorem piece_closed (z : ℚ) (e : Edge) (t1 t2 : ℚ × Transition) (h : (tabPiece z e t1 t2).closed = true) : e.closed = true := by
  unfold tabPiece at h
  split at h <;> simp only [projectEdge, sliceEdge, Bool.and_eq_true] at h <;> exact h.1.1

/-- A piece between two transitions lies within its edge. -/
theorem piece_within {ze z : ℚ} {e : Edge} (h : FlatEdge ze e) (hr : Routable e) (ht : TrueShape e) (hd : Divisible e)
    {t1 t2 : ℚ × Transition} (h0 : 0 ≤ t1.1) (h12 : t1.1 < t2.1) (h1 : t2.1 ≤ 1) : Within e (tabPiece z e t1 t2) := by
  have hp := piece_spec (z := z) h t1 t2
  have hl := piece_length z e t1 t2
  have hcl := piece_closed z e t1 t2
  generalize tabPiece z e t1 t2 = p at *
  have hxy : ∀ u, (p.travel u).xy = (e.travel (t1.1 + u * (t2.1 - t1.1))).xy := by
    intro u
    have := hp.path u
    simp only [Prod.mk.injEq] at this
    exact Pt.ext this.1 this.2
  have hc : p.center.xy = e.center.xy := by
    have := hp.center
    simp only [Prod.mk.injEq] at this
    exact Pt.ext this.1 this.2
  have hcirc : p.circular ↔ e.circular := by unfold Edge.circular; rw [hp.kind.1]
  have hfree : p.free ↔ e.free := by unfold Edge.free; rw [hp.kind.1]
  have hkind : p.travelKind = e.travelKind := by unfold Edge.travelKind; rw [hp.kind.2.1, hp.kind.2.2.1]
  have hpar : ∀ q, (p.posParam q).xy = (e.posParam q).xy := by
    intro q
    by_cases htab : t1.2 = .tab
    · rw [hp.tabParam htab]; rfl
    · rw [hp.ownParam htab]
  have h0' : (p.travel 0).xy = (e.travel t1.1).xy := by rw [hxy]; simp
  have h1' : (p.travel 1).xy = (e.travel t2.1).xy := by rw [hxy]; congr 2; ring
  refine ⟨hp.ok, ⟨by rw [hp.kind.1]; exact hr.1, fun hx => by rw [hp.kind.2.2.1]; exact hr.2 (hcirc.mp hx)⟩, ⟨?_, ?_⟩, ?_⟩
  · intro hx q
    rw [hc, hpar, h0', travel_round h ht (hcirc.mp hx)]
    exact ht.round (hcirc.mp hx) q
  · intro hx
    obtain ⟨g1, g2⟩ := ht.rectified (hfree.mp hx)
    refine ⟨by rw [hl]; exact mul_nonneg g1 (by linarith), ?_⟩
    intro s t s0 s1 u0 u1
    have hin : ∀ u, 0 ≤ u → u ≤ 1 → 0 ≤ t1.1 + u * (t2.1 - t1.1) ∧ t1.1 + u * (t2.1 - t1.1) ≤ 1 := by
      intro u a b
      constructor <;> nlinarith
    rw [hxy, hxy, hl]
    refine le_trans (g2 _ _ (hin s s0 s1).1 (hin s s0 s1).2 (hin t u0 u1).1 (hin t u0 u1).2) (le_of_eq ?_)
    ring
  · intro q hq
    rcases hq with ⟨hg, hs⟩ | ⟨hx, hpc, hs⟩ | ⟨hx, -, hs⟩ | ⟨hx, t, t0, t1', rfl⟩
    · left
      have hg' : e.geom = .line := by rw [← hp.kind.1]; exact hg
      refine ⟨hg', ?_⟩
      obtain ⟨u, u0, u1, rfl⟩ := hs
      rw [h0', h1', hd.line hg' t1.1, hd.line hg' t2.1]
      refine ⟨t1.1 + u * (t2.1 - t1.1), by nlinarith, by nlinarith, ?_⟩
      simp only [Pt.lerp, Pt.mk.injEq]
      constructor <;> ring
    · right; left
      refine ⟨hcirc.mp hx, hcl hpc, ?_⟩
      rw [← hc, hs, hc, h0', travel_round h ht (hcirc.mp hx)]
    · rw [hkind, hc, h0', h1'] at hs
      cases hec : e.closed with
      | true =>
        right; left
        refine ⟨hcirc.mp hx, hec, ?_⟩
        rw [hs.1, travel_round h ht (hcirc.mp hx)]
      | false => exact hd.arc (hcirc.mp hx) hec _ _ h0 h12 h1 _ hs
    · right; right; right
      refine ⟨hfree.mp hx, _, ?_, ?_, hxy t⟩ <;> nlinarith

theorem within_self {ze : ℚ} {e : Edge} (h : FlatEdge ze e) (hr : Routable e) (ht : TrueShape e) : Within e e :=
  ⟨flat_ok h, hr, ht, fun _ h => h⟩

/-- A vertical line at a point of the edge. -/
theorem connector_within {e : Edge} {a b : Vec} (hx : a.x = b.x) (hy : a.y = b.y) (hc : e.covers a.xy) {c : Edge}
    (h : makeLine a b = .ok c) : Within e c := by
  have hz : a.z ≠ b.z := by
    intro hz
    unfold makeLine at h
    rw [if_pos (by cases a; cases b; simp_all)] at h
    cases h
  obtain ⟨c', h1, h2, h3⟩ := connector_spec hx hy hz
  rw [h] at h1
  cases h1
  have hxy : ∀ u, (c.travel u).xy = a.xy := fun u => by rw [h2.path]; rfl
  have hncirc : ¬ c.circular := by rintro (h | h) <;> rw [h2.line] at h <;> cases h
  have hnfree : ¬ c.free := by rintro (h | h | h) <;> rw [h2.line] at h <;> cases h
  refine ⟨h2.ok, ⟨by rw [h2.line]; simp, fun h => absurd h hncirc⟩, ⟨fun h => absurd h hncirc, fun h => absurd h hnfree⟩, ?_⟩
  rintro q (⟨-, t, -, -, rfl⟩ | ⟨h, -⟩ | ⟨h, -⟩ | ⟨h, -⟩)
  · rw [hxy, hxy]
    have : a.xy.lerp a.xy t = a.xy := by simp [Pt.lerp]
    rw [this]
    exact hc
  · exact absurd h hncirc
  · exact absurd h hncirc
  · exact absurd h hnfree

theorem tabSegments_within {ze z : ℚ} {e : Edge} (h : FlatEdge ze e) (hr : Routable e) (ht : TrueShape e) (hd : Divisible e)
    (ts : List (ℚ × Transition)) : ∀ prev es, Increasing ts → (∀ t ∈ ts, 0 ≤ t.1 ∧ t.1 ≤ 1) →
      (∀ p, prev = some p → EdgeOK p ∧ ∀ t, ts.head? = some t → (p.travel 1).xy = (e.travel t.1).xy) →
      tabSegments z e prev ts = .ok es → ∀ p ∈ es, Within e p := by
  induction ts with
  | nil => intro prev es _ _ _ hes; cases hes; simp
  | cons t1 ts ih =>
    cases ts with
    | nil => intro prev es _ _ _ hes; cases hes; simp
    | cons t2 ts =>
      intro prev es hinc hin hprev hes
      rw [tabSegments_cons] at hes
      obtain ⟨con, h1, hes⟩ := bind_ok.mp hes
      obtain ⟨rest, h2, hes⟩ := bind_ok.mp hes
      cases hes
      have h12 : t1.1 < t2.1 := by
        have := (List.pairwise_cons.mp hinc).1 t2 (by simp)
        exact this
      have hpw := piece_within (z := z) h hr ht hd (hin t1 (by simp)).1 h12 (hin t2 (by simp)).2
      have hp := piece_spec (z := z) h t1 t2
      have hxy : ∀ u, ((tabPiece z e t1 t2).travel u).xy = (e.travel (t1.1 + u * (t2.1 - t1.1))).xy := by
        intro u
        have := hp.path u
        simp only [Prod.mk.injEq] at this
        exact Pt.ext this.1 this.2
      intro p hpm
      rcases List.mem_append.mp hpm with hpm | hpm
      · cases prev with
        | none => cases h1; cases hpm
        | some q =>
          obtain ⟨hq, hend⟩ := hprev q rfl
          unfold tabConnector at h1
          obtain ⟨c, hc, h1⟩ := bind_ok.mp h1
          cases h1
          rw [List.mem_singleton] at hpm
          subst hpm
          have e1 : (edgeEndPoint q).xy = (e.travel t1.1).xy := by rw [edgeEndPoint_eq hq]; exact hend t1 rfl
          have e2 : (edgeStartPoint (tabPiece z e t1 t2)).xy = (e.travel t1.1).xy := by
            rw [edgeStartPoint_eq hp.ok, hxy]; simp
          have e3 := e1.trans e2.symm
          refine connector_within (congrArg Pt.x e3) (congrArg Pt.y e3) ?_ hc
          rw [e3, edgeStartPoint_eq hp.ok]
          exact hpw.covers _ (covers_ends hpw.ok hpw.routable hpw.shape).1
      · rcases List.mem_cons.mp hpm with rfl | hpm
        · exact hpw
        · refine ih (some (tabPiece z e t1 t2)) rest (List.pairwise_cons.mp hinc).2 (fun t ht' => hin t (by simp [List.mem_cons.mp ht'])) ?_ h2 p hpm
          intro q hq
          cases hq
          refine ⟨hp.ok, ?_⟩
          intro t htt
          cases htt
          rw [hxy]
          congr 2
          ring

theorem full_bounds {ts : List (ℚ × Transition)} (hi : Increasing ts) (hf : FullEdge ts) : ∀ t ∈ ts, 0 ≤ t.1 ∧ t.1 ≤ 1 := by
  obtain ⟨h0, h1⟩ := hf
  intro t ht
  constructor
  · cases ts with
    | nil => cases ht
    | cons a ts =>
      simp only [List.head?_cons, Option.map_some, Option.some.injEq] at h0
      rcases List.mem_cons.mp ht with rfl | ht
      · exact h0.ge
      · have : a.1 < t.1 := (List.pairwise_cons.mp hi).1 t ht
        linarith
  · rcases List.eq_nil_or_concat ts with rfl | ⟨l, a, rfl⟩
    · cases ht
    · simp only [List.concat_eq_append, List.getLast?_append, List.getLast?_singleton, Option.some_or, Option.map_some, Option.some.injEq] at h1
      rw [List.concat_eq_append] at ht hi
      rcases List.mem_append.mp ht with ht | ht
      · have : t.1 < a.1 := (List.pairwise_append.mp hi).2.2 t ht a (by simp)
        linarith
      · rw [List.mem_singleton] at ht
        subst ht
        exact h1.le

theorem tabEdges_within {z : ℚ} (es : List Edge) : ∀ (tss : List (List (ℚ × Transition))) (out : List Edge) (ze : ℚ),
    (∀ e ∈ es, FlatEdge ze e ∧ Routable e ∧ TrueShape e ∧ Divisible e) → (∀ ts ∈ tss, Increasing ts ∧ FullEdge ts) →
    tabEdges z es tss = .ok out → ∀ p ∈ out, ∃ e ∈ es, Within e p := by
  induction es with
  | nil => intro tss out ze _ _ h; cases h; simp
  | cons e es ih =>
    intro tss out ze he htss h
    cases tss with
    | nil => cases h; simp
    | cons ts tss =>
      simp only [tabEdges] at h
      obtain ⟨ps, h1, h⟩ := bind_ok.mp h
      obtain ⟨rest, h2, h⟩ := bind_ok.mp h
      cases h
      obtain ⟨g1, g2, g3, g4⟩ := he e (by simp)
      obtain ⟨hi, hf⟩ := htss ts (by simp)
      intro p hp
      rcases List.mem_append.mp hp with hp | hp
      · refine ⟨e, by simp, ?_⟩
        unfold tabEdge at h1
        split at h1
        · cases h1
          rw [List.mem_singleton] at hp
          subst hp
          exact within_self g1 g2 g3
        · exact tabSegments_within g1 g2 g3 g4 ts none ps hi (full_bounds hi hf) (by simp) h1 p hp
      · obtain ⟨e', he', hw⟩ := ih tss rest ze (fun x hx => he x (by simp [hx])) (fun x hx => htss x (by simp [hx])) h2 p hp
        exact ⟨e', by simp [he'], hw⟩

theorem within_id {e p : Edge} (h : Within e p) (i : ℕ) : Within e { p with id := i } :=
  ⟨⟨h.ok.param0, h.ok.param1, h.ok.len0, h.ok.len1⟩, h.routable, ⟨h.shape.round, h.shape.rectified⟩, h.covers⟩

/-- A pass with tabs lies within the pass. -/
theorem applyTabs_within {cad : Cad} (hA : AssemblesFrom cad) {tabZ : ℚ} {tabs : Tabs} {w w' : List Edge} {ze : ℚ}
    (he : ∀ e ∈ w, FlatEdge ze e ∧ Routable e ∧ TrueShape e ∧ Divisible e)
    (ht : ∀ tss, tabs.transitions (cad.wireLength w) w = .ok tss → ∀ ts ∈ tss, Increasing ts ∧ FullEdge ts)
    (h : applyTabs cad tabZ tabs w = .ok w') : ∀ p ∈ w', ∃ e ∈ w, Within e p := by
  have hself : ∀ p ∈ w, ∃ e ∈ w, Within e p := fun p hp => ⟨p, hp, within_self (he p hp).1 (he p hp).2.1 (he p hp).2.2.1⟩
  unfold applyTabs at h
  split at h
  · cases h; exact hself
  · obtain ⟨tss, h1, h⟩ := bind_ok.mp h
    obtain ⟨new, h2, h⟩ := bind_ok.mp h
    have hnew := tabEdges_within (z := tabZ) w tss new ze he (ht tss h1) h2
    split at h
    · rename_i w2 hass
      cases h
      intro p hp
      obtain ⟨p', hp', i, rfl⟩ := hA _ _ hass p hp
      obtain ⟨e, he', hw⟩ := hnew p' hp'
      exact ⟨e, he', within_id hw i⟩
    · cases h; exact hself

theorem divisible_up {e : Edge} (dz : ℚ) (h : Divisible e) : Divisible (e.up dz) := ⟨h.line, h.arc⟩

/-- C115 for one profile with tabs. -/
theorem C115_tabs_partial {cad : Cad} {j : Job} {wire : List Edge} {offset : ℚ} {stepdown : Option ℚ} {tabs : Tabs} {cs : List Motion}
    {part : Pt → Prop} {τ s r : ℚ} (hrel : ∀ v w, cad.relocate v w = w) (hA : AssemblesFrom cad) (hv : ∀ w, NearestIsVertex cad w)
    (hτ : Tolerance cad j.precision τ) (hr : j.toolRadius = some r)
    (hsound : OffsetsSound cad (wire.map (Edge.toLocal j.top)) (offset * r))
    (hdiv : OffsetsDivisible cad (wire.map (Edge.toLocal j.top)) (offset * r))
    (htabs : OffsetsTabbed cad tabs (wire.map (Edge.toLocal j.top)) (offset * r))
    (haway : OffsetsAway cad part (wire.map (Edge.toLocal j.top)) (offset * r))
    (hs : 0 ≤ s) (hsr : s + τ + 1 / 1000000 ≤ |offset * r|)
    (h : profile cad j wire offset stepdown (some tabs) = .ok cs) :
    ∀ c ∈ cs, c.kind.mot ≠ .rapid → Located c ∧ ∀ p, Sweeps c p → Away part s p := by
  have hτ0 : 0 ≤ τ := le_trans (by positivity) hτ.unit
  obtain ⟨r', hr', hcase⟩ := C75_offset_partial hrel h
  rw [hr] at hr'
  cases hr'
  rcases hcase with ⟨curves, features, ⟨found, hfound, hsub, -⟩, hfeat, hroute⟩ | ⟨-, -, rfl⟩
  · obtain ⟨d', hd', hf⟩ : ∃ d', (d' = offset * r ∨ d' = offset * r + 1 / 1000000) ∧
        cad.offset2D (wire.map (Edge.toLocal j.top)) d' = .ok found := by
      rcases hfound with h1 | ⟨-, h1⟩
      · exact ⟨_, Or.inl rfl, h1⟩
      · exact ⟨_, Or.inr rfl, h1⟩
    have hd : s + τ ≤ |d'| := by
      rcases hd' with rfl | rfl
      · linarith
      · have := abs_sub_abs_le_abs_sub (offset * r) (-(1 / 1000000))
        rw [abs_neg, abs_of_nonneg (by norm_num : (0 : ℚ) ≤ 1 / 1000000), sub_neg_eq_add] at this
        linarith
    have hmem : ∀ w ∈ features.flatten, ∃ c ∈ found, ∃ dz, ∀ p ∈ w, ∃ e ∈ c, Within (e.up dz) p := by
      intro w hw
      obtain ⟨l, hl, hwl⟩ := List.mem_flatten.mp hw
      obtain ⟨c, hc, hfc⟩ := forall₂_mem_right hfeat hl
      have hcf := hsub.subset hc
      refine ⟨c, hcf, ?_⟩
      obtain ⟨ls, h1, h2⟩ := bind_ok.mp hfc
      have h2 : mapE (applyTabs cad (cad.zmin c + tabs.height) tabs) ls = .ok l := h2
      obtain ⟨lay, hlay, hap⟩ := mapE_mem h2 hwl
      obtain ⟨dz, rfl⟩ : ∃ dz, lay = c.map (Edge.up dz) := by
        rcases profileLayers_mem h1 lay hlay with rfl | ⟨s, -, k, -, -, rfl, -⟩
        · exact ⟨0, (up_zero _).symm⟩
        · exact ⟨_, rfl⟩
      refine ⟨dz, fun p hp => ?_⟩
      obtain ⟨g1, g2, -⟩ := hsound d' hd' found hf c hcf
      obtain ⟨e, he, hwi⟩ := applyTabs_within hA (ze := cad.zmin c + dz) (by
        intro e he
        have g3 := (wireOK_up g1 dz).routable e he
        obtain ⟨e', he', rfl⟩ := List.mem_map.mp he
        obtain ⟨g4, g5⟩ := hdiv d' hd' found hf c hcf e' he'
        exact ⟨flatEdge_up g4, g3, trueShape_up dz (g2 e' he'), divisible_up dz g5⟩) (htabs d' hd' found hf c hcf dz) hap p hp
      obtain ⟨e', he', rfl⟩ := List.mem_map.mp he
      exact ⟨e', he', hwi⟩
    intro c hc hk
    obtain ⟨hloc, hnear⟩ := routeWires_near hτ (ws := features.flatten) (by
      intro w hw e he
      obtain ⟨c, hc, dz, hall⟩ := hmem w hw
      obtain ⟨e', -, hwi⟩ := hall e he
      exact ⟨hwi.ok, hwi.routable, hwi.shape⟩) (fun w _ => hv w) hroute c hc hk
    refine ⟨hloc, fun p hp => ?_⟩
    obtain ⟨w, hw, e, he, q, hq, hqd⟩ := hnear p hp
    obtain ⟨c', hc', dz, hall⟩ := hmem w hw
    obtain ⟨e', he', hwi⟩ := hall e he
    exact away_near (haway d' hd' found hf c' hc' e' he' q (hwi.covers q hq)) hqd hs hτ0 hd
  · simp

/-! ### Tabs in order -/

theorem proper_full {ts : List (ℚ × Transition)} (h : ProperTransitions ts) : Increasing ts ∧ FullEdge ts := ⟨h.increasing, h.full⟩

/-- Tabs along the edges are in order, when their spacing is more than one and a half times their width. -/
theorem edge_tabbed {cad : Cad} {w : List Edge} {d : ℚ} {spacing width height : ℚ} {only : Option Geom} {t : EdgeTabs}
    (hnew : EdgeTabs.new spacing width height only = .ok t) (hw : 0 < width) (hs : 3 * width < 2 * spacing)
    (hlen : ∀ d', (d' = d ∨ d' = d + 1 / 1000000) → ∀ found, cad.offset2D w d' = .ok found → ∀ c ∈ found, ∀ e ∈ c, 0 < e.length) :
    OffsetsTabbed cad (.edge t) w d := by
  intro d' hd' found hf c hc dz tss htss ts hts
  obtain ⟨dss, h1, h2⟩ := bind_ok.mp htss
  cases h2
  obtain ⟨ds, hds, rfl⟩ := List.mem_map.mp hts
  obtain ⟨e, he, hed⟩ := mapE_mem h1 hds
  obtain ⟨x, hx, rfl⟩ := List.mem_map.mp he
  have hL : 0 < (x.up dz).length := hlen d' hd' found hf c hc x hx
  have honly : t.only = only := by
    unfold EdgeTabs.new at hnew
    split at hnew <;> cases hnew
    rfl
  by_cases ho : only = none ∨ only = some (x.up dz).geom
  · obtain ⟨ds1, g1, g2⟩ := C49_wide_spacing hnew hw hs hL ho
    obtain ⟨ds2, k1, k2, -⟩ := C49_transitions_partial hnew hw hL ho
    rw [hed] at g1 k1
    cases g1
    cases k1
    exact ⟨g2, k2⟩
  · cases hon : only with
    | none => exact absurd (.inl hon) ho
    | some g =>
      rw [C49_other_kinds (honly.trans hon) (fun h => ho (.inr (by rw [hon, h])))] at hed
      cases hed
      exact ⟨by simp [edgeTransitions, Increasing], by simp [edgeTransitions, FullEdge]⟩

/-- Tabs around the contours are in order, when they fit and none reaches over the end of the last edge. -/
theorem wire_tabbed {cad : Cad} {w : List Edge} {d : ℚ} {t : WireTabs} {n : ℕ} (hn : 0 < n) (hcount : t.count = n) (hw : 0 < t.width)
    (hz : ∀ d', (d' = d ∨ d' = d + 1 / 1000000) → ∀ found, cad.offset2D w d' = .ok found → ∀ c ∈ found,
      (∀ e ∈ c, 0 < e.length) ∧ ZonesFit cad n t.width c) :
    OffsetsTabbed cad (.wire t) w d := by
  intro d' hd' found hf c hc dz tss htss ts hts
  obtain ⟨hlen, hz⟩ := hz d' hd' found hf c hc
  have hmap : ∀ l : List Edge, (l.map (Edge.up dz)).map Edge.length = l.map Edge.length := by
    intro l
    rw [List.map_map]
    rfl
  have hall : ∀ pre e post, c = pre ++ e :: post → ∃ ts, tss[pre.length]? = some ts ∧ tss.length = c.length ∧ ProperTransitions ts := by
    intro pre e post hsplit
    obtain ⟨tss', ts', g1, g2, g3, g4, -⟩ := C50_zones_partial hn hcount hw (edges := c.map (Edge.up dz)) (pre := pre.map (Edge.up dz))
      (e := e.up dz) (post := post.map (Edge.up dz)) (by rw [hsplit]; simp) (by
        intro x hx
        obtain ⟨y, hy, rfl⟩ := List.mem_map.mp hx
        exact hlen y hy) (L := (c.map Edge.length).sum) (by rw [hmap]) hz.fit (a := (pre.map Edge.length).sum) (by rw [hmap])
      (hz.last pre e post hsplit)
    rw [hz.length dz, g1] at htss
    cases htss
    exact ⟨ts', by rwa [List.length_map] at g2, by rwa [List.length_map] at g3, g4⟩
  obtain ⟨i, hi, rfl⟩ := List.mem_iff_getElem.mp hts
  have hlenc : tss.length = c.length := by
    cases c with
    | nil =>
      obtain ⟨a, -, h2⟩ := bind_ok.mp htss
      obtain ⟨b, h3, h2⟩ := bind_ok.mp h2
      simp only [List.map_nil] at h3
      cases h2
      cases h3
      rfl
    | cons e c => exact (hall [] e c rfl).choose_spec.2.1
  have hic : i < c.length := hlenc ▸ hi
  obtain ⟨ts, g1, -, g2⟩ := hall (c.take i) c[i] (c.drop (i + 1)) (by rw [List.cons_getElem_drop_succ, List.take_append_drop])
  rw [List.length_take, Nat.min_eq_left hic.le, List.getElem?_eq_getElem hi] at g1
  cases g1
  exact proper_full g2

/-! ### The calls -/

theorem profiles_tabs_away {cad : Cad} {j : Job} {wires : List (List Edge)} {offset : ℚ} {stepdown : Option ℚ} {tabs : Tabs}
    {cs : List Motion} {part : Pt → Prop} {τ s r : ℚ} (hrel : ∀ v w, cad.relocate v w = w) (hA : AssemblesFrom cad)
    (hv : ∀ w, NearestIsVertex cad w) (hτ : Tolerance cad j.precision τ) (hr : j.toolRadius = some r)
    (hw : ∀ w ∈ wires, OffsetsSound cad (w.map (Edge.toLocal j.top)) (offset * r) ∧
      OffsetsDivisible cad (w.map (Edge.toLocal j.top)) (offset * r) ∧
      OffsetsTabbed cad tabs (w.map (Edge.toLocal j.top)) (offset * r) ∧
      OffsetsAway cad part (w.map (Edge.toLocal j.top)) (offset * r))
    (hs : 0 ≤ s) (hsr : s + τ + 1 / 1000000 ≤ |offset * r|) (h : profiles cad j offset stepdown (some tabs) wires = .ok cs) :
    ∀ c ∈ cs, c.kind.mot ≠ .rapid → Located c ∧ ∀ p, Sweeps c p → Away part s p := by
  obtain ⟨bs, h1, h⟩ := bind_ok.mp h
  cases h
  intro c hc
  obtain ⟨b, hb, hc⟩ := List.mem_flatten.mp hc
  obtain ⟨w, hwm, hw'⟩ := mapE_mem h1 hb
  obtain ⟨g1, g2, g3, g4⟩ := hw w hwm
  exact C115_tabs_partial hrel hA hv hτ hr g1 g2 g3 g4 hs hsr hw' c hc

/-- C115 for `Job.wire_profile` with tabs. -/
theorem C115_wire_profile_tabs_partial {cad : Cad} {j : Job} {wires : List (List Edge)} {offset : ℚ} {stepdown : Option ℚ} {tabs : Tabs}
    {tool : Option Tool} {cs : List Motion} {part : Pt → Prop} {τ s r : ℚ} (hrel : ∀ v w, cad.relocate v w = w)
    (hA : AssemblesFrom cad) (hv : ∀ w, NearestIsVertex cad w) (hτ : Tolerance cad j.precision τ) (hr : j.toolRadius = some r)
    (hw : ∀ w ∈ wires, OffsetsSound cad (w.map (Edge.toLocal j.top)) (offset * r) ∧
      OffsetsDivisible cad (w.map (Edge.toLocal j.top)) (offset * r) ∧
      OffsetsTabbed cad tabs (w.map (Edge.toLocal j.top)) (offset * r) ∧
      OffsetsAway cad part (w.map (Edge.toLocal j.top)) (offset * r))
    (hs : 0 ≤ s) (hsr : s + τ + 1 / 1000000 ≤ |offset * r|)
    (h : (wireProfileRequest cad wires offset stepdown (some tabs) tool).gen j = .ok cs) :
    ∀ c ∈ cs, c.kind.mot ≠ .rapid → Located c ∧ ∀ p, Sweeps c p → Away part s p := profiles_tabs_away hrel hA hv hτ hr hw hs hsr h

/-- C115 for `Job.profile` with tabs. -/
theorem C115_profile_tabs_partial {cad : Cad} {j : Job} {shapes : List Shape} {outers inners : List (List Edge)}
    {outerOffset innerOffset stepdown : Option ℚ} {tabs : Tabs} {tool : Option Tool} {cs : List Motion} {part : Pt → Prop} {τ s r : ℚ}
    (hrel : ∀ v w, cad.relocate v w = w) (hA : AssemblesFrom cad) (hv : ∀ w, NearestIsVertex cad w)
    (hτ : Tolerance cad j.precision τ) (hr : j.toolRadius = some r) (hx : extractWires shapes = .ok (outers, inners))
    (hw : ∀ w o, (w ∈ outers ∧ outerOffset = some o) ∨ (w ∈ inners ∧ innerOffset = some o) →
      OffsetsSound cad (w.map (Edge.toLocal j.top)) (o * r) ∧ OffsetsDivisible cad (w.map (Edge.toLocal j.top)) (o * r) ∧
      OffsetsTabbed cad tabs (w.map (Edge.toLocal j.top)) (o * r) ∧ OffsetsAway cad part (w.map (Edge.toLocal j.top)) (o * r))
    (hs : 0 ≤ s) (hsr : ∀ o, outerOffset = some o ∨ innerOffset = some o → s + τ + 1 / 1000000 ≤ |o * r|)
    (h : (profileRequest cad shapes outerOffset innerOffset stepdown (some tabs) tool).gen j = .ok cs) :
    ∀ c ∈ cs, c.kind.mot ≠ .rapid → Located c ∧ ∀ p, Sweeps c p → Away part s p := by
  obtain ⟨⟨os, is⟩, h0, h⟩ := bind_ok.mp h
  rw [hx] at h0
  cases h0
  obtain ⟨a, h1, h⟩ := bind_ok.mp h
  obtain ⟨b, h2, h⟩ := bind_ok.mp h
  cases h
  intro c hc
  rcases List.mem_append.mp hc with hc | hc
  · cases hi : innerOffset with
    | none => rw [hi] at h1; cases h1; cases hc
    | some o =>
      rw [hi] at h1
      exact profiles_tabs_away hrel hA hv hτ hr (fun w hwm => hw w o (Or.inr ⟨hwm, hi⟩)) hs (hsr o (Or.inr hi)) h1 c hc
  · cases hi : outerOffset with
    | none => rw [hi] at h2; cases h2; cases hc
    | some o =>
      rw [hi] at h2
      exact profiles_tabs_away hrel hA hv hτ hr (fun w hwm => hw w o (Or.inl ⟨hwm, hi⟩)) hs (hsr o (Or.inl hi)) h2 c hc

/-! ### A square -/

theorem strictCad_from : AssemblesFrom strictCad := by
  intro es w h e he
  change (if Chained es then Except.ok (renumber 0 es) else Except.error Err.stdFail) = .ok w at h
  split at h
  · cases h
    obtain ⟨e', he', i, hi⟩ := forall₂_mem_right (renumber_same es 0) he
    exact ⟨e', he', i, hi⟩
  · cases h

theorem lineEdge_true {id : ℕ} {a b : Pt} {z len : ℚ} : TrueShape (lineEdge id a b z len) where
  round := by rintro (h | h) <;> cases h
  rectified := by rintro (h | h | h) <;> cases h

theorem lineEdge_divisible {id : ℕ} {a b : Pt} {z len : ℚ} : Divisible (lineEdge id a b z len) where
  line := fun _ t => by simp [Edge.travel, lineEdge, Pt.lerp, Vec.xy]
  arc := by rintro (h | h) <;> cases h

/-- The square from `(2, 2)` to `(4, 4)`. -/
def squarePart (q : Pt) : Prop := 2 ≤ q.x ∧ q.x ≤ 4 ∧ 2 ≤ q.y ∧ q.y ≤ 4

theorem innerSquare_edges : ∀ e ∈ innerSquare, FlatEdge (strictCad.zmin innerSquare) e ∧ TrueShape e ∧ Divisible e ∧ 0 < e.length := by
  rw [show strictCad.zmin innerSquare = -1 by decide +kernel]
  simp only [innerSquare, outline, List.map_cons, List.map_nil, List.mem_cons, List.not_mem_nil, or_false]
  rintro e (rfl | rfl | rfl | rfl) <;>
    exact ⟨lineEdge_flat (by norm_num), lineEdge_true, lineEdge_divisible, by norm_num [lineEdge]⟩

theorem strictCad_tolerance : Tolerance strictCad twoJob.precision (3 / 2000) where
  unit := by rw [show twoJob.precision = 3 from rfl]; norm_num
  same := by
    intro a b h
    rw [show a = b from of_decide_eq_true h]
    norm_num [sqDist]

theorem innerSquare_sound (d : ℚ) : OffsetsSound strictCad innerSquare d := by
  intro d hd found hf c hc
  cases hf
  rw [List.mem_singleton] at hc
  subst hc
  exact ⟨innerSquare_ok, fun e he => (innerSquare_edges e he).2.1, by intro dz v h hh; cases hh⟩

theorem innerSquare_divisible (d : ℚ) : OffsetsDivisible strictCad innerSquare d := by
  intro d hd found hf c hc
  cases hf
  rw [List.mem_singleton] at hc
  subst hc
  exact fun e he => ⟨(innerSquare_edges e he).1, (innerSquare_edges e he).2.2.1⟩

theorem innerSquare_edge_tabs (d : ℚ) : OffsetsTabbed strictCad (.edge ⟨3, 1, 1 / 2, none⟩) innerSquare d := by
  refine edge_tabbed (spacing := 3) (width := 1) (height := 1 / 2) (only := none) (by decide +kernel) (by norm_num) (by norm_num) ?_
  intro d hd found hf c hc
  cases hf
  rw [List.mem_singleton] at hc
  subst hc
  exact fun e he => (innerSquare_edges e he).2.2.2

theorem innerSquare_wire_tabs (d : ℚ) : OffsetsTabbed strictCad (.wire ⟨3, 1, 1 / 2⟩) innerSquare d := by
  refine wire_tabbed (n := 3) (by norm_num) rfl (by norm_num) ?_
  intro d hd found hf c hc
  cases hf
  rw [List.mem_singleton] at hc
  subst hc
  exact ⟨fun e he => (innerSquare_edges e he).2.2.2, innerSquare_zones⟩

theorem innerSquare_away : OffsetsAway strictCad squarePart innerSquare 1 := by
  intro d hd found hf c hc e he p hp q hq
  cases hf
  rw [List.mem_singleton] at hc
  subst hc
  have hd1 : 0 ≤ d ∧ d ≤ 2 := by rcases hd with rfl | rfl <;> norm_num
  have hbox : p.x = 0 ∨ p.x = 6 ∨ p.y = 0 ∨ p.y = 6 := by
    simp only [innerSquare, outline, List.map_cons, List.map_nil, List.mem_cons, List.not_mem_nil, or_false] at he
    rcases he with rfl | rfl | rfl | rfl <;>
      rcases hp with ⟨-, t, -, -, rfl⟩ | ⟨h | h, -⟩ | ⟨h | h, -⟩ | ⟨h | h | h, -⟩ <;>
      first
        | cases h
        | simp [Edge.travel, lineEdge, Pt.lerp, Vec.xy]
  obtain ⟨q1, q2, q3, q4⟩ := hq
  unfold sqDist
  have h4 : d ^ 2 ≤ 4 := by nlinarith
  rcases hbox with h | h | h | h <;> rw [h] <;> nlinarith [sq_nonneg (p.x - q.x), sq_nonneg (p.y - q.y)]

theorem innerSquare_local : innerSquare.map (Edge.toLocal twoJob.top) = innerSquare := by
  rw [show Edge.toLocal twoJob.top = id from funext toLocal_xy, List.map_id]

/-- A square is milled along a larger one with a tool of radius 1 and tabs along the edges (width 1, spacing 3): all hypotheses hold. -/
example : (∀ v w, strictCad.relocate v w = w) ∧ AssemblesFrom strictCad ∧ (∀ w, NearestIsVertex strictCad w) ∧
    Tolerance strictCad twoJob.precision (3 / 2000) ∧ twoJob.toolRadius = some 1 ∧
    OffsetsSound strictCad innerSquare 1 ∧ OffsetsDivisible strictCad innerSquare 1 ∧
    OffsetsTabbed strictCad (.edge ⟨3, 1, 1 / 2, none⟩) innerSquare 1 ∧
    OffsetsTabbed strictCad (.wire ⟨3, 1, 1 / 2⟩) innerSquare 1 ∧
    OffsetsAway strictCad squarePart innerSquare 1 ∧
    innerSquare.map (Edge.toLocal twoJob.top) = innerSquare ∧
    (0 : ℚ) ≤ 199 / 200 ∧ (199 / 200 + 3 / 2000 + 1 / 1000000 : ℚ) ≤ |1 * 1| ∧
    ∃ cs, profile strictCad twoJob innerSquare 1 none (some (.edge ⟨3, 1, 1 / 2, none⟩)) = .ok cs ∧ ∃ c ∈ cs, c.kind.mot ≠ .rapid := by
  refine ⟨fun _ _ => rfl, strictCad_from, fun _ _ _ h => (by cases h), strictCad_tolerance, by decide +kernel, innerSquare_sound 1,
    innerSquare_divisible 1, innerSquare_edge_tabs 1, innerSquare_wire_tabs 1, innerSquare_away, innerSquare_local, by norm_num, by norm_num, ?_⟩
  have hm : (match profile strictCad twoJob innerSquare 1 none (some (.edge ⟨3, 1, 1 / 2, none⟩)) with
    | .ok cs => cs.any (fun c => decide (c.kind.mot ≠ .rapid)) | .error _ => false) = true := by decide +kernel
  cases h : profile strictCad twoJob innerSquare 1 none (some (.edge ⟨3, 1, 1 / 2, none⟩)) with
  | error e => rw [h] at hm; cases hm
  | ok cs =>
    rw [h] at hm
    obtain ⟨c, hc, hk⟩ := List.any_eq_true.mp hm
    exact ⟨cs, rfl, c, hc, by simpa using hk⟩

end CQ
