import Verif.Props.TabRun64
import Verif.Props.TabStep
import Verif.Spec.TabStep64

/-! # C152: a profile with tabs computed in floating point never takes more than a stepdown at once, up to rounding -/

namespace CQ

/-- Two consecutive passes. -/
theorem pass_below64 {cad : Cad} {base w w' p p' : List Edge} {S d d' z0 z : ℚ} {T : List (List (ℚ × Transition))}
    {M : List Edge → List (List (ℚ × Transition)) → Prop} (hS : 0 ≤ S) (hne : base ≠ []) (hflat : ∀ e ∈ base, FlatEdge z0 e)
    (hT : ∀ v tss, M v tss → tss = T ∧ ∀ e ∈ v, ∀ t, (e.travel t).z < z) (hproper : ∀ ts ∈ T, ProperTransitions ts)
    (h : RaisedBy d base w) (h' : RaisedBy d' base w') (hd : d' ≤ d + S) (hz : cad.zmin w ≤ z0 + d + S)
    (hp : TabbedPass cad z M w p) (hp' : TabbedPass cad z M w' p') : BelowBy S p' p := by
  have hR : List.Forall₂ (fun e e' : Edge => ∀ t, (e.travel t).z = z0 + d ∧ (e'.travel t).xy = (e.travel t).xy ∧
      (e'.travel t).z = z0 + d') w w' := by
    refine (forall₂_trans (List.Forall₂.flip h) h').imp ?_
    rintro e e' ⟨x, hx, k1, k2⟩ t
    have k1 : RaisedEdge d x e := k1
    have := edgeAt_travel (hflat x hx).flat t
    rw [k1.travel, k2.travel]
    exact ⟨by simp only [this], rfl, by simp only [this]⟩
  have hlow : ∀ {v : List Edge} {tss} {c : ℚ}, M v tss → RaisedBy c base v → z0 + c < z := by
    intro v tss c hm hr
    obtain ⟨x, xs, rfl⟩ := List.exists_cons_of_ne_nil hne
    obtain ⟨e, he, k⟩ := forall2_left hr (List.mem_cons_self : x ∈ x :: xs)
    have k : RaisedEdge c x e := k
    have := (hT v tss hm).2 e he 0
    rw [k.travel] at this
    simp only at this
    rwa [edgeAt_travel (hflat x (by simp)).flat 0] at this
  have hsplit : ∀ (l : List Edge) (T : List (List (ℚ × Transition))), T.length = l.length →
      List.Forall₂ (fun (p : Edge × List (ℚ × Transition)) b => b = [p.1]) (l.zip T) (l.map (fun e => [e])) := by
    intro l
    induction l with
    | nil => intro T _; simp
    | cons e l ih =>
      intro T hT
      obtain ⟨ts, T, rfl⟩ : ∃ a b, T = a :: b := List.exists_cons_of_ne_nil (by rintro rfl; cases hT)
      exact .cons rfl (ih T (by simpa using hT))
  have hfl : ∀ l : List Edge, (l.map (fun e => [e])).flatten = l := fun l => by
    rw [← List.flatMap_def, List.flatMap_singleton']
  have hself : ∀ l : List Edge, SameCurves l l := fun l => List.forall₂_same.mpr (fun e _ => ⟨e.id, rfl⟩)
  rcases hp with ⟨hzl, rfl⟩ | ⟨-, tss, hm, ⟨hlen, blocks, hbl, hsame⟩, -⟩
  · rcases hp' with ⟨-, rfl⟩ | ⟨-, tss', hm', ⟨hlen', blocks', hbl', hsame'⟩, -⟩
    · intro e he u h0 h1
      obtain ⟨e', he', k⟩ := forall2_left hR he
      obtain ⟨k1, k2, k3⟩ := k u
      exact ⟨e', he', u, h0, h1, k2, by rw [k1, k3]; linarith⟩
    · cases (hT _ _ hm').1
      have hze' := hlow hm' h'
      have := belowBy_blocks (s := S) hR (fun e e' ts b b' hts hr ha hb' => ?_)
        (hsplit p T (by rw [hlen']; exact hR.length_eq.symm)) hbl'
      · rw [hfl] at this
        exact belowBy_same hsame' (hself p) this
      · intro q hq u h0 h1
        cases ha
        cases List.mem_singleton.mp hq
        obtain ⟨⟨q', hq', v, v0, v1, c1, c2⟩, -⟩ := tabbedEdge_high (fun t => (hr t).2.2) hze'.le (hproper ts hts) hb' h0 h1
        exact ⟨q', hq', v, v0, v1, c1.trans (hr u).2.1, by rw [(hr u).1]; linarith⟩
  · cases (hT _ _ hm).1
    have hze := hlow hm h
    rcases hp' with ⟨-, hpw⟩ | ⟨-, tss', hm', ⟨hlen', blocks', hbl', hsame'⟩, -⟩
    · have := belowBy_blocks (s := S) hR (fun e e' ts b b' hts hr ha hb' => ?_) hbl
        (hsplit w' T (by rw [hlen]; exact hR.length_eq))
      · rw [hfl, ← hpw] at this
        exact belowBy_same (hself p') hsame this
      · intro q hq u h0 h1
        obtain ⟨x, x0, x1, k1, k2, -⟩ := tabbedEdge_low (fun t => (hr t).1) hze.le (hproper ts hts) ha q hq u h0 h1
        cases hb'
        exact ⟨e', by simp, x, x0, x1, (hr x).2.1.trans k1.symm, by rw [(hr x).2.2]; linarith⟩
    · cases (hT _ _ hm').1
      have hze' := hlow hm' h'
      refine belowBy_same hsame' hsame (belowBy_blocks (s := S) hR (fun e e' ts b b' hts hr ha hb' => ?_) hbl hbl')
      intro q hq u h0 h1
      obtain ⟨x, x0, x1, k1, k2, k3⟩ := tabbedEdge_low (fun t => (hr t).1) hze.le (hproper ts hts) ha q hq u h0 h1
      obtain ⟨g1, g2⟩ := tabbedEdge_high (fun t => (hr t).2.2) hze'.le (hproper ts hts) hb' x0 x1
      have hxy : (e'.travel x).xy = (q.travel u).xy := (hr x).2.1.trans k1.symm
      rcases k3 with k3 | k3
      · obtain ⟨q', hq', v, v0, v1, c1, c2⟩ := g1
        exact ⟨q', hq', v, v0, v1, c1.trans hxy, by linarith⟩
      · obtain ⟨q', hq', v, v0, v1, c1, c2⟩ := g2 k3
        exact ⟨q', hq', v, v0, v1, c1.trans hxy, by rw [c2]; linarith⟩

/-- The heights of the passes, none of which is below the contour. -/
theorem nearCopies_heights {base : List Edge} {layers : List (List Edge)} {ε s H : ℚ} {n : ℕ} (hε : ε ≤ s) (hs : 0 < s) (hn : n ≤ 100)
    (hε0 : 0 ≤ ε) (hH : 100 * s + ε ≤ H) (hl : NearCopies ε s base n layers) :
    List.Forall₂ (fun (k : ℕ) l => ∃ d, 0 ≤ d ∧ d ≤ H ∧ |d - k * s| ≤ ε ∧ RaisedBy d base l) (List.range (n + 1)).reverse layers := by
  obtain ⟨hr, hlast⟩ := hl
  rw [List.range_succ_eq_map, List.reverse_cons] at hr ⊢
  obtain ⟨l1, l2, g1, g2, rfl⟩ := forall₂_append_left hr
  cases g2 with
  | @cons _ x _ xs hx g2 =>
  cases g2
  rw [List.getLast?_append, List.getLast?_singleton, Option.some_or, Option.some.injEq] at hlast
  subst hlast
  refine List.rel_append (forall₂_imp_mem g1 ?_) (.cons ⟨0, le_rfl, by linarith, by simpa using hε0, ?_⟩ .nil)
  · rintro k hk l ⟨d, hd, hrd⟩
    rw [List.mem_reverse, List.mem_map] at hk
    obtain ⟨i, hi, rfl⟩ := hk
    have hi' : i + 1 ≤ 100 := by have := List.mem_range.mp hi; omega
    have h1 : (1 : ℚ) ≤ ((i + 1 : ℕ) : ℚ) := by exact_mod_cast Nat.succ_le_succ (Nat.zero_le i)
    have h2 : ((i + 1 : ℕ) : ℚ) ≤ 100 := by exact_mod_cast hi'
    have h3 := abs_le.mp hd
    have h4 : s ≤ ((i + 1 : ℕ) : ℚ) * s := le_mul_of_one_le_left hs.le h1
    have h5 : ((i + 1 : ℕ) : ℚ) * s ≤ 100 * s := mul_le_mul_of_nonneg_right h2 hs.le
    exact ⟨d, by linarith [h3.1], by linarith [h3.2], hd, hrd⟩
  · have := raised_up 0 x
    rwa [map_up_zero] at this

/-- All passes of a contour. -/
theorem passes_down64 {cad : Cad} {base : List Edge} {layers passes : List (List Edge)} {s z z0 L τ tol : ℚ}
    {T : List (List (ℚ × Transition))} {M : List Edge → List (List (ℚ × Transition)) → Prop} (hc : Steps64 (some s) L τ tol)
    (hs : 0 < s) (hεs : heightError L ≤ s) (hne : base ≠ []) (hbox : BoxMovesWithin τ (2 * L) cad base) (hz0 : |cad.zmin base - z0| ≤ τ)
    (hflat : ∀ e ∈ base, FlatEdge z0 e) (hT : ∀ v tss, M v tss → tss = T ∧ ∀ e ∈ v, ∀ t, (e.travel t).z < z)
    (hproper : ∀ ts ∈ T, ProperTransitions ts) (hl : NearPasses cad (heightError L) tol s base layers)
    (hp : List.Forall₂ (TabbedPass cad z M) layers passes) : PassesDown (-1 / 1000) (s + 2 * tol) passes := by
  obtain ⟨n, hn, hcop, -, hfirst⟩ := hl
  have hε := heightError_pos hc.size
  have hgap := hc.gap
  have htol := hc.tol
  have hεL : heightError L ≤ L := by
    have : heightError L ≤ 1 * L := mul_le_mul_of_nonneg_right (by norm_num) (by linarith [hc.size])
    linarith
  have hsL := (hc.step s rfl).2
  have hr := nearCopies_heights (H := 2 * L) hεs hs hn hε.le (by linarith) hcop
  have hzl : ∀ {d l}, 0 ≤ d → d ≤ 2 * L → RaisedBy d base l → cad.zmin l ≤ z0 + d + 2 * τ := by
    intro d l h0 h1 h2
    have g1 := abs_le.mp (hbox d l h0 h1 h2)
    have g2 := abs_le.mp hz0
    linarith [g1.2, g2.2]
  have hF := forall₂_trans hr hp
  have hchain : ∀ (n : ℕ) {ps : List (List Edge)},
      List.Forall₂ (fun (k : ℕ) p => ∃ l ∈ layers, (∃ d, 0 ≤ d ∧ d ≤ 2 * L ∧ |d - k * s| ≤ heightError L ∧ RaisedBy d base l) ∧
        TabbedPass cad z M l p) (List.range (n + 1)).reverse ps → List.IsChain (BelowBy (s + 2 * tol)) ps := by
    intro n
    induction n with
    | zero =>
      intro ps h
      simp only [zero_add, List.range_one, List.reverse_singleton] at h
      cases h with
      | cons h1 h2 => cases h2; exact List.isChain_singleton _
    | succ n ih =>
      intro ps h
      rw [List.range_succ, List.reverse_append, List.reverse_singleton, List.singleton_append] at h
      cases h with
      | cons h1 h2 =>
        have hch := ih h2
        rw [List.range_succ, List.reverse_append, List.reverse_singleton, List.singleton_append] at h2
        cases h2 with
        | cons h3 h4 =>
          refine List.isChain_cons_cons.mpr ⟨?_, hch⟩
          obtain ⟨l', -, ⟨d', a0, a1, a2, r'⟩, t'⟩ := h1
          obtain ⟨l, -, ⟨d, b0, b1, b2, r⟩, t⟩ := h3
          have c1 := abs_le.mp a2
          have c2 := abs_le.mp b2
          have : ((n + 1 : ℕ) : ℚ) * s = n * s + s := by push_cast; ring
          rw [this] at c1
          exact pass_below64 (d := d) (d' := d') (by linarith) hne hflat hT hproper r r' (by linarith [c1.2, c2.1])
            (by have := hzl b0 b1 r; linarith) t t'
  have hch := hchain n hF
  intro pre w post he e hew u h0 h1
  rcases List.eq_nil_or_concat pre with rfl | ⟨pre', w', rfl⟩
  · left
    rw [List.nil_append] at he
    subst he
    cases hp with
    | @cons l _ ls _ hp1 hp2 =>
      have hlz := hfirst l rfl
      obtain ⟨k, -, d, d0, d1, -, hrl⟩ := forall2_right hr (List.mem_cons_self : l ∈ l :: ls)
      have hzd := hzl d0 d1 hrl
      have hfl : ∀ x ∈ l, ∀ t, (x.travel t).z = z0 + d := by
        intro x hx t
        obtain ⟨y, hy, ky⟩ := forall2_right hrl hx
        have ky : RaisedEdge d y x := ky
        rw [ky.travel]
        simp only [edgeAt_travel (hflat y hy).flat t]
      rcases hp1 with ⟨-, rfl⟩ | ⟨-, tss, hm, ⟨hlen, blocks, hbl, hsame⟩, -⟩
      · rw [hfl e hew]; linarith
      · obtain ⟨q, hq, i, rfl⟩ := forall2_right hsame hew
        obtain ⟨b, hb', hqb⟩ := List.mem_flatten.mp hq
        obtain ⟨⟨x, ts⟩, hxt, hx⟩ := forall2_right hbl hb'
        obtain ⟨hx1, hx2⟩ := List.of_mem_zip hxt
        have hlow := (hT _ _ hm).2 x hx1 0
        rw [hfl x hx1] at hlow
        cases (hT _ _ hm).1
        obtain ⟨-, -, -, -, hlo, -⟩ := tabbedEdge_low (hfl x hx1) hlow.le (hproper ts hx2) hx q hqb u h0 h1
        change _ ≤ (q.travel u).z + _
        linarith
  · right
    subst he
    rw [List.concat_eq_append, List.append_assoc, List.singleton_append] at hch
    have := (List.isChain_append.mp hch).2.1
    obtain ⟨e', he', k⟩ := (List.isChain_cons_cons.mp this).1 e hew u h0 h1
    exact ⟨w', by simp, e', he', k⟩

/-! ### The transitions are the same in all passes -/

/-- The places of the tabs in a wire. -/
def Tabs.places64 (cad : Cad) (len : Edge → ℚ) (total : List Edge → ℚ) : Tabs → List Edge → Except Err (List (List (ℚ × Transition)))
  | .none, _ => .error .typeError
  | .edge t, w => do
    let dss ← mapE (t.edgeDs64 len) w
    .ok (dss.map edgeTransitions)
  | .wire t, w => t.transitions64 (cad.wireLength w) (total w) w

theorem apply64_places {cad : Cad} {len : Edge → ℚ} {total : List Edge → ℚ} {tabs : Tabs} {w new w' : List Edge} {tabZ : ℚ}
    {T : List (List (ℚ × Transition))} (h : tabs.places64 cad len total w = .ok T) (hz : cad.zmin w < tabZ)
    (h1 : tabEdges tabZ w T = .ok new) (h2 : cad.assemble new = .ok w') : tabs.apply64 cad len total tabZ w = .ok w' := by
  cases tabs with
  | none => cases h
  | edge t =>
    obtain ⟨dss, hd, h⟩ := bind_ok.mp h
    cases h
    simp only [Tabs.apply64, applyEdgeTabs64]
    rw [if_neg (not_le.mpr hz), hd, ok_bind, h1, ok_bind, h2]
  | wire t =>
    change t.transitions64 _ _ _ = _ at h
    simp only [Tabs.apply64, applyTabs64]
    rw [if_neg (not_le.mpr hz), h, ok_bind, h1, ok_bind, h2]

theorem apply64_above {cad : Cad} {len : Edge → ℚ} {total : List Edge → ℚ} {tabs : Tabs} {w v : List Edge} {tabZ : ℚ}
    {T : List (List (ℚ × Transition))} (h : tabs.places64 cad len total v = .ok T) (hz : tabZ ≤ cad.zmin w) :
    tabs.apply64 cad len total tabZ w = .ok w := by
  cases tabs with
  | none => cases h
  | edge t => simp only [Tabs.apply64, applyEdgeTabs64, if_pos hz]
  | wire t => simp only [Tabs.apply64, applyTabs64, if_pos hz]

/-- What the tabs of a contour are, at all heights. -/
def SameTabs64 (cad : Cad) (len : Edge → ℚ) (total : List Edge → ℚ) (tabs : Tabs) (M : List Edge → List (List (ℚ × Transition)) → Prop)
    (b : List Edge) : Prop :=
  ∃ T, (∀ dz, tabs.places64 cad len total (b.map (Edge.up dz)) = .ok T) ∧ T.length = b.length ∧ (∀ ts ∈ T, ProperTransitions ts) ∧
    TabsMeet T ∧ ∀ dz, M (b.map (Edge.up dz)) T

/-- The marks, and that they are those of the contour itself, and that the pass is below the top of the tabs. -/
def FixedMarks64 (cad : Cad) (len : Edge → ℚ) (total : List Edge → ℚ) (tabs : Tabs)
    (marks : List Edge → List Edge → List (List (ℚ × Transition)) → Prop) (b w : List Edge) (tss : List (List (ℚ × Transition))) : Prop :=
  marks b w tss ∧ tabs.places64 cad len total b = .ok tss ∧
    ∀ e ∈ w, ∀ t, (e.travel t).z + 1 / 10 ^ 7 < b64 (cad.zmin b + tabs.height)

theorem tabsFit64_same {cad : Cad} (hA : Assembles cad) {len : Edge → ℚ} {total : List Edge → ℚ} {j : Job} {b : List Edge} {τ H L : ℚ}
    {stepdown : Option ℚ} {tabs : Tabs} {marks : List Edge → List Edge → List (List (ℚ × Transition)) → Prop}
    (hf : TabContour64 cad j τ H L tabs.height stepdown b) (ht : SameTabs64 cad len total tabs (marks b) b) :
    TabsFit64 cad len total j τ H L stepdown tabs (FixedMarks64 cad len total tabs marks b) b := by
  obtain ⟨T, ht, hlen, hp, hm, hM⟩ := ht
  obtain ⟨z, hz1, hz2, hflat, hclear⟩ := hf.level
  refine ⟨hf.box, hf.top, hf.size, z, hz1, hz2, fun k hk => ?_⟩
  have hcl := hclear k hk
  have h0 := ht 0
  rw [map_up_zero] at h0
  unfold FixedMarks64
  generalize b64 (stepdown.getD 0 * k) = dz at hcl ⊢
  generalize b64 (cad.zmin b + tabs.height) = tabZ at hcl ⊢
  have hok := wireOK_up hf.ok dz
  have hch := chained_up hf.chained dz
  have hflat' : ∀ e ∈ b.map (Edge.up dz), FlatEdge (z + dz) e := by
    intro e he
    obtain ⟨x, hx, rfl⟩ := List.mem_map.mp he
    exact flatEdge_up (hflat x hx)
  rcases le_or_gt tabZ (cad.zmin (b.map (Edge.up dz))) with hz | hz
  · exact ⟨_, apply64_above h0 hz, .inl ⟨hz, rfl⟩, hok, hch,
      fun e he => edgeEnds_of_at (edgeAt_mono (fun _ h => .inl h) (hflat' e he).flat)⟩
  · have hlt : z + dz + 1 / 10 ^ 7 < tabZ := by
      rcases hcl with hcl | hcl
      · linarith
      · exact hcl
    obtain ⟨new, w', g1, g2, g3, g4, -, g6⟩ := tabEdges_assembled hA (ze := z + dz) (tabZ := tabZ)
      (by have : (0 : ℚ) < 1 / 10 ^ 7 := by norm_num
          linarith) hok.nonempty hflat' hch (by rw [hlen, List.length_map]) hp hm
    obtain ⟨g8, g9⟩ := tabbedWire_ok hok hflat' (fun ts hts => (hp ts hts).full) g3 g6
    exact ⟨w', apply64_places (ht dz) hz g1 g2, .inr ⟨hz, T, ⟨hM dz, h0, fun e he t => by
      rw [edgeAt_travel (hflat' e he).flat t]; exact hlt⟩, g3, g4⟩, g8, g4, g9⟩

theorem sameTabs64_edge {cad : Cad} {len : Edge → ℚ} {total : List Edge → ℚ} {b : List Edge} (hpos : ∀ e ∈ b, 0 < e.length)
    {t : EdgeTabs} (hw : 1 / 10 ^ 5 ≤ t.width) (hs : 3 * t.width + 1 / 10 ^ 5 ≤ 2 * t.spacing) (hm : EdgesMeasured len b)
    (ha : EdgesAlike len b) : SameTabs64 cad len total (.edge t) (NearTabsOnEdges t) b := by
  have hm0 : ∀ e ∈ b, NearLength 1000 e.length (len e) := fun e he => by
    have := (hm e he).2 0
    rwa [ha e he 0] at this
  obtain ⟨dss, h1, h2, h3, h4, h5⟩ := edgeTransitions64_millimetres hpos hw hs hm0 (fun e he => (hm e he).1)
  refine ⟨dss.map edgeTransitions, fun dz => ?_, h2, h3, h4, fun dz => ?_⟩
  · have : mapE (t.edgeDs64 len) (b.map (Edge.up dz)) = .ok dss := by
      rw [mapE_map, ← h1]
      refine mapE_congr (fun e he => ?_)
      unfold EdgeTabs.edgeDs64
      rw [ha e he dz]
      rfl
    simp only [Tabs.places64, this, ok_bind]
  · unfold NearTabsOnEdges
    rw [List.forall₂_map_left_iff]
    exact h5

theorem sameTabs64_wire {cad : Cad} {len : Edge → ℚ} {total : List Edge → ℚ} {b : List Edge} (hne : b ≠ []) {t : WireTabs} {n : ℕ}
    (hn : 0 < n) (hc : t.count = n) (hz : ZonesFit64 cad total n t.width b) (ha : WireAlike cad total b) :
    SameTabs64 cad len total (.wire t) (NearMarks (5 / 10 ^ 6) n t.width (b.map Edge.length).sum) b := by
  have hm0 := hz.measured 0
  rw [map_up_zero] at hm0
  obtain ⟨T, h1, h2, h3, h4, h5⟩ := transitions64_millimetres hne hz.count hn hc rfl hz.short hz.apart hm0.1 hm0.2 hz.first
  have hmap : ∀ (l : List Edge) dz, (l.map (Edge.up dz)).map Edge.length = l.map Edge.length := by
    intro l dz
    rw [List.map_map]
    rfl
  refine ⟨T, fun dz => ?_, h2, h3, h4, fun dz => ?_⟩
  · change t.transitions64 _ _ _ = _
    rw [(ha dz).1, (ha dz).2, ← h1]
    unfold WireTabs.transitions64
    rw [hmap]
  · intro pre e post h
    obtain ⟨pre', rest, rfl, rfl, h'⟩ := List.map_eq_append_iff.mp h
    obtain ⟨e', post', rfl, rfl, rfl⟩ := List.map_eq_cons_iff.mp h'
    have := h5 pre' e' post' rfl
    rw [List.length_map, List.map_map]
    exact this

/-! ### The machine -/

theorem stepwise64_of {cad : Cad} {len : Edge → ℚ} {total : List Edge → ℚ} {j : Job} {F r offset s L τ tol : ℚ} {tabs : Tabs}
    {marks : List Edge → List Edge → List (List (ℚ × Transition)) → Prop} {wire : List Edge} {evs : List Event}
    (hc : Steps64 (some s) L τ tol) (hs : 0 < s) (hεs : heightError L ≤ s) (hL : 2 * heightError L ≤ 1 / 10 ^ 7)
    (hr : j.toolRadius = some r)
    (hw : EachContour64 cad j offset wire
      (fun b => TabContour64 cad j τ (2 * L) L tabs.height (some s) b ∧ SameTabs64 cad len total tabs (marks b) b))
    (h : RunsTabProfile64 cad j.top F r offset (heightError L) tol (some s) tabs.height (FixedMarks64 cad len total tabs marks) wire evs) :
    RunsStepwise64 cad j.top F r offset (heightError L) tol s tabs.height marks wire evs := by
  obtain ⟨bases, ho, blocks, rfl, h⟩ := h
  refine ⟨bases, ho, blocks, rfl, forall₂_imp_mem h ?_⟩
  rintro base hbase block ⟨z, layers, passes, hz, hp, ht, hrun⟩
  obtain ⟨hf, T, hT, -, hpr, -, -⟩ := hw r bases hr ho base hbase
  obtain ⟨z0, hz0, -, hflat, -⟩ := hf.level
  have hp' : NearPasses cad (heightError L) tol s base layers := by
    rcases hp with ⟨h0, -⟩ | ⟨s', hs', -, hp⟩
    · exact absurd h0 hs.ne'
    · cases hs'
      exact hp
  have h0 := hT 0
  rw [map_up_zero] at h0
  refine ⟨z, layers, passes, hz, hp', ht.imp ?_, hrun, passes_down64 hc hs hεs hf.ok.nonempty hf.box hz0 hflat ?_ hpr hp' ht⟩
  · rintro l p (h | ⟨h1, tss, h2, h3⟩)
    · exact .inl h
    · exact .inr ⟨h1, tss, h2.1, h3⟩
  · rintro v tss ⟨-, h, hv⟩
    rw [h0] at h
    cases h
    refine ⟨rfl, fun e he t => ?_⟩
    have g1 := abs_le.mp hz
    have g2 := abs_le.mp (tabTop_near hc.size hf.size)
    have g3 := hv e he t
    linarith [g1.1, g2.2]

theorem wires_stepwise64 {cad : Cad} (hA : Assembles cad) {len : Edge → ℚ} {total : List Edge → ℚ} {wires : List (List Edge)}
    {offset r s L τ tol : ℚ} {tabs : Tabs} {tool : Option Tool} {j0 j1 j2 jf : Job} {before after : List Request} (m : Machine)
    (h0 : InitOK j0) (hn : ∀ v, j0.toolNumber = some v → NumOK v)
    (hok : ChainOK j0 (before ++ tabWireProfileRequest64 cad len total wires offset (some s) tabs tool :: after))
    (h1 : j0.chain before = .ok j1) (h2 : (j1.call (tabWireProfileRequest64 cad len total wires offset (some s) tabs tool)).2 = .ok j2)
    (h3 : j2.chain after = .ok jf) (hend : m.ended = false) (htool : ∀ n, j0.toolNumber = some n → m.tool = some n.value)
    (hk : KeepsBelow cad j0.top) (hc : Steps64 (some s) L τ tol) (hs : 0 < s) (hεs : heightError L ≤ s)
    (hL : 2 * heightError L ≤ 1 / 10 ^ 7) (hsafe : 0 ≤ j0.opSafeHeight) (hv : ∀ w, NearestIsVertex cad w)
    {j : Job} (hj : (j1.updateTool tool).2 = j) (hr : j.toolRadius = some r)
    {marks : List Edge → List Edge → List (List (ℚ × Transition)) → Prop}
    (hw : ∀ w ∈ wires, EachContour64 cad j offset w
      (fun b => TabContour64 cad j τ (2 * L) L tabs.height (some s) b ∧ SameTabs64 cad len total tabs (marks b) b)) :
    ∃ t m' pre part post evss, jf.toGcode = .ok t ∧ runText m t = some (m', pre ++ part ++ post) ∧
      part.filter isMove = List.flatten evss ∧
      List.Forall₂ (RunsStepwise64 cad j0.top j.feed.value r offset (heightError L) tol s tabs.height marks) wires evss := by
  obtain ⟨t, m', pre, part, post, evss, a1, a2, a3, a4⟩ := wire_profile_tabs64 (marks := FixedMarks64 cad len total tabs marks)
    m h0 hn hok h1 h2 h3 hend htool hk hc hsafe hv hj hr
    (fun w hw' r bases g1 g2 b hb' => by
      obtain ⟨k1, k2⟩ := hw w hw' r bases g1 g2 b hb'
      exact tabsFit64_same hA k1 k2)
  have htop : j0.top = j.top := by
    subst hj
    have hbase : SameBase j0 (j1.updateTool tool).2 := updateTool_base (chain_base (show SameBase j0 j0 from rfl) h1) _
    rw [hbase]
  rw [htop] at a4 ⊢
  exact ⟨t, m', pre, part, post, evss, a1, a2, a3,
    forall₂_imp_mem a4 (fun w hwm evs h => stepwise64_of hc hs hεs hL hr (hw w hwm) h)⟩

theorem profile_stepwise64 {cad : Cad} (hA : Assembles cad) {len : Edge → ℚ} {total : List Edge → ℚ} {shapes : List Shape}
    {outerOffset innerOffset : Option ℚ} {r s L τ tol : ℚ} {tabs : Tabs} {tool : Option Tool} {j0 j1 j2 jf : Job}
    {before after : List Request} (m : Machine) (h0 : InitOK j0) (hn : ∀ v, j0.toolNumber = some v → NumOK v)
    (hok : ChainOK j0 (before ++ tabProfileRequest64 cad len total shapes outerOffset innerOffset (some s) tabs tool :: after))
    (h1 : j0.chain before = .ok j1)
    (h2 : (j1.call (tabProfileRequest64 cad len total shapes outerOffset innerOffset (some s) tabs tool)).2 = .ok j2)
    (h3 : j2.chain after = .ok jf) (hend : m.ended = false) (htool : ∀ n, j0.toolNumber = some n → m.tool = some n.value)
    (hk : KeepsBelow cad j0.top) (hc : Steps64 (some s) L τ tol) (hs : 0 < s) (hεs : heightError L ≤ s)
    (hL : 2 * heightError L ≤ 1 / 10 ^ 7) (hsafe : 0 ≤ j0.opSafeHeight) (hv : ∀ w, NearestIsVertex cad w)
    {j : Job} (hj : (j1.updateTool tool).2 = j) (hr : j.toolRadius = some r)
    {marks : List Edge → List Edge → List (List (ℚ × Transition)) → Prop}
    (hwo : ∀ o, outerOffset = some o → ∀ w ∈ outerWires shapes, EachContour64 cad j o w
      (fun b => TabContour64 cad j τ (2 * L) L tabs.height (some s) b ∧ SameTabs64 cad len total tabs (marks b) b))
    (hwi : ∀ o, innerOffset = some o → ∀ w ∈ innerWires shapes, EachContour64 cad j o w
      (fun b => TabContour64 cad j τ (2 * L) L tabs.height (some s) b ∧ SameTabs64 cad len total tabs (marks b) b)) :
    ∃ t m' pre part post inner outer, jf.toGcode = .ok t ∧ runText m t = some (m', pre ++ part ++ post) ∧
      part.filter isMove = List.flatten inner ++ List.flatten outer ∧
      RunAllStepwise64 cad j0.top j.feed.value r (heightError L) tol innerOffset s tabs.height marks (innerWires shapes) inner ∧
      RunAllStepwise64 cad j0.top j.feed.value r (heightError L) tol outerOffset s tabs.height marks (outerWires shapes) outer := by
  obtain ⟨t, m', pre, part, post, inner, outer, a1, a2, a3, a4, a5⟩ := profile_tabs64 (marks := FixedMarks64 cad len total tabs marks)
    m h0 hn hok h1 h2 h3 hend htool hk hc hsafe hv hj hr
    (fun o ho w hw' r bases g1 g2 b hb' => by
      obtain ⟨k1, k2⟩ := hwo o ho w hw' r bases g1 g2 b hb'
      exact tabsFit64_same hA k1 k2)
    (fun o ho w hw' r bases g1 g2 b hb' => by
      obtain ⟨k1, k2⟩ := hwi o ho w hw' r bases g1 g2 b hb'
      exact tabsFit64_same hA k1 k2)
  have htop : j0.top = j.top := by
    subst hj
    have hbase : SameBase j0 (j1.updateTool tool).2 := updateTool_base (chain_base (show SameBase j0 j0 from rfl) h1) _
    rw [hbase]
  rw [htop] at a4 a5 ⊢
  have hall : ∀ {offset : Option ℚ} {ws : List (List Edge)} {evss : List (List Event)},
      (∀ o, offset = some o → ∀ w ∈ ws, EachContour64 cad j o w
        (fun b => TabContour64 cad j τ (2 * L) L tabs.height (some s) b ∧ SameTabs64 cad len total tabs (marks b) b)) →
      RunsTabProfiles64 cad j.top j.feed.value r (heightError L) tol offset (some s) tabs.height
        (FixedMarks64 cad len total tabs marks) ws evss →
      RunAllStepwise64 cad j.top j.feed.value r (heightError L) tol offset s tabs.height marks ws evss := by
    intro offset ws evss hw h
    cases offset with
    | none => exact h
    | some o => exact forall₂_imp_mem h (fun w hwm evs h => stepwise64_of hc hs hεs hL hr (hw o rfl w hwm) h)
  exact ⟨t, m', pre, part, post, inner, outer, a1, a2, a3, hall hwi a4, hall hwo a5⟩

/-- C152 for `wire_profile` with tabs along the edges (as far as it holds: see `C152_violated`). -/
theorem C152_edge_tabs_partial {cad : Cad} (hA : Assembles cad) {len : Edge → ℚ} {total : List Edge → ℚ} {wires : List (List Edge)}
    {offset r s L τ tol : ℚ} {tabs : EdgeTabs} (hwidth : 1 / 10 ^ 5 ≤ tabs.width) (hgap : 3 * tabs.width + 1 / 10 ^ 5 ≤ 2 * tabs.spacing)
    {tool : Option Tool} {j0 j1 j2 jf : Job} {before after : List Request} (m : Machine)
    (h0 : InitOK j0) (hn : ∀ v, j0.toolNumber = some v → NumOK v)
    (hok : ChainOK j0 (before ++ tabWireProfileRequest64 cad len total wires offset (some s) (.edge tabs) tool :: after))
    (h1 : j0.chain before = .ok j1)
    (h2 : (j1.call (tabWireProfileRequest64 cad len total wires offset (some s) (.edge tabs) tool)).2 = .ok j2)
    (h3 : j2.chain after = .ok jf) (hend : m.ended = false) (htool : ∀ n, j0.toolNumber = some n → m.tool = some n.value)
    (hk : KeepsBelow cad j0.top) (hc : Steps64 (some s) L τ tol) (hs : 0 < s) (hεs : heightError L ≤ s)
    (hL : 2 * heightError L ≤ 1 / 10 ^ 7) (hsafe : 0 ≤ j0.opSafeHeight) (hv : ∀ w, NearestIsVertex cad w)
    {j : Job} (hj : (j1.updateTool tool).2 = j) (hr : j.toolRadius = some r)
    (hw : ∀ w ∈ wires, EachContour64 cad j offset w
      (fun b => TabContour64 cad j τ (2 * L) L tabs.height (some s) b ∧ EdgesMeasured len b ∧ EdgesAlike len b)) :
    ∃ t m' pre part post evss, jf.toGcode = .ok t ∧ runText m t = some (m', pre ++ part ++ post) ∧
      part.filter isMove = List.flatten evss ∧
      List.Forall₂ (RunsStepwise64 cad j0.top j.feed.value r offset (heightError L) tol s tabs.height
        (fun _ => NearTabsOnEdges tabs)) wires evss :=
  wires_stepwise64 (marks := (fun _ => NearTabsOnEdges tabs)) hA m h0 hn hok h1 h2 h3 hend htool hk hc hs hεs hL hsafe hv hj hr
    (fun w hw' r bases g1 g2 b hb' => by
      obtain ⟨k1, k2, k3⟩ := hw w hw' r bases g1 g2 b hb'
      exact ⟨k1, sameTabs64_edge k1.length hwidth hgap k2 k3⟩)

/-- C152 for `profile` with tabs along the edges. -/
theorem C152_profile_edge_tabs_partial {cad : Cad} (hA : Assembles cad) {len : Edge → ℚ} {total : List Edge → ℚ} {shapes : List Shape}
    {outerOffset innerOffset : Option ℚ} {r s L τ tol : ℚ} {tabs : EdgeTabs} (hwidth : 1 / 10 ^ 5 ≤ tabs.width)
    (hgap : 3 * tabs.width + 1 / 10 ^ 5 ≤ 2 * tabs.spacing)
    {tool : Option Tool} {j0 j1 j2 jf : Job} {before after : List Request} (m : Machine)
    (h0 : InitOK j0) (hn : ∀ v, j0.toolNumber = some v → NumOK v)
    (hok : ChainOK j0 (before ++ tabProfileRequest64 cad len total shapes outerOffset innerOffset (some s) (.edge tabs) tool :: after))
    (h1 : j0.chain before = .ok j1)
    (h2 : (j1.call (tabProfileRequest64 cad len total shapes outerOffset innerOffset (some s) (.edge tabs) tool)).2 = .ok j2)
    (h3 : j2.chain after = .ok jf) (hend : m.ended = false) (htool : ∀ n, j0.toolNumber = some n → m.tool = some n.value)
    (hk : KeepsBelow cad j0.top) (hc : Steps64 (some s) L τ tol) (hs : 0 < s) (hεs : heightError L ≤ s)
    (hL : 2 * heightError L ≤ 1 / 10 ^ 7) (hsafe : 0 ≤ j0.opSafeHeight) (hv : ∀ w, NearestIsVertex cad w)
    {j : Job} (hj : (j1.updateTool tool).2 = j) (hr : j.toolRadius = some r)
    (hwo : ∀ o, outerOffset = some o → ∀ w ∈ outerWires shapes, EachContour64 cad j o w
      (fun b => TabContour64 cad j τ (2 * L) L tabs.height (some s) b ∧ EdgesMeasured len b ∧ EdgesAlike len b))
    (hwi : ∀ o, innerOffset = some o → ∀ w ∈ innerWires shapes, EachContour64 cad j o w
      (fun b => TabContour64 cad j τ (2 * L) L tabs.height (some s) b ∧ EdgesMeasured len b ∧ EdgesAlike len b)) :
    ∃ t m' pre part post inner outer, jf.toGcode = .ok t ∧ runText m t = some (m', pre ++ part ++ post) ∧
      part.filter isMove = List.flatten inner ++ List.flatten outer ∧
      RunAllStepwise64 cad j0.top j.feed.value r (heightError L) tol innerOffset s tabs.height
        (fun _ => NearTabsOnEdges tabs) (innerWires shapes) inner ∧
      RunAllStepwise64 cad j0.top j.feed.value r (heightError L) tol outerOffset s tabs.height
        (fun _ => NearTabsOnEdges tabs) (outerWires shapes) outer :=
  profile_stepwise64 (marks := (fun _ => NearTabsOnEdges tabs)) hA m h0 hn hok h1 h2 h3 hend htool hk hc hs hεs hL hsafe hv hj hr
    (fun o ho w hw' r bases g1 g2 b hb' => by
      obtain ⟨k1, k2, k3⟩ := hwo o ho w hw' r bases g1 g2 b hb'
      exact ⟨k1, sameTabs64_edge k1.length hwidth hgap k2 k3⟩)
    (fun o ho w hw' r bases g1 g2 b hb' => by
      obtain ⟨k1, k2, k3⟩ := hwi o ho w hw' r bases g1 g2 b hb'
      exact ⟨k1, sameTabs64_edge k1.length hwidth hgap k2 k3⟩)

/-- C152 for `wire_profile` with tabs around the contour. -/
theorem C152_wire_tabs_partial {cad : Cad} (hA : Assembles cad) {len : Edge → ℚ} {total : List Edge → ℚ} {wires : List (List Edge)}
    {offset r s L τ tol : ℚ} {tabs : WireTabs} {n : ℕ} (hpos : 0 < n) (hcount : tabs.count = n)
    {tool : Option Tool} {j0 j1 j2 jf : Job} {before after : List Request} (m : Machine)
    (h0 : InitOK j0) (hn : ∀ v, j0.toolNumber = some v → NumOK v)
    (hok : ChainOK j0 (before ++ tabWireProfileRequest64 cad len total wires offset (some s) (.wire tabs) tool :: after))
    (h1 : j0.chain before = .ok j1)
    (h2 : (j1.call (tabWireProfileRequest64 cad len total wires offset (some s) (.wire tabs) tool)).2 = .ok j2)
    (h3 : j2.chain after = .ok jf) (hend : m.ended = false) (htool : ∀ n, j0.toolNumber = some n → m.tool = some n.value)
    (hk : KeepsBelow cad j0.top) (hc : Steps64 (some s) L τ tol) (hs : 0 < s) (hεs : heightError L ≤ s)
    (hL : 2 * heightError L ≤ 1 / 10 ^ 7) (hsafe : 0 ≤ j0.opSafeHeight) (hv : ∀ w, NearestIsVertex cad w)
    {j : Job} (hj : (j1.updateTool tool).2 = j) (hr : j.toolRadius = some r)
    (hw : ∀ w ∈ wires, EachContour64 cad j offset w (fun b => TabContour64 cad j τ (2 * L) L tabs.height (some s) b ∧
      ZonesFit64 cad total n tabs.width b ∧ WireAlike cad total b)) :
    ∃ t m' pre part post evss, jf.toGcode = .ok t ∧ runText m t = some (m', pre ++ part ++ post) ∧
      part.filter isMove = List.flatten evss ∧
      List.Forall₂ (RunsStepwise64 cad j0.top j.feed.value r offset (heightError L) tol s tabs.height
        (fun b => NearMarks (5 / 10 ^ 6) n tabs.width (b.map Edge.length).sum)) wires evss :=
  wires_stepwise64 (marks := (fun b => NearMarks (5 / 10 ^ 6) n tabs.width (b.map Edge.length).sum)) hA m h0 hn hok h1 h2 h3 hend htool
    hk hc hs hεs hL hsafe hv hj hr
    (fun w hw' r bases g1 g2 b hb' => by
      obtain ⟨k1, k2, k3⟩ := hw w hw' r bases g1 g2 b hb'
      exact ⟨k1, sameTabs64_wire k1.ok.nonempty hpos hcount k2 k3⟩)

/-- C152 for `profile` with tabs around the contour. -/
theorem C152_profile_wire_tabs_partial {cad : Cad} (hA : Assembles cad) {len : Edge → ℚ} {total : List Edge → ℚ} {shapes : List Shape}
    {outerOffset innerOffset : Option ℚ} {r s L τ tol : ℚ} {tabs : WireTabs} {n : ℕ} (hpos : 0 < n) (hcount : tabs.count = n)
    {tool : Option Tool} {j0 j1 j2 jf : Job} {before after : List Request} (m : Machine)
    (h0 : InitOK j0) (hn : ∀ v, j0.toolNumber = some v → NumOK v)
    (hok : ChainOK j0 (before ++ tabProfileRequest64 cad len total shapes outerOffset innerOffset (some s) (.wire tabs) tool :: after))
    (h1 : j0.chain before = .ok j1)
    (h2 : (j1.call (tabProfileRequest64 cad len total shapes outerOffset innerOffset (some s) (.wire tabs) tool)).2 = .ok j2)
    (h3 : j2.chain after = .ok jf) (hend : m.ended = false) (htool : ∀ n, j0.toolNumber = some n → m.tool = some n.value)
    (hk : KeepsBelow cad j0.top) (hc : Steps64 (some s) L τ tol) (hs : 0 < s) (hεs : heightError L ≤ s)
    (hL : 2 * heightError L ≤ 1 / 10 ^ 7) (hsafe : 0 ≤ j0.opSafeHeight) (hv : ∀ w, NearestIsVertex cad w)
    {j : Job} (hj : (j1.updateTool tool).2 = j) (hr : j.toolRadius = some r)
    (hwo : ∀ o, outerOffset = some o → ∀ w ∈ outerWires shapes, EachContour64 cad j o w
      (fun b => TabContour64 cad j τ (2 * L) L tabs.height (some s) b ∧ ZonesFit64 cad total n tabs.width b ∧ WireAlike cad total b))
    (hwi : ∀ o, innerOffset = some o → ∀ w ∈ innerWires shapes, EachContour64 cad j o w
      (fun b => TabContour64 cad j τ (2 * L) L tabs.height (some s) b ∧ ZonesFit64 cad total n tabs.width b ∧ WireAlike cad total b)) :
    ∃ t m' pre part post inner outer, jf.toGcode = .ok t ∧ runText m t = some (m', pre ++ part ++ post) ∧
      part.filter isMove = List.flatten inner ++ List.flatten outer ∧
      RunAllStepwise64 cad j0.top j.feed.value r (heightError L) tol innerOffset s tabs.height
        (fun b => NearMarks (5 / 10 ^ 6) n tabs.width (b.map Edge.length).sum) (innerWires shapes) inner ∧
      RunAllStepwise64 cad j0.top j.feed.value r (heightError L) tol outerOffset s tabs.height
        (fun b => NearMarks (5 / 10 ^ 6) n tabs.width (b.map Edge.length).sum) (outerWires shapes) outer :=
  profile_stepwise64 (marks := (fun b => NearMarks (5 / 10 ^ 6) n tabs.width (b.map Edge.length).sum)) hA m h0 hn hok h1 h2 h3 hend
    htool hk hc hs hεs hL hsafe hv hj hr
    (fun o ho w hw' r bases g1 g2 b hb' => by
      obtain ⟨k1, k2, k3⟩ := hwo o ho w hw' r bases g1 g2 b hb'
      exact ⟨k1, sameTabs64_wire k1.ok.nonempty hpos hcount k2 k3⟩)
    (fun o ho w hw' r bases g1 g2 b hb' => by
      obtain ⟨k1, k2, k3⟩ := hwi o ho w hw' r bases g1 g2 b hb'
      exact ⟨k1, sameTabs64_wire k1.ok.nonempty hpos hcount k2 k3⟩)

/-! ### Where it fails -/

/-- C152 is false, as C151: with the surface at world height -3 and a stepdown of 1 the passes nearest to the surface are left out; also
with tabs the first feed move of the program goes down to depth 4. -/
theorem C152_violated : ∃ j2 t m' pre e post, Assembles strictCad ∧ BoxMoves strictCad ∧
    (lowJob.call (tabWireProfileRequest64 strictCad Edge.length exactTotal [lowSquare] 1 (some 1) (.edge ⟨3, 1, 1 / 2, none⟩) none)).2 =
      .ok j2 ∧
    j2.toGcode = .ok t ∧ runText {} t = some (m', pre ++ e :: post) ∧ (∀ e' ∈ pre, isFeedMove e' = false) ∧ isFeedMove e = true ∧
    ∃ k tgt ctr, e.act = .move k tgt ctr ∧ tgt.z = some (-4) := by
  have hw : (match (tabWireProfileRequest64 strictCad Edge.length exactTotal [lowSquare] 1 (some 1) (.edge ⟨3, 1, 1 / 2, none⟩)
      none).gen lowJob with
      | .ok cs => cs.all goodMove && deepFirst ((lowJob.addOperation "Wire Profile".toList (cs.map .motion)).intended {}).2
      | .error _ => false) = true := by decide +kernel
  obtain ⟨cs, hg, hr, hc⟩ := call_good (j := lowJob)
    (r := tabWireProfileRequest64 strictCad Edge.length exactTotal [lowSquare] 1 (some 1) (.edge ⟨3, 1, 1 / 2, none⟩) none)
    (by decide +kernel) rfl (by unfold SafeName; decide) (by
      cases hg : (tabWireProfileRequest64 strictCad Edge.length exactTotal [lowSquare] 1 (some 1) (.edge ⟨3, 1, 1 / 2, none⟩)
        none).gen lowJob with
      | error e => rw [hg] at hw; cases hw
      | ok cs => rw [hg] at hw; exact (Bool.and_eq_true _ _ ▸ hw).1)
  rw [hg] at hw
  have hd := (Bool.and_eq_true _ _ ▸ hw).2
  have h0 : InitOK lowJob := ⟨rfl, by unfold SafeName; decide, numOK_int _, by rintro v ⟨⟩⟩
  obtain ⟨t, ht, hrun⟩ := run_job {} _ (inv_reach (inv_init h0 (by rintro v ⟨⟩)) (.result _ .init hr hc)).ok rfl
  unfold deepFirst at hd
  split at hd
  · rename_i e hf
    obtain ⟨hfeed, pre, post, hev, hpre⟩ := List.find?_eq_some_iff_append.mp hf
    split at hd
    · rename_i k tgt ctr hact
      have hrun' := hrun.trans (congrArg (fun l => some (_, l)) hev)
      exact ⟨_, t, _, pre, e, post, strictCad_assembles, flatCad_boxMoves, hc, ht, hrun', fun e' he' => by simpa using hpre e' he', hfeed,
        k, tgt, ctr, hact, of_decide_eq_true hd⟩
    · cases hd
  · cases hd

/-! ### Examples of the conditions -/

theorem heightError_metre : heightError 1010000 ≤ b64 (1 / 5) ∧ 2 * heightError 1010000 ≤ 1 / 10 ^ 7 := by
  unfold heightError
  decide +kernel

theorem innerSquare_fifth64 {j : Job} (hj : 0 ≤ j.opSafeHeight) :
    TabContour64 gapStrictCad j (1 / 10000) (2 * 1010000) 1010000 (1 / 2) (some (b64 (1 / 5))) innerSquare where
  ok := innerSquare_ok
  chained := by decide +kernel
  length := by decide +kernel
  box := by
    rw [show (2 : ℚ) * 1010000 = 2020000 from by norm_num]
    exact gapCad_box innerSquare_ok.nonempty (by decide +kernel)
  level := by
    refine ⟨-1, by decide +kernel, by linarith, ?_, by decide +kernel⟩
    intro e he
    simp only [innerSquare, outline, List.map_cons, List.map_nil, List.mem_cons, List.not_mem_nil, or_false] at he
    rcases he with rfl | rfl | rfl | rfl <;> exact lineEdge_flat (by norm_num)
  top := le_trans (by decide +kernel) hj
  size := by decide +kernel

theorem innerSquare_alike : EdgesAlike Edge.length innerSquare ∧ WireAlike gapStrictCad exactTotal innerSquare :=
  ⟨fun _ _ _ => rfl, fun _ => ⟨rfl, rfl⟩⟩

/-- The hypotheses of `C152_edge_tabs_partial`: the square with two tabs on each side, in five passes of which three have tabs, on a kernel
that rounds. -/
example : ∃ j2 t m' pre part post evss,
    (twoJob.call (tabWireProfileRequest64 gapStrictCad Edge.length exactTotal [innerSquare] 1 (some (b64 (1 / 5)))
      (.edge ⟨3, 1, 1 / 2, none⟩) none)).2 = .ok j2 ∧
    j2.toGcode = .ok t ∧ runText {} t = some (m', pre ++ part ++ post) ∧ part.filter isMove = List.flatten evss ∧
    List.Forall₂ (RunsStepwise64 gapStrictCad Frame.xy 500 1 1 (heightError 1010000) (1 / 4000) (b64 (1 / 5)) (1 / 2)
      (fun _ => NearTabsOnEdges ⟨3, 1, 1 / 2, none⟩)) [innerSquare] evss := by
  obtain ⟨cs, hg, hr, hc⟩ := call_good (j := twoJob)
    (r := tabWireProfileRequest64 gapStrictCad Edge.length exactTotal [innerSquare] 1 (some (b64 (1 / 5))) (.edge ⟨3, 1, 1 / 2, none⟩) none)
    (by decide +kernel) rfl (by unfold SafeName; decide) (by decide +kernel)
  obtain ⟨t, m', pre, part, post, evss, a1, a2, a3, a4⟩ := C152_edge_tabs_partial (cad := gapStrictCad) strictCad_assembles
    (wires := [innerSquare]) (offset := 1) (r := 1) (tabs := ⟨3, 1, 1 / 2, none⟩)
    (by norm_num) (by norm_num) (tool := none) (before := []) (after := []) {} twoJob_ok (by rintro v ⟨⟩)
    (show ChainOK twoJob [_] from ⟨hr, fun _ _ => trivial⟩) rfl hc rfl rfl (by rintro n ⟨⟩) gapCad_keepsBelow
    (steps64_millimetres (by decide +kernel) (by decide +kernel)) (by decide +kernel) heightError_metre.1 heightError_metre.2
    (by decide +kernel) (fun _ _ _ h => (by cases h)) rfl (by decide +kernel)
    (gapStrict_contours (by decide +kernel) ⟨innerSquare_fifth64 (by decide +kernel), innerSquare_measured, innerSquare_alike.1⟩)
  rw [show (twoJob.updateTool none).2.feed.value = 500 from by decide +kernel] at a4
  exact ⟨_, t, m', pre, part, post, evss, hc, a1, a2, a3, a4⟩

/-- Those of `C152_wire_tabs_partial`: the square with three tabs around it. -/
example : ∃ j2 t m' pre part post evss,
    (twoJob.call (tabWireProfileRequest64 gapStrictCad Edge.length exactTotal [innerSquare] 1 (some (b64 (1 / 5)))
      (.wire ⟨3, 1, 1 / 2⟩) none)).2 = .ok j2 ∧
    j2.toGcode = .ok t ∧ runText {} t = some (m', pre ++ part ++ post) ∧ part.filter isMove = List.flatten evss ∧
    List.Forall₂ (RunsStepwise64 gapStrictCad Frame.xy 500 1 1 (heightError 1010000) (1 / 4000) (b64 (1 / 5)) (1 / 2)
      (fun b => NearMarks (5 / 10 ^ 6) 3 1 (b.map Edge.length).sum)) [innerSquare] evss := by
  obtain ⟨cs, hg, hr, hc⟩ := call_good (j := twoJob)
    (r := tabWireProfileRequest64 gapStrictCad Edge.length exactTotal [innerSquare] 1 (some (b64 (1 / 5))) (.wire ⟨3, 1, 1 / 2⟩) none)
    (by decide +kernel) rfl (by unfold SafeName; decide) (by decide +kernel)
  obtain ⟨t, m', pre, part, post, evss, a1, a2, a3, a4⟩ := C152_wire_tabs_partial (cad := gapStrictCad) strictCad_assembles
    (len := Edge.length) (wires := [innerSquare]) (offset := 1) (r := 1) (tabs := ⟨3, 1, 1 / 2⟩) (n := 3) (by norm_num) rfl
    (tool := none) (before := []) (after := []) {} twoJob_ok (by rintro v ⟨⟩)
    (show ChainOK twoJob [_] from ⟨hr, fun _ _ => trivial⟩) rfl hc rfl rfl (by rintro n ⟨⟩) gapCad_keepsBelow
    (steps64_millimetres (by decide +kernel) (by decide +kernel)) (by decide +kernel) heightError_metre.1 heightError_metre.2
    (by decide +kernel) (fun _ _ _ h => (by cases h)) rfl (by decide +kernel)
    (gapStrict_contours (by decide +kernel) ⟨innerSquare_fifth64 (by decide +kernel), innerSquare_zones64, innerSquare_alike.2⟩)
  rw [show (twoJob.updateTool none).2.feed.value = 500 from by decide +kernel] at a4
  exact ⟨_, t, m', pre, part, post, evss, hc, a1, a2, a3, a4⟩

/-- Those of `C152_profile_edge_tabs_partial`: a face bounded by the square, with two tabs on each side. -/
example : ∃ j2 t m' pre part post evss,
    (twoJob.call (tabProfileRequest64 gapStrictCad Edge.length exactTotal [.face innerSquare []] (some 1) none (some (b64 (1 / 5)))
      (.edge ⟨3, 1, 1 / 2, none⟩) none)).2 = .ok j2 ∧
    j2.toGcode = .ok t ∧ runText {} t = some (m', pre ++ part ++ post) ∧ part.filter isMove = List.flatten evss ∧
    RunAllStepwise64 gapStrictCad Frame.xy 500 1 (heightError 1010000) (1 / 4000) (some 1) (b64 (1 / 5)) (1 / 2)
      (fun _ => NearTabsOnEdges ⟨3, 1, 1 / 2, none⟩) [innerSquare] evss := by
  obtain ⟨cs, hg, hr, hc⟩ := call_good (j := twoJob)
    (r := tabProfileRequest64 gapStrictCad Edge.length exactTotal [.face innerSquare []] (some 1) none (some (b64 (1 / 5)))
      (.edge ⟨3, 1, 1 / 2, none⟩) none)
    (by decide +kernel) rfl (by unfold SafeName; decide) (by decide +kernel)
  obtain ⟨t, m', pre, part, post, inner, outer, a1, a2, a3, a4, a5⟩ := C152_profile_edge_tabs_partial (cad := gapStrictCad)
    strictCad_assembles (shapes := [.face innerSquare []]) (outerOffset := some 1) (innerOffset := none) (r := 1)
    (tabs := ⟨3, 1, 1 / 2, none⟩)
    (by norm_num) (by norm_num) (tool := none) (before := []) (after := []) {} twoJob_ok (by rintro v ⟨⟩)
    (show ChainOK twoJob [_] from ⟨hr, fun _ _ => trivial⟩) rfl hc rfl rfl (by rintro n ⟨⟩) gapCad_keepsBelow
    (steps64_millimetres (by decide +kernel) (by decide +kernel)) (by decide +kernel) heightError_metre.1 heightError_metre.2
    (by decide +kernel) (fun _ _ _ h => (by cases h)) rfl (by decide +kernel)
    (by
      rintro o ⟨⟩ w hw
      exact gapStrict_contours (by decide +kernel)
        ⟨innerSquare_fifth64 (by decide +kernel), innerSquare_measured, innerSquare_alike.1⟩ w hw)
    (by rintro o ⟨⟩)
  cases (show inner = [] from a4)
  rw [show (twoJob.updateTool none).2.feed.value = 500 from by decide +kernel] at a5
  exact ⟨_, t, m', pre, part, post, outer, hc, a1, a2, a3, a5⟩

/-- Those of `C152_profile_wire_tabs_partial`: the face with three tabs around it. -/
example : ∃ j2 t m' pre part post evss,
    (twoJob.call (tabProfileRequest64 gapStrictCad Edge.length exactTotal [.face innerSquare []] (some 1) none (some (b64 (1 / 5)))
      (.wire ⟨3, 1, 1 / 2⟩) none)).2 = .ok j2 ∧
    j2.toGcode = .ok t ∧ runText {} t = some (m', pre ++ part ++ post) ∧ part.filter isMove = List.flatten evss ∧
    RunAllStepwise64 gapStrictCad Frame.xy 500 1 (heightError 1010000) (1 / 4000) (some 1) (b64 (1 / 5)) (1 / 2)
      (fun b => NearMarks (5 / 10 ^ 6) 3 1 (b.map Edge.length).sum) [innerSquare] evss := by
  obtain ⟨cs, hg, hr, hc⟩ := call_good (j := twoJob)
    (r := tabProfileRequest64 gapStrictCad Edge.length exactTotal [.face innerSquare []] (some 1) none (some (b64 (1 / 5)))
      (.wire ⟨3, 1, 1 / 2⟩) none)
    (by decide +kernel) rfl (by unfold SafeName; decide) (by decide +kernel)
  obtain ⟨t, m', pre, part, post, inner, outer, a1, a2, a3, a4, a5⟩ := C152_profile_wire_tabs_partial (cad := gapStrictCad)
    strictCad_assembles (len := Edge.length) (shapes := [.face innerSquare []]) (outerOffset := some 1) (innerOffset := none) (r := 1)
    (tabs := ⟨3, 1, 1 / 2⟩) (n := 3) (by norm_num) rfl
    (tool := none) (before := []) (after := []) {} twoJob_ok (by rintro v ⟨⟩)
    (show ChainOK twoJob [_] from ⟨hr, fun _ _ => trivial⟩) rfl hc rfl rfl (by rintro n ⟨⟩) gapCad_keepsBelow
    (steps64_millimetres (by decide +kernel) (by decide +kernel)) (by decide +kernel) heightError_metre.1 heightError_metre.2
    (by decide +kernel) (fun _ _ _ h => (by cases h)) rfl (by decide +kernel)
    (by
      rintro o ⟨⟩ w hw
      exact gapStrict_contours (by decide +kernel)
        ⟨innerSquare_fifth64 (by decide +kernel), innerSquare_zones64, innerSquare_alike.2⟩ w hw)
    (by rintro o ⟨⟩)
  cases (show inner = [] from a4)
  rw [show (twoJob.updateTool none).2.feed.value = 500 from by decide +kernel] at a5
  exact ⟨_, t, m', pre, part, post, outer, hc, a1, a2, a3, a5⟩

end CQ
