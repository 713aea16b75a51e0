import Verif.Model.TabProfile64
import Verif.Spec.TabRun64
import Verif.Props.ProfileRun64
import Verif.Props.TabRun
import Verif.Props.EdgeTabs64
import Verif.Props.Tabs64Wire

/-! # C149: profiles with tabs in floating point on the machine -/

namespace CQ

/-- What is proved of a pass at height `z` when the tabs are applied to it. -/
def TabsApply64 (cad : Cad) (apply : List Edge → Except Err (List Edge)) (z tabZ : ℚ)
    (marks : List Edge → List (List (ℚ × Transition)) → Prop) (l : List Edge) : Prop :=
  ∃ p, apply l = .ok p ∧ TabbedPass cad tabZ marks l p ∧ WireOK p ∧ Chained p ∧ ∀ e ∈ p, EdgeEnds (fun x => x = z ∨ x = tabZ) e

/-- The same for all passes of a contour. -/
structure TabsFit64 (cad : Cad) (len : Edge → ℚ) (total : List Edge → ℚ) (j : Job) (τ H L : ℚ) (stepdown : Option ℚ) (tabs : Tabs)
    (marks : List Edge → List (List (ℚ × Transition)) → Prop) (b : List Edge) : Prop where
  box : BoxMovesWithin τ H cad b
  top : b64 (cad.zmin b + tabs.height) ≤ j.opSafeHeight
  size : |cad.zmin b + tabs.height| ≤ L
  apply : ∃ z, |cad.zmin b - z| ≤ τ ∧ z ≤ j.opSafeHeight ∧ ∀ k : ℕ, k ≤ 100 →
    TabsApply64 cad (tabs.apply64 cad len total (b64 (cad.zmin b + tabs.height))) (z + b64 (stepdown.getD 0 * k))
      (b64 (cad.zmin b + tabs.height)) marks (b.map (Edge.up (b64 (stepdown.getD 0 * k))))

/-- The passes of a contour at height `z`, which are all below the safe height. -/
theorem layers64_low {cad : Cad} {j : Job} (hk : KeepsBelow cad j.top) {base : List Edge} {L τ tol z : ℚ} {stepdown : Option ℚ}
    {layers : List (List Edge)} (hc : Steps64 stepdown L τ tol) (hsafe : 0 ≤ j.opSafeHeight) (hb : BoxMovesWithin τ (2 * L) cad base)
    (hz1 : |cad.zmin base - z| ≤ τ) (hz2 : z ≤ j.opSafeHeight) (hf : profileLayers64 cad j.top base stepdown = .ok layers) :
    NearPassesOf cad (heightError L) tol stepdown base layers ∧ ∀ w ∈ layers, ∃ k : ℕ, k ≤ 100 ∧
      w = base.map (Edge.up (b64 (stepdown.getD 0 * k))) ∧ z + b64 (stepdown.getD 0 * k) ≤ j.opSafeHeight := by
  rcases layers64_of hk hc hb hf with ⟨h0, rfl⟩ | ⟨s, n, rfl, hpos, hn, rfl⟩
  · refine ⟨.inl ⟨h0, rfl⟩, ?_⟩
    intro w hwm
    cases List.mem_singleton.mp hwm
    refine ⟨0, by omega, ?_, ?_⟩
    · rw [Nat.cast_zero, mul_zero, b64_zero, raise_zero]
    · rw [Nat.cast_zero, mul_zero, b64_zero]; linarith
  · refine ⟨.inr ⟨s, rfl, hpos, hn.near hpos hc.size (hc.step s rfl).2 hc.gap hc.tol⟩, ?_⟩
    intro w hwm
    obtain ⟨k, hkm, rfl⟩ := List.mem_map.mp hwm
    rw [List.mem_reverse, List.mem_range] at hkm
    have hc1 := hn.count
    refine ⟨k, by omega, rfl, ?_⟩
    change z + b64 (s * k) ≤ _
    rcases Nat.eq_zero_or_pos k with rfl | hk1
    · rw [Nat.cast_zero, mul_zero, b64_zero]; linarith
    · have g1 := abs_le.mp hz1
      have g2 := abs_le.mp (hn.height k (by omega))
      have g4 := hc.small
      obtain ⟨n', k1, k2, k3, k4⟩ := profileLayers64_list hk hpos.ne' hf
      have hnn : n' = n := by
        have := congrArg List.length k2
        simpa using this.symm
      subst hnn
      have g7 := k3 k hk1 (by omega)
      have g8 := hb _ _ (le_b64 isDouble_zero (by positivity)) (by
        have hk' : (k : ℚ) * s ≤ 101 * s := mul_le_mul_of_nonneg_right (by exact_mod_cast (by omega : k ≤ 101)) hpos.le
        have hm : heightError L ≤ 1 * L := mul_le_mul_of_nonneg_right (by norm_num) (by linarith [hc.size])
        have := (hc.step s rfl).2
        linarith [g2.2]) (raised_up (b64 (s * k)) base)
      have g9 := abs_le.mp g8
      have := milli_below
      linarith [g9.1, g1.1]

/-- The motions of a profile with tabs: for each contour its passes, raised in the tabs, one after the other. -/
def CutsTabProfile64 (cad : Cad) (j : Job) (offset ε tol : ℚ) (stepdown : Option ℚ) (height : ℚ)
    (marks : List Edge → List Edge → List (List (ℚ × Transition)) → Prop) (wire : List Edge) (cs : List Motion) : Prop :=
  ∃ r bases, j.toolRadius = some r ∧ offsetWire64 cad (wire.map (Edge.toLocal j.top)) (b64 (offset * r)) = .ok bases ∧
    ∃ blocks : List (List (List Motion)), cs = blocks.flatten.flatten ∧
      List.Forall₂ (fun base block => ∃ z layers passes, |z - (cad.zmin base + height)| ≤ ε ∧
        NearPassesOf cad ε tol stepdown base layers ∧ List.Forall₂ (TabbedPass cad z (marks base)) layers passes ∧
        (∀ w ∈ passes, WireOK w) ∧ List.Forall₂ (WholeWire cad.veq j.feed none) passes block) bases blocks

theorem tabTop_near {x L : ℚ} (hL : 1 ≤ L) (h : |x| ≤ L) : |b64 x - x| ≤ heightError L := b64_err_mu h hL

theorem tabProfile64_cuts {cad : Cad} {len : Edge → ℚ} {total : List Edge → ℚ} {j : Job} (hk : KeepsBelow cad j.top) {wire : List Edge}
    {offset L τ tol : ℚ} {stepdown : Option ℚ} {tabs : Tabs} {cs : List Motion}
    {marks : List Edge → List Edge → List (List (ℚ × Transition)) → Prop} (hc : Steps64 stepdown L τ tol)
    (hsafe : 0 ≤ j.opSafeHeight) (hv : ∀ w, NearestIsVertex cad w)
    (h : tabProfile64 cad len total j wire offset stepdown tabs = .ok cs)
    (hw : EachContour64 cad j offset wire (fun b => TabsFit64 cad len total j τ (2 * L) L stepdown tabs (marks b) b)) :
    Connected {} cs ∧ CutsTabProfile64 cad j offset (heightError L) tol stepdown tabs.height marks wire cs := by
  unfold tabProfile64 at h
  cases hr : j.toolRadius with
  | none => rw [hr] at h; cases h
  | some r =>
  rw [hr] at h
  obtain ⟨bases, ho, h⟩ := bind_ok.mp h
  obtain ⟨pss, h2, h⟩ := bind_ok.mp h
  have hlay : List.Forall₂ (fun base passes => (∃ z layers, |z - (cad.zmin base + tabs.height)| ≤ heightError L ∧
      NearPassesOf cad (heightError L) tol stepdown base layers ∧ List.Forall₂ (TabbedPass cad z (marks base)) layers passes) ∧
      ∀ w ∈ passes, WireOK w ∧ Chained w ∧ ∀ e ∈ w, (e.travel 0).z ≤ j.opSafeHeight) bases pss := by
    refine forall₂_imp_mem (mapE_ok.mp h2) ?_
    intro base hbase passes hf
    have hfit := hw r bases hr ho base hbase
    obtain ⟨z, hz1, hz2, happ⟩ := hfit.apply
    obtain ⟨layers, hl, hf⟩ := bind_ok.mp hf
    obtain ⟨hnear, hlow⟩ := layers64_low hk hc hsafe hfit.box hz1 hz2 hl
    refine ⟨⟨_, layers, tabTop_near hc.size hfit.size, hnear, ?_⟩, ?_⟩
    · refine forall₂_imp_mem (mapE_ok.mp hf) ?_
      intro l hl p hp
      obtain ⟨k, hk1, rfl, -⟩ := hlow l hl
      obtain ⟨p', hp', g, -⟩ := happ k hk1
      rw [hp] at hp'
      cases hp'
      exact g
    · intro w hwm
      obtain ⟨l, hl, hp⟩ := mapE_mem hf hwm
      obtain ⟨k, hk1, rfl, hz⟩ := hlow l hl
      obtain ⟨p', hp', -, g1, g2, g3⟩ := happ k hk1
      rw [hp] at hp'
      cases hp'
      refine ⟨g1, g2, fun e he => ?_⟩
      have hst := (g3 e he).start
      rw [edgeStartPoint_eq (g1.edgeOK e he)] at hst
      rcases hst with hst | hst <;> rw [hst]
      · exact hz
      · exact hfit.top
  have hall : ∀ w ∈ pss.flatten, WireOK w ∧ Chained w ∧ ∀ e ∈ w, (e.travel 0).z ≤ j.opSafeHeight := by
    intro w hwm
    obtain ⟨l, hl, hwl⟩ := List.mem_flatten.mp hwm
    obtain ⟨b, -, -, hb⟩ := forall2_right hlay hl
    exact hb w hwl
  obtain ⟨bs, h4, h5⟩ := routeWires_whole (veq := cad.veq) (search := cad.search) (j := j) (ws := pss.flatten)
    (fun w _ => hv w) (fun w hw => (hall w hw).1)
  constructor
  · have hcs : routeWires cad.veq cad.search j pss.flatten none none = .ok cs := h
    rw [routeWires_vertex (fun w _ => hv w)] at hcs
    obtain ⟨cs', g1, g2⟩ := C72_wires_connected_partial cad.veq (fun _ _ => none) j pss.flatten none none
      (fun w hw => (hall w hw).1) (by intro w _ v h hh; cases hh) (by intro w _ v h hh; cases hh)
      (fun w hw => ⟨(hall w hw).2.1, by simp, (hall w hw).2.2⟩)
    rw [hcs] at g1
    cases g1
    exact g2
  rw [h4] at h
  cases h
  obtain ⟨blocks, rfl, h6⟩ := forall₂_flatten_left h5
  refine ⟨r, bases, hr, ho, blocks, rfl, ?_⟩
  refine (forall₂_trans hlay h6).imp ?_
  rintro base block ⟨passes, -, ⟨⟨z, layers, g0, g1, g2⟩, g3⟩, g4⟩
  exact ⟨z, layers, passes, g0, g1, g2, fun w hw => (g3 w hw).1, g4⟩

/-- All passes of a contour can be given tabs along the edges. -/
theorem tabsFit64_edge {cad : Cad} (hA : Assembles cad) {len : Edge → ℚ} {total : List Edge → ℚ} {j : Job} {b : List Edge} {τ H L : ℚ}
    {stepdown : Option ℚ} {t : EdgeTabs} (hw : 1 / 10 ^ 5 ≤ t.width) (hs : 3 * t.width + 1 / 10 ^ 5 ≤ 2 * t.spacing)
    (hf : TabContour64 cad j τ H L t.height stepdown b) (hm : EdgesMeasured len b) :
    TabsFit64 cad len total j τ H L stepdown (.edge t) (NearTabsOnEdges t) b := by
  obtain ⟨z, hz1, hz2, hflat, hclear⟩ := hf.level
  refine ⟨hf.box, hf.top, hf.size, z, hz1, hz2, fun k hk => ?_⟩
  change TabsApply64 cad (applyEdgeTabs64 cad len (b64 (cad.zmin b + t.height)) t) _ (b64 (cad.zmin b + t.height)) _ _
  have hcl := hclear k hk
  generalize b64 (stepdown.getD 0 * k) = dz at hcl ⊢
  generalize b64 (cad.zmin b + t.height) = tabZ at hcl ⊢
  have hok := wireOK_up hf.ok dz
  have hch := chained_up hf.chained dz
  have hflat' : ∀ e ∈ b.map (Edge.up dz), FlatEdge (z + dz) e := by
    intro e he
    obtain ⟨x, hx, rfl⟩ := List.mem_map.mp he
    exact flatEdge_up (hflat x hx)
  rcases le_or_gt tabZ (cad.zmin (b.map (Edge.up dz))) with hz | hz
  · refine ⟨_, ?_, .inl ⟨hz, rfl⟩, hok, hch, fun e he => edgeEnds_of_at (edgeAt_mono (fun _ h => .inl h) (hflat' e he).flat)⟩
    unfold applyEdgeTabs64
    rw [if_pos hz]
  · have hlt : z + dz < tabZ := by
      rcases hcl with hcl | hcl
      · linarith
      · have : (0 : ℚ) < 1 / 10 ^ 7 := by norm_num
        linarith
    obtain ⟨tss, w', g1, g2, g3, -, g5, g6, g7⟩ := C133_millimetres_partial hA hlt hok.nonempty hz hflat'
      (by
        intro e he
        obtain ⟨x, hx, rfl⟩ := List.mem_map.mp he
        exact hf.length x hx) hch hw hs (len := len)
      (by
        intro e he
        obtain ⟨x, hx, rfl⟩ := List.mem_map.mp he
        exact (hm x hx).2 dz)
      (by
        intro e he
        obtain ⟨x, hx, rfl⟩ := List.mem_map.mp he
        exact (hm x hx).1)
    obtain ⟨g8, g9⟩ := tabbedWire_ok hok hflat' g7 g2 g5
    exact ⟨w', g1, .inr ⟨hz, tss, g6, g2, g3⟩, g8, g3, g9⟩

/-- The same with tabs around the contour. -/
theorem tabsFit64_wire {cad : Cad} (hA : Assembles cad) {len : Edge → ℚ} {total : List Edge → ℚ} {j : Job} {b : List Edge} {τ H L : ℚ}
    {stepdown : Option ℚ} {t : WireTabs} {n : ℕ} (hn : 0 < n) (hc : t.count = n)
    (hf : TabContour64 cad j τ H L t.height stepdown b) (hzf : ZonesFit64 cad total n t.width b) :
    TabsFit64 cad len total j τ H L stepdown (.wire t) (NearMarks (5 / 10 ^ 6) n t.width (b.map Edge.length).sum) b := by
  obtain ⟨z, hz1, hz2, hflat, hclear⟩ := hf.level
  refine ⟨hf.box, hf.top, hf.size, z, hz1, hz2, fun k hk => ?_⟩
  change TabsApply64 cad (fun w => applyTabs64 cad (total w) (b64 (cad.zmin b + t.height)) t w) _ (b64 (cad.zmin b + t.height)) _ _
  have hcl := hclear k hk
  generalize b64 (stepdown.getD 0 * k) = dz at hcl ⊢
  generalize b64 (cad.zmin b + t.height) = tabZ at hcl ⊢
  have hok := wireOK_up hf.ok dz
  have hch := chained_up hf.chained dz
  have hflat' : ∀ e ∈ b.map (Edge.up dz), FlatEdge (z + dz) e := by
    intro e he
    obtain ⟨x, hx, rfl⟩ := List.mem_map.mp he
    exact flatEdge_up (hflat x hx)
  have hmap : ∀ l : List Edge, (l.map (Edge.up dz)).map Edge.length = l.map Edge.length := by
    intro l
    rw [List.map_map]
    rfl
  rcases le_or_gt tabZ (cad.zmin (b.map (Edge.up dz))) with hz | hz
  · refine ⟨_, ?_, .inl ⟨hz, rfl⟩, hok, hch, fun e he => edgeEnds_of_at (edgeAt_mono (fun _ h => .inl h) (hflat' e he).flat)⟩
    dsimp only
    unfold applyTabs64
    rw [if_pos hz]
  · have hlt : z + dz < tabZ := by
      rcases hcl with hcl | hcl
      · linarith
      · have : (0 : ℚ) < 1 / 10 ^ 7 := by norm_num
        linarith
    obtain ⟨tss, w', g1, g2, g3, -, g5, g6, g7⟩ := C131_millimetres_partial hA hlt hok.nonempty hz hflat' hch
      (by rw [List.length_map]; exact hzf.count) hn hc (L := (b.map Edge.length).sum) (by rw [hmap]) hzf.short
      (by
        refine ⟨?_, hzf.apart.tabs, hzf.apart.between, ?_⟩
        · intro pre post h
          obtain ⟨pre', post', rfl, rfl, rfl⟩ := List.map_eq_append_iff.mp h
          rw [hmap]
          exact hzf.apart.corners pre' post' rfl
        · intro e he
          obtain ⟨x, hx, rfl⟩ := List.mem_map.mp he
          exact hzf.apart.edges x hx)
      (hzf.measured dz).1 (hzf.measured dz).2
      (by
        intro pre e post h
        obtain ⟨pre', rest, rfl, rfl, h'⟩ := List.map_eq_append_iff.mp h
        obtain ⟨e', post', rfl, rfl, rfl⟩ := List.map_eq_cons_iff.mp h'
        rw [hmap]
        exact hzf.first pre' e' post' rfl)
    obtain ⟨g8, g9⟩ := tabbedWire_ok hok hflat' g7 g2 g5
    exact ⟨w', g1, .inr ⟨hz, tss, g6, g2, g3⟩, g8, g3, g9⟩

/-! ### The machine -/

theorem runs_tabProfile64 {cad : Cad} {j : Job} {offset ε tol : ℚ} {stepdown : Option ℚ} {height : ℚ}
    {marks : List Edge → List Edge → List (List (ℚ × Transition)) → Prop} {wire : List Edge} {cs : List Motion} {evs : List Event}
    {r : ℚ} (hr : j.toolRadius = some r) (h : List.Forall₂ Runs evs cs)
    (hc : CutsTabProfile64 cad j offset ε tol stepdown height marks wire cs) :
    RunsTabProfile64 cad j.top j.feed.value r offset ε tol stepdown height marks wire evs := by
  obtain ⟨r', bases, hr', ho, blocks, rfl, hb⟩ := hc
  rw [hr] at hr'
  cases hr'
  obtain ⟨ev1, rfl, g1⟩ := forall₂_flatten_left h.flip
  obtain ⟨ev2, rfl, g2⟩ := forall₂_flatten_left g1
  refine ⟨bases, ho, ev2, rfl, ?_⟩
  refine (forall₂_trans hb g2).imp ?_
  rintro base evb ⟨block, -, ⟨z, layers, passes, h0, hp, ht, hok, hw⟩, hev⟩
  refine ⟨z, layers, passes, h0, hp, ht, ?_⟩
  refine forall₂_imp_mem (forall₂_trans hw hev) ?_
  rintro w hwm evs ⟨cs, -, k1, k2⟩
  exact runs_wire (hok w hwm) k2.flip k1

theorem tabProfiles64_runs {cad : Cad} {len : Edge → ℚ} {total : List Edge → ℚ} {j : Job} (hk : KeepsBelow cad j.top)
    {wires : List (List Edge)} {offset L τ tol : ℚ} {stepdown : Option ℚ} {tabs : Tabs} {cs : List Motion}
    {marks : List Edge → List Edge → List (List (ℚ × Transition)) → Prop} (hc : Steps64 stepdown L τ tol)
    (hsafe : 0 ≤ j.opSafeHeight) (hv : ∀ w, NearestIsVertex cad w) (h : tabProfiles64 cad len total j offset stepdown tabs wires = .ok cs)
    (hw : ∀ w ∈ wires, EachContour64 cad j offset w (fun b => TabsFit64 cad len total j τ (2 * L) L stepdown tabs (marks b) b)) {r : ℚ}
    (hr : j.toolRadius = some r) :
    (∀ p, Tracks p cs) ∧ ∀ evs, List.Forall₂ Runs evs cs → ∃ evss, evs = List.flatten evss ∧
      List.Forall₂ (RunsTabProfile64 cad j.top j.feed.value r offset (heightError L) tol stepdown tabs.height marks) wires evss := by
  obtain ⟨css, hm, h⟩ := bind_ok.mp h
  cases h
  constructor
  · refine tracks_flatten ?_
    intro b hbm
    obtain ⟨w, hwm, hp⟩ := mapE_mem hm hbm
    exact tracks_connected (tabProfile64_cuts hk hc hsafe hv hp (hw w hwm)).1
  · intro evs h
    obtain ⟨evss, rfl, g⟩ := forall₂_flatten_left h.flip
    refine ⟨evss, rfl, ?_⟩
    refine forall₂_imp_mem (forall₂_trans (mapE_ok.mp hm) g) ?_
    rintro w hwm ev ⟨cs, -, h1, h2⟩
    exact runs_tabProfile64 hr h2.flip (tabProfile64_cuts hk hc hsafe hv h1 (hw w hwm)).2

theorem tabProfilesOpt64_runs {cad : Cad} {len : Edge → ℚ} {total : List Edge → ℚ} {j : Job} (hk : KeepsBelow cad j.top)
    {wires : List (List Edge)} {L τ tol : ℚ} {offset : Option ℚ} {stepdown : Option ℚ} {tabs : Tabs} {cs : List Motion}
    {marks : List Edge → List Edge → List (List (ℚ × Transition)) → Prop} (hc : Steps64 stepdown L τ tol)
    (hsafe : 0 ≤ j.opSafeHeight) (hv : ∀ w, NearestIsVertex cad w)
    (h : tabProfilesOpt64 cad len total j offset stepdown tabs wires = .ok cs)
    (hw : ∀ o, offset = some o → ∀ w ∈ wires,
      EachContour64 cad j o w (fun b => TabsFit64 cad len total j τ (2 * L) L stepdown tabs (marks b) b))
    {r : ℚ} (hr : j.toolRadius = some r) :
    (∀ p, Tracks p cs) ∧ ∀ evs, List.Forall₂ Runs evs cs → ∃ evss, evs = List.flatten evss ∧
      RunsTabProfiles64 cad j.top j.feed.value r (heightError L) tol offset stepdown tabs.height marks wires evss := by
  cases offset with
  | none =>
    cases h
    refine ⟨fun _ => trivial, fun evs h => ?_⟩
    cases h
    exact ⟨[], rfl, rfl⟩
  | some o => exact tabProfiles64_runs hk hc hsafe hv h (hw o rfl) hr

theorem wire_profile_tabs64 {cad : Cad} {len : Edge → ℚ} {total : List Edge → ℚ} {wires : List (List Edge)} {offset r L τ tol : ℚ}
    {stepdown : Option ℚ} {tabs : Tabs} {tool : Option Tool} {j0 j1 j2 jf : Job} {before after : List Request} (m : Machine) (h0 : InitOK j0)
    (hn : ∀ v, j0.toolNumber = some v → NumOK v)
    (hok : ChainOK j0 (before ++ tabWireProfileRequest64 cad len total wires offset stepdown tabs tool :: after))
    (h1 : j0.chain before = .ok j1) (h2 : (j1.call (tabWireProfileRequest64 cad len total wires offset stepdown tabs tool)).2 = .ok j2)
    (h3 : j2.chain after = .ok jf) (hend : m.ended = false) (htool : ∀ n, j0.toolNumber = some n → m.tool = some n.value)
    (hk : KeepsBelow cad j0.top) (hc : Steps64 stepdown L τ tol) (hsafe : 0 ≤ j0.opSafeHeight) (hv : ∀ w, NearestIsVertex cad w)
    {j : Job} (hj : (j1.updateTool tool).2 = j) (hr : j.toolRadius = some r)
    {marks : List Edge → List Edge → List (List (ℚ × Transition)) → Prop}
    (hw : ∀ w ∈ wires, EachContour64 cad j offset w (fun b => TabsFit64 cad len total j τ (2 * L) L stepdown tabs (marks b) b)) :
    ∃ t m' pre part post evss, jf.toGcode = .ok t ∧ runText m t = some (m', pre ++ part ++ post) ∧
      part.filter isMove = List.flatten evss ∧
      List.Forall₂ (RunsTabProfile64 cad j0.top j.feed.value r offset (heightError L) tol stepdown tabs.height marks) wires evss := by
  obtain ⟨t, m', pre, part, post, cs, ht, hrun, hgen, -, hfol, hpart⟩ := C94_followed m h0 hn hok h1 h2 h3 hend htool
  subst hj
  have hbase : SameBase j0 (j1.updateTool tool).2 := updateTool_base (chain_base (show SameBase j0 j0 from rfl) h1) _
  have hsafe' : j0.opSafeHeight = (j1.updateTool tool).2.opSafeHeight := by rw [hbase]
  have htop : j0.top = (j1.updateTool tool).2.top := by rw [hbase]
  obtain ⟨htr, hev⟩ := tabProfiles64_runs (htop ▸ hk) hc (hsafe' ▸ hsafe) hv hgen hw hr
  obtain ⟨evss, he, hev⟩ := hev _ (runs_of (hfol (htr _)) (fun e he => (hpart e he).2))
  exact ⟨t, m', pre, part, post, evss, ht, hrun, he, by rw [htop]; exact hev⟩

theorem profile_tabs64 {cad : Cad} {len : Edge → ℚ} {total : List Edge → ℚ} {shapes : List Shape} {outerOffset innerOffset : Option ℚ}
    {r L τ tol : ℚ} {stepdown : Option ℚ} {tabs : Tabs} {tool : Option Tool} {j0 j1 j2 jf : Job} {before after : List Request} (m : Machine)
    (h0 : InitOK j0) (hn : ∀ v, j0.toolNumber = some v → NumOK v)
    (hok : ChainOK j0 (before ++ tabProfileRequest64 cad len total shapes outerOffset innerOffset stepdown tabs tool :: after))
    (h1 : j0.chain before = .ok j1)
    (h2 : (j1.call (tabProfileRequest64 cad len total shapes outerOffset innerOffset stepdown tabs tool)).2 = .ok j2)
    (h3 : j2.chain after = .ok jf) (hend : m.ended = false) (htool : ∀ n, j0.toolNumber = some n → m.tool = some n.value)
    (hk : KeepsBelow cad j0.top) (hc : Steps64 stepdown L τ tol) (hsafe : 0 ≤ j0.opSafeHeight) (hv : ∀ w, NearestIsVertex cad w)
    {j : Job} (hj : (j1.updateTool tool).2 = j) (hr : j.toolRadius = some r)
    {marks : List Edge → List Edge → List (List (ℚ × Transition)) → Prop}
    (hwo : ∀ o, outerOffset = some o → ∀ w ∈ outerWires shapes,
      EachContour64 cad j o w (fun b => TabsFit64 cad len total j τ (2 * L) L stepdown tabs (marks b) b))
    (hwi : ∀ o, innerOffset = some o → ∀ w ∈ innerWires shapes,
      EachContour64 cad j o w (fun b => TabsFit64 cad len total j τ (2 * L) L stepdown tabs (marks b) b)) :
    ∃ t m' pre part post inner outer, jf.toGcode = .ok t ∧ runText m t = some (m', pre ++ part ++ post) ∧
      part.filter isMove = List.flatten inner ++ List.flatten outer ∧
      RunsTabProfiles64 cad j0.top j.feed.value r (heightError L) tol innerOffset stepdown tabs.height marks (innerWires shapes) inner ∧
      RunsTabProfiles64 cad j0.top j.feed.value r (heightError L) tol outerOffset stepdown tabs.height marks (outerWires shapes) outer := by
  obtain ⟨t, m', pre, part, post, cs, ht, hrun, hgen, -, hfol, hpart⟩ := C94_followed m h0 hn hok h1 h2 h3 hend htool
  subst hj
  have hbase : SameBase j0 (j1.updateTool tool).2 := updateTool_base (chain_base (show SameBase j0 j0 from rfl) h1) _
  have hsafe' : j0.opSafeHeight = (j1.updateTool tool).2.opSafeHeight := by rw [hbase]
  have htop : j0.top = (j1.updateTool tool).2.top := by rw [hbase]
  change (do
    let (outers, inners) ← extractWires shapes
    let a ← tabProfilesOpt64 cad len total (j1.updateTool tool).2 innerOffset stepdown tabs inners
    let b ← tabProfilesOpt64 cad len total (j1.updateTool tool).2 outerOffset stepdown tabs outers
    Except.ok (a ++ b)) = .ok cs at hgen
  obtain ⟨⟨os, is⟩, hx, hgen⟩ := bind_ok.mp hgen
  obtain ⟨a, ha, hgen⟩ := bind_ok.mp hgen
  obtain ⟨b, hb', hgen⟩ := bind_ok.mp hgen
  cases hgen
  have hsh : Shape.other ∉ shapes := by
    intro ho
    rw [(extractWires_eq shapes).1 ho] at hx
    cases hx
  rw [(extractWires_eq shapes).2 hsh] at hx
  cases hx
  obtain ⟨t1, k1⟩ := tabProfilesOpt64_runs (htop ▸ hk) hc (hsafe' ▸ hsafe) hv ha hwi hr
  obtain ⟨t2, k2⟩ := tabProfilesOpt64_runs (htop ▸ hk) hc (hsafe' ▸ hsafe) hv hb' hwo hr
  have hruns := runs_of (hfol (tracks_append.mpr ⟨t1 _, t2 _⟩)) (fun e he => (hpart e he).2)
  obtain ⟨e1, e2, g1, g2, hsplit⟩ := forall₂_append_left hruns.flip
  obtain ⟨inner, rfl, hin⟩ := k1 e1 g1.flip
  obtain ⟨outer, rfl, hout⟩ := k2 e2 g2.flip
  exact ⟨t, m', pre, part, post, inner, outer, ht, hrun, hsplit, by rw [htop]; exact hin, by rw [htop]; exact hout⟩

/-- C149 for `wire_profile` with tabs along the edges (as far as it holds: see `C149_violated`): the machine cuts each pass whole, at the
top of the tabs inside the tabs and at the depth of the pass elsewhere, up to rounding. -/
theorem C149_edge_tabs_partial {cad : Cad} (hA : Assembles cad) {len : Edge → ℚ} {total : List Edge → ℚ} {wires : List (List Edge)}
    {offset r L τ tol : ℚ} {stepdown : Option ℚ}
    {tabs : EdgeTabs} (hwidth : 1 / 10 ^ 5 ≤ tabs.width) (hgap : 3 * tabs.width + 1 / 10 ^ 5 ≤ 2 * tabs.spacing)
    {tool : Option Tool} {j0 j1 j2 jf : Job} {before after : List Request} (m : Machine)
    (h0 : InitOK j0) (hn : ∀ v, j0.toolNumber = some v → NumOK v)
    (hok : ChainOK j0 (before ++ tabWireProfileRequest64 cad len total wires offset stepdown (.edge tabs) tool :: after))
    (h1 : j0.chain before = .ok j1)
    (h2 : (j1.call (tabWireProfileRequest64 cad len total wires offset stepdown (.edge tabs) tool)).2 = .ok j2)
    (h3 : j2.chain after = .ok jf) (hend : m.ended = false) (htool : ∀ n, j0.toolNumber = some n → m.tool = some n.value)
    (hk : KeepsBelow cad j0.top) (hc : Steps64 stepdown L τ tol) (hsafe : 0 ≤ j0.opSafeHeight) (hv : ∀ w, NearestIsVertex cad w)
    {j : Job} (hj : (j1.updateTool tool).2 = j) (hr : j.toolRadius = some r)
    (hw : ∀ w ∈ wires, EachContour64 cad j offset w
      (fun b => TabContour64 cad j τ (2 * L) L tabs.height stepdown b ∧ EdgesMeasured len b)) :
    ∃ t m' pre part post evss, jf.toGcode = .ok t ∧ runText m t = some (m', pre ++ part ++ post) ∧
      part.filter isMove = List.flatten evss ∧
      List.Forall₂ (RunsTabProfile64 cad j0.top j.feed.value r offset (heightError L) tol stepdown tabs.height
        (fun _ => NearTabsOnEdges tabs)) wires evss :=
  wire_profile_tabs64 (marks := (fun _ => NearTabsOnEdges tabs)) m h0 hn hok h1 h2 h3 hend htool hk hc hsafe hv hj hr
    (fun w hw' r bases g1 g2 b hb' => by
      obtain ⟨k1, k2⟩ := hw w hw' r bases g1 g2 b hb'
      exact tabsFit64_edge hA hwidth hgap k1 k2)

/-- C149 for `profile` with tabs along the edges. -/
theorem C149_profile_edge_tabs_partial {cad : Cad} (hA : Assembles cad) {len : Edge → ℚ} {total : List Edge → ℚ} {shapes : List Shape} {outerOffset innerOffset : Option ℚ}
    {r L τ tol : ℚ} {stepdown : Option ℚ}
    {tabs : EdgeTabs} (hwidth : 1 / 10 ^ 5 ≤ tabs.width) (hgap : 3 * tabs.width + 1 / 10 ^ 5 ≤ 2 * tabs.spacing)
    {tool : Option Tool} {j0 j1 j2 jf : Job} {before after : List Request} (m : Machine)
    (h0 : InitOK j0) (hn : ∀ v, j0.toolNumber = some v → NumOK v)
    (hok : ChainOK j0 (before ++ tabProfileRequest64 cad len total shapes outerOffset innerOffset stepdown (.edge tabs) tool :: after))
    (h1 : j0.chain before = .ok j1)
    (h2 : (j1.call (tabProfileRequest64 cad len total shapes outerOffset innerOffset stepdown (.edge tabs) tool)).2 = .ok j2)
    (h3 : j2.chain after = .ok jf) (hend : m.ended = false) (htool : ∀ n, j0.toolNumber = some n → m.tool = some n.value)
    (hk : KeepsBelow cad j0.top) (hc : Steps64 stepdown L τ tol) (hsafe : 0 ≤ j0.opSafeHeight) (hv : ∀ w, NearestIsVertex cad w)
    {j : Job} (hj : (j1.updateTool tool).2 = j) (hr : j.toolRadius = some r)
    (hwo : ∀ o, outerOffset = some o → ∀ w ∈ outerWires shapes, EachContour64 cad j o w
      (fun b => TabContour64 cad j τ (2 * L) L tabs.height stepdown b ∧ EdgesMeasured len b))
    (hwi : ∀ o, innerOffset = some o → ∀ w ∈ innerWires shapes, EachContour64 cad j o w
      (fun b => TabContour64 cad j τ (2 * L) L tabs.height stepdown b ∧ EdgesMeasured len b)) :
    ∃ t m' pre part post inner outer, jf.toGcode = .ok t ∧ runText m t = some (m', pre ++ part ++ post) ∧
      part.filter isMove = List.flatten inner ++ List.flatten outer ∧
      RunsTabProfiles64 cad j0.top j.feed.value r (heightError L) tol innerOffset stepdown tabs.height
        (fun _ => NearTabsOnEdges tabs) (innerWires shapes) inner ∧
      RunsTabProfiles64 cad j0.top j.feed.value r (heightError L) tol outerOffset stepdown tabs.height
        (fun _ => NearTabsOnEdges tabs) (outerWires shapes) outer :=
  profile_tabs64 (marks := (fun _ => NearTabsOnEdges tabs)) m h0 hn hok h1 h2 h3 hend htool hk hc hsafe hv hj hr
    (fun o ho w hw' r bases g1 g2 b hb' => by
      obtain ⟨k1, k2⟩ := hwo o ho w hw' r bases g1 g2 b hb'
      exact tabsFit64_edge hA hwidth hgap k1 k2)
    (fun o ho w hw' r bases g1 g2 b hb' => by
      obtain ⟨k1, k2⟩ := hwi o ho w hw' r bases g1 g2 b hb'
      exact tabsFit64_edge hA hwidth hgap k1 k2)

/-- C149 for `wire_profile` with tabs around the contour. -/
theorem C149_wire_tabs_partial {cad : Cad} (hA : Assembles cad) {len : Edge → ℚ} {total : List Edge → ℚ} {wires : List (List Edge)}
    {offset r L τ tol : ℚ} {stepdown : Option ℚ}
    {tabs : WireTabs} {n : ℕ} (hpos : 0 < n) (hcount : tabs.count = n)
    {tool : Option Tool} {j0 j1 j2 jf : Job} {before after : List Request} (m : Machine)
    (h0 : InitOK j0) (hn : ∀ v, j0.toolNumber = some v → NumOK v)
    (hok : ChainOK j0 (before ++ tabWireProfileRequest64 cad len total wires offset stepdown (.wire tabs) tool :: after))
    (h1 : j0.chain before = .ok j1)
    (h2 : (j1.call (tabWireProfileRequest64 cad len total wires offset stepdown (.wire tabs) tool)).2 = .ok j2)
    (h3 : j2.chain after = .ok jf) (hend : m.ended = false) (htool : ∀ n, j0.toolNumber = some n → m.tool = some n.value)
    (hk : KeepsBelow cad j0.top) (hc : Steps64 stepdown L τ tol) (hsafe : 0 ≤ j0.opSafeHeight) (hv : ∀ w, NearestIsVertex cad w)
    {j : Job} (hj : (j1.updateTool tool).2 = j) (hr : j.toolRadius = some r)
    (hw : ∀ w ∈ wires, EachContour64 cad j offset w
      (fun b => TabContour64 cad j τ (2 * L) L tabs.height stepdown b ∧ ZonesFit64 cad total n tabs.width b)) :
    ∃ t m' pre part post evss, jf.toGcode = .ok t ∧ runText m t = some (m', pre ++ part ++ post) ∧
      part.filter isMove = List.flatten evss ∧
      List.Forall₂ (RunsTabProfile64 cad j0.top j.feed.value r offset (heightError L) tol stepdown tabs.height
        (fun b => NearMarks (5 / 10 ^ 6) n tabs.width (b.map Edge.length).sum)) wires evss :=
  wire_profile_tabs64 (marks := (fun b => NearMarks (5 / 10 ^ 6) n tabs.width (b.map Edge.length).sum)) m h0 hn hok h1 h2 h3 hend htool hk hc hsafe hv hj hr
    (fun w hw' r bases g1 g2 b hb' => by
      obtain ⟨k1, k2⟩ := hw w hw' r bases g1 g2 b hb'
      exact tabsFit64_wire hA hpos hcount k1 k2)

/-- C149 for `profile` with tabs around the contour. -/
theorem C149_profile_wire_tabs_partial {cad : Cad} (hA : Assembles cad) {len : Edge → ℚ} {total : List Edge → ℚ} {shapes : List Shape} {outerOffset innerOffset : Option ℚ}
    {r L τ tol : ℚ} {stepdown : Option ℚ}
    {tabs : WireTabs} {n : ℕ} (hpos : 0 < n) (hcount : tabs.count = n)
    {tool : Option Tool} {j0 j1 j2 jf : Job} {before after : List Request} (m : Machine)
    (h0 : InitOK j0) (hn : ∀ v, j0.toolNumber = some v → NumOK v)
    (hok : ChainOK j0 (before ++ tabProfileRequest64 cad len total shapes outerOffset innerOffset stepdown (.wire tabs) tool :: after))
    (h1 : j0.chain before = .ok j1)
    (h2 : (j1.call (tabProfileRequest64 cad len total shapes outerOffset innerOffset stepdown (.wire tabs) tool)).2 = .ok j2)
    (h3 : j2.chain after = .ok jf) (hend : m.ended = false) (htool : ∀ n, j0.toolNumber = some n → m.tool = some n.value)
    (hk : KeepsBelow cad j0.top) (hc : Steps64 stepdown L τ tol) (hsafe : 0 ≤ j0.opSafeHeight) (hv : ∀ w, NearestIsVertex cad w)
    {j : Job} (hj : (j1.updateTool tool).2 = j) (hr : j.toolRadius = some r)
    (hwo : ∀ o, outerOffset = some o → ∀ w ∈ outerWires shapes, EachContour64 cad j o w
      (fun b => TabContour64 cad j τ (2 * L) L tabs.height stepdown b ∧ ZonesFit64 cad total n tabs.width b))
    (hwi : ∀ o, innerOffset = some o → ∀ w ∈ innerWires shapes, EachContour64 cad j o w
      (fun b => TabContour64 cad j τ (2 * L) L tabs.height stepdown b ∧ ZonesFit64 cad total n tabs.width b)) :
    ∃ t m' pre part post inner outer, jf.toGcode = .ok t ∧ runText m t = some (m', pre ++ part ++ post) ∧
      part.filter isMove = List.flatten inner ++ List.flatten outer ∧
      RunsTabProfiles64 cad j0.top j.feed.value r (heightError L) tol innerOffset stepdown tabs.height
        (fun b => NearMarks (5 / 10 ^ 6) n tabs.width (b.map Edge.length).sum) (innerWires shapes) inner ∧
      RunsTabProfiles64 cad j0.top j.feed.value r (heightError L) tol outerOffset stepdown tabs.height
        (fun b => NearMarks (5 / 10 ^ 6) n tabs.width (b.map Edge.length).sum) (outerWires shapes) outer :=
  profile_tabs64 (marks := (fun b => NearMarks (5 / 10 ^ 6) n tabs.width (b.map Edge.length).sum)) m h0 hn hok h1 h2 h3 hend htool hk hc hsafe hv hj hr
    (fun o ho w hw' r bases g1 g2 b hb' => by
      obtain ⟨k1, k2⟩ := hwo o ho w hw' r bases g1 g2 b hb'
      exact tabsFit64_wire hA hpos hcount k1 k2)
    (fun o ho w hw' r bases g1 g2 b hb' => by
      obtain ⟨k1, k2⟩ := hwi o ho w hw' r bases g1 g2 b hb'
      exact tabsFit64_wire hA hpos hcount k1 k2)

/-! ### Where it fails -/

/-- The sum of the lengths, without any rounding. -/
def exactTotal (w : List Edge) : ℚ := (w.map Edge.length).sum

/-- A kernel that assembles only connected edges, and whose boxes are `10^-7` too large and rounded. -/
def gapStrictCad : Cad := { strictCad with zmin := gapCad.zmin }

/-- C149 is false, as C102: with one tab around a square that ends exactly at a corner the program has no tab at all; the machine feeds
along the whole first side at depth 1, also inside the tab, whose top is at depth `1/2`. -/
theorem C149_violated : ∃ j2 t m' evs, Assembles strictCad ∧ BoxMoves strictCad ∧ KeepsBelow strictCad twoJob.top ∧
    offsetWire64 strictCad (innerSquare.map (Edge.toLocal twoJob.top)) (b64 (1 * 1)) = .ok [innerSquare] ∧
    FlatContour strictCad twoJob (1 / 2) innerSquare ∧ b64 (strictCad.zmin innerSquare + 1 / 2) = -1 / 2 ∧ InZone 1 12 24 3 ∧
    (twoJob.call (tabWireProfileRequest64 strictCad Edge.length exactTotal [innerSquare] 1 none (.wire ⟨1, 12, 1 / 2⟩) none)).2 = .ok j2 ∧
    j2.toGcode = .ok t ∧ runText {} t = some (m', evs) ∧ ∃ e ∈ evs, ∃ ctr, e.st.spindle = .cw ∧ e.st.pos = Vec.pos ⟨0, 0, -1⟩ ∧
      e.act = .move .linear (Vec.pos ⟨6, 0, -1⟩) ctr := by
  obtain ⟨j2, t, m', evs, h1, h2, h3, e, he, h4⟩ := run_witness (j := twoJob) (bad := cutsTab)
    (r := tabWireProfileRequest64 strictCad Edge.length exactTotal [innerSquare] 1 none (.wire ⟨1, 12, 1 / 2⟩) none) twoJob_ok
    (by rintro v ⟨⟩) (by decide +kernel) rfl (by unfold SafeName; decide) (by decide +kernel)
  simp only [cutsTab, Bool.and_eq_true, decide_eq_true_eq] at h4
  obtain ⟨⟨h5, h6⟩, h7⟩ := h4
  refine ⟨j2, t, m', evs, strictCad_assembles, flatCad_boxMoves, flatCad_keepsBelow, ?_, innerSquare_flat, by decide +kernel,
    ⟨0, by norm_num, by norm_num⟩, h1, h2, h3, e, he, ?_⟩
  · have hval : offsetValid64 strictCad innerSquare = true := by decide +kernel
    rw [show innerSquare.map (Edge.toLocal twoJob.top) = innerSquare from by
      rw [show Edge.toLocal twoJob.top = id from funext toLocal_xy, List.map_id]]
    change Except.ok (circleBugWorkaround strictCad innerSquare ([innerSquare].filter (offsetValid64 strictCad))) = _
    rw [show [innerSquare].filter (offsetValid64 strictCad) = [innerSquare] from by simp [hval]]
    rfl
  · split at h7
    · rename_i tgt ctr hact
      exact ⟨ctr, h6, h5, by rw [hact, of_decide_eq_true h7]⟩
    · cases h7

/-! ### Examples of the conditions -/

theorem gapStrict_contours {j : Job} (hj : j.top = Frame.xy) {P : List Edge → Prop} (h : P innerSquare) :
    ∀ w ∈ [innerSquare], EachContour64 gapStrictCad j 1 w P := by
  intro w hw r bases h1 h2 b hb
  cases List.mem_singleton.mp hw
  have hval : offsetValid64 gapStrictCad innerSquare = true := by decide +kernel
  rw [hj, show innerSquare.map (Edge.toLocal Frame.xy) = innerSquare from by
    rw [show Edge.toLocal Frame.xy = id from funext toLocal_xy, List.map_id]] at h2
  change Except.ok (circleBugWorkaround gapStrictCad innerSquare ([innerSquare].filter (offsetValid64 gapStrictCad))) = _ at h2
  rw [show [innerSquare].filter (offsetValid64 gapStrictCad) = [innerSquare] from by simp [hval]] at h2
  cases h2
  cases List.mem_singleton.mp hb
  exact h

theorem innerSquare_contour64 {j : Job} (hj : 0 ≤ j.opSafeHeight) :
    TabContour64 gapStrictCad j (1 / 10000) (2 * 1010000) 1010000 (1 / 2) (some (b64 (3 / 5))) innerSquare where
  ok := innerSquare_ok
  chained := by decide +kernel
  length := by decide +kernel
  box := by
    rw [show (2 : ℚ) * 1010000 = 2020000 from by norm_num]
    exact gapCad_box innerSquare_ok.nonempty (by decide +kernel)
  level := by
    refine ⟨-1, by decide +kernel, by linarith, ?_, by decide +kernel⟩
    intro e he
    simp only [innerSquare, outline, List.map_cons, List.map_nil, List.mem_cons, List.not_mem_nil, or_false] at he
    rcases he with rfl | rfl | rfl | rfl <;> exact lineEdge_flat (by norm_num)
  top := le_trans (by decide +kernel) hj
  size := by decide +kernel

theorem nearLength_self {L : ℚ} (h : 0 ≤ L) (k : ℕ) : NearLength k L L := by
  unfold NearLength
  rw [sub_self, abs_zero]
  have := two_zpow_pos (-52)
  positivity

theorem innerSquare_measured : EdgesMeasured Edge.length innerSquare := by
  intro e he
  have h : ∀ e ∈ innerSquare, 0 ≤ e.length ∧ e.length ≤ 10 ^ 5 := by decide +kernel
  exact ⟨(h e he).2, fun dz => nearLength_self (h e he).1 _⟩

theorem innerSquare_zones64 : ZonesFit64 gapStrictCad exactTotal 3 1 innerSquare where
  count := by decide
  short := by decide +kernel
  apart := by
    have hsum : (innerSquare.map Edge.length).sum = 24 := by decide +kernel
    rw [hsum]
    refine ⟨?_, by norm_num, by norm_num, by decide +kernel⟩
    intro pre post h k hk
    have hm : ∀ m : ℕ, m ≤ 4 → ∀ k : ℕ, k ≤ 3 → (1 : ℚ) / 10 ^ 5 < |6 * (m : ℚ) - (k * (24 / (3 : ℕ)) - 1 / 2)| ∧
        (1 : ℚ) / 10 ^ 5 < |6 * (m : ℚ) - (k * (24 / (3 : ℕ)) + 1 / 2)| := by decide +kernel
    have hp : ∃ m : ℕ, m ≤ 4 ∧ (pre.map Edge.length).sum = 6 * m := by
      match pre, h with
      | [], h => exact ⟨0, by omega, by simp⟩
      | [_], h => cases h; exact ⟨1, by omega, by decide +kernel⟩
      | [_, _], h => cases h; exact ⟨2, by omega, by decide +kernel⟩
      | [_, _, _], h => cases h; exact ⟨3, by omega, by decide +kernel⟩
      | [_, _, _, _], h => cases h; exact ⟨4, by omega, by decide +kernel⟩
      | _ :: _ :: _ :: _ :: _ :: _, h => cases h
    obtain ⟨m, h4, hp⟩ := hp
    rw [hp]
    exact hm m h4 k hk
  first := innerSquare_zones.last
  measured dz := by
    have hsum : (innerSquare.map Edge.length).sum = 24 := by decide +kernel
    have h1 : gapStrictCad.wireLength (innerSquare.map (Edge.up dz)) = (innerSquare.map Edge.length).sum := rfl
    have h2 : exactTotal (innerSquare.map (Edge.up dz)) = (innerSquare.map Edge.length).sum := rfl
    rw [h1, h2, hsum]
    exact ⟨nearLength_self (by norm_num) _, nearLength_self (by norm_num) _⟩

/-- The hypotheses of `C149_edge_tabs_partial`: the square with two tabs on each side, in two passes, on a kernel that rounds. -/
example : ∃ j2 t m' pre part post evss,
    (twoJob.call (tabWireProfileRequest64 gapStrictCad Edge.length exactTotal [innerSquare] 1 (some (b64 (3 / 5)))
      (.edge ⟨3, 1, 1 / 2, none⟩) none)).2 = .ok j2 ∧
    j2.toGcode = .ok t ∧ runText {} t = some (m', pre ++ part ++ post) ∧ part.filter isMove = List.flatten evss ∧
    List.Forall₂ (RunsTabProfile64 gapStrictCad Frame.xy 500 1 1 (heightError 1010000) (1 / 4000) (some (b64 (3 / 5))) (1 / 2)
      (fun _ => NearTabsOnEdges ⟨3, 1, 1 / 2, none⟩)) [innerSquare] evss := by
  obtain ⟨cs, hg, hr, hc⟩ := call_good (j := twoJob)
    (r := tabWireProfileRequest64 gapStrictCad Edge.length exactTotal [innerSquare] 1 (some (b64 (3 / 5))) (.edge ⟨3, 1, 1 / 2, none⟩) none)
    (by decide +kernel) rfl (by unfold SafeName; decide) (by decide +kernel)
  obtain ⟨t, m', pre, part, post, evss, a1, a2, a3, a4⟩ := C149_edge_tabs_partial (cad := gapStrictCad) strictCad_assembles
    (wires := [innerSquare]) (offset := 1) (r := 1) (tabs := ⟨3, 1, 1 / 2, none⟩)
    (by norm_num) (by norm_num) (tool := none) (before := []) (after := []) {} twoJob_ok (by rintro v ⟨⟩)
    (show ChainOK twoJob [_] from ⟨hr, fun _ _ => trivial⟩) rfl hc rfl rfl (by rintro n ⟨⟩) gapCad_keepsBelow
    (steps64_millimetres (by decide +kernel) (by decide +kernel)) (by decide +kernel) (fun _ _ _ h => (by cases h)) rfl (by decide +kernel)
    (gapStrict_contours (by decide +kernel) ⟨innerSquare_contour64 (by decide +kernel), innerSquare_measured⟩)
  rw [show (twoJob.updateTool none).2.feed.value = 500 from by decide +kernel] at a4
  exact ⟨_, t, m', pre, part, post, evss, hc, a1, a2, a3, a4⟩

/-- Those of `C149_wire_tabs_partial`: the square with three tabs around it. -/
example : ∃ j2 t m' pre part post evss,
    (twoJob.call (tabWireProfileRequest64 gapStrictCad Edge.length exactTotal [innerSquare] 1 (some (b64 (3 / 5)))
      (.wire ⟨3, 1, 1 / 2⟩) none)).2 = .ok j2 ∧
    j2.toGcode = .ok t ∧ runText {} t = some (m', pre ++ part ++ post) ∧ part.filter isMove = List.flatten evss ∧
    List.Forall₂ (RunsTabProfile64 gapStrictCad Frame.xy 500 1 1 (heightError 1010000) (1 / 4000) (some (b64 (3 / 5))) (1 / 2)
      (fun b => NearMarks (5 / 10 ^ 6) 3 1 (b.map Edge.length).sum)) [innerSquare] evss := by
  obtain ⟨cs, hg, hr, hc⟩ := call_good (j := twoJob)
    (r := tabWireProfileRequest64 gapStrictCad Edge.length exactTotal [innerSquare] 1 (some (b64 (3 / 5))) (.wire ⟨3, 1, 1 / 2⟩) none)
    (by decide +kernel) rfl (by unfold SafeName; decide) (by decide +kernel)
  obtain ⟨t, m', pre, part, post, evss, a1, a2, a3, a4⟩ := C149_wire_tabs_partial (cad := gapStrictCad) strictCad_assembles
    (wires := [innerSquare]) (offset := 1) (r := 1) (tabs := ⟨3, 1, 1 / 2⟩) (n := 3) (by norm_num) rfl
    (tool := none) (before := []) (after := []) {} twoJob_ok (by rintro v ⟨⟩)
    (show ChainOK twoJob [_] from ⟨hr, fun _ _ => trivial⟩) rfl hc rfl rfl (by rintro n ⟨⟩) gapCad_keepsBelow
    (steps64_millimetres (by decide +kernel) (by decide +kernel)) (by decide +kernel) (fun _ _ _ h => (by cases h)) rfl (by decide +kernel)
    (gapStrict_contours (by decide +kernel) ⟨innerSquare_contour64 (by decide +kernel), innerSquare_zones64⟩)
  rw [show (twoJob.updateTool none).2.feed.value = 500 from by decide +kernel] at a4
  exact ⟨_, t, m', pre, part, post, evss, hc, a1, a2, a3, a4⟩

end CQ
