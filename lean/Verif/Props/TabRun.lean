import Verif.Props.ProfileRun
import Verif.Props.TabWitness

/-! # C102: profiles with tabs on the machine -/

namespace CQ

/-- What is proved of the passes of one contour when the tabs are applied to them. -/
def TabsApply (cad : Cad) (tabZ : ℚ) (tabs : Tabs) (marks : List Edge → List (List (ℚ × Transition)) → Prop) (l : List Edge) : Prop :=
  ∃ p, applyTabs cad tabZ tabs l = .ok p ∧ TabbedPass cad tabZ marks l p ∧ WireOK p ∧ Chained p ∧
    ∀ e ∈ p, EdgeEnds (fun x => x = cad.zmin l ∨ x = tabZ) e

/-- The same for all raised copies of the contour, which reach at most up to the safe height. -/
structure TabsFit (cad : Cad) (j : Job) (tabs : Tabs) (marks : List Edge → List (List (ℚ × Transition)) → Prop) (b : List Edge) : Prop where
  nonempty : b ≠ []
  low : cad.zmin b ≤ j.opSafeHeight
  top : cad.zmin b + tabs.height ≤ j.opSafeHeight
  apply : ∀ dz, TabsApply cad (cad.zmin b + tabs.height) tabs marks (b.map (Edge.up dz))

/-- The motions of a profile with tabs: for each contour its passes, raised in the tabs, one after the other. -/
def CutsTabProfile (cad : Cad) (j : Job) (offset : ℚ) (stepdown : Option ℚ) (height : ℚ)
    (marks : List Edge → List Edge → List (List (ℚ × Transition)) → Prop) (wire : List Edge) (cs : List Motion) : Prop :=
  ∃ r bases, j.toolRadius = some r ∧ offsetWire cad (wire.map (Edge.toLocal j.top)) (offset * r) = .ok bases ∧
    ∃ blocks : List (List (List Motion)), cs = blocks.flatten.flatten ∧
      List.Forall₂ (fun base block => ∃ layers passes, PassesOf cad stepdown base layers ∧
        List.Forall₂ (TabbedPass cad (cad.zmin base + height) (marks base)) layers passes ∧ (∀ w ∈ passes, WireOK w) ∧
        List.Forall₂ (WholeWire cad.veq j.feed none) passes block) bases blocks

theorem profile_tab_cuts {cad : Cad} (hb : BoxMoves cad) {j : Job} (hk : KeepsBelow cad j.top) {wire : List Edge} {offset : ℚ}
    {stepdown : Option ℚ} {tabs : Tabs} {cs : List Motion}
    {marks : List Edge → List Edge → List (List (ℚ × Transition)) → Prop}
    (hs : ∀ s, stepdown = some s → 0 ≤ s) (hsafe : 0 ≤ j.opSafeHeight) (hv : ∀ w, NearestIsVertex cad w)
    (h : profile cad j wire offset stepdown (some tabs) = .ok cs)
    (hw : ∀ r bases, j.toolRadius = some r → offsetWire cad (wire.map (Edge.toLocal j.top)) (offset * r) = .ok bases →
      ∀ b ∈ bases, TabsFit cad j tabs (marks b) b) :
    Connected {} cs ∧ CutsTabProfile cad j offset stepdown tabs.height marks wire cs := by
  obtain ⟨ws, h1, h⟩ := bind_ok.mp h
  unfold profileWires at h1
  cases hr : j.toolRadius with
  | none => rw [hr] at h1; cases h1
  | some r =>
  rw [hr] at h1
  obtain ⟨bases, ho, h1⟩ := bind_ok.mp h1
  obtain ⟨pss, h2, h1⟩ := bind_ok.mp h1
  cases h1
  have hlay : List.Forall₂ (fun base passes => (∃ layers, PassesOf cad stepdown base layers ∧
      List.Forall₂ (TabbedPass cad (cad.zmin base + tabs.height) (marks base)) layers passes) ∧
      ∀ w ∈ passes, WireOK w ∧ Chained w ∧ ∀ e ∈ w, (e.travel 0).z ≤ j.opSafeHeight) bases pss := by
    refine forall₂_imp_mem (mapE_ok.mp h2) ?_
    intro base hbase passes hf
    have hfit := hw r bases hr ho base hbase
    obtain ⟨layers, hl, hf⟩ := bind_ok.mp hf
    have hf : mapE (applyTabs cad (cad.zmin base + tabs.height) tabs) layers = .ok passes := hf
    have hmem : ∀ l ∈ layers, cad.zmin l ≤ j.opSafeHeight ∧ TabsApply cad (cad.zmin base + tabs.height) tabs (marks base) l := by
      intro l hll
      rcases profileLayers_mem hl l hll with rfl | ⟨s', -, k, -, -, rfl, hz⟩
      · exact ⟨hfit.low, by have := hfit.apply 0; rwa [map_up_zero] at this⟩
      · exact ⟨by linarith, hfit.apply _⟩
    refine ⟨⟨layers, ?_, ?_⟩, ?_⟩
    · cases stepdown with
      | none => cases hl; exact .inl ⟨rfl, rfl⟩
      | some s =>
        rcases (hs s rfl).eq_or_lt with rfl | hpos
        · rw [(C46_single_pass cad j.top base).2] at hl
          cases hl; exact .inl ⟨rfl, rfl⟩
        · right
          refine ⟨s, rfl, hpos, ?_⟩
          obtain ⟨k1, k2⟩ := C46_passes_partial hb hk hfit.nonempty hpos
          rcases lt_or_ge (cad.zmin base + 101 * s) (-1 / 1000) with hz | hz
          · rw [k1 hz] at hl; cases hl
          · obtain ⟨ls', g1, g2⟩ := k2 hz
            rw [hl] at g1
            cases g1
            exact g2
    · refine forall₂_imp_mem (mapE_ok.mp hf) ?_
      intro l hl p hp
      obtain ⟨-, p', hp', g, -⟩ := hmem l hl
      rw [hp] at hp'
      cases hp'
      exact g
    · intro w hwm
      obtain ⟨l, hl, hp⟩ := mapE_mem hf hwm
      obtain ⟨hz, p', hp', -, g1, g2, g3⟩ := hmem l hl
      rw [hp] at hp'
      cases hp'
      refine ⟨g1, g2, fun e he => ?_⟩
      have hst := (g3 e he).start
      rw [edgeStartPoint_eq (g1.edgeOK e he)] at hst
      rcases hst with hst | hst <;> rw [hst]
      · exact hz
      · exact hfit.top
  have hall : ∀ w ∈ pss.flatten, WireOK w ∧ Chained w ∧ ∀ e ∈ w, (e.travel 0).z ≤ j.opSafeHeight := by
    intro w hwm
    obtain ⟨l, hl, hwl⟩ := List.mem_flatten.mp hwm
    obtain ⟨b, -, -, hb⟩ := forall2_right hlay hl
    exact hb w hwl
  obtain ⟨bs, h4, h5⟩ := routeWires_whole (veq := cad.veq) (search := cad.search) (j := j) (ws := pss.flatten)
    (fun w _ => hv w) (fun w hw => (hall w hw).1)
  constructor
  · have hcs : routeWires cad.veq cad.search j pss.flatten none none = .ok cs := h
    rw [routeWires_vertex (fun w _ => hv w)] at hcs
    obtain ⟨cs', g1, g2⟩ := C72_wires_connected_partial cad.veq (fun _ _ => none) j pss.flatten none none
      (fun w hw => (hall w hw).1) (by intro w _ v h hh; cases hh) (by intro w _ v h hh; cases hh)
      (fun w hw => ⟨(hall w hw).2.1, by simp, (hall w hw).2.2⟩)
    rw [hcs] at g1
    cases g1
    exact g2
  rw [h4] at h
  cases h
  obtain ⟨blocks, rfl, h6⟩ := forall₂_flatten_left h5
  refine ⟨r, bases, hr, ho, blocks, rfl, ?_⟩
  refine (forall₂_trans hlay h6).imp ?_
  rintro base block ⟨passes, -, ⟨⟨layers, g1, g2⟩, g3⟩, g4⟩
  exact ⟨layers, passes, g1, g2, fun w hw => (g3 w hw).1, g4⟩

/-- All raised copies of a flat contour meet what C51 asks, with tabs along the edges. -/
theorem tabsFit_edge {cad : Cad} (hA : Assembles cad) (hb : BoxMoves cad) {j : Job} {b : List Edge} {spacing width height : ℚ}
    {only : Option Geom} {t : EdgeTabs} (hnew : EdgeTabs.new spacing width height only = .ok t) (hw : 0 < width)
    (hs : 3 * width < 2 * spacing) (hf : FlatContour cad j height b) : TabsFit cad j (.edge t) (EdgeMarks t) b := by
  have hheight : t.height = height := by
    unfold EdgeTabs.new at hnew
    split at hnew <;> cases hnew
    rfl
  refine ⟨hf.ok.nonempty, hf.low, by change _ + t.height ≤ _; rw [hheight]; exact hf.top, fun dz => ?_⟩
  change TabsApply cad (cad.zmin b + t.height) _ _ _
  have hok := wireOK_up hf.ok dz
  have hch := chained_up hf.chained dz
  have hlen : ∀ e ∈ b.map (Edge.up dz), 0 < e.length := by
    intro e he
    obtain ⟨x, hx, rfl⟩ := List.mem_map.mp he
    exact hf.length x hx
  have hflat : ∀ e ∈ b.map (Edge.up dz), FlatEdge (cad.zmin (b.map (Edge.up dz))) e := by
    intro e he
    obtain ⟨x, hx, rfl⟩ := List.mem_map.mp he
    rw [zmin_up hb hf.ok.nonempty]
    exact flatEdge_up (hf.flat x hx)
  rcases le_or_gt (cad.zmin b + t.height) (cad.zmin (b.map (Edge.up dz))) with hz | hz
  · exact ⟨_, C51_above hz, .inl ⟨hz, rfl⟩, hok, hch, fun e he => edgeEnds_of_at (edgeAt_mono (fun _ h => .inl h) (hflat e he).flat)⟩
  · obtain ⟨tss, w', g1, g2, g3, -, g5, g6, g7⟩ := C51_edge_tabs_partial hA hz hok.nonempty rfl hflat hlen hch hnew hw hs
    obtain ⟨g8, g9⟩ := tabbedWire_ok hok hflat g7 g2 g5
    exact ⟨w', g1, .inr ⟨hz, tss, g6, g2, g3⟩, g8, g3, g9⟩

/-- The same with tabs around the contour. -/
theorem tabsFit_wire {cad : Cad} (hA : Assembles cad) (hb : BoxMoves cad) {j : Job} {b : List Edge} {t : WireTabs} {n : ℕ}
    (hn : 0 < n) (hc : t.count = n) (hw : 0 < t.width) (hf : FlatContour cad j t.height b) (hz : ZonesFit cad n t.width b) :
    TabsFit cad j (.wire t) (WireMarks n t.width (b.map Edge.length).sum) b := by
  refine ⟨hf.ok.nonempty, hf.low, hf.top, fun dz => ?_⟩
  change TabsApply cad (cad.zmin b + t.height) _ _ _
  have hok := wireOK_up hf.ok dz
  have hch := chained_up hf.chained dz
  have hlen : ∀ e ∈ b.map (Edge.up dz), 0 < e.length := by
    intro e he
    obtain ⟨x, hx, rfl⟩ := List.mem_map.mp he
    exact hf.length x hx
  have hflat : ∀ e ∈ b.map (Edge.up dz), FlatEdge (cad.zmin (b.map (Edge.up dz))) e := by
    intro e he
    obtain ⟨x, hx, rfl⟩ := List.mem_map.mp he
    rw [zmin_up hb hf.ok.nonempty]
    exact flatEdge_up (hf.flat x hx)
  have hmap : ∀ l : List Edge, (l.map (Edge.up dz)).map Edge.length = l.map Edge.length := by
    intro l
    rw [List.map_map]
    rfl
  rcases le_or_gt (cad.zmin b + t.height) (cad.zmin (b.map (Edge.up dz))) with hz' | hz'
  · exact ⟨_, C51_above hz', .inl ⟨hz', rfl⟩, hok, hch, fun e he => edgeEnds_of_at (edgeAt_mono (fun _ h => .inl h) (hflat e he).flat)⟩
  · obtain ⟨tss, w', g1, g2, g3, -, g5, g6, g7⟩ := C51_wire_tabs_partial hA hz' hok.nonempty rfl hflat hlen hch hn hc hw
      (L := (b.map Edge.length).sum) (by rw [hmap]) (hz.length dz) hz.fit
      (by
        intro pre e post h
        obtain ⟨pre', rest, rfl, rfl, h'⟩ := List.map_eq_append_iff.mp h
        obtain ⟨e', post', rfl, rfl, rfl⟩ := List.map_eq_cons_iff.mp h'
        rw [hmap]
        exact hz.last pre' e' post' rfl)
      (by
        intro pre post h
        obtain ⟨pre', post', rfl, rfl, rfl⟩ := List.map_eq_append_iff.mp h
        rw [hmap]
        exact hz.corner pre' post' rfl)
    obtain ⟨g8, g9⟩ := tabbedWire_ok hok hflat g7 g2 g5
    exact ⟨w', g1, .inr ⟨hz', tss, g6, g2, g3⟩, g8, g3, g9⟩

/-! ### The machine -/

theorem runs_tab_profile {cad : Cad} {j : Job} {offset : ℚ} {stepdown : Option ℚ} {height : ℚ}
    {marks : List Edge → List Edge → List (List (ℚ × Transition)) → Prop} {wire : List Edge} {cs : List Motion} {evs : List Event}
    {r : ℚ} (hr : j.toolRadius = some r) (h : List.Forall₂ Runs evs cs) (hc : CutsTabProfile cad j offset stepdown height marks wire cs) :
    RunsTabProfile cad j.top j.feed.value r offset stepdown height marks wire evs := by
  obtain ⟨r', bases, hr', ho, blocks, rfl, hb⟩ := hc
  rw [hr] at hr'
  cases hr'
  obtain ⟨ev1, rfl, g1⟩ := forall₂_flatten_left h.flip
  obtain ⟨ev2, rfl, g2⟩ := forall₂_flatten_left g1
  refine ⟨bases, ho, ev2, rfl, ?_⟩
  refine (forall₂_trans hb g2).imp ?_
  rintro base evb ⟨block, -, ⟨layers, passes, hp, ht, hok, hw⟩, hev⟩
  refine ⟨layers, passes, hp, ht, ?_⟩
  refine forall₂_imp_mem (forall₂_trans hw hev) ?_
  rintro w hwm evs ⟨cs, -, k1, k2⟩
  exact runs_wire (hok w hwm) k2.flip k1

theorem profiles_tab_runs {cad : Cad} (hb : BoxMoves cad) {j : Job} (hk : KeepsBelow cad j.top) {wires : List (List Edge)} {offset : ℚ}
    {stepdown : Option ℚ} {tabs : Tabs} {cs : List Motion} {marks : List Edge → List Edge → List (List (ℚ × Transition)) → Prop}
    (hs : ∀ s, stepdown = some s → 0 ≤ s) (hsafe : 0 ≤ j.opSafeHeight) (hv : ∀ w, NearestIsVertex cad w)
    (h : profiles cad j offset stepdown (some tabs) wires = .ok cs)
    (hw : ∀ w ∈ wires, EachContour cad j offset w (fun b => TabsFit cad j tabs (marks b) b)) {r : ℚ} (hr : j.toolRadius = some r) :
    (∀ p, Tracks p cs) ∧ ∀ evs, List.Forall₂ Runs evs cs → ∃ evss, evs = List.flatten evss ∧
      List.Forall₂ (RunsTabProfile cad j.top j.feed.value r offset stepdown tabs.height marks) wires evss := by
  obtain ⟨css, hm, h⟩ := bind_ok.mp h
  cases h
  constructor
  · refine tracks_flatten ?_
    intro b hbm
    obtain ⟨w, hwm, hp⟩ := mapE_mem hm hbm
    exact tracks_connected (profile_tab_cuts hb hk hs hsafe hv hp (hw w hwm)).1
  · intro evs h
    obtain ⟨evss, rfl, g⟩ := forall₂_flatten_left h.flip
    refine ⟨evss, rfl, ?_⟩
    refine forall₂_imp_mem (forall₂_trans (mapE_ok.mp hm) g) ?_
    rintro w hwm ev ⟨cs, -, h1, h2⟩
    exact runs_tab_profile hr h2.flip (profile_tab_cuts hb hk hs hsafe hv h1 (hw w hwm)).2

theorem profilesOpt_tab_runs {cad : Cad} (hb : BoxMoves cad) {j : Job} (hk : KeepsBelow cad j.top) {wires : List (List Edge)}
    {offset : Option ℚ} {stepdown : Option ℚ} {tabs : Tabs} {cs : List Motion}
    {marks : List Edge → List Edge → List (List (ℚ × Transition)) → Prop}
    (hs : ∀ s, stepdown = some s → 0 ≤ s) (hsafe : 0 ≤ j.opSafeHeight) (hv : ∀ w, NearestIsVertex cad w)
    (h : profilesOpt cad j offset stepdown (some tabs) wires = .ok cs)
    (hw : ∀ o, offset = some o → ∀ w ∈ wires, EachContour cad j o w (fun b => TabsFit cad j tabs (marks b) b))
    {r : ℚ} (hr : j.toolRadius = some r) :
    (∀ p, Tracks p cs) ∧ ∀ evs, List.Forall₂ Runs evs cs → ∃ evss, evs = List.flatten evss ∧
      RunsTabProfiles cad j.top j.feed.value r offset stepdown tabs.height marks wires evss := by
  cases offset with
  | none =>
    cases h
    refine ⟨fun _ => trivial, fun evs h => ?_⟩
    cases h
    exact ⟨[], rfl, rfl⟩
  | some o => exact profiles_tab_runs hb hk hs hsafe hv h (hw o rfl) hr

theorem wire_profile_tabs {cad : Cad} (hb : BoxMoves cad) {wires : List (List Edge)} {offset r : ℚ} {stepdown : Option ℚ} {tabs : Tabs}
    {tool : Option Tool} {j0 j1 j2 jf : Job} {before after : List Request} (m : Machine) (h0 : InitOK j0)
    (hn : ∀ v, j0.toolNumber = some v → NumOK v)
    (hok : ChainOK j0 (before ++ wireProfileRequest cad wires offset stepdown (some tabs) tool :: after))
    (h1 : j0.chain before = .ok j1) (h2 : (j1.call (wireProfileRequest cad wires offset stepdown (some tabs) tool)).2 = .ok j2)
    (h3 : j2.chain after = .ok jf) (hend : m.ended = false) (htool : ∀ n, j0.toolNumber = some n → m.tool = some n.value)
    (hk : KeepsBelow cad j0.top) (hs : ∀ s, stepdown = some s → 0 ≤ s) (hsafe : 0 ≤ j0.opSafeHeight) (hv : ∀ w, NearestIsVertex cad w)
    {j : Job} (hj : (j1.updateTool tool).2 = j) (hr : j.toolRadius = some r)
    {marks : List Edge → List Edge → List (List (ℚ × Transition)) → Prop}
    (hw : ∀ w ∈ wires, EachContour cad j offset w (fun b => TabsFit cad j tabs (marks b) b)) :
    ∃ t m' pre part post evss, jf.toGcode = .ok t ∧ runText m t = some (m', pre ++ part ++ post) ∧
      part.filter isMove = List.flatten evss ∧
      List.Forall₂ (RunsTabProfile cad j0.top j.feed.value r offset stepdown tabs.height marks) wires evss := by
  obtain ⟨t, m', pre, part, post, cs, ht, hrun, hgen, -, hfol, hpart⟩ := C94_followed m h0 hn hok h1 h2 h3 hend htool
  subst hj
  have hbase : SameBase j0 (j1.updateTool tool).2 := updateTool_base (chain_base (show SameBase j0 j0 from rfl) h1) _
  have hsafe' : j0.opSafeHeight = (j1.updateTool tool).2.opSafeHeight := by rw [hbase]
  have htop : j0.top = (j1.updateTool tool).2.top := by rw [hbase]
  obtain ⟨htr, hev⟩ := profiles_tab_runs hb (htop ▸ hk) hs (hsafe' ▸ hsafe) hv hgen hw hr
  obtain ⟨evss, he, hev⟩ := hev _ (runs_of (hfol (htr _)) (fun e he => (hpart e he).2))
  exact ⟨t, m', pre, part, post, evss, ht, hrun, he, by rw [htop]; exact hev⟩

theorem profile_tabs {cad : Cad} (hb : BoxMoves cad) {shapes : List Shape} {outerOffset innerOffset : Option ℚ} {r : ℚ}
    {stepdown : Option ℚ} {tabs : Tabs} {tool : Option Tool} {j0 j1 j2 jf : Job} {before after : List Request} (m : Machine)
    (h0 : InitOK j0) (hn : ∀ v, j0.toolNumber = some v → NumOK v)
    (hok : ChainOK j0 (before ++ profileRequest cad shapes outerOffset innerOffset stepdown (some tabs) tool :: after))
    (h1 : j0.chain before = .ok j1)
    (h2 : (j1.call (profileRequest cad shapes outerOffset innerOffset stepdown (some tabs) tool)).2 = .ok j2)
    (h3 : j2.chain after = .ok jf) (hend : m.ended = false) (htool : ∀ n, j0.toolNumber = some n → m.tool = some n.value)
    (hk : KeepsBelow cad j0.top) (hs : ∀ s, stepdown = some s → 0 ≤ s) (hsafe : 0 ≤ j0.opSafeHeight) (hv : ∀ w, NearestIsVertex cad w)
    {j : Job} (hj : (j1.updateTool tool).2 = j) (hr : j.toolRadius = some r)
    {marks : List Edge → List Edge → List (List (ℚ × Transition)) → Prop}
    (hwo : ∀ o, outerOffset = some o → ∀ w ∈ outerWires shapes, EachContour cad j o w (fun b => TabsFit cad j tabs (marks b) b))
    (hwi : ∀ o, innerOffset = some o → ∀ w ∈ innerWires shapes, EachContour cad j o w (fun b => TabsFit cad j tabs (marks b) b)) :
    ∃ t m' pre part post inner outer, jf.toGcode = .ok t ∧ runText m t = some (m', pre ++ part ++ post) ∧
      part.filter isMove = List.flatten inner ++ List.flatten outer ∧
      RunsTabProfiles cad j0.top j.feed.value r innerOffset stepdown tabs.height marks (innerWires shapes) inner ∧
      RunsTabProfiles cad j0.top j.feed.value r outerOffset stepdown tabs.height marks (outerWires shapes) outer := by
  obtain ⟨t, m', pre, part, post, cs, ht, hrun, hgen, -, hfol, hpart⟩ := C94_followed m h0 hn hok h1 h2 h3 hend htool
  subst hj
  have hbase : SameBase j0 (j1.updateTool tool).2 := updateTool_base (chain_base (show SameBase j0 j0 from rfl) h1) _
  have hsafe' : j0.opSafeHeight = (j1.updateTool tool).2.opSafeHeight := by rw [hbase]
  have htop : j0.top = (j1.updateTool tool).2.top := by rw [hbase]
  change (do
    let (outers, inners) ← extractWires shapes
    let a ← profilesOpt cad (j1.updateTool tool).2 innerOffset stepdown (some tabs) inners
    let b ← profilesOpt cad (j1.updateTool tool).2 outerOffset stepdown (some tabs) outers
    Except.ok (a ++ b)) = .ok cs at hgen
  obtain ⟨⟨os, is⟩, hx, hgen⟩ := bind_ok.mp hgen
  obtain ⟨a, ha, hgen⟩ := bind_ok.mp hgen
  obtain ⟨b, hb', hgen⟩ := bind_ok.mp hgen
  cases hgen
  have hsh : Shape.other ∉ shapes := by
    intro ho
    rw [(extractWires_eq shapes).1 ho] at hx
    cases hx
  rw [(extractWires_eq shapes).2 hsh] at hx
  cases hx
  obtain ⟨t1, k1⟩ := profilesOpt_tab_runs hb (htop ▸ hk) hs (hsafe' ▸ hsafe) hv ha hwi hr
  obtain ⟨t2, k2⟩ := profilesOpt_tab_runs hb (htop ▸ hk) hs (hsafe' ▸ hsafe) hv hb' hwo hr
  have hruns := runs_of (hfol (tracks_append.mpr ⟨t1 _, t2 _⟩)) (fun e he => (hpart e he).2)
  obtain ⟨e1, e2, g1, g2, hsplit⟩ := forall₂_append_left hruns.flip
  obtain ⟨inner, rfl, hin⟩ := k1 e1 g1.flip
  obtain ⟨outer, rfl, hout⟩ := k2 e2 g2.flip
  exact ⟨t, m', pre, part, post, inner, outer, ht, hrun, hsplit, by rw [htop]; exact hin, by rw [htop]; exact hout⟩

/-- C102 for `wire_profile` with tabs along the edges (as far as it holds: see `C102_violated`). -/
theorem C102_edge_tabs_partial {cad : Cad} (hA : Assembles cad) (hb : BoxMoves cad) {wires : List (List Edge)} {offset r : ℚ}
    {stepdown : Option ℚ} {spacing width height : ℚ} {only : Option Geom} {tabs : EdgeTabs}
    (hnew : EdgeTabs.new spacing width height only = .ok tabs) (hwidth : 0 < width) (hgap : 3 * width < 2 * spacing)
    {tool : Option Tool} {j0 j1 j2 jf : Job} {before after : List Request} (m : Machine) (h0 : InitOK j0)
    (hn : ∀ v, j0.toolNumber = some v → NumOK v)
    (hok : ChainOK j0 (before ++ wireProfileRequest cad wires offset stepdown (some (.edge tabs)) tool :: after))
    (h1 : j0.chain before = .ok j1)
    (h2 : (j1.call (wireProfileRequest cad wires offset stepdown (some (.edge tabs)) tool)).2 = .ok j2)
    (h3 : j2.chain after = .ok jf) (hend : m.ended = false) (htool : ∀ n, j0.toolNumber = some n → m.tool = some n.value)
    (hk : KeepsBelow cad j0.top) (hs : ∀ s, stepdown = some s → 0 ≤ s) (hsafe : 0 ≤ j0.opSafeHeight) (hv : ∀ w, NearestIsVertex cad w)
    {j : Job} (hj : (j1.updateTool tool).2 = j) (hr : j.toolRadius = some r)
    (hw : ∀ w ∈ wires, EachContour cad j offset w (FlatContour cad j height)) :
    ∃ t m' pre part post evss, jf.toGcode = .ok t ∧ runText m t = some (m', pre ++ part ++ post) ∧
      part.filter isMove = List.flatten evss ∧
      List.Forall₂ (RunsTabProfile cad j0.top j.feed.value r offset stepdown height (fun _ => EdgeMarks tabs)) wires evss := by
  have hh : tabs.height = height := by
    unfold EdgeTabs.new at hnew
    split at hnew <;> cases hnew
    rfl
  have := wire_profile_tabs (marks := fun _ => EdgeMarks tabs) hb m h0 hn hok h1 h2 h3 hend htool hk hs hsafe hv hj hr
    (fun w hw' r bases g1 g2 b hb' => tabsFit_edge hA hb hnew hwidth hgap (hw w hw' r bases g1 g2 b hb'))
  rwa [show (Tabs.edge tabs).height = height from hh] at this

/-- C102 for `profile` with tabs along the edges. -/
theorem C102_profile_edge_tabs_partial {cad : Cad} (hA : Assembles cad) (hb : BoxMoves cad) {shapes : List Shape}
    {outerOffset innerOffset : Option ℚ} {r : ℚ} {stepdown : Option ℚ} {spacing width height : ℚ} {only : Option Geom} {tabs : EdgeTabs}
    (hnew : EdgeTabs.new spacing width height only = .ok tabs) (hwidth : 0 < width) (hgap : 3 * width < 2 * spacing)
    {tool : Option Tool} {j0 j1 j2 jf : Job} {before after : List Request} (m : Machine)
    (h0 : InitOK j0) (hn : ∀ v, j0.toolNumber = some v → NumOK v)
    (hok : ChainOK j0 (before ++ profileRequest cad shapes outerOffset innerOffset stepdown (some (.edge tabs)) tool :: after))
    (h1 : j0.chain before = .ok j1)
    (h2 : (j1.call (profileRequest cad shapes outerOffset innerOffset stepdown (some (.edge tabs)) tool)).2 = .ok j2)
    (h3 : j2.chain after = .ok jf) (hend : m.ended = false) (htool : ∀ n, j0.toolNumber = some n → m.tool = some n.value)
    (hk : KeepsBelow cad j0.top) (hs : ∀ s, stepdown = some s → 0 ≤ s) (hsafe : 0 ≤ j0.opSafeHeight) (hv : ∀ w, NearestIsVertex cad w)
    {j : Job} (hj : (j1.updateTool tool).2 = j) (hr : j.toolRadius = some r)
    (hwo : ∀ o, outerOffset = some o → ∀ w ∈ outerWires shapes, EachContour cad j o w (FlatContour cad j height))
    (hwi : ∀ o, innerOffset = some o → ∀ w ∈ innerWires shapes, EachContour cad j o w (FlatContour cad j height)) :
    ∃ t m' pre part post inner outer, jf.toGcode = .ok t ∧ runText m t = some (m', pre ++ part ++ post) ∧
      part.filter isMove = List.flatten inner ++ List.flatten outer ∧
      RunsTabProfiles cad j0.top j.feed.value r innerOffset stepdown height (fun _ => EdgeMarks tabs) (innerWires shapes) inner ∧
      RunsTabProfiles cad j0.top j.feed.value r outerOffset stepdown height (fun _ => EdgeMarks tabs) (outerWires shapes) outer := by
  have hh : tabs.height = height := by
    unfold EdgeTabs.new at hnew
    split at hnew <;> cases hnew
    rfl
  have := profile_tabs (marks := fun _ => EdgeMarks tabs) hb m h0 hn hok h1 h2 h3 hend htool hk hs hsafe hv hj hr
    (fun o ho w hw' r bases g1 g2 b hb' => tabsFit_edge hA hb hnew hwidth hgap (hwo o ho w hw' r bases g1 g2 b hb'))
    (fun o ho w hw' r bases g1 g2 b hb' => tabsFit_edge hA hb hnew hwidth hgap (hwi o ho w hw' r bases g1 g2 b hb'))
  rwa [show (Tabs.edge tabs).height = height from hh] at this

/-- C102 for `wire_profile` with tabs around the contour. -/
theorem C102_wire_tabs_partial {cad : Cad} (hA : Assembles cad) (hb : BoxMoves cad) {wires : List (List Edge)} {offset r : ℚ}
    {stepdown : Option ℚ} {tabs : WireTabs} {n : ℕ} (hpos : 0 < n) (hcount : tabs.count = n) (hwidth : 0 < tabs.width)
    {tool : Option Tool} {j0 j1 j2 jf : Job} {before after : List Request} (m : Machine) (h0 : InitOK j0)
    (hn : ∀ v, j0.toolNumber = some v → NumOK v)
    (hok : ChainOK j0 (before ++ wireProfileRequest cad wires offset stepdown (some (.wire tabs)) tool :: after))
    (h1 : j0.chain before = .ok j1)
    (h2 : (j1.call (wireProfileRequest cad wires offset stepdown (some (.wire tabs)) tool)).2 = .ok j2)
    (h3 : j2.chain after = .ok jf) (hend : m.ended = false) (htool : ∀ n, j0.toolNumber = some n → m.tool = some n.value)
    (hk : KeepsBelow cad j0.top) (hs : ∀ s, stepdown = some s → 0 ≤ s) (hsafe : 0 ≤ j0.opSafeHeight) (hv : ∀ w, NearestIsVertex cad w)
    {j : Job} (hj : (j1.updateTool tool).2 = j) (hr : j.toolRadius = some r)
    (hw : ∀ w ∈ wires, EachContour cad j offset w (fun b => FlatContour cad j tabs.height b ∧ ZonesFit cad n tabs.width b)) :
    ∃ t m' pre part post evss, jf.toGcode = .ok t ∧ runText m t = some (m', pre ++ part ++ post) ∧
      part.filter isMove = List.flatten evss ∧
      List.Forall₂ (RunsTabProfile cad j0.top j.feed.value r offset stepdown tabs.height
        (fun b => WireMarks n tabs.width (b.map Edge.length).sum)) wires evss :=
  wire_profile_tabs (marks := fun b => WireMarks n tabs.width (b.map Edge.length).sum) hb m h0 hn hok h1 h2 h3 hend htool hk hs hsafe hv hj hr
    (fun w hw' r bases g1 g2 b hb' => by
      obtain ⟨k1, k2⟩ := hw w hw' r bases g1 g2 b hb'
      exact tabsFit_wire hA hb hpos hcount hwidth k1 k2)

/-- C102 for `profile` with tabs around the contour. -/
theorem C102_profile_wire_tabs_partial {cad : Cad} (hA : Assembles cad) (hb : BoxMoves cad) {shapes : List Shape}
    {outerOffset innerOffset : Option ℚ} {r : ℚ} {stepdown : Option ℚ} {tabs : WireTabs} {n : ℕ} (hpos : 0 < n) (hcount : tabs.count = n)
    (hwidth : 0 < tabs.width) {tool : Option Tool} {j0 j1 j2 jf : Job} {before after : List Request} (m : Machine)
    (h0 : InitOK j0) (hn : ∀ v, j0.toolNumber = some v → NumOK v)
    (hok : ChainOK j0 (before ++ profileRequest cad shapes outerOffset innerOffset stepdown (some (.wire tabs)) tool :: after))
    (h1 : j0.chain before = .ok j1)
    (h2 : (j1.call (profileRequest cad shapes outerOffset innerOffset stepdown (some (.wire tabs)) tool)).2 = .ok j2)
    (h3 : j2.chain after = .ok jf) (hend : m.ended = false) (htool : ∀ n, j0.toolNumber = some n → m.tool = some n.value)
    (hk : KeepsBelow cad j0.top) (hs : ∀ s, stepdown = some s → 0 ≤ s) (hsafe : 0 ≤ j0.opSafeHeight) (hv : ∀ w, NearestIsVertex cad w)
    {j : Job} (hj : (j1.updateTool tool).2 = j) (hr : j.toolRadius = some r)
    (hwo : ∀ o, outerOffset = some o → ∀ w ∈ outerWires shapes, EachContour cad j o w
      (fun b => FlatContour cad j tabs.height b ∧ ZonesFit cad n tabs.width b))
    (hwi : ∀ o, innerOffset = some o → ∀ w ∈ innerWires shapes, EachContour cad j o w
      (fun b => FlatContour cad j tabs.height b ∧ ZonesFit cad n tabs.width b)) :
    ∃ t m' pre part post inner outer, jf.toGcode = .ok t ∧ runText m t = some (m', pre ++ part ++ post) ∧
      part.filter isMove = List.flatten inner ++ List.flatten outer ∧
      RunsTabProfiles cad j0.top j.feed.value r innerOffset stepdown tabs.height
        (fun b => WireMarks n tabs.width (b.map Edge.length).sum) (innerWires shapes) inner ∧
      RunsTabProfiles cad j0.top j.feed.value r outerOffset stepdown tabs.height
        (fun b => WireMarks n tabs.width (b.map Edge.length).sum) (outerWires shapes) outer :=
  profile_tabs (marks := fun b => WireMarks n tabs.width (b.map Edge.length).sum) hb m h0 hn hok h1 h2 h3 hend htool hk hs hsafe hv hj hr
    (fun o ho w hw' r bases g1 g2 b hb' => by
      obtain ⟨k1, k2⟩ := hwo o ho w hw' r bases g1 g2 b hb'
      exact tabsFit_wire hA hb hpos hcount hwidth k1 k2)
    (fun o ho w hw' r bases g1 g2 b hb' => by
      obtain ⟨k1, k2⟩ := hwi o ho w hw' r bases g1 g2 b hb'
      exact tabsFit_wire hA hb hpos hcount hwidth k1 k2)

/-! ### Where it fails -/

theorem innerSquare_offset : offsetWire strictCad (innerSquare.map (Edge.toLocal twoJob.top)) 1 = .ok [innerSquare] := by
  have hval : offsetValid strictCad innerSquare = true := by decide +kernel
  rw [show innerSquare.map (Edge.toLocal twoJob.top) = innerSquare from by
    rw [show Edge.toLocal twoJob.top = id from funext toLocal_xy, List.map_id]]
  change Except.ok (circleBugWorkaround strictCad innerSquare ([innerSquare].filter (offsetValid strictCad))) = _
  rw [show [innerSquare].filter (offsetValid strictCad) = [innerSquare] from by simp [hval]]
  rfl

theorem innerSquare_flat : FlatContour strictCad twoJob (1 / 2) innerSquare where
  ok := innerSquare_ok
  chained := by decide +kernel
  length := by decide +kernel
  flat := by
    have hz : strictCad.zmin innerSquare = -1 := by decide +kernel
    rw [hz]
    intro e he
    simp only [innerSquare, outline, List.map_cons, List.map_nil, List.mem_cons, List.not_mem_nil, or_false] at he
    rcases he with rfl | rfl | rfl | rfl <;> exact lineEdge_flat (by norm_num)
  low := by decide +kernel
  top := by decide +kernel

/-- Feeding along the first side of the square at depth 1. -/
def cutsTab (e : Event) : Bool := decide (e.st.pos = Vec.pos ⟨0, 0, -1⟩ ∧ e.st.spindle = .cw) &&
  match e.act with
  | .move .linear tgt _ => decide (tgt = Vec.pos ⟨6, 0, -1⟩)
  | _ => false

/-- C102 is false: with one tab around a square that ends exactly at a corner (see `C51_violated`) the program has no tab at all; the
machine feeds along the whole first side at depth 1, also inside the tab, whose top is at depth `1/2`. -/
theorem C102_violated : ∃ j2 t m' evs, Assembles strictCad ∧ BoxMoves strictCad ∧ KeepsBelow strictCad twoJob.top ∧
    offsetWire strictCad (innerSquare.map (Edge.toLocal twoJob.top)) 1 = .ok [innerSquare] ∧
    FlatContour strictCad twoJob (1 / 2) innerSquare ∧ strictCad.zmin innerSquare + 1 / 2 = -1 / 2 ∧ InZone 1 12 24 3 ∧
    (twoJob.call (wireProfileRequest strictCad [innerSquare] 1 none (some (.wire ⟨1, 12, 1 / 2⟩)) none)).2 = .ok j2 ∧ j2.toGcode = .ok t ∧
    runText {} t = some (m', evs) ∧ ∃ e ∈ evs, ∃ ctr, e.st.spindle = .cw ∧ e.st.pos = Vec.pos ⟨0, 0, -1⟩ ∧
      e.act = .move .linear (Vec.pos ⟨6, 0, -1⟩) ctr := by
  obtain ⟨j2, t, m', evs, h1, h2, h3, e, he, h4⟩ := run_witness (j := twoJob) (bad := cutsTab)
    (r := wireProfileRequest strictCad [innerSquare] 1 none (some (.wire ⟨1, 12, 1 / 2⟩)) none) twoJob_ok (by rintro v ⟨⟩)
    (by decide +kernel) rfl (by unfold SafeName; decide) (by decide +kernel)
  simp only [cutsTab, Bool.and_eq_true, decide_eq_true_eq] at h4
  obtain ⟨⟨h5, h6⟩, h7⟩ := h4
  refine ⟨j2, t, m', evs, strictCad_assembles, flatCad_boxMoves, flatCad_keepsBelow, ?_, ?_, by decide +kernel,
    ⟨0, by norm_num, by norm_num⟩, h1, h2, h3, e, he, ?_⟩
  · exact innerSquare_offset
  · exact innerSquare_flat
  · split at h7
    · rename_i tgt ctr hact
      exact ⟨ctr, h6, h5, by rw [hact, of_decide_eq_true h7]⟩
    · cases h7

/-! ### Examples of the conditions -/

theorem innerSquare_zones : ZonesFit strictCad 3 1 innerSquare where
  length dz := by rfl
  fit := by decide +kernel
  last := by
    have hsum : (innerSquare.map Edge.length).sum = 24 := by decide +kernel
    rw [hsum]
    intro pre e post h
    match pre, h with
    | [], h => cases h; right; left; decide +kernel
    | [_], h => cases h; right; left; decide +kernel
    | [_, _], h => cases h; right; left; decide +kernel
    | [_, _, _], h => cases h; right; right; decide +kernel
    | _ :: _ :: _ :: _ :: _ :: _, h => cases h
    | [_, _, _, _], h => cases h
  corner := by
    have hsum : (innerSquare.map Edge.length).sum = 24 := by decide +kernel
    rw [hsum]
    have hno : ∀ (m k : ℤ), (6 * m : ℚ) ≠ k * ((24 : ℚ) / (3 : ℕ)) - 1 / 2 ∧ (6 * m : ℚ) ≠ k * ((24 : ℚ) / (3 : ℕ)) + 1 / 2 := by
      intro m k
      constructor <;> intro h
      · have : ((12 * m : ℤ) : ℚ) = ((16 * k - 1 : ℤ) : ℚ) := by push_cast at h ⊢; linarith
        have := Int.cast_injective this
        omega
      · have : ((12 * m : ℤ) : ℚ) = ((16 * k + 1 : ℤ) : ℚ) := by push_cast at h ⊢; linarith
        have := Int.cast_injective this
        omega
    intro pre post h k
    have hm : ∃ m : ℤ, (pre.map Edge.length).sum = 6 * m := by
      match pre, h with
      | [], h => exact ⟨0, by simp⟩
      | [_], h => cases h; exact ⟨1, by decide +kernel⟩
      | [_, _], h => cases h; exact ⟨2, by decide +kernel⟩
      | [_, _, _], h => cases h; exact ⟨3, by decide +kernel⟩
      | [_, _, _, _], h => cases h; exact ⟨4, by decide +kernel⟩
      | _ :: _ :: _ :: _ :: _ :: _, h => cases h
    obtain ⟨m, hm⟩ := hm
    rw [hm]
    exact hno m k

theorem innerSquare_contours {P : List Edge → Prop} (h : P innerSquare) :
    ∀ w ∈ [innerSquare], EachContour strictCad (twoJob.updateTool none).2 1 w P := by
  intro w hw r bases h1 h2 b hb
  cases List.mem_singleton.mp hw
  rw [show (twoJob.updateTool none).2.toolRadius = some 1 from by decide +kernel] at h1
  cases h1
  have h2' : offsetWire strictCad (innerSquare.map (Edge.toLocal twoJob.top)) 1 = .ok bases := by rw [← one_mul (1 : ℚ)]; exact h2
  rw [innerSquare_offset] at h2'
  cases h2'
  cases List.mem_singleton.mp hb
  exact h

/-- The hypotheses of `C102_edge_tabs_partial`: the square with two tabs on each side, in two passes. -/
example : ∃ j2 t m' pre part post evss,
    (twoJob.call (wireProfileRequest strictCad [innerSquare] 1 (some (3 / 5)) (some (.edge ⟨3, 1, 1 / 2, none⟩)) none)).2 = .ok j2 ∧
    j2.toGcode = .ok t ∧ runText {} t = some (m', pre ++ part ++ post) ∧ part.filter isMove = List.flatten evss ∧
    List.Forall₂ (RunsTabProfile strictCad Frame.xy 500 1 1 (some (3 / 5)) (1 / 2) (fun _ => EdgeMarks ⟨3, 1, 1 / 2, none⟩))
      [innerSquare] evss := by
  obtain ⟨cs, hg, hr, hc⟩ := call_good (j := twoJob)
    (r := wireProfileRequest strictCad [innerSquare] 1 (some (3 / 5)) (some (.edge ⟨3, 1, 1 / 2, none⟩)) none)
    (by decide +kernel) rfl (by unfold SafeName; decide) (by decide +kernel)
  obtain ⟨t, m', pre, part, post, evss, a1, a2, a3, a4⟩ := C102_edge_tabs_partial strictCad_assembles flatCad_boxMoves
    (wires := [innerSquare]) (offset := 1) (r := 1) (stepdown := some (3 / 5)) (spacing := 3) (width := 1) (height := 1 / 2) (only := none)
    (by decide +kernel) (by norm_num) (by norm_num) (tool := none) (before := []) (after := []) {} twoJob_ok (by rintro v ⟨⟩)
    (show ChainOK twoJob [_] from ⟨hr, fun _ _ => trivial⟩) rfl hc rfl rfl (by rintro n ⟨⟩) flatCad_keepsBelow
    (by rintro s ⟨⟩; norm_num) (by decide +kernel) (fun _ _ _ h => (by cases h)) rfl (by decide +kernel)
    (innerSquare_contours innerSquare_flat)
  rw [show (twoJob.updateTool none).2.feed.value = 500 from by decide +kernel] at a4
  exact ⟨_, t, m', pre, part, post, evss, hc, a1, a2, a3, a4⟩

/-- Those of `C102_wire_tabs_partial`: the square with three tabs around it. -/
example : ∃ j2 t m' pre part post evss,
    (twoJob.call (wireProfileRequest strictCad [innerSquare] 1 (some (3 / 5)) (some (.wire ⟨3, 1, 1 / 2⟩)) none)).2 = .ok j2 ∧
    j2.toGcode = .ok t ∧ runText {} t = some (m', pre ++ part ++ post) ∧ part.filter isMove = List.flatten evss ∧
    List.Forall₂ (RunsTabProfile strictCad Frame.xy 500 1 1 (some (3 / 5)) (1 / 2) (fun b => WireMarks 3 1 (b.map Edge.length).sum))
      [innerSquare] evss := by
  obtain ⟨cs, hg, hr, hc⟩ := call_good (j := twoJob)
    (r := wireProfileRequest strictCad [innerSquare] 1 (some (3 / 5)) (some (.wire ⟨3, 1, 1 / 2⟩)) none)
    (by decide +kernel) rfl (by unfold SafeName; decide) (by decide +kernel)
  obtain ⟨t, m', pre, part, post, evss, a1, a2, a3, a4⟩ := C102_wire_tabs_partial strictCad_assembles flatCad_boxMoves
    (wires := [innerSquare]) (offset := 1) (r := 1) (stepdown := some (3 / 5)) (tabs := ⟨3, 1, 1 / 2⟩) (n := 3) (by norm_num) rfl
    (by norm_num) (tool := none) (before := []) (after := []) {} twoJob_ok (by rintro v ⟨⟩)
    (show ChainOK twoJob [_] from ⟨hr, fun _ _ => trivial⟩) rfl hc rfl rfl (by rintro n ⟨⟩) flatCad_keepsBelow
    (by rintro s ⟨⟩; norm_num) (by decide +kernel) (fun _ _ _ h => (by cases h)) rfl (by decide +kernel)
    (innerSquare_contours ⟨innerSquare_flat, innerSquare_zones⟩)
  rw [show (twoJob.updateTool none).2.feed.value = 500 from by decide +kernel] at a4
  exact ⟨_, t, m', pre, part, post, evss, hc, a1, a2, a3, a4⟩

end CQ
