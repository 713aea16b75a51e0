import Verif.Spec.TabClear64
import Verif.Props.TabRun64
import Verif.Props.TabClear
import Verif.Props.ProfileClear64

/-! # C150: profiles with tabs in floating point keep off the part -/

namespace CQ

theorem edgeTransitions_full (ds : List (ℚ × ℚ)) : FullEdge (edgeTransitions ds) := by
  refine ⟨rfl, ?_⟩
  unfold edgeTransitions
  rw [← List.cons_append, List.getLast?_append]
  rfl

/-- The transitions of tabs along edges are in order. -/
theorem edgeDs64_proper {t : EdgeTabs} (hw : 1 / 10 ^ 5 ≤ t.width) (hs : 3 * t.width + 1 / 10 ^ 5 ≤ 2 * t.spacing) {len : Edge → ℚ}
    {e : Edge} (hpos : 0 < e.length) (hlen : NearLength 1000 e.length (len e)) (hbig : e.length ≤ 10 ^ 5) {ds : List (ℚ × ℚ)}
    (h : t.edgeDs64 len e = .ok ds) : Increasing (edgeTransitions ds) ∧ FullEdge (edgeTransitions ds) := by
  refine ⟨?_, edgeTransitions_full ds⟩
  have h52 : (2 : ℚ) ^ (-52 : ℤ) = 1 / 4503599627370496 := by norm_num
  have hsmall : (8 * ((1000 : ℕ) : ℚ) + 64) * 2 ^ (-52 : ℤ) * e.length < 1 / 10 ^ 5 := by
    rw [h52]
    norm_num at hbig ⊢
    linarith
  by_cases ho : TabKind t.only e
  · obtain ⟨n, ds', h1, -, -, -, -, h6⟩ := edgeDs64_close ho hpos (le_trans (by norm_num) hw) (hbig.trans (by norm_num))
      (by
        norm_num at hbig hw hs ⊢
        linarith) (k := 1000) (by norm_num) hlen (lt_of_lt_of_le hsmall hw)
      (lt_of_lt_of_le (add_lt_add_of_le_of_lt le_rfl hsmall) hs)
    rw [h] at h1
    cases h1
    exact h6
  · unfold TabKind at ho
    push Not at ho
    obtain ⟨g, hg⟩ := Option.ne_none_iff_exists'.mp ho.1
    unfold EdgeTabs.edgeDs64 at h
    rw [if_pos (by rw [Bool.and_eq_true, decide_eq_true_eq]; exact ⟨by rw [hg]; rfl, ho.2⟩)] at h
    cases h
    simp [edgeTransitions, Increasing]

/-- A pass with tabs along the edges lies within the pass. -/
theorem applyEdgeTabs64_within {cad : Cad} (hA : AssemblesFrom cad) {t : EdgeTabs} (hw : 1 / 10 ^ 5 ≤ t.width)
    (hs : 3 * t.width + 1 / 10 ^ 5 ≤ 2 * t.spacing) {len : Edge → ℚ} {tabZ ze : ℚ} {w w' : List Edge}
    (he : ∀ e ∈ w, FlatEdge ze e ∧ Routable e ∧ TrueShape e ∧ Divisible e) (hpos : ∀ e ∈ w, 0 < e.length)
    (hlen : ∀ e ∈ w, NearLength 1000 e.length (len e)) (hbig : ∀ e ∈ w, e.length ≤ 10 ^ 5)
    (h : applyEdgeTabs64 cad len tabZ t w = .ok w') : ∀ p ∈ w', ∃ e ∈ w, Within e p := by
  have hself : ∀ p ∈ w, ∃ e ∈ w, Within e p := fun p hp => ⟨p, hp, within_self (he p hp).1 (he p hp).2.1 (he p hp).2.2.1⟩
  unfold applyEdgeTabs64 at h
  split at h
  · cases h; exact hself
  · obtain ⟨dss, h1, h⟩ := bind_ok.mp h
    obtain ⟨new, h2, h⟩ := bind_ok.mp h
    have hnew := tabEdges_within (z := tabZ) w _ new ze he (by
      intro ts hts
      obtain ⟨ds, hds, rfl⟩ := List.mem_map.mp hts
      obtain ⟨e, hem, hed⟩ := mapE_mem h1 hds
      exact edgeDs64_proper hw hs (hpos e hem) (hlen e hem) (hbig e hem) hed) h2
    split at h
    · rename_i w2 hass
      cases h
      intro p hp
      obtain ⟨p', hp', i, rfl⟩ := hA _ _ hass p hp
      obtain ⟨e, he', hw⟩ := hnew p' hp'
      exact ⟨e, he', within_id hw i⟩
    · cases h; exact hself

/-- A pass with tabs around it lies within the pass. -/
theorem applyTabs64_within {cad : Cad} (hA : AssemblesFrom cad) {t : WireTabs} {total tabZ ze : ℚ} {w w' : List Edge}
    (he : ∀ e ∈ w, FlatEdge ze e ∧ Routable e ∧ TrueShape e ∧ Divisible e)
    (ht : ∀ tss, t.transitions64 (cad.wireLength w) total w = .ok tss → ∀ ts ∈ tss, Increasing ts ∧ FullEdge ts)
    (h : applyTabs64 cad total tabZ t w = .ok w') : ∀ p ∈ w', ∃ e ∈ w, Within e p := by
  have hself : ∀ p ∈ w, ∃ e ∈ w, Within e p := fun p hp => ⟨p, hp, within_self (he p hp).1 (he p hp).2.1 (he p hp).2.2.1⟩
  unfold applyTabs64 at h
  split at h
  · cases h; exact hself
  · obtain ⟨tss, h1, h⟩ := bind_ok.mp h
    obtain ⟨new, h2, h⟩ := bind_ok.mp h
    have hnew := tabEdges_within (z := tabZ) w tss new ze he (ht tss h1) h2
    split at h
    · rename_i w2 hass
      cases h
      intro p hp
      obtain ⟨p', hp', i, rfl⟩ := hA _ _ hass p hp
      obtain ⟨e, he', hw⟩ := hnew p' hp'
      exact ⟨e, he', within_id hw i⟩
    · cases h; exact hself

/-- The transitions of tabs around a contour, raised or not, are in order. -/
theorem transitions64_proper {cad : Cad} {total : List Edge → ℚ} {t : WireTabs} {n : ℕ} (hn : 0 < n) (hc : t.count = n) {b : List Edge}
    (hne : b ≠ []) (hz : ZonesFit64 cad total n t.width b) (dz : ℚ) {tss : List (List (ℚ × Transition))}
    (h : t.transitions64 (cad.wireLength (b.map (Edge.up dz))) (total (b.map (Edge.up dz))) (b.map (Edge.up dz)) = .ok tss) :
    ∀ ts ∈ tss, Increasing ts ∧ FullEdge ts := by
  have hmap : ∀ l : List Edge, (l.map (Edge.up dz)).map Edge.length = l.map Edge.length := by
    intro l
    rw [List.map_map]
    rfl
  have hn0 : (0 : ℚ) < n := by exact_mod_cast hn
  have hLpos : 0 ≤ (b.map Edge.length).sum := by
    have h1 := hz.apart.between
    have h2 := hz.apart.tabs
    by_contra h
    have := div_nonpos_of_nonpos_of_nonneg (not_le.mp h).le hn0.le
    linarith
  have hmq : (b.length : ℚ) ≤ 1000 := by exact_mod_cast hz.count
  have hE : tabError (b.map (Edge.up dz)).length 1000 ≤ 5 / 10 ^ 11 := by
    rw [List.length_map]
    unfold tabError
    push_cast
    have : (2 : ℚ) ^ (-52 : ℤ) = 1 / 4503599627370496 := by norm_num
    rw [this]
    linarith
  have hEL : tabError (b.map (Edge.up dz)).length 1000 * (b.map Edge.length).sum ≤ 5 / 10 ^ 6 := by
    calc tabError (b.map (Edge.up dz)).length 1000 * (b.map Edge.length).sum ≤ 5 / 10 ^ 11 * 10 ^ 5 :=
          mul_le_mul hE hz.short hLpos (by norm_num)
      _ = 5 / 10 ^ 6 := by norm_num
  obtain ⟨tss', h1, -, h3, -⟩ := transitions64_fit hn hc (le_trans (by norm_num) hz.apart.tabs.le) (w := b.map (Edge.up dz))
    (by simpa using hne) (L := (b.map Edge.length).sum) (by rw [hmap]) (hz.short.trans (by norm_num)) (δ := 1 / 10 ^ 5) (by norm_num)
    (by
      refine ⟨?_, hz.apart.tabs, hz.apart.between, ?_⟩
      · intro pre post h
        obtain ⟨pre', post', rfl, rfl, rfl⟩ := List.map_eq_append_iff.mp h
        rw [hmap]
        exact hz.apart.corners pre' post' rfl
      · intro e he
        obtain ⟨x, hx, rfl⟩ := List.mem_map.mp he
        exact hz.apart.edges x hx)
    (k := 1000) (by linarith) (hz.measured dz).1 (hz.measured dz).2
    (by
      intro pre e post h
      obtain ⟨pre', rest, rfl, rfl, h'⟩ := List.map_eq_append_iff.mp h
      obtain ⟨e', post', rfl, rfl, rfl⟩ := List.map_eq_cons_iff.mp h'
      rw [hmap]
      exact hz.first pre' e' post' rfl)
  rw [h] at h1
  cases h1
  exact fun ts hts => proper_full (h3 ts hts)

/-- What is proved of all passes of a contour: with tabs they lie within the contour, seen from above. -/
def TabsWithin64 (cad : Cad) (len : Edge → ℚ) (total : List Edge → ℚ) (tabs : Tabs) (b : List Edge) : Prop :=
  ∀ tabZ dz p, tabs.apply64 cad len total tabZ (b.map (Edge.up dz)) = .ok p → ∀ x ∈ p, ∃ e ∈ b, Within (e.up dz) x

theorem raised_flat {b : List Edge} {z dz : ℚ} (hok : WireOK b) (hf : ∀ e ∈ b, FlatEdge z e) (hs : ShapedContour b) :
    ∀ e ∈ b.map (Edge.up dz), FlatEdge (z + dz) e ∧ Routable e ∧ TrueShape e ∧ Divisible e := by
  intro e he
  have h1 := (wireOK_up hok dz).routable e he
  obtain ⟨x, hx, rfl⟩ := List.mem_map.mp he
  exact ⟨flatEdge_up (hf x hx), h1, trueShape_up dz (hs x hx).1, divisible_up dz (hs x hx).2⟩

theorem tabsWithin64_edge {cad : Cad} (hA : AssemblesFrom cad) {len : Edge → ℚ} {total : List Edge → ℚ} {j : Job} {b : List Edge}
    {τ H L : ℚ} {stepdown : Option ℚ} {t : EdgeTabs} (hw : 1 / 10 ^ 5 ≤ t.width) (hs : 3 * t.width + 1 / 10 ^ 5 ≤ 2 * t.spacing)
    (hf : TabContour64 cad j τ H L t.height stepdown b) (hm : EdgesMeasured len b) (hsh : ShapedContour b) :
    TabsWithin64 cad len total (.edge t) b := by
  obtain ⟨z, -, -, hflat, -⟩ := hf.level
  intro tabZ dz p hp x hx
  obtain ⟨e, he, h⟩ := applyEdgeTabs64_within hA hw hs (raised_flat hf.ok hflat hsh)
    (by
      intro e he
      obtain ⟨y, hy, rfl⟩ := List.mem_map.mp he
      exact hf.length y hy)
    (by
      intro e he
      obtain ⟨y, hy, rfl⟩ := List.mem_map.mp he
      exact (hm y hy).2 dz)
    (by
      intro e he
      obtain ⟨y, hy, rfl⟩ := List.mem_map.mp he
      exact (hm y hy).1) hp x hx
  obtain ⟨y, hy, rfl⟩ := List.mem_map.mp he
  exact ⟨y, hy, h⟩

theorem tabsWithin64_wire {cad : Cad} (hA : AssemblesFrom cad) {len : Edge → ℚ} {total : List Edge → ℚ} {j : Job} {b : List Edge}
    {τ H L : ℚ} {stepdown : Option ℚ} {t : WireTabs} {n : ℕ} (hn : 0 < n) (hc : t.count = n)
    (hf : TabContour64 cad j τ H L t.height stepdown b) (hz : ZonesFit64 cad total n t.width b) (hsh : ShapedContour b) :
    TabsWithin64 cad len total (.wire t) b := by
  obtain ⟨z, -, -, hflat, -⟩ := hf.level
  intro tabZ dz p hp x hx
  obtain ⟨e, he, h⟩ := applyTabs64_within hA (raised_flat hf.ok hflat hsh)
    (fun tss h => transitions64_proper hn hc hf.ok.nonempty hz dz h) hp x hx
  obtain ⟨y, hy, rfl⟩ := List.mem_map.mp he
  exact ⟨y, hy, h⟩

/-- The moves of one profile with tabs keep off the part. -/
theorem tabProfile64_away {cad : Cad} {len : Edge → ℚ} {total : List Edge → ℚ} {j : Job} {wire : List Edge} {offset : ℚ}
    {stepdown : Option ℚ} {tabs : Tabs} {cs : List Motion} {part : Pt → Prop} {τ κ s r : ℚ} (hrel : ∀ v w, cad.relocate v w = w)
    (hv : ∀ w, NearestIsVertex cad w) (hτ : Tolerance cad j.precision τ) (hr : j.toolRadius = some r) (hd : |offset * r| ≤ 2 ^ 20)
    (hw : EachContour64 cad j offset wire (TabsWithin64 cad len total tabs))
    (haway : OffsetsAwayWithin cad part (wire.map (Edge.toLocal j.top)) (offset * r) (2 / 1000000) κ)
    (hs : 0 ≤ s) (hsr : s + τ + κ + 2 / 1000000 ≤ |offset * r|)
    (h : tabProfile64 cad len total j wire offset stepdown tabs = .ok cs) :
    ∀ c ∈ cs, c.kind.mot ≠ .rapid → Located c ∧ ∀ p, Sweeps c p → Away part s p := by
  have hτ0 : 0 ≤ τ := le_trans (by positivity) hτ.unit
  unfold tabProfile64 at h
  rw [hr] at h
  obtain ⟨bases, ho, h⟩ := bind_ok.mp h
  obtain ⟨pss, h2, h⟩ := bind_ok.mp h
  have hmem : ∀ w ∈ pss.flatten, ∃ b ∈ bases, ∃ dz, ∀ x ∈ w, ∃ e ∈ b, Within (e.up dz) x := by
    intro w hwm
    obtain ⟨ps, hps, hwp⟩ := List.mem_flatten.mp hwm
    obtain ⟨b, hb, hf⟩ := mapE_mem h2 hps
    obtain ⟨ls, hl, hf⟩ := bind_ok.mp hf
    obtain ⟨l, hlm, hp⟩ := mapE_mem hf hwp
    obtain ⟨dz, rfl⟩ := profileLayers64_mem hl l hlm
    exact ⟨b, hb, dz, hw r bases hr ho b hb _ dz w hp⟩
  rcases offsetWire64_found hrel ho with rfl | ⟨d', found, hd', hf, hsub⟩
  · cases h2
    cases h
    simp
  · obtain ⟨n1, n2⟩ := offsets64_near hd
    have hnear' : |d' - offset * r| ≤ 2 / 1000000 := by
      rcases hd' with rfl | rfl
      · exact n1
      · exact n2
    have hlarge : s + τ + κ ≤ |d'| := by
      have := abs_sub_abs_le_abs_sub (offset * r) d'
      rw [abs_sub_comm] at this
      linarith
    intro c hc hk
    obtain ⟨hloc, hnear⟩ := routeWires_near hτ (ws := pss.flatten) (by
      intro w hwm e he
      obtain ⟨b, -, dz, hall⟩ := hmem w hwm
      obtain ⟨e', -, hwi⟩ := hall e he
      exact ⟨hwi.ok, hwi.routable, hwi.shape⟩) (fun w _ => hv w) h c hc hk
    refine ⟨hloc, fun p hp => ?_⟩
    obtain ⟨w, hwm, e, he, q, hq, hqd⟩ := hnear p hp
    obtain ⟨b, hb, dz, hall⟩ := hmem w hwm
    obtain ⟨e', he', hwi⟩ := hall e he
    have ha : Away part (s + τ) q := haway d' hnear' found hf b (hsub b hb) e' he' q (hwi.covers q hq) _ (by linarith) (by linarith)
    exact away_near ha hqd hs hτ0 (le_abs_self _)

theorem tabProfiles64_away {cad : Cad} {len : Edge → ℚ} {total : List Edge → ℚ} {j : Job} {wires : List (List Edge)} {offset : ℚ}
    {stepdown : Option ℚ} {tabs : Tabs} {cs : List Motion} {part : Pt → Prop} {τ κ s r : ℚ} (hrel : ∀ v w, cad.relocate v w = w)
    (hv : ∀ w, NearestIsVertex cad w) (hτ : Tolerance cad j.precision τ) (hr : j.toolRadius = some r) (hd : |offset * r| ≤ 2 ^ 20)
    (hw : ∀ w ∈ wires, EachContour64 cad j offset w (TabsWithin64 cad len total tabs))
    (haway : ∀ w ∈ wires, OffsetsAwayWithin cad part (w.map (Edge.toLocal j.top)) (offset * r) (2 / 1000000) κ)
    (hs : 0 ≤ s) (hsr : s + τ + κ + 2 / 1000000 ≤ |offset * r|)
    (h : tabProfiles64 cad len total j offset stepdown tabs wires = .ok cs) :
    ∀ c ∈ cs, c.kind.mot ≠ .rapid → Located c ∧ ∀ p, Sweeps c p → Away part s p := by
  obtain ⟨bs, h1, h⟩ := bind_ok.mp h
  cases h
  intro c hc
  obtain ⟨b, hb, hc⟩ := List.mem_flatten.mp hc
  obtain ⟨w, hwm, hw'⟩ := mapE_mem h1 hb
  exact tabProfile64_away hrel hv hτ hr hd (hw w hwm) (haway w hwm) hs hsr hw' c hc

/-- `wire_profile` with any tabs. -/
theorem wire_tabs64_keepsOff {cad : Cad} {len : Edge → ℚ} {total : List Edge → ℚ} {wires : List (List Edge)} {offset r L τ' tol : ℚ}
    {stepdown : Option ℚ} {tabs : Tabs} {tool : Option Tool} {j0 j1 j2 jf : Job} {before after : List Request} (m : Machine) (h0 : InitOK j0)
    (hn : ∀ v, j0.toolNumber = some v → NumOK v)
    (hok : ChainOK j0 (before ++ tabWireProfileRequest64 cad len total wires offset stepdown tabs tool :: after))
    (h1 : j0.chain before = .ok j1) (h2 : (j1.call (tabWireProfileRequest64 cad len total wires offset stepdown tabs tool)).2 = .ok j2)
    (h3 : j2.chain after = .ok jf) (hend : m.ended = false) (htool : ∀ n, j0.toolNumber = some n → m.tool = some n.value)
    (hk : KeepsBelow cad j0.top) (hc : Steps64 stepdown L τ' tol) (hsafe : 0 ≤ j0.opSafeHeight) (hv : ∀ w, NearestIsVertex cad w)
    {j : Job} (hj : (j1.updateTool tool).2 = j) (hr : j.toolRadius = some r) (hd : |offset * r| ≤ 2 ^ 20)
    {marks : List Edge → List Edge → List (List (ℚ × Transition)) → Prop}
    (hw : ∀ w ∈ wires, EachContour64 cad j offset w (fun b => TabsFit64 cad len total j τ' (2 * L) L stepdown tabs (marks b) b ∧
      TabsWithin64 cad len total tabs b))
    {part : Pt → Prop} {τ κ s : ℚ} (hrel : ∀ v w, cad.relocate v w = w) (hτ : Tolerance cad j.precision τ)
    (ha : ∀ w ∈ wires, OffsetsAwayWithin cad part (w.map (Edge.toLocal j.top)) (offset * r) (2 / 1000000) κ)
    (hs : 0 ≤ s) (hsr : s + 1 / 1000 + τ + κ + 2 / 1000000 ≤ |offset * r|) :
    ∃ t m' pre evs post cs, jf.toGcode = .ok t ∧ runText m t = some (m', pre ++ evs ++ post) ∧
      (tabWireProfileRequest64 cad len total wires offset stepdown tabs tool).gen j = .ok cs ∧
      List.Forall₂ Performs (evs.filter isMove) cs ∧ ∀ e ∈ evs, isFeedMove e = true → KeepsOff part s e := by
  subst hj
  have hbase : SameBase j0 (j1.updateTool tool).2 := updateTool_base (chain_base (show SameBase j0 j0 from rfl) h1) _
  have hsafe' : j0.opSafeHeight = (j1.updateTool tool).2.opSafeHeight := by rw [hbase]
  have htop : j0.top = (j1.updateTool tool).2.top := by rw [hbase]
  refine chain_keepsOff m h0 hn hok h1 h2 h3 hend htool hs ?_
  intro cs hcs
  exact ⟨(tabProfiles64_runs (htop ▸ hk) hc (hsafe' ▸ hsafe) hv hcs (fun w hwm r bases g1 g2 b hb => (hw w hwm r bases g1 g2 b hb).1) hr).1 _,
    tabProfiles64_away hrel hv hτ hr hd (fun w hwm r bases g1 g2 b hb => (hw w hwm r bases g1 g2 b hb).2) ha (by linarith) hsr hcs⟩

/-- `profile` with any tabs. -/
theorem profile_tabs64_keepsOff {cad : Cad} {len : Edge → ℚ} {total : List Edge → ℚ} {shapes : List Shape}
    {outerOffset innerOffset : Option ℚ} {r L τ' tol : ℚ} {stepdown : Option ℚ} {tabs : Tabs} {tool : Option Tool} {j0 j1 j2 jf : Job}
    {before after : List Request} (m : Machine) (h0 : InitOK j0) (hn : ∀ v, j0.toolNumber = some v → NumOK v)
    (hok : ChainOK j0 (before ++ tabProfileRequest64 cad len total shapes outerOffset innerOffset stepdown tabs tool :: after))
    (h1 : j0.chain before = .ok j1)
    (h2 : (j1.call (tabProfileRequest64 cad len total shapes outerOffset innerOffset stepdown tabs tool)).2 = .ok j2)
    (h3 : j2.chain after = .ok jf) (hend : m.ended = false) (htool : ∀ n, j0.toolNumber = some n → m.tool = some n.value)
    (hk : KeepsBelow cad j0.top) (hc : Steps64 stepdown L τ' tol) (hsafe : 0 ≤ j0.opSafeHeight) (hv : ∀ w, NearestIsVertex cad w)
    {j : Job} (hj : (j1.updateTool tool).2 = j) (hr : j.toolRadius = some r)
    {marks : List Edge → List Edge → List (List (ℚ × Transition)) → Prop}
    {part : Pt → Prop} {τ κ s : ℚ} (hrel : ∀ v w, cad.relocate v w = w) (hτ : Tolerance cad j.precision τ)
    (hw : ∀ w o, (w ∈ outerWires shapes ∧ outerOffset = some o) ∨ (w ∈ innerWires shapes ∧ innerOffset = some o) →
      EachContour64 cad j o w (fun b => TabsFit64 cad len total j τ' (2 * L) L stepdown tabs (marks b) b ∧
        TabsWithin64 cad len total tabs b) ∧
      OffsetsAwayWithin cad part (w.map (Edge.toLocal j.top)) (o * r) (2 / 1000000) κ)
    (hs : 0 ≤ s) (hsr : ∀ o, outerOffset = some o ∨ innerOffset = some o → |o * r| ≤ 2 ^ 20 ∧
      s + 1 / 1000 + τ + κ + 2 / 1000000 ≤ |o * r|) :
    ∃ t m' pre evs post cs, jf.toGcode = .ok t ∧ runText m t = some (m', pre ++ evs ++ post) ∧
      (tabProfileRequest64 cad len total shapes outerOffset innerOffset stepdown tabs tool).gen j = .ok cs ∧
      List.Forall₂ Performs (evs.filter isMove) cs ∧ ∀ e ∈ evs, isFeedMove e = true → KeepsOff part s e := by
  subst hj
  have hbase : SameBase j0 (j1.updateTool tool).2 := updateTool_base (chain_base (show SameBase j0 j0 from rfl) h1) _
  have hsafe' : j0.opSafeHeight = (j1.updateTool tool).2.opSafeHeight := by rw [hbase]
  have htop : j0.top = (j1.updateTool tool).2.top := by rw [hbase]
  refine chain_keepsOff m h0 hn hok h1 h2 h3 hend htool hs ?_
  intro cs hcs
  obtain ⟨⟨os, is⟩, hx, hcs⟩ := bind_ok.mp hcs
  obtain ⟨a, g1, hcs⟩ := bind_ok.mp hcs
  obtain ⟨b, g2, hcs⟩ := bind_ok.mp hcs
  cases hcs
  have hsh : Shape.other ∉ shapes := by
    intro ho
    rw [(extractWires_eq shapes).1 ho] at hx
    cases hx
  rw [(extractWires_eq shapes).2 hsh] at hx
  cases hx
  have key : ∀ {o : Option ℚ} {ws : List (List Edge)} {cs : List Motion},
      tabProfilesOpt64 cad len total (j1.updateTool tool).2 o stepdown tabs ws = .ok cs →
      (∀ w o', w ∈ ws → o = some o' → EachContour64 cad (j1.updateTool tool).2 o' w
          (fun b => TabsFit64 cad len total (j1.updateTool tool).2 τ' (2 * L) L stepdown tabs (marks b) b ∧ TabsWithin64 cad len total tabs b) ∧
        OffsetsAwayWithin cad part (w.map (Edge.toLocal (j1.updateTool tool).2.top)) (o' * r) (2 / 1000000) κ) →
      (∀ o', o = some o' → |o' * r| ≤ 2 ^ 20 ∧ s + 1 / 1000 + τ + κ + 2 / 1000000 ≤ |o' * r|) →
      (∀ p, Tracks p cs) ∧ ∀ c ∈ cs, c.kind.mot ≠ .rapid → Located c ∧ ∀ p, Sweeps c p → Away part (s + 1 / 1000) p := by
    intro o ws cs h hw hsr
    cases o with
    | none => cases h; exact ⟨fun _ => trivial, by simp⟩
    | some o =>
      exact ⟨(tabProfiles64_runs (htop ▸ hk) hc (hsafe' ▸ hsafe) hv h
          (fun w hwm r bases g1 g2 b hb => ((hw w o hwm rfl).1 r bases g1 g2 b hb).1) hr).1,
        tabProfiles64_away hrel hv hτ hr (hsr o rfl).1 (fun w hwm r bases g1 g2 b hb => ((hw w o hwm rfl).1 r bases g1 g2 b hb).2)
          (fun w hwm => (hw w o hwm rfl).2) (by linarith) (hsr o rfl).2 h⟩
  obtain ⟨t1, k1⟩ := key g1 (fun w o hwm ho => hw w o (.inr ⟨hwm, ho⟩)) (fun o ho => hsr o (.inr ho))
  obtain ⟨t2, k2⟩ := key g2 (fun w o hwm ho => hw w o (.inl ⟨hwm, ho⟩)) (fun o ho => hsr o (.inl ho))
  refine ⟨tracks_append.mpr ⟨t1 _, t2 _⟩, ?_⟩
  intro c hc
  rcases List.mem_append.mp hc with hc | hc
  · exact k1 c hc
  · exact k2 c hc

/-- C150 for `wire_profile` with tabs along the edges (as far as it holds, see `C150_violated`): all feed moves of the machine in the part
of the operation, also those up and down the tabs and over them, keep off the part. -/
theorem C150_edge_tabs_partial {cad : Cad} (hA : Assembles cad) (hF : AssemblesFrom cad) {len : Edge → ℚ} {total : List Edge → ℚ}
    {wires : List (List Edge)} {offset r L τ' tol : ℚ} {stepdown : Option ℚ}
    {tabs : EdgeTabs} (hwidth : 1 / 10 ^ 5 ≤ tabs.width) (hgap : 3 * tabs.width + 1 / 10 ^ 5 ≤ 2 * tabs.spacing)
    {tool : Option Tool} {j0 j1 j2 jf : Job} {before after : List Request} (m : Machine)
    (h0 : InitOK j0) (hn : ∀ v, j0.toolNumber = some v → NumOK v)
    (hok : ChainOK j0 (before ++ tabWireProfileRequest64 cad len total wires offset stepdown (.edge tabs) tool :: after))
    (h1 : j0.chain before = .ok j1)
    (h2 : (j1.call (tabWireProfileRequest64 cad len total wires offset stepdown (.edge tabs) tool)).2 = .ok j2)
    (h3 : j2.chain after = .ok jf) (hend : m.ended = false) (htool : ∀ n, j0.toolNumber = some n → m.tool = some n.value)
    (hk : KeepsBelow cad j0.top) (hc : Steps64 stepdown L τ' tol) (hsafe : 0 ≤ j0.opSafeHeight) (hv : ∀ w, NearestIsVertex cad w)
    {j : Job} (hj : (j1.updateTool tool).2 = j) (hr : j.toolRadius = some r) (hd : |offset * r| ≤ 2 ^ 20)
    (hw : ∀ w ∈ wires, EachContour64 cad j offset w
      (fun b => TabContour64 cad j τ' (2 * L) L tabs.height stepdown b ∧ EdgesMeasured len b ∧ ShapedContour b))
    {part : Pt → Prop} {τ κ s : ℚ} (hrel : ∀ v w, cad.relocate v w = w) (hτ : Tolerance cad j.precision τ)
    (ha : ∀ w ∈ wires, OffsetsAwayWithin cad part (w.map (Edge.toLocal j.top)) (offset * r) (2 / 1000000) κ)
    (hs : 0 ≤ s) (hsr : s + 1 / 1000 + τ + κ + 2 / 1000000 ≤ |offset * r|) :
    ∃ t m' pre evs post cs, jf.toGcode = .ok t ∧ runText m t = some (m', pre ++ evs ++ post) ∧
      (tabWireProfileRequest64 cad len total wires offset stepdown (.edge tabs) tool).gen j = .ok cs ∧
      List.Forall₂ Performs (evs.filter isMove) cs ∧ ∀ e ∈ evs, isFeedMove e = true → KeepsOff part s e :=
  wire_tabs64_keepsOff (marks := (fun _ => NearTabsOnEdges tabs)) m h0 hn hok h1 h2 h3 hend htool hk hc hsafe hv hj hr hd
    (fun w hw' r bases g1 g2 b hb' => by
      obtain ⟨k1, k2, k3⟩ := hw w hw' r bases g1 g2 b hb'
      exact ⟨tabsFit64_edge hA hwidth hgap k1 k2, tabsWithin64_edge hF hwidth hgap k1 k2 k3⟩) hrel hτ ha hs hsr

/-- C150 for `profile` with tabs along the edges. -/
theorem C150_profile_edge_tabs_partial {cad : Cad} (hA : Assembles cad) (hF : AssemblesFrom cad) {len : Edge → ℚ} {total : List Edge → ℚ}
    {shapes : List Shape} {outerOffset innerOffset : Option ℚ} {r L τ' tol : ℚ} {stepdown : Option ℚ}
    {tabs : EdgeTabs} (hwidth : 1 / 10 ^ 5 ≤ tabs.width) (hgap : 3 * tabs.width + 1 / 10 ^ 5 ≤ 2 * tabs.spacing)
    {tool : Option Tool} {j0 j1 j2 jf : Job} {before after : List Request} (m : Machine)
    (h0 : InitOK j0) (hn : ∀ v, j0.toolNumber = some v → NumOK v)
    (hok : ChainOK j0 (before ++ tabProfileRequest64 cad len total shapes outerOffset innerOffset stepdown (.edge tabs) tool :: after))
    (h1 : j0.chain before = .ok j1)
    (h2 : (j1.call (tabProfileRequest64 cad len total shapes outerOffset innerOffset stepdown (.edge tabs) tool)).2 = .ok j2)
    (h3 : j2.chain after = .ok jf) (hend : m.ended = false) (htool : ∀ n, j0.toolNumber = some n → m.tool = some n.value)
    (hk : KeepsBelow cad j0.top) (hc : Steps64 stepdown L τ' tol) (hsafe : 0 ≤ j0.opSafeHeight) (hv : ∀ w, NearestIsVertex cad w)
    {j : Job} (hj : (j1.updateTool tool).2 = j) (hr : j.toolRadius = some r)
    {part : Pt → Prop} {τ κ s : ℚ} (hrel : ∀ v w, cad.relocate v w = w) (hτ : Tolerance cad j.precision τ)
    (hw : ∀ w o, (w ∈ outerWires shapes ∧ outerOffset = some o) ∨ (w ∈ innerWires shapes ∧ innerOffset = some o) →
      EachContour64 cad j o w
        (fun b => TabContour64 cad j τ' (2 * L) L tabs.height stepdown b ∧ EdgesMeasured len b ∧ ShapedContour b) ∧
      OffsetsAwayWithin cad part (w.map (Edge.toLocal j.top)) (o * r) (2 / 1000000) κ)
    (hs : 0 ≤ s) (hsr : ∀ o, outerOffset = some o ∨ innerOffset = some o → |o * r| ≤ 2 ^ 20 ∧
      s + 1 / 1000 + τ + κ + 2 / 1000000 ≤ |o * r|) :
    ∃ t m' pre evs post cs, jf.toGcode = .ok t ∧ runText m t = some (m', pre ++ evs ++ post) ∧
      (tabProfileRequest64 cad len total shapes outerOffset innerOffset stepdown (.edge tabs) tool).gen j = .ok cs ∧
      List.Forall₂ Performs (evs.filter isMove) cs ∧ ∀ e ∈ evs, isFeedMove e = true → KeepsOff part s e :=
  profile_tabs64_keepsOff (marks := (fun _ => NearTabsOnEdges tabs)) m h0 hn hok h1 h2 h3 hend htool hk hc hsafe hv hj hr hrel hτ
    (fun w o hwo => ⟨fun r bases g1 g2 b hb' => by
      obtain ⟨k1, k2, k3⟩ := (hw w o hwo).1 r bases g1 g2 b hb'
      exact ⟨tabsFit64_edge hA hwidth hgap k1 k2, tabsWithin64_edge hF hwidth hgap k1 k2 k3⟩, (hw w o hwo).2⟩) hs hsr

/-- C150 for `wire_profile` with tabs around the contour. -/
theorem C150_wire_tabs_partial {cad : Cad} (hA : Assembles cad) (hF : AssemblesFrom cad) {len : Edge → ℚ} {total : List Edge → ℚ}
    {wires : List (List Edge)} {offset r L τ' tol : ℚ} {stepdown : Option ℚ}
    {tabs : WireTabs} {n : ℕ} (hpos : 0 < n) (hcount : tabs.count = n)
    {tool : Option Tool} {j0 j1 j2 jf : Job} {before after : List Request} (m : Machine)
    (h0 : InitOK j0) (hn : ∀ v, j0.toolNumber = some v → NumOK v)
    (hok : ChainOK j0 (before ++ tabWireProfileRequest64 cad len total wires offset stepdown (.wire tabs) tool :: after))
    (h1 : j0.chain before = .ok j1)
    (h2 : (j1.call (tabWireProfileRequest64 cad len total wires offset stepdown (.wire tabs) tool)).2 = .ok j2)
    (h3 : j2.chain after = .ok jf) (hend : m.ended = false) (htool : ∀ n, j0.toolNumber = some n → m.tool = some n.value)
    (hk : KeepsBelow cad j0.top) (hc : Steps64 stepdown L τ' tol) (hsafe : 0 ≤ j0.opSafeHeight) (hv : ∀ w, NearestIsVertex cad w)
    {j : Job} (hj : (j1.updateTool tool).2 = j) (hr : j.toolRadius = some r) (hd : |offset * r| ≤ 2 ^ 20)
    (hw : ∀ w ∈ wires, EachContour64 cad j offset w
      (fun b => TabContour64 cad j τ' (2 * L) L tabs.height stepdown b ∧ ZonesFit64 cad total n tabs.width b ∧ ShapedContour b))
    {part : Pt → Prop} {τ κ s : ℚ} (hrel : ∀ v w, cad.relocate v w = w) (hτ : Tolerance cad j.precision τ)
    (ha : ∀ w ∈ wires, OffsetsAwayWithin cad part (w.map (Edge.toLocal j.top)) (offset * r) (2 / 1000000) κ)
    (hs : 0 ≤ s) (hsr : s + 1 / 1000 + τ + κ + 2 / 1000000 ≤ |offset * r|) :
    ∃ t m' pre evs post cs, jf.toGcode = .ok t ∧ runText m t = some (m', pre ++ evs ++ post) ∧
      (tabWireProfileRequest64 cad len total wires offset stepdown (.wire tabs) tool).gen j = .ok cs ∧
      List.Forall₂ Performs (evs.filter isMove) cs ∧ ∀ e ∈ evs, isFeedMove e = true → KeepsOff part s e :=
  wire_tabs64_keepsOff (marks := (fun b => NearMarks (5 / 10 ^ 6) n tabs.width (b.map Edge.length).sum)) m h0 hn hok h1 h2 h3 hend htool hk
    hc hsafe hv hj hr hd
    (fun w hw' r bases g1 g2 b hb' => by
      obtain ⟨k1, k2, k3⟩ := hw w hw' r bases g1 g2 b hb'
      exact ⟨tabsFit64_wire hA hpos hcount k1 k2, tabsWithin64_wire hF hpos hcount k1 k2 k3⟩) hrel hτ ha hs hsr

/-- C150 for `profile` with tabs around the contour. -/
theorem C150_profile_wire_tabs_partial {cad : Cad} (hA : Assembles cad) (hF : AssemblesFrom cad) {len : Edge → ℚ} {total : List Edge → ℚ}
    {shapes : List Shape} {outerOffset innerOffset : Option ℚ} {r L τ' tol : ℚ} {stepdown : Option ℚ}
    {tabs : WireTabs} {n : ℕ} (hpos : 0 < n) (hcount : tabs.count = n)
    {tool : Option Tool} {j0 j1 j2 jf : Job} {before after : List Request} (m : Machine)
    (h0 : InitOK j0) (hn : ∀ v, j0.toolNumber = some v → NumOK v)
    (hok : ChainOK j0 (before ++ tabProfileRequest64 cad len total shapes outerOffset innerOffset stepdown (.wire tabs) tool :: after))
    (h1 : j0.chain before = .ok j1)
    (h2 : (j1.call (tabProfileRequest64 cad len total shapes outerOffset innerOffset stepdown (.wire tabs) tool)).2 = .ok j2)
    (h3 : j2.chain after = .ok jf) (hend : m.ended = false) (htool : ∀ n, j0.toolNumber = some n → m.tool = some n.value)
    (hk : KeepsBelow cad j0.top) (hc : Steps64 stepdown L τ' tol) (hsafe : 0 ≤ j0.opSafeHeight) (hv : ∀ w, NearestIsVertex cad w)
    {j : Job} (hj : (j1.updateTool tool).2 = j) (hr : j.toolRadius = some r)
    {part : Pt → Prop} {τ κ s : ℚ} (hrel : ∀ v w, cad.relocate v w = w) (hτ : Tolerance cad j.precision τ)
    (hw : ∀ w o, (w ∈ outerWires shapes ∧ outerOffset = some o) ∨ (w ∈ innerWires shapes ∧ innerOffset = some o) →
      EachContour64 cad j o w
        (fun b => TabContour64 cad j τ' (2 * L) L tabs.height stepdown b ∧ ZonesFit64 cad total n tabs.width b ∧ ShapedContour b) ∧
      OffsetsAwayWithin cad part (w.map (Edge.toLocal j.top)) (o * r) (2 / 1000000) κ)
    (hs : 0 ≤ s) (hsr : ∀ o, outerOffset = some o ∨ innerOffset = some o → |o * r| ≤ 2 ^ 20 ∧
      s + 1 / 1000 + τ + κ + 2 / 1000000 ≤ |o * r|) :
    ∃ t m' pre evs post cs, jf.toGcode = .ok t ∧ runText m t = some (m', pre ++ evs ++ post) ∧
      (tabProfileRequest64 cad len total shapes outerOffset innerOffset stepdown (.wire tabs) tool).gen j = .ok cs ∧
      List.Forall₂ Performs (evs.filter isMove) cs ∧ ∀ e ∈ evs, isFeedMove e = true → KeepsOff part s e :=
  profile_tabs64_keepsOff (marks := (fun b => NearMarks (5 / 10 ^ 6) n tabs.width (b.map Edge.length).sum)) m h0 hn hok h1 h2 h3 hend htool
    hk hc hsafe hv hj hr hrel hτ
    (fun w o hwo => ⟨fun r bases g1 g2 b hb' => by
      obtain ⟨k1, k2, k3⟩ := (hw w o hwo).1 r bases g1 g2 b hb'
      exact ⟨tabsFit64_wire hA hpos hcount k1 k2, tabsWithin64_wire hF hpos hcount k1 k2 k3⟩, (hw w o hwo).2⟩) hs hsr

/-! ### The square -/

theorem innerSquare_shaped : ShapedContour innerSquare := fun e he => ⟨(innerSquare_edges e he).2.1, (innerSquare_edges e he).2.2.1⟩

/-- The hypotheses of `C150_edge_tabs_partial`: a square is milled along a larger one with a tool of radius 1, in two passes and with two tabs
on each side, on a kernel whose boxes are rounded. -/
example : ∃ j2 t m' pre evs post, ∃ cs : List Motion,
    (twoJob.call (tabWireProfileRequest64 gapStrictCad Edge.length exactTotal [innerSquare] 1 (some (b64 (3 / 5)))
      (.edge ⟨3, 1, 1 / 2, none⟩) none)).2 = .ok j2 ∧
    j2.toGcode = .ok t ∧ runText {} t = some (m', pre ++ evs ++ post) ∧ List.Forall₂ Performs (evs.filter isMove) cs ∧
    16 < (cs.filter (fun c => decide (c.kind.mot ≠ .rapid))).length ∧
    ∀ e ∈ evs, isFeedMove e = true → KeepsOff squarePart (99 / 100) e := by
  obtain ⟨cs, hg, hr, hc⟩ := call_good (j := twoJob)
    (r := tabWireProfileRequest64 gapStrictCad Edge.length exactTotal [innerSquare] 1 (some (b64 (3 / 5))) (.edge ⟨3, 1, 1 / 2, none⟩) none)
    (by decide +kernel) rfl (by unfold SafeName; decide) (by decide +kernel)
  obtain ⟨t, m', pre, evs, post, cs', a1, a2, a3, a4, a5⟩ := C150_edge_tabs_partial (cad := gapStrictCad) strictCad_assembles strictCad_from
    (wires := [innerSquare]) (offset := 1) (r := 1) (tabs := ⟨3, 1, 1 / 2, none⟩)
    (by norm_num) (by norm_num) (tool := none) (before := []) (after := []) {} twoJob_ok (by rintro v ⟨⟩)
    (show ChainOK twoJob [_] from ⟨hr, fun _ _ => trivial⟩) rfl hc rfl rfl (by rintro n ⟨⟩) gapCad_keepsBelow
    (steps64_millimetres (by decide +kernel) (by decide +kernel)) (by decide +kernel) (fun _ _ _ h => (by cases h)) rfl (by decide +kernel)
    (by norm_num)
    (gapStrict_contours (by decide +kernel) ⟨innerSquare_contour64 (by decide +kernel), innerSquare_measured, innerSquare_shaped⟩)
    (part := squarePart) (τ := 3 / 2000) (κ := 0) (s := 99 / 100) (fun _ _ => rfl)
    ⟨strictCad_tolerance.unit, strictCad_tolerance.same⟩
    (by
      intro w hw
      cases List.mem_singleton.mp hw
      change OffsetsAwayWithin gapCad squarePart (innerSquare.map (Edge.toLocal twoJob.top)) (1 * 1) _ _
      rw [innerSquare_local, one_mul]
      exact innerSquare_away64) (by norm_num) (by norm_num)
  refine ⟨_, t, m', pre, evs, post, cs', hc, a1, a2, a4, ?_, a5⟩
  have hm : (match (tabWireProfileRequest64 gapStrictCad Edge.length exactTotal [innerSquare] 1 (some (b64 (3 / 5)))
    (.edge ⟨3, 1, 1 / 2, none⟩) none).gen (twoJob.updateTool none).2 with
    | .ok cs => decide (16 < (cs.filter (fun c => decide (c.kind.mot ≠ .rapid))).length) | .error _ => false) = true := by decide +kernel
  rw [a3] at hm
  exact of_decide_eq_true hm

/-- Those of `C150_wire_tabs_partial`: the square with three tabs around it. -/
example : ∃ j2 t m' pre evs post, ∃ cs : List Motion,
    (twoJob.call (tabWireProfileRequest64 gapStrictCad Edge.length exactTotal [innerSquare] 1 (some (b64 (3 / 5)))
      (.wire ⟨3, 1, 1 / 2⟩) none)).2 = .ok j2 ∧
    j2.toGcode = .ok t ∧ runText {} t = some (m', pre ++ evs ++ post) ∧ List.Forall₂ Performs (evs.filter isMove) cs ∧
    ∀ e ∈ evs, isFeedMove e = true → KeepsOff squarePart (99 / 100) e := by
  obtain ⟨cs, hg, hr, hc⟩ := call_good (j := twoJob)
    (r := tabWireProfileRequest64 gapStrictCad Edge.length exactTotal [innerSquare] 1 (some (b64 (3 / 5))) (.wire ⟨3, 1, 1 / 2⟩) none)
    (by decide +kernel) rfl (by unfold SafeName; decide) (by decide +kernel)
  obtain ⟨t, m', pre, evs, post, cs', a1, a2, -, a4, a5⟩ := C150_wire_tabs_partial (cad := gapStrictCad) strictCad_assembles strictCad_from
    (wires := [innerSquare]) (offset := 1) (r := 1) (tabs := ⟨3, 1, 1 / 2⟩) (n := 3)
    (by norm_num) rfl (tool := none) (before := []) (after := []) {} twoJob_ok (by rintro v ⟨⟩)
    (show ChainOK twoJob [_] from ⟨hr, fun _ _ => trivial⟩) rfl hc rfl rfl (by rintro n ⟨⟩) gapCad_keepsBelow
    (steps64_millimetres (by decide +kernel) (by decide +kernel)) (by decide +kernel) (fun _ _ _ h => (by cases h)) rfl (by decide +kernel)
    (by norm_num)
    (gapStrict_contours (by decide +kernel) ⟨innerSquare_contour64 (by decide +kernel), innerSquare_zones64, innerSquare_shaped⟩)
    (part := squarePart) (τ := 3 / 2000) (κ := 0) (s := 99 / 100) (fun _ _ => rfl)
    ⟨strictCad_tolerance.unit, strictCad_tolerance.same⟩
    (by
      intro w hw
      cases List.mem_singleton.mp hw
      change OffsetsAwayWithin gapCad squarePart (innerSquare.map (Edge.toLocal twoJob.top)) (1 * 1) _ _
      rw [innerSquare_local, one_mul]
      exact innerSquare_away64) (by norm_num) (by norm_num)
  exact ⟨_, t, m', pre, evs, post, cs', hc, a1, a2, a4, a5⟩

/-! ### Where it fails -/

/-- C150 is false for kernels with the fault of circles, as C144: with tabs along the lines (there is none) the machine cuts right into
its edge, with the middle of the tool. -/
theorem C150_violated : Relocates discCad discLoc ∧ CircleFault discCad discLoc discRight ∧
    (∀ c ∈ discRight [disc 0 1 5] 1, ∀ e ∈ c, ∀ p, e.covers p → Away (discPart 1 5) 1 p) ∧ discPart 1 5 ⟨-4, 0⟩ ∧
    ∃ j2 t m' evs, (twoJob.call (tabWireProfileRequest64 discCad Edge.length exactTotal [[disc 0 1 5]] 1 none
        (.edge ⟨3, 1, 1 / 2, some .line⟩) none)).2 = .ok j2 ∧ j2.toGcode = .ok t ∧
      runText {} t = some (m', evs) ∧ ∃ e ∈ evs, ∃ k tgt ctr, e.act = .move k tgt ctr ∧ k ≠ .rapid ∧ tgt.x = some (-4) ∧ tgt.y = some 0 := by
  obtain ⟨h1, h2, h3, h4, -⟩ := C115_violated
  refine ⟨h1, h2, h3, h4, ?_⟩
  obtain ⟨j2, t, m', evs, h1, h2, h3, e, he, hb⟩ := run_witness (j := twoJob)
    (r := tabWireProfileRequest64 discCad Edge.length exactTotal [[disc 0 1 5]] 1 none (.edge ⟨3, 1, 1 / 2, some .line⟩) none) (bad := cutsIn)
    twoJob_ok (by rintro v ⟨⟩) rfl rfl (by unfold SafeName; decide) (by decide +kernel)
  refine ⟨j2, t, m', evs, h1, h2, h3, e, he, ?_⟩
  unfold cutsIn at hb
  split at hb
  · rename_i k tgt ctr ha
    simp only [Bool.and_eq_true, decide_eq_true_eq] at hb
    exact ⟨k, tgt, ctr, ha, hb.1.1, hb.1.2, hb.2⟩
  · cases hb

end CQ
