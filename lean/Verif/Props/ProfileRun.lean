import Verif.Props.Arcs
import Verif.Props.SurfacePath

/-! # C101: profiles on the machine -/

namespace CQ

theorem forall₂_flatten_left {α β : Type} {R : α → β → Prop} {ls : List (List α)} {b : List β}
    (h : List.Forall₂ R ls.flatten b) : ∃ bs, b = bs.flatten ∧ List.Forall₂ (List.Forall₂ R) ls bs := by
  induction ls generalizing b with
  | nil => cases h; exact ⟨[], rfl, .nil⟩
  | cons l ls ih =>
    rw [List.flatten_cons] at h
    obtain ⟨b1, b2, g1, g2, rfl⟩ := forall₂_append_left h
    obtain ⟨bs, rfl, g3⟩ := ih g2
    exact ⟨b1 :: bs, by simp, .cons g1 g3⟩

theorem forall₂_imp_mem {α β : Type} {R S : α → β → Prop} {a : List α} {b : List β} (h : List.Forall₂ R a b)
    (hi : ∀ x ∈ a, ∀ y, R x y → S x y) : List.Forall₂ S a b := by
  induction h with
  | nil => exact .nil
  | cons h1 _ ih => exact .cons (hi _ (by simp) _ h1) (ih (fun x hx => hi x (by simp [hx])))

/-- Relations in a row. -/
theorem forall₂_trans {α β γ : Type} {R : α → β → Prop} {S : β → γ → Prop} {a : List α} {b : List β} {c : List γ}
    (h : List.Forall₂ R a b) (h' : List.Forall₂ S b c) : List.Forall₂ (fun x z => ∃ y ∈ b, R x y ∧ S y z) a c := by
  induction h generalizing c with
  | nil => cases h'; exact .nil
  | cons h1 _ ih =>
    cases h' with
    | cons h3 h4 =>
      exact .cons ⟨_, by simp, h1, h3⟩ ((ih h4).imp (fun _ _ ⟨y, hy, h⟩ => ⟨y, by simp [hy], h⟩))

/-! ### The moves -/

/-- The moves of the profile of one wire: the passes of each contour, each pass cut whole. -/
def CutsProfile (cad : Cad) (j : Job) (offset : ℚ) (stepdown : Option ℚ) (wire : List Edge) (cs : List Motion) : Prop :=
  ∃ r bases, j.toolRadius = some r ∧ offsetWire cad (wire.map (Edge.toLocal j.top)) (offset * r) = .ok bases ∧
    ∃ blocks : List (List (List Motion)), cs = blocks.flatten.flatten ∧
      List.Forall₂ (fun base block => ∃ layers, PassesOf cad stepdown base layers ∧ (∀ w ∈ layers, WireOK w) ∧
        List.Forall₂ (WholeWire cad.veq j.feed none) layers block) bases blocks

theorem profile_cuts {cad : Cad} (hb : BoxMoves cad) {j : Job} (hk : KeepsBelow cad j.top) {wire : List Edge} {offset : ℚ}
    {stepdown : Option ℚ} {cs : List Motion} (hs : ∀ s, stepdown = some s → 0 ≤ s)
    (h : profile cad j wire offset stepdown none = .ok cs) (hw : PlainContours cad j offset wire) :
    CutsProfile cad j offset stepdown wire cs := by
  obtain ⟨ws, h1, h⟩ := bind_ok.mp h
  unfold profileWires at h1
  cases hr : j.toolRadius with
  | none => rw [hr] at h1; cases h1
  | some r =>
  rw [hr] at h1
  obtain ⟨bases, ho, h1⟩ := bind_ok.mp h1
  obtain ⟨lss, h2, h1⟩ := bind_ok.mp h1
  cases h1
  have hlay : List.Forall₂ (fun base layers => PassesOf cad stepdown base layers ∧
      ∀ w ∈ layers, WireOK w ∧ NearestIsVertex cad w) bases lss := by
    refine forall₂_imp_mem (mapE_ok.mp h2) ?_
    · intro base hbase layers hf
      have hpb := hw r bases hr ho base hbase
      obtain ⟨ls, hl, hf⟩ := bind_ok.mp hf
      cases hf
      constructor
      · cases stepdown with
        | none => cases hl; exact .inl ⟨rfl, rfl⟩
        | some s =>
          rcases (hs s rfl).eq_or_lt with rfl | hpos
          · rw [(C46_single_pass cad j.top base).2] at hl
            cases hl; exact .inl ⟨rfl, rfl⟩
          · right
            refine ⟨s, rfl, hpos, ?_⟩
            obtain ⟨k1, k2⟩ := C46_passes_partial hb hk hpb.ok.nonempty hpos
            rcases lt_or_ge (cad.zmin base + 101 * s) (-1 / 1000) with hz | hz
            · rw [k1 hz] at hl; cases hl
            · obtain ⟨ls', g1, g2⟩ := k2 hz
              rw [hl] at g1
              cases g1
              exact g2
      · intro w hwl
        rcases profileLayers_mem hl w hwl with rfl | ⟨s', -, k, -, -, rfl, -⟩
        · exact ⟨hpb.ok, by have := hpb.vertex 0; rwa [map_up_zero] at this⟩
        · exact ⟨wireOK_up hpb.ok _, hpb.vertex _⟩
  have hall : ∀ w ∈ lss.flatten, WireOK w ∧ NearestIsVertex cad w := by
    intro w hwm
    obtain ⟨l, hl, hwl⟩ := List.mem_flatten.mp hwm
    obtain ⟨b, -, -, hb⟩ := forall2_right hlay hl
    exact hb w hwl
  obtain ⟨bs, h4, h5⟩ := routeWires_whole (veq := cad.veq) (search := cad.search) (j := j) (ws := lss.flatten)
    (fun w hw => (hall w hw).2) (fun w hw => (hall w hw).1)
  rw [h4] at h
  cases h
  obtain ⟨blocks, rfl, h6⟩ := forall₂_flatten_left h5
  refine ⟨r, bases, hr, ho, blocks, rfl, ?_⟩
  refine (forall₂_trans hlay h6).imp ?_
  rintro base block ⟨layers, -, ⟨g1, g2⟩, g3⟩
  exact ⟨layers, g1, fun w hw => (g2 w hw).1, g3⟩

theorem profiles_cut {cad : Cad} (hb : BoxMoves cad) {j : Job} (hk : KeepsBelow cad j.top) {wires : List (List Edge)} {offset : ℚ}
    {stepdown : Option ℚ} {cs : List Motion} (hs : ∀ s, stepdown = some s → 0 ≤ s) (hsafe : 0 ≤ j.opSafeHeight)
    (h : profiles cad j offset stepdown none wires = .ok cs) (hw : ∀ w ∈ wires, PlainContours cad j offset w) :
    (∀ p, Tracks p cs) ∧ ∃ css, cs = List.flatten css ∧ List.Forall₂ (CutsProfile cad j offset stepdown) wires css := by
  obtain ⟨css, hm, h⟩ := bind_ok.mp h
  cases h
  refine ⟨tracks_flatten ?_, css, rfl, ?_⟩
  · intro b hbm
    obtain ⟨w, hwm, hp⟩ := mapE_mem hm hbm
    exact tracks_connected (profile_moves hb hp hsafe (hw w hwm)).1
  · exact forall₂_imp_mem (mapE_ok.mp hm) (fun w hwm cs h1 => profile_cuts hb hk hs h1 (hw w hwm))

/-! ### The machine -/

/-- A move the machine performs with the spindle running if it is a feed move. -/
def Runs (e : Event) (c : Motion) : Prop := FollowsMove e c ∧ (isFeedMove e = true → e.st.spindle = .cw)

theorem within_rnd (a : Vec) : Vec.Within (1 / 2000) ⟨rnd 3 a.x, rnd 3 a.y, rnd 3 a.z⟩ a := ⟨abs_rnd3 _, abs_rnd3 _, abs_rnd3 _⟩

theorem runs_straight {f : PyNum} {a b : Vec} {c : Motion} {e : Event} (h : Runs e c) (hc : StraightMove f a b c) :
    RunsStraight f.value a b e := by
  obtain ⟨⟨⟨tgt, ctr, hact, hx, hy, hz, hctr, hfeed⟩, hst⟩, hsp⟩ := h
  obtain ⟨hk, ha, hb, hf⟩ := hc
  rw [ha] at hst
  rw [hb] at hx hy hz
  rw [hk] at hact hfeed
  refine ⟨hsp (by simp [isFeedMove, hact, MKind.mot]), hfeed rfl _ hf, _, _, ctr, pos_of_agrees_vec hst, ?_, within_rnd a, within_rnd b⟩
  rw [hact]
  congr 1
  ext1
  · exact hx.1 _ rfl
  · exact hy.1 _ rfl
  · exact hz.1 _ rfl

theorem travelKind_arc (E : Edge) : E.travelKind.isArc = true ∧ E.travelKind.isFeed = true ∧
    (E.travelKind.mot = .cw ∨ E.travelKind.mot = .ccw) := by
  unfold Edge.travelKind
  split <;> exact ⟨rfl, rfl, by first | exact .inl rfl | exact .inr rfl⟩

theorem runs_arc {f : PyNum} {E : Edge} {p r : ℚ} {c : Motion} {e : Event} (h : Runs e c) (hc : ArcMove f E p r c) :
    RunsArc f.value E.travelKind.mot (E.posParam p) (E.posParam r) E.center e := by
  obtain ⟨⟨⟨tgt, ctr, hact, hx, hy, hz, hctr, hfeed⟩, hst⟩, hsp⟩ := h
  obtain ⟨hk, ha, hb, hf, ho, -⟩ := hc
  obtain ⟨t1, t2, t3⟩ := travelKind_arc E
  rw [ha] at hst
  rw [hb] at hx hy hz
  rw [hk] at hact hfeed
  have harc : c.kind.isArc = true := by rw [hk]; exact t1
  have hcx : ctr.x = some (rnd 3 (E.center.x - (E.posParam p).x)) := by
    rw [hctr, centreOff, if_pos harc, ha, ho]; rfl
  have hcy : ctr.y = some (rnd 3 (E.center.y - (E.posParam p).y)) := by
    rw [hctr, centreOff, if_pos harc, ha, ho]; rfl
  refine ⟨hsp ?_, hfeed t2 _ hf, _, _, ctr,
    ⟨rnd 3 (E.posParam p).x + rnd 3 (E.center.x - (E.posParam p).x), rnd 3 (E.posParam p).y + rnd 3 (E.center.y - (E.posParam p).y)⟩,
    pos_of_agrees_vec hst, ?_, ?_, ?_, within_rnd _, within_rnd _, ?_, ?_⟩
  · rcases t3 with t | t <;> simp [isFeedMove, hact, t]
  · rw [hact]
    congr 1
    ext1
    · exact hx.1 _ rfl
    · exact hy.1 _ rfl
    · exact hz.1 _ rfl
  · rw [hcx]; simp
  · rw [hcy]; simp
  · have p1 := abs_le.mp (abs_rnd3 (E.posParam p).x)
    have p2 := abs_le.mp (abs_rnd3 (E.center.x - (E.posParam p).x))
    dsimp only
    rw [abs_le]
    constructor <;> linarith [p1.1, p1.2, p2.1, p2.2]
  · have p1 := abs_le.mp (abs_rnd3 (E.posParam p).y)
    have p2 := abs_le.mp (abs_rnd3 (E.center.y - (E.posParam p).y))
    dsimp only
    rw [abs_le]
    constructor <;> linarith [p1.1, p1.2, p2.1, p2.2]

theorem runs_edge {veq : Vec → Vec → Bool} {f : PyNum} {E : Edge} {cs : List Motion} {evs : List Event} (hok : EdgeOK E)
    (h : List.Forall₂ Runs evs cs) (hc : MovesAlongEdge veq f E cs) : RunsEdge veq f.value E evs := by
  have e0 := pos_fromParam hok
  have e1 := pos_toParam hok
  rcases hc with ⟨hg, c, rfl, hc⟩ | ⟨hg, hcl, c1, c2, rfl, h1, h2⟩ | ⟨hg, hcl, hc⟩ | ⟨hg, -, -, n, hn, hlen, hc⟩
  · cases h with
    | cons h1 h2 =>
      cases h2
      rw [e0, e1] at hc
      exact .inl ⟨hg, _, rfl, runs_straight h1 hc⟩
  · cases h with
    | cons g1 h =>
      cases h with
      | cons g2 h =>
        cases h
        have k1 := runs_arc g1 h1
        have k2 := runs_arc g2 h2
        rw [e0] at k1
        rw [e1] at k2
        exact .inr (.inl ⟨hg, hcl, _, _, rfl, k1, k2⟩)
  · refine .inr (.inr (.inl ⟨hg, hcl, ?_⟩))
    rcases hc with ⟨hv, c, rfl, hc⟩ | ⟨hv, c, rfl, hc⟩
    · cases h with
      | cons h1 h2 =>
        cases h2
        rw [e0, e1] at hv hc
        exact ⟨_, rfl, by rw [if_pos hv]; exact runs_straight h1 hc⟩
    · cases h with
      | cons h1 h2 =>
        cases h2
        have k := runs_arc h1 hc
        rw [e0, e1] at hv k
        exact ⟨_, rfl, by rw [if_neg (by simp [hv])]; exact k⟩
  · refine .inr (.inr (.inr ⟨hg, n, hn, h.length_eq.trans hlen, ?_⟩))
    intro k e hke
    obtain ⟨hk, rfl⟩ := List.getElem?_eq_some_iff.mp hke
    have hk' : k < cs.length := h.length_eq ▸ hk
    exact runs_straight (h.get hk hk') (hc k cs[k] (List.getElem?_eq_getElem hk'))

theorem runs_approach {c : Motion} {e : Event} (h : Runs e c) (hc : c.kind.mot = .rapid ∨ (c.kind = .plungeCut ∧ ¬ Lateral c)) :
    Approaches e := by
  obtain ⟨⟨⟨tgt, ctr, hact, hx, hy, hz, hctr, hfeed⟩, hst⟩, hsp⟩ := h
  refine ⟨_, tgt, ctr, hact, ?_⟩
  rcases hc with hc | ⟨hc, hl⟩
  · exact .inl hc
  · refine .inr ⟨by rw [hc]; rfl, ?_, ?_⟩
    · have hs : c.start.x = c.fin.x := by by_contra hne; exact hl (.inl hne)
      cases hf : c.fin.x with
      | none => exact hx.2 hf
      | some v => rw [hx.1 v hf, hst.1 v (hs.trans hf)]
    · have hs : c.start.y = c.fin.y := by by_contra hne; exact hl (.inr hne)
      cases hf : c.fin.y with
      | none => exact hy.2 hf
      | some v => rw [hy.1 v hf, hst.2.1 v (hs.trans hf)]

theorem runs_wire {veq : Vec → Vec → Bool} {f : PyNum} {w : List Edge} {cs : List Motion} {evs : List Event} (hok : WireOK w)
    (h : List.Forall₂ Runs evs cs) (hc : WholeWire veq f none w cs) : RunsWire veq f.value w evs := by
  obtain ⟨k, entry, parts, rfl, hentry, hparts⟩ := hc
  rcases hentry with ⟨hap, rfl⟩ | ⟨c, e, s, -, -, -, hs, -⟩
  · obtain ⟨ev1, ev2, g1, g2, rfl⟩ := forall₂_append_left h.flip
    obtain ⟨evp, rfl, g3⟩ := forall₂_flatten_left g2
    refine ⟨ev1, evp, rfl, ?_, ?_⟩
    · intro e he
      obtain ⟨c, hc, hec⟩ := forall2_right g1 he
      exact runs_approach hec (hap c hc)
    · have hparts : List.Forall₂ (MovesAlongEdge veq f) w parts := by simpa [rotateEdges] using hparts
      refine forall₂_imp_mem (forall₂_trans hparts g3) ?_
      rintro E hE evs ⟨cs, -, k1, k2⟩
      exact runs_edge (hok.edgeOK E hE) k2.flip k1
  · cases hs

theorem runs_profile {cad : Cad} {j : Job} {offset : ℚ} {stepdown : Option ℚ} {wire : List Edge} {cs : List Motion} {evs : List Event}
    {r : ℚ} (hr : j.toolRadius = some r) (h : List.Forall₂ Runs evs cs) (hc : CutsProfile cad j offset stepdown wire cs) :
    RunsProfile cad j.top j.feed.value r offset stepdown wire evs := by
  obtain ⟨r', bases, hr', ho, blocks, rfl, hb⟩ := hc
  rw [hr] at hr'
  cases hr'
  obtain ⟨ev1, rfl, g1⟩ := forall₂_flatten_left h.flip
  obtain ⟨ev2, rfl, g2⟩ := forall₂_flatten_left g1
  refine ⟨bases, ho, ev2, rfl, ?_⟩
  refine (forall₂_trans hb g2).imp ?_
  rintro base evb ⟨block, -, ⟨layers, hp, hok, hw⟩, hev⟩
  refine ⟨layers, hp, ?_⟩
  refine forall₂_imp_mem (forall₂_trans hw hev) ?_
  rintro w hwm evs ⟨cs, -, k1, k2⟩
  exact runs_wire (hok w hwm) k2.flip k1

theorem runs_profiles {cad : Cad} {j : Job} {offset : ℚ} {stepdown : Option ℚ} {r : ℚ} (hr : j.toolRadius = some r)
    {wires : List (List Edge)} {css : List (List Motion)} {evs : List Event} (h : List.Forall₂ Runs evs css.flatten)
    (hc : List.Forall₂ (CutsProfile cad j offset stepdown) wires css) :
    ∃ evss, evs = List.flatten evss ∧ List.Forall₂ (RunsProfile cad j.top j.feed.value r offset stepdown) wires evss := by
  obtain ⟨evss, rfl, g⟩ := forall₂_flatten_left h.flip
  refine ⟨evss, rfl, ?_⟩
  refine (forall₂_trans hc g).imp ?_
  rintro w ev ⟨cs, -, h1, h2⟩
  exact runs_profile hr h2.flip h1

theorem runs_of {part : List Event} {cs : List Motion} (h : List.Forall₂ FollowsMove (part.filter isMove) cs)
    (hp : ∀ e ∈ part, isFeedMove e = true → e.st.spindle = .cw) : List.Forall₂ Runs (part.filter isMove) cs :=
  forall₂_imp_mem h (fun e he _ hec => ⟨hec, hp e (List.mem_of_mem_filter he)⟩)

/-- C101 for `wire_profile` (as far as it holds: see `C101_violated`, and `C46_violated` for passes that are left out).  In the program of any job with a wire profile (without tabs) in it, the moves of the machine in the part of
the operation are: for each given wire, for each contour at the given distance from it, for each pass an approach, then along all edges of
the pass, in order, with the spindle running and the operation's feed in force. -/
theorem C101_wire_profile_partial {cad : Cad} (hb : BoxMoves cad) {wires : List (List Edge)} {offset r : ℚ} {stepdown : Option ℚ}
    {tool : Option Tool} {j0 j1 j2 jf : Job} {before after : List Request} (m : Machine) (h0 : InitOK j0)
    (hn : ∀ v, j0.toolNumber = some v → NumOK v)
    (hok : ChainOK j0 (before ++ wireProfileRequest cad wires offset stepdown none tool :: after))
    (h1 : j0.chain before = .ok j1) (h2 : (j1.call (wireProfileRequest cad wires offset stepdown none tool)).2 = .ok j2)
    (h3 : j2.chain after = .ok jf) (hend : m.ended = false) (htool : ∀ n, j0.toolNumber = some n → m.tool = some n.value)
    (hk : KeepsBelow cad j0.top) (hs : ∀ s, stepdown = some s → 0 ≤ s) (hsafe : 0 ≤ j0.opSafeHeight)
    {j : Job} (hj : (j1.updateTool tool).2 = j) (hr : j.toolRadius = some r) (hw : ∀ w ∈ wires, PlainContours cad j offset w) :
    ∃ t m' pre part post evss, jf.toGcode = .ok t ∧ runText m t = some (m', pre ++ part ++ post) ∧
      part.filter isMove = List.flatten evss ∧
      List.Forall₂ (RunsProfile cad j0.top j.feed.value r offset stepdown) wires evss := by
  obtain ⟨t, m', pre, part, post, cs, ht, hrun, hgen, -, hfol, hpart⟩ := C94_followed m h0 hn hok h1 h2 h3 hend htool
  subst hj
  have hbase : SameBase j0 (j1.updateTool tool).2 := updateTool_base (chain_base (show SameBase j0 j0 from rfl) h1) _
  have htop : j0.top = (j1.updateTool tool).2.top := by rw [hbase]
  have hsafe' : j0.opSafeHeight = (j1.updateTool tool).2.opSafeHeight := by rw [hbase]
  obtain ⟨htr, css, rfl, hcss⟩ := profiles_cut hb (htop ▸ hk) hs (hsafe' ▸ hsafe) hgen hw
  obtain ⟨evss, he, hev⟩ := runs_profiles hr (runs_of (hfol (htr _)) (fun e he => (hpart e he).2)) hcss
  exact ⟨t, m', pre, part, post, evss, ht, hrun, he, by rw [htop]; exact hev⟩

theorem profilesOpt_runs {cad : Cad} (hb : BoxMoves cad) {j : Job} (hk : KeepsBelow cad j.top) {wires : List (List Edge)}
    {offset : Option ℚ} {stepdown : Option ℚ} {cs : List Motion} (hs : ∀ s, stepdown = some s → 0 ≤ s) (hsafe : 0 ≤ j.opSafeHeight)
    (h : profilesOpt cad j offset stepdown none wires = .ok cs) (hw : ∀ o, offset = some o → ∀ w ∈ wires, PlainContours cad j o w)
    {r : ℚ} (hr : j.toolRadius = some r) :
    (∀ p, Tracks p cs) ∧ ∀ evs, List.Forall₂ Runs evs cs →
      ∃ evss, evs = List.flatten evss ∧ RunsProfiles cad j.top j.feed.value r offset stepdown wires evss := by
  cases offset with
  | none =>
    cases h
    refine ⟨fun _ => trivial, fun evs h => ?_⟩
    cases h
    exact ⟨[], rfl, rfl⟩
  | some o =>
    obtain ⟨htr, css, rfl, hcss⟩ := profiles_cut hb hk hs hsafe h (hw o rfl)
    exact ⟨htr, fun evs h => runs_profiles hr h hcss⟩

/-- C101 for `profile` (as far as it holds, see above): first the inner wires of the given faces, then the outer wires and the given wires, each with its own offset. -/
theorem C101_profile_partial {cad : Cad} (hb : BoxMoves cad) {shapes : List Shape} {outerOffset innerOffset : Option ℚ} {r : ℚ}
    {stepdown : Option ℚ} {tool : Option Tool} {j0 j1 j2 jf : Job} {before after : List Request} (m : Machine) (h0 : InitOK j0)
    (hn : ∀ v, j0.toolNumber = some v → NumOK v)
    (hok : ChainOK j0 (before ++ profileRequest cad shapes outerOffset innerOffset stepdown none tool :: after))
    (h1 : j0.chain before = .ok j1)
    (h2 : (j1.call (profileRequest cad shapes outerOffset innerOffset stepdown none tool)).2 = .ok j2)
    (h3 : j2.chain after = .ok jf) (hend : m.ended = false) (htool : ∀ n, j0.toolNumber = some n → m.tool = some n.value)
    (hk : KeepsBelow cad j0.top) (hs : ∀ s, stepdown = some s → 0 ≤ s) (hsafe : 0 ≤ j0.opSafeHeight)
    {j : Job} (hj : (j1.updateTool tool).2 = j) (hr : j.toolRadius = some r)
    (hwo : ∀ o, outerOffset = some o → ∀ w ∈ outerWires shapes, PlainContours cad j o w)
    (hwi : ∀ o, innerOffset = some o → ∀ w ∈ innerWires shapes, PlainContours cad j o w) :
    ∃ t m' pre part post inner outer, jf.toGcode = .ok t ∧ runText m t = some (m', pre ++ part ++ post) ∧
      part.filter isMove = List.flatten inner ++ List.flatten outer ∧
      RunsProfiles cad j0.top j.feed.value r innerOffset stepdown (innerWires shapes) inner ∧
      RunsProfiles cad j0.top j.feed.value r outerOffset stepdown (outerWires shapes) outer := by
  obtain ⟨t, m', pre, part, post, cs, ht, hrun, hgen, -, hfol, hpart⟩ := C94_followed m h0 hn hok h1 h2 h3 hend htool
  subst hj
  have hbase : SameBase j0 (j1.updateTool tool).2 := updateTool_base (chain_base (show SameBase j0 j0 from rfl) h1) _
  have htop : j0.top = (j1.updateTool tool).2.top := by rw [hbase]
  have hsafe' : j0.opSafeHeight = (j1.updateTool tool).2.opSafeHeight := by rw [hbase]
  change (do
    let (outers, inners) ← extractWires shapes
    let a ← profilesOpt cad (j1.updateTool tool).2 innerOffset stepdown none inners
    let b ← profilesOpt cad (j1.updateTool tool).2 outerOffset stepdown none outers
    Except.ok (a ++ b)) = .ok cs at hgen
  obtain ⟨⟨os, is⟩, hx, hgen⟩ := bind_ok.mp hgen
  obtain ⟨a, ha, hgen⟩ := bind_ok.mp hgen
  obtain ⟨b, hb', hgen⟩ := bind_ok.mp hgen
  cases hgen
  have hsh : Shape.other ∉ shapes := by
    intro ho
    rw [(extractWires_eq shapes).1 ho] at hx
    cases hx
  rw [(extractWires_eq shapes).2 hsh] at hx
  cases hx
  obtain ⟨t1, k1⟩ := profilesOpt_runs hb (htop ▸ hk) hs (hsafe' ▸ hsafe) ha hwi hr
  obtain ⟨t2, k2⟩ := profilesOpt_runs hb (htop ▸ hk) hs (hsafe' ▸ hsafe) hb' hwo hr
  have hruns := runs_of (hfol (tracks_append.mpr ⟨t1 _, t2 _⟩)) (fun e he => (hpart e he).2)
  obtain ⟨e1, e2, g1, g2, hsplit⟩ := forall₂_append_left hruns.flip
  obtain ⟨inner, rfl, hin⟩ := k1 e1 g1.flip
  obtain ⟨outer, rfl, hout⟩ := k2 e2 g2.flip
  exact ⟨t, m', pre, part, post, inner, outer, ht, hrun, hsplit, by rw [htop]; exact hin, by rw [htop]; exact hout⟩

/-! ### Where it fails -/

/-- A kernel for which the offset of any wire is the triangle and the slot. -/
def overshootCad : Cad := { flatCad with search := slotSearch, offset2D := fun _ _ => .ok [demoTriangle, demoSlot] }

/-- Feeding straight from (0, 0) to (30, 0) at depth 1. -/
def runsPast (e : Event) : Bool := decide (e.st.pos = Vec.pos ⟨0, 0, -1⟩ ∧ e.st.spindle = .cw) &&
  match e.act with
  | .move .linear tgt _ => decide (tgt = Vec.pos ⟨30, 0, -1⟩)
  | _ => false

/-- C101 is false: when the tool goes on to a further contour of the same wire, the machine may run far past the contour, through
whatever is there (see `C30_violated_overshoot`). -/
theorem C101_violated : ∃ j2 t m' evs, BoxMoves overshootCad ∧ KeepsBelow overshootCad twoJob.top ∧
    offsetWire overshootCad (demoSlot.map (Edge.toLocal twoJob.top)) 1 = .ok [demoTriangle, demoSlot] ∧
    (twoJob.call (wireProfileRequest overshootCad [demoSlot] 1 none none none)).2 = .ok j2 ∧ j2.toGcode = .ok t ∧
    runText {} t = some (m', evs) ∧ ∃ e ∈ evs, ∃ ctr, e.st.spindle = .cw ∧ e.st.pos = Vec.pos ⟨0, 0, -1⟩ ∧
      e.act = .move .linear (Vec.pos ⟨30, 0, -1⟩) ctr ∧ ∀ w ∈ [demoTriangle, demoSlot], ¬ OnWire w ⟨30, 0, -1⟩ := by
  obtain ⟨j2, t, m', evs, h1, h2, h3, e, he, h4⟩ := run_witness (j := twoJob) (bad := runsPast)
    (r := wireProfileRequest overshootCad [demoSlot] 1 none none none) twoJob_ok (by rintro v ⟨⟩) (by decide +kernel) rfl
    (by unfold SafeName; decide) (by decide +kernel)
  obtain ⟨-, -, -, -, c, -, -, -, -, hoff⟩ := C30_violated_overshoot
  simp only [runsPast, Bool.and_eq_true, decide_eq_true_eq] at h4
  obtain ⟨⟨h5, h6⟩, h7⟩ := h4
  refine ⟨j2, t, m', evs, flatCad_boxMoves, flatCad_keepsBelow, ?_, h1, h2, h3, e, he, ?_⟩
  · have hv : [demoTriangle, demoSlot].filter (offsetValid overshootCad) = [demoTriangle, demoSlot] := by
      have : ∀ w, offsetValid overshootCad w = true := fun w => by
        change decide ((1 : ℚ) > 1 / 10) = true
        decide +kernel
      simp [this]
    change Except.ok (circleBugWorkaround overshootCad demoSlot ([demoTriangle, demoSlot].filter (offsetValid overshootCad))) = _
    rw [hv]
    rfl
  · split at h7
    · rename_i tgt ctr hact
      exact ⟨ctr, h6, h5, by rw [hact, of_decide_eq_true h7], hoff⟩
    · cases h7

/-! ### An example of the conditions -/

theorem runsEdge_ne {veq : Vec → Vec → Bool} {F : ℚ} {E : Edge} {evs : List Event} (h : RunsEdge veq F E evs) : evs ≠ [] := by
  rcases h with ⟨-, e, rfl, -⟩ | ⟨-, -, e1, e2, rfl, -⟩ | ⟨-, -, e, rfl, -⟩ | ⟨-, n, hn, hl, -⟩
  · simp
  · simp
  · simp
  · rintro rfl; simp at hl; omega

/-- The hypotheses of `C101_wire_profile_partial`: the slot with the round end, in two passes. -/
example : ∃ j2 t m' pre part post evs, (twoJob.call (wireProfileRequest flatCad [roundSlot] 1 (some (3 / 5)) none none)).2 = .ok j2 ∧
    j2.toGcode = .ok t ∧ runText {} t = some (m', pre ++ part ++ post) ∧ part.filter isMove = evs ∧ evs ≠ [] ∧
    RunsProfile flatCad Frame.xy 500 1 1 (some (3 / 5)) roundSlot evs := by
  obtain ⟨cs, hg, hr, hc⟩ := call_good (j := twoJob) (r := wireProfileRequest flatCad [roundSlot] 1 (some (3 / 5)) none none)
    (by decide +kernel) rfl (by unfold SafeName; decide) (by decide +kernel)
  obtain ⟨t, m', pre, part, post, evss, a1, a2, a3, a4⟩ := C101_wire_profile_partial (cad := flatCad) flatCad_boxMoves (wires := [roundSlot]) (offset := 1)
    (r := 1) (stepdown := some (3 / 5)) (tool := none) (before := []) (after := []) {} twoJob_ok (by rintro v ⟨⟩)
    (show ChainOK twoJob [_] from ⟨hr, fun _ _ => trivial⟩) rfl hc rfl rfl (by rintro n ⟨⟩) flatCad_keepsBelow
    (by rintro s ⟨⟩; norm_num) (by decide +kernel) rfl (by decide +kernel) (by
      intro w hw r bases h1 h2 b hb
      cases List.mem_singleton.mp hw
      rw [show (twoJob.updateTool none).2.toolRadius = some 1 from by decide +kernel] at h1
      cases h1
      have h2' : offsetWire flatCad (roundSlot.map (Edge.toLocal twoJob.top)) (1 * 1) = .ok bases := h2
      rw [roundSlot_offset] at h2'
      cases h2'
      cases List.mem_singleton.mp hb
      exact roundSlot_plain)
  cases a4 with
  | cons h1 h2 =>
    cases h2
    rename_i evs
    refine ⟨_, t, m', pre, part, post, evs, hc, a1, a2, by simpa using a3, ?_, ?_⟩
    · rintro rfl
      obtain ⟨bases, ho, blocks, he, hb⟩ := h1
      change offsetWire flatCad (roundSlot.map (Edge.toLocal twoJob.top)) (1 * 1) = .ok bases at ho
      rw [roundSlot_offset] at ho
      cases ho
      cases hb with
      | cons k1 k2 =>
        cases k2
        obtain ⟨layers, hp, hw⟩ := k1
        have hlast : roundSlot ∈ layers := by
          rcases hp with ⟨hz, -⟩ | ⟨s, -, -, n, -, -, -, -, hl⟩
          · norm_num at hz
          · exact List.mem_of_getLast? hl
        obtain ⟨ev, hev, entry, parts, rfl, -, hparts⟩ := forall2_left hw hlast
        have hpe : ∀ l ∈ parts, l = [] := by
          intro l hl
          have h1 := List.flatten_eq_nil_iff.mp he.symm _ (List.mem_flatten.mpr ⟨_, by simp, hev⟩)
          exact List.flatten_eq_nil_iff.mp (List.append_eq_nil_iff.mp h1).2 l hl
        obtain ⟨l, hl, hrun⟩ := forall2_left hparts (show halfCircle ∈ roundSlot by simp [roundSlot])
        exact runsEdge_ne hrun (hpe l hl)
    · have : (twoJob.updateTool none).2.feed.value = 500 := by decide +kernel
      rw [this] at h1
      exact h1

end CQ
