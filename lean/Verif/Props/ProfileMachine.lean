import Verif.Props.TabClear

/-! # C115 on the machine -/

namespace CQ

/-- The coordinates of the machine are those of the move, rounded. -/
theorem keepsOff_follows {part : Pt → Prop} {s : ℚ} (hs : 0 ≤ s) {e : Event} {c : Motion} (hf : FollowsMove e c)
    (hk : c.kind.mot ≠ .rapid) (hl : Located c) (ha : ∀ p, Sweeps c p → Away part (s + 1 / 1000) p) : KeepsOff part s e := by
  obtain ⟨⟨tgt, ctr, hact, hx, hy, -, hctr, -⟩, hst⟩ := hf
  obtain ⟨⟨a, hax, hay⟩, ⟨b, hbx, hby⟩, ho⟩ := hl
  refine ⟨_, tgt, ctr, ⟨rnd 3 a.x, rnd 3 a.y⟩, ⟨rnd 3 b.x, rnd 3 b.y⟩, hact, hst.1 _ hax, hst.2.1 _ hay, hx.1 _ hbx, hy.1 _ hby, ?_⟩
  have harc : c.kind.isArc = true → (∀ p, ∀ o : Pt, c.center.AtXY o → OnArc (c.kind.mot = .ccw) o a b p → Away part (s + 1 / 1000) p) →
      ∃ a' b' o o' : Pt, ctr.x = some (o.x - rnd 3 a.x) ∧ ctr.y = some (o.y - rnd 3 a.y) ∧
        Pt.Near (1 / 2000) ⟨rnd 3 a.x, rnd 3 a.y⟩ a' ∧ Pt.Near (1 / 2000) ⟨rnd 3 b.x, rnd 3 b.y⟩ b' ∧ o.Near (1 / 1000) o' ∧
        ∀ p, OnArc (c.kind.mot = .ccw) o' a' b' p → Away part (s + 1 / 1000) p := by
    intro hk' h
    obtain ⟨o, hox, hoy⟩ := ho hk'
    have hcx : ctr.x = some (rnd 3 (o.x - a.x)) := by
      rw [hctr, centreOff, if_pos hk', hox, hax]; rfl
    have hcy : ctr.y = some (rnd 3 (o.y - a.y)) := by
      rw [hctr, centreOff, if_pos hk', hoy, hay]; rfl
    refine ⟨a, b, ⟨rnd 3 a.x + rnd 3 (o.x - a.x), rnd 3 a.y + rnd 3 (o.y - a.y)⟩, o, by rw [hcx]; simp, by rw [hcy]; simp,
      ⟨abs_rnd3 _, abs_rnd3 _⟩, ⟨abs_rnd3 _, abs_rnd3 _⟩, ⟨?_, ?_⟩, fun p hp => h p o ⟨hox, hoy⟩ hp⟩
    · have p1 := abs_le.mp (abs_rnd3 a.x)
      have p2 := abs_le.mp (abs_rnd3 (o.x - a.x))
      dsimp only
      rw [abs_le]
      constructor <;> linarith [p1.1, p1.2, p2.1, p2.2]
    · have p1 := abs_le.mp (abs_rnd3 a.y)
      have p2 := abs_le.mp (abs_rnd3 (o.y - a.y))
      dsimp only
      rw [abs_le]
      constructor <;> linarith [p1.1, p1.2, p2.1, p2.2]
  cases hm : c.kind.mot with
  | rapid => exact absurd hm hk
  | linear =>
    refine .inl ⟨rfl, fun p hp => ?_⟩
    obtain ⟨t, t0, t1, rfl⟩ := hp
    have hsw : Sweeps c (a.lerp b t) := ⟨a, b, ⟨hax, hay⟩, ⟨hbx, hby⟩, by rw [hm]; exact ⟨t, t0, t1, rfl⟩⟩
    refine away_near (ha _ hsw) (τ := 1 / 1000) ?_ hs (by norm_num) (le_abs_self _)
    have key : ∀ u v : ℚ, |rnd 3 u + t * (rnd 3 v - rnd 3 u) - (u + t * (v - u))| ≤ 1 / 2000 := by
      intro u v
      have p1 := abs_le.mp (abs_rnd3 u)
      have p2 := abs_le.mp (abs_rnd3 v)
      rw [show rnd 3 u + t * (rnd 3 v - rnd 3 u) - (u + t * (v - u)) = (1 - t) * (rnd 3 u - u) + t * (rnd 3 v - v) by ring, abs_le]
      constructor <;> nlinarith [p1.1, p1.2, p2.1, p2.2]
    have kx := abs_le.mp (key a.x b.x)
    have ky := abs_le.mp (key a.y b.y)
    simp only [sqDist, Pt.lerp]
    nlinarith [kx.1, kx.2, ky.1, ky.2]
  | cw =>
    refine .inr ⟨.inl rfl, ?_⟩
    have hk' : c.kind.isArc = true := by cases hck : c.kind <;> rw [hck] at hm <;> first | rfl | cases hm
    rw [hm] at harc
    refine harc hk' (fun p o hoc hp => ha p ⟨a, b, ⟨hax, hay⟩, ⟨hbx, hby⟩, ?_⟩)
    rw [hm]
    exact ⟨o, hoc, by simpa using hp⟩
  | ccw =>
    refine .inr ⟨.inr rfl, ?_⟩
    have hk' : c.kind.isArc = true := by cases hck : c.kind <;> rw [hck] at hm <;> first | rfl | cases hm
    rw [hm] at harc
    refine harc hk' (fun p o hoc hp => ha p ⟨a, b, ⟨hax, hay⟩, ⟨hbx, hby⟩, ?_⟩)
    rw [hm]
    exact ⟨o, hoc, by simpa using hp⟩

/-- In the program of a chain of calls, the machine keeps off the part during one call whose moves do so and continue each other. -/
theorem chain_keepsOff {j0 j1 j2 jf : Job} {before after : List Request} {r : Request} (m : Machine) (h0 : InitOK j0)
    (hn : ∀ v, j0.toolNumber = some v → NumOK v) (hok : ChainOK j0 (before ++ r :: after))
    (h1 : j0.chain before = .ok j1) (h2 : (j1.call r).2 = .ok j2) (h3 : j2.chain after = .ok jf)
    (hend : m.ended = false) (htool : ∀ n, j0.toolNumber = some n → m.tool = some n.value)
    {part : Pt → Prop} {s : ℚ} (hs : 0 ≤ s)
    (hgen : ∀ cs, r.gen (j1.updateTool r.tool).2 = .ok cs → Tracks {} cs ∧
      ∀ c ∈ cs, c.kind.mot ≠ .rapid → Located c ∧ ∀ p, Sweeps c p → Away part (s + 1 / 1000) p) :
    ∃ t m' pre evs post cs, jf.toGcode = .ok t ∧ runText m t = some (m', pre ++ evs ++ post) ∧
      r.gen (j1.updateTool r.tool).2 = .ok cs ∧ List.Forall₂ Performs (evs.filter isMove) cs ∧
      ∀ e ∈ evs, isFeedMove e = true → KeepsOff part s e := by
  obtain ⟨t, m', pre, evs, post, cs, ht, hrun, hcs, hperf, hfol, -⟩ := C94_followed m h0 hn hok h1 h2 h3 hend htool
  obtain ⟨htr, haw⟩ := hgen cs hcs
  refine ⟨t, m', pre, evs, post, cs, ht, hrun, hcs, hperf, ?_⟩
  intro e he hfm
  have hme : isMove e = true := by
    unfold isFeedMove at hfm
    unfold isMove
    split at hfm <;> first | rfl | cases hfm
  obtain ⟨c, hc, hfc⟩ := forall2_left (hfol htr) (List.mem_filter.mpr ⟨he, hme⟩)
  have hk : c.kind.mot ≠ .rapid := by
    intro hk
    obtain ⟨⟨tgt, ctr, hact, -⟩, -⟩ := hfc
    rw [hk] at hact
    simp [isFeedMove, hact] at hfm
  exact keepsOff_follows hs hfc hk (haw c hc hk).1 (haw c hc hk).2

/-! ### Without tabs -/

theorem profiles_track {cad : Cad} (hb : BoxMoves cad) {j : Job} {wires : List (List Edge)} {offset : ℚ} {stepdown : Option ℚ}
    {cs : List Motion} (hsafe : 0 ≤ j.opSafeHeight) (h : profiles cad j offset stepdown none wires = .ok cs)
    (hw : ∀ w ∈ wires, PlainContours cad j offset w) : ∀ p, Tracks p cs := by
  obtain ⟨css, hm, h⟩ := bind_ok.mp h
  cases h
  refine tracks_flatten ?_
  intro b hbm
  obtain ⟨w, hwm, hp⟩ := mapE_mem hm hbm
  exact tracks_connected (profile_moves hb hp hsafe (hw w hwm)).1

/-- C115 on the machine, for `wire_profile` without tabs (as far as it holds, see `C115_violated`).  In the program of any job with such a
call in it, all feed moves of the machine in the part of the operation keep off the part. -/
theorem C115_machine_wire_profile_partial {cad : Cad} (hb : BoxMoves cad) {wires : List (List Edge)} {offset r : ℚ}
    {stepdown : Option ℚ} {tool : Option Tool} {j0 j1 j2 jf : Job} {before after : List Request} (m : Machine) (h0 : InitOK j0)
    (hn : ∀ v, j0.toolNumber = some v → NumOK v)
    (hok : ChainOK j0 (before ++ wireProfileRequest cad wires offset stepdown none tool :: after))
    (h1 : j0.chain before = .ok j1) (h2 : (j1.call (wireProfileRequest cad wires offset stepdown none tool)).2 = .ok j2)
    (h3 : j2.chain after = .ok jf) (hend : m.ended = false) (htool : ∀ n, j0.toolNumber = some n → m.tool = some n.value)
    (hsafe : 0 ≤ j0.opSafeHeight) {j : Job} (hj : (j1.updateTool tool).2 = j) (hr : j.toolRadius = some r)
    (hw : ∀ w ∈ wires, PlainContours cad j offset w)
    {part : Pt → Prop} {τ s : ℚ} (hrel : ∀ v w, cad.relocate v w = w) (hτ : Tolerance cad j.precision τ)
    (ha : ∀ w ∈ wires, OffsetsSound cad (w.map (Edge.toLocal j.top)) (offset * r) ∧
      OffsetsAway cad part (w.map (Edge.toLocal j.top)) (offset * r))
    (hs : 0 ≤ s) (hsr : s + 1 / 1000 + τ + 1 / 1000000 ≤ |offset * r|) :
    ∃ t m' pre evs post cs, jf.toGcode = .ok t ∧ runText m t = some (m', pre ++ evs ++ post) ∧
      (wireProfileRequest cad wires offset stepdown none tool).gen j = .ok cs ∧ List.Forall₂ Performs (evs.filter isMove) cs ∧
      ∀ e ∈ evs, isFeedMove e = true → KeepsOff part s e := by
  subst hj
  have hbase : SameBase j0 (j1.updateTool tool).2 := updateTool_base (chain_base (show SameBase j0 j0 from rfl) h1) _
  have hsafe' : j0.opSafeHeight = (j1.updateTool tool).2.opSafeHeight := by rw [hbase]
  refine chain_keepsOff m h0 hn hok h1 h2 h3 hend htool hs ?_
  intro cs hcs
  exact ⟨profiles_track hb (hsafe' ▸ hsafe) hcs hw _,
    C115_wire_profile_partial hrel hτ hr ha (by linarith) hsr hcs⟩

/-- C115 on the machine, for `profile` without tabs. -/
theorem C115_machine_profile_partial {cad : Cad} (hb : BoxMoves cad) {shapes : List Shape} {outers inners : List (List Edge)}
    {outerOffset innerOffset : Option ℚ} {r : ℚ} {stepdown : Option ℚ} {tool : Option Tool} {j0 j1 j2 jf : Job}
    {before after : List Request} (m : Machine) (h0 : InitOK j0) (hn : ∀ v, j0.toolNumber = some v → NumOK v)
    (hok : ChainOK j0 (before ++ profileRequest cad shapes outerOffset innerOffset stepdown none tool :: after))
    (h1 : j0.chain before = .ok j1)
    (h2 : (j1.call (profileRequest cad shapes outerOffset innerOffset stepdown none tool)).2 = .ok j2)
    (h3 : j2.chain after = .ok jf) (hend : m.ended = false) (htool : ∀ n, j0.toolNumber = some n → m.tool = some n.value)
    (hsafe : 0 ≤ j0.opSafeHeight) {j : Job} (hj : (j1.updateTool tool).2 = j) (hr : j.toolRadius = some r)
    (hx : extractWires shapes = .ok (outers, inners))
    {part : Pt → Prop} {τ s : ℚ} (hrel : ∀ v w, cad.relocate v w = w) (hτ : Tolerance cad j.precision τ)
    (hw : ∀ w o, (w ∈ outers ∧ outerOffset = some o) ∨ (w ∈ inners ∧ innerOffset = some o) → PlainContours cad j o w ∧
      OffsetsSound cad (w.map (Edge.toLocal j.top)) (o * r) ∧ OffsetsAway cad part (w.map (Edge.toLocal j.top)) (o * r))
    (hs : 0 ≤ s) (hsr : ∀ o, outerOffset = some o ∨ innerOffset = some o → s + 1 / 1000 + τ + 1 / 1000000 ≤ |o * r|) :
    ∃ t m' pre evs post cs, jf.toGcode = .ok t ∧ runText m t = some (m', pre ++ evs ++ post) ∧
      (profileRequest cad shapes outerOffset innerOffset stepdown none tool).gen j = .ok cs ∧
      List.Forall₂ Performs (evs.filter isMove) cs ∧ ∀ e ∈ evs, isFeedMove e = true → KeepsOff part s e := by
  subst hj
  have hbase : SameBase j0 (j1.updateTool tool).2 := updateTool_base (chain_base (show SameBase j0 j0 from rfl) h1) _
  have hsafe' : j0.opSafeHeight = (j1.updateTool tool).2.opSafeHeight := by rw [hbase]
  refine chain_keepsOff m h0 hn hok h1 h2 h3 hend htool hs ?_
  intro cs hcs
  refine ⟨?_, C115_partial hrel hτ hr hx (fun w o h => (hw w o h).2) (by linarith) hsr hcs⟩
  obtain ⟨⟨os, is⟩, h0, hcs⟩ := bind_ok.mp hcs
  rw [hx] at h0
  cases h0
  obtain ⟨a, g1, hcs⟩ := bind_ok.mp hcs
  obtain ⟨b, g2, hcs⟩ := bind_ok.mp hcs
  cases hcs
  refine tracks_append.mpr ⟨?_, ?_⟩
  · cases hi : innerOffset with
    | none => rw [hi] at g1; cases g1; trivial
    | some o =>
      rw [hi] at g1
      exact profiles_track hb (hsafe' ▸ hsafe) g1 (fun w hwm => (hw w o (.inr ⟨hwm, hi⟩)).1) _
  · cases hi : outerOffset with
    | none => rw [hi] at g2; cases g2; trivial
    | some o =>
      rw [hi] at g2
      exact profiles_track hb (hsafe' ▸ hsafe) g2 (fun w hwm => (hw w o (.inl ⟨hwm, hi⟩)).1) _

/-! ### With tabs -/

theorem tabsUsable_fit {cad : Cad} (hA : Assembles cad) (hb : BoxMoves cad) {j : Job} {offset : ℚ} {wire : List Edge} {tabs : Tabs}
    (h : TabsUsable cad j offset wire tabs) :
    ∃ marks : List Edge → List Edge → List (List (ℚ × Transition)) → Prop,
      EachContour cad j offset wire (fun b => TabsFit cad j tabs (marks b) b) := by
  cases tabs with
  | none => exact h.elim
  | edge t =>
    obtain ⟨hnew, hw, hs, hc⟩ := h
    exact ⟨fun _ => EdgeMarks t, fun r bases g1 g2 b hb' => tabsFit_edge hA hb hnew hw hs (hc r bases g1 g2 b hb')⟩
  | wire t =>
    obtain ⟨n, hn, hcount, hw, hc⟩ := h
    refine ⟨fun b => WireMarks n t.width (b.map Edge.length).sum, fun r bases g1 g2 b hb' => ?_⟩
    obtain ⟨k1, k2⟩ := hc r bases g1 g2 b hb'
    exact tabsFit_wire hA hb hn hcount hw k1 k2

theorem profiles_tabs_track {cad : Cad} (hA : Assembles cad) (hb : BoxMoves cad) {j : Job} (hk : KeepsBelow cad j.top)
    {wires : List (List Edge)} {offset : ℚ} {stepdown : Option ℚ} {tabs : Tabs} {cs : List Motion}
    (hs : ∀ s, stepdown = some s → 0 ≤ s) (hsafe : 0 ≤ j.opSafeHeight) (hv : ∀ w, NearestIsVertex cad w)
    (h : profiles cad j offset stepdown (some tabs) wires = .ok cs) (hw : ∀ w ∈ wires, TabsUsable cad j offset w tabs) :
    ∀ p, Tracks p cs := by
  obtain ⟨css, hm, h⟩ := bind_ok.mp h
  cases h
  refine tracks_flatten ?_
  intro b hbm
  obtain ⟨w, hwm, hp⟩ := mapE_mem hm hbm
  obtain ⟨marks, hf⟩ := tabsUsable_fit hA hb (hw w hwm)
  exact tracks_connected (profile_tab_cuts hb hk hs hsafe hv hp hf).1

/-- C115 on the machine, for `wire_profile` with tabs. -/
theorem C115_machine_wire_profile_tabs_partial {cad : Cad} (hA : Assembles cad) (hF : AssemblesFrom cad) (hb : BoxMoves cad)
    {wires : List (List Edge)} {offset r : ℚ} {stepdown : Option ℚ} {tabs : Tabs} {tool : Option Tool} {j0 j1 j2 jf : Job}
    {before after : List Request} (m : Machine) (h0 : InitOK j0) (hn : ∀ v, j0.toolNumber = some v → NumOK v)
    (hok : ChainOK j0 (before ++ wireProfileRequest cad wires offset stepdown (some tabs) tool :: after))
    (h1 : j0.chain before = .ok j1) (h2 : (j1.call (wireProfileRequest cad wires offset stepdown (some tabs) tool)).2 = .ok j2)
    (h3 : j2.chain after = .ok jf) (hend : m.ended = false) (htool : ∀ n, j0.toolNumber = some n → m.tool = some n.value)
    (hk : KeepsBelow cad j0.top) (hst : ∀ s, stepdown = some s → 0 ≤ s) (hsafe : 0 ≤ j0.opSafeHeight)
    (hv : ∀ w, NearestIsVertex cad w) {j : Job} (hj : (j1.updateTool tool).2 = j) (hr : j.toolRadius = some r)
    (hw : ∀ w ∈ wires, TabsUsable cad j offset w tabs)
    {part : Pt → Prop} {τ s : ℚ} (hrel : ∀ v w, cad.relocate v w = w) (hτ : Tolerance cad j.precision τ)
    (ha : ∀ w ∈ wires, OffsetsSound cad (w.map (Edge.toLocal j.top)) (offset * r) ∧
      OffsetsDivisible cad (w.map (Edge.toLocal j.top)) (offset * r) ∧
      OffsetsTabbed cad tabs (w.map (Edge.toLocal j.top)) (offset * r) ∧
      OffsetsAway cad part (w.map (Edge.toLocal j.top)) (offset * r))
    (hs : 0 ≤ s) (hsr : s + 1 / 1000 + τ + 1 / 1000000 ≤ |offset * r|) :
    ∃ t m' pre evs post cs, jf.toGcode = .ok t ∧ runText m t = some (m', pre ++ evs ++ post) ∧
      (wireProfileRequest cad wires offset stepdown (some tabs) tool).gen j = .ok cs ∧ List.Forall₂ Performs (evs.filter isMove) cs ∧
      ∀ e ∈ evs, isFeedMove e = true → KeepsOff part s e := by
  subst hj
  have hbase : SameBase j0 (j1.updateTool tool).2 := updateTool_base (chain_base (show SameBase j0 j0 from rfl) h1) _
  have hsafe' : j0.opSafeHeight = (j1.updateTool tool).2.opSafeHeight := by rw [hbase]
  have htop : j0.top = (j1.updateTool tool).2.top := by rw [hbase]
  refine chain_keepsOff m h0 hn hok h1 h2 h3 hend htool hs ?_
  intro cs hcs
  exact ⟨profiles_tabs_track hA hb (htop ▸ hk) hst (hsafe' ▸ hsafe) hv hcs hw _,
    C115_wire_profile_tabs_partial hrel hF hv hτ hr ha (by linarith) hsr hcs⟩

/-- C115 on the machine, for `profile` with tabs. -/
theorem C115_machine_profile_tabs_partial {cad : Cad} (hA : Assembles cad) (hF : AssemblesFrom cad) (hb : BoxMoves cad)
    {shapes : List Shape} {outers inners : List (List Edge)} {outerOffset innerOffset : Option ℚ} {r : ℚ} {stepdown : Option ℚ}
    {tabs : Tabs} {tool : Option Tool} {j0 j1 j2 jf : Job} {before after : List Request} (m : Machine) (h0 : InitOK j0)
    (hn : ∀ v, j0.toolNumber = some v → NumOK v)
    (hok : ChainOK j0 (before ++ profileRequest cad shapes outerOffset innerOffset stepdown (some tabs) tool :: after))
    (h1 : j0.chain before = .ok j1)
    (h2 : (j1.call (profileRequest cad shapes outerOffset innerOffset stepdown (some tabs) tool)).2 = .ok j2)
    (h3 : j2.chain after = .ok jf) (hend : m.ended = false) (htool : ∀ n, j0.toolNumber = some n → m.tool = some n.value)
    (hk : KeepsBelow cad j0.top) (hst : ∀ s, stepdown = some s → 0 ≤ s) (hsafe : 0 ≤ j0.opSafeHeight)
    (hv : ∀ w, NearestIsVertex cad w) {j : Job} (hj : (j1.updateTool tool).2 = j) (hr : j.toolRadius = some r)
    (hx : extractWires shapes = .ok (outers, inners))
    {part : Pt → Prop} {τ s : ℚ} (hrel : ∀ v w, cad.relocate v w = w) (hτ : Tolerance cad j.precision τ)
    (hw : ∀ w o, (w ∈ outers ∧ outerOffset = some o) ∨ (w ∈ inners ∧ innerOffset = some o) → TabsUsable cad j o w tabs ∧
      OffsetsSound cad (w.map (Edge.toLocal j.top)) (o * r) ∧ OffsetsDivisible cad (w.map (Edge.toLocal j.top)) (o * r) ∧
      OffsetsTabbed cad tabs (w.map (Edge.toLocal j.top)) (o * r) ∧ OffsetsAway cad part (w.map (Edge.toLocal j.top)) (o * r))
    (hs : 0 ≤ s) (hsr : ∀ o, outerOffset = some o ∨ innerOffset = some o → s + 1 / 1000 + τ + 1 / 1000000 ≤ |o * r|) :
    ∃ t m' pre evs post cs, jf.toGcode = .ok t ∧ runText m t = some (m', pre ++ evs ++ post) ∧
      (profileRequest cad shapes outerOffset innerOffset stepdown (some tabs) tool).gen j = .ok cs ∧
      List.Forall₂ Performs (evs.filter isMove) cs ∧ ∀ e ∈ evs, isFeedMove e = true → KeepsOff part s e := by
  subst hj
  have hbase : SameBase j0 (j1.updateTool tool).2 := updateTool_base (chain_base (show SameBase j0 j0 from rfl) h1) _
  have hsafe' : j0.opSafeHeight = (j1.updateTool tool).2.opSafeHeight := by rw [hbase]
  have htop : j0.top = (j1.updateTool tool).2.top := by rw [hbase]
  refine chain_keepsOff m h0 hn hok h1 h2 h3 hend htool hs ?_
  intro cs hcs
  refine ⟨?_, C115_profile_tabs_partial hrel hF hv hτ hr hx (fun w o h => (hw w o h).2) (by linarith) hsr hcs⟩
  obtain ⟨⟨os, is⟩, h0, hcs⟩ := bind_ok.mp hcs
  rw [hx] at h0
  cases h0
  obtain ⟨a, g1, hcs⟩ := bind_ok.mp hcs
  obtain ⟨b, g2, hcs⟩ := bind_ok.mp hcs
  cases hcs
  refine tracks_append.mpr ⟨?_, ?_⟩
  · cases hi : innerOffset with
    | none => rw [hi] at g1; cases g1; trivial
    | some o =>
      rw [hi] at g1
      exact profiles_tabs_track hA hb (htop ▸ hk) hst (hsafe' ▸ hsafe) hv g1 (fun w hwm => (hw w o (.inr ⟨hwm, hi⟩)).1) _
  · cases hi : outerOffset with
    | none => rw [hi] at g2; cases g2; trivial
    | some o =>
      rw [hi] at g2
      exact profiles_tabs_track hA hb (htop ▸ hk) hst (hsafe' ▸ hsafe) hv g2 (fun w hwm => (hw w o (.inl ⟨hwm, hi⟩)).1) _

/-! ### The square -/

theorem innerSquare_plain : PlainContour strictCad twoJob innerSquare where
  ok := innerSquare_ok
  chained := by decide +kernel
  vertex := fun _ _ _ h => by cases h
  level := fun e he => (innerSquare_edges e he).1.flat
  low := by decide +kernel

/-- The hypotheses of `C115_machine_wire_profile_partial`: a square is milled along a larger one, in two passes, with a tool of radius 1. -/
example : ∃ j2 t m' pre evs post cs, (twoJob.call (wireProfileRequest strictCad [innerSquare] 1 (some (3 / 5)) none none)).2 = .ok j2 ∧
    j2.toGcode = .ok t ∧ runText {} t = some (m', pre ++ evs ++ post) ∧ List.Forall₂ Performs (evs.filter isMove) cs ∧
    8 < (cs.filter (fun c => decide (c.kind.mot ≠ .rapid))).length ∧
    ∀ e ∈ evs, isFeedMove e = true → KeepsOff squarePart (99 / 100) e := by
  obtain ⟨cs, hg, hr, hc⟩ := call_good (j := twoJob) (r := wireProfileRequest strictCad [innerSquare] 1 (some (3 / 5)) none none)
    (by decide +kernel) rfl (by unfold SafeName; decide) (by decide +kernel)
  obtain ⟨t, m', pre, evs, post, cs', a1, a2, a3, a4, a5⟩ := C115_machine_wire_profile_partial (cad := strictCad) flatCad_boxMoves
    (wires := [innerSquare]) (offset := 1) (r := 1) (stepdown := some (3 / 5)) (tool := none) (before := []) (after := []) {} twoJob_ok
    (by rintro v ⟨⟩) (show ChainOK twoJob [_] from ⟨hr, fun _ _ => trivial⟩) rfl hc rfl rfl (by rintro n ⟨⟩) (by decide +kernel) rfl
    (by decide +kernel) (innerSquare_contours innerSquare_plain) (part := squarePart) (τ := 3 / 2000) (s := 99 / 100) (fun _ _ => rfl)
    strictCad_tolerance
    (by
      intro w hw
      cases List.mem_singleton.mp hw
      change OffsetsSound strictCad (innerSquare.map (Edge.toLocal twoJob.top)) (1 * 1) ∧
        OffsetsAway strictCad squarePart (innerSquare.map (Edge.toLocal twoJob.top)) (1 * 1)
      rw [innerSquare_local, one_mul]
      exact ⟨innerSquare_sound 1, innerSquare_away⟩) (by norm_num) (by norm_num)
  refine ⟨_, t, m', pre, evs, post, cs', hc, a1, a2, a4, ?_, a5⟩
  have hm : (match (wireProfileRequest strictCad [innerSquare] 1 (some (3 / 5)) none none).gen (twoJob.updateTool none).2 with
    | .ok cs => decide (8 < (cs.filter (fun c => decide (c.kind.mot ≠ .rapid))).length) | .error _ => false) = true := by decide +kernel
  rw [a3] at hm
  exact of_decide_eq_true hm

/-- Those of `C115_machine_wire_profile_tabs_partial`: the same with tabs. -/
example : ∃ j2 t m' pre evs post cs,
    (twoJob.call (wireProfileRequest strictCad [innerSquare] 1 (some (3 / 5)) (some (.edge ⟨3, 1, 1 / 2, none⟩)) none)).2 = .ok j2 ∧
    j2.toGcode = .ok t ∧ runText {} t = some (m', pre ++ evs ++ post) ∧ List.Forall₂ Performs (evs.filter isMove) cs ∧
    16 < (cs.filter (fun c => decide (c.kind.mot ≠ .rapid))).length ∧
    ∀ e ∈ evs, isFeedMove e = true → KeepsOff squarePart (99 / 100) e := by
  obtain ⟨cs, hg, hr, hc⟩ := call_good (j := twoJob)
    (r := wireProfileRequest strictCad [innerSquare] 1 (some (3 / 5)) (some (.edge ⟨3, 1, 1 / 2, none⟩)) none)
    (by decide +kernel) rfl (by unfold SafeName; decide) (by decide +kernel)
  obtain ⟨t, m', pre, evs, post, cs', a1, a2, a3, a4, a5⟩ := C115_machine_wire_profile_tabs_partial (cad := strictCad)
    strictCad_assembles strictCad_from flatCad_boxMoves
    (wires := [innerSquare]) (offset := 1) (r := 1) (stepdown := some (3 / 5)) (tabs := .edge ⟨3, 1, 1 / 2, none⟩) (tool := none)
    (before := []) (after := []) {} twoJob_ok
    (by rintro v ⟨⟩) (show ChainOK twoJob [_] from ⟨hr, fun _ _ => trivial⟩) rfl hc rfl rfl (by rintro n ⟨⟩) flatCad_keepsBelow
    (by rintro s ⟨⟩; norm_num) (by decide +kernel) (fun _ _ _ h => (by cases h)) rfl
    (by decide +kernel) (fun w hw => ⟨by decide +kernel, by norm_num, by norm_num, innerSquare_contours innerSquare_flat w hw⟩)
    (part := squarePart) (τ := 3 / 2000) (s := 99 / 100) (fun _ _ => rfl) strictCad_tolerance
    (by
      intro w hw
      cases List.mem_singleton.mp hw
      change OffsetsSound strictCad (innerSquare.map (Edge.toLocal twoJob.top)) (1 * 1) ∧
        OffsetsDivisible strictCad (innerSquare.map (Edge.toLocal twoJob.top)) (1 * 1) ∧
        OffsetsTabbed strictCad (.edge ⟨3, 1, 1 / 2, none⟩) (innerSquare.map (Edge.toLocal twoJob.top)) (1 * 1) ∧
        OffsetsAway strictCad squarePart (innerSquare.map (Edge.toLocal twoJob.top)) (1 * 1)
      rw [innerSquare_local, one_mul]
      exact ⟨innerSquare_sound 1, innerSquare_divisible 1, innerSquare_edge_tabs 1, innerSquare_away⟩) (by norm_num) (by norm_num)
  refine ⟨_, t, m', pre, evs, post, cs', hc, a1, a2, a4, ?_, a5⟩
  have hm : (match (wireProfileRequest strictCad [innerSquare] 1 (some (3 / 5)) (some (.edge ⟨3, 1, 1 / 2, none⟩)) none).gen
      (twoJob.updateTool none).2 with
    | .ok cs => decide (16 < (cs.filter (fun c => decide (c.kind.mot ≠ .rapid))).length) | .error _ => false) = true := by decide +kernel
  rw [a3] at hm
  exact of_decide_eq_true hm

/-- Those of `C115_machine_profile_partial`: the same square given to `profile`. -/
example : ∃ j2 t m' pre evs post cs, (twoJob.call (profileRequest strictCad [.wire innerSquare] (some 1) none (some (3 / 5)) none none)).2 = .ok j2 ∧
    j2.toGcode = .ok t ∧ runText {} t = some (m', pre ++ evs ++ post) ∧ List.Forall₂ Performs (evs.filter isMove) cs ∧
    8 < (cs.filter (fun c => decide (c.kind.mot ≠ .rapid))).length ∧
    ∀ e ∈ evs, isFeedMove e = true → KeepsOff squarePart (99 / 100) e := by
  obtain ⟨cs, hg, hr, hc⟩ := call_good (j := twoJob) (r := profileRequest strictCad [.wire innerSquare] (some 1) none (some (3 / 5)) none none)
    (by decide +kernel) rfl (by unfold SafeName; decide) (by decide +kernel)
  obtain ⟨t, m', pre, evs, post, cs', a1, a2, a3, a4, a5⟩ := C115_machine_profile_partial (cad := strictCad) flatCad_boxMoves
    (shapes := [.wire innerSquare]) (outers := [innerSquare]) (inners := []) (outerOffset := some 1) (innerOffset := none) (r := 1)
    (stepdown := some (3 / 5)) (tool := none) (before := []) (after := []) {} twoJob_ok
    (by rintro v ⟨⟩) (show ChainOK twoJob [_] from ⟨hr, fun _ _ => trivial⟩) rfl hc rfl rfl (by rintro n ⟨⟩) (by decide +kernel) rfl
    (by decide +kernel) rfl (part := squarePart) (τ := 3 / 2000) (s := 99 / 100) (fun _ _ => rfl) strictCad_tolerance
    (by
      rintro w o (⟨hw, ho⟩ | ⟨hw, -⟩)
      · cases ho
        refine ⟨innerSquare_contours innerSquare_plain w hw, ?_⟩
        cases List.mem_singleton.mp hw
        change OffsetsSound strictCad (innerSquare.map (Edge.toLocal twoJob.top)) (1 * 1) ∧
          OffsetsAway strictCad squarePart (innerSquare.map (Edge.toLocal twoJob.top)) (1 * 1)
        rw [innerSquare_local, one_mul]
        exact ⟨innerSquare_sound 1, innerSquare_away⟩
      · cases hw) (by norm_num)
    (by rintro o (h | h) <;> cases h; norm_num)
  refine ⟨_, t, m', pre, evs, post, cs', hc, a1, a2, a4, ?_, a5⟩
  have hm : (match (profileRequest strictCad [.wire innerSquare] (some 1) none (some (3 / 5)) none none).gen (twoJob.updateTool none).2 with
    | .ok cs => decide (8 < (cs.filter (fun c => decide (c.kind.mot ≠ .rapid))).length) | .error _ => false) = true := by decide +kernel
  rw [a3] at hm
  exact of_decide_eq_true hm

/-- Those of `C115_machine_profile_tabs_partial`: the same with tabs. -/
example : ∃ j2 t m' pre evs post cs,
    (twoJob.call (profileRequest strictCad [.wire innerSquare] (some 1) none (some (3 / 5)) (some (.edge ⟨3, 1, 1 / 2, none⟩)) none)).2 = .ok j2 ∧
    j2.toGcode = .ok t ∧ runText {} t = some (m', pre ++ evs ++ post) ∧ List.Forall₂ Performs (evs.filter isMove) cs ∧
    16 < (cs.filter (fun c => decide (c.kind.mot ≠ .rapid))).length ∧
    ∀ e ∈ evs, isFeedMove e = true → KeepsOff squarePart (99 / 100) e := by
  obtain ⟨cs, hg, hr, hc⟩ := call_good (j := twoJob)
    (r := profileRequest strictCad [.wire innerSquare] (some 1) none (some (3 / 5)) (some (.edge ⟨3, 1, 1 / 2, none⟩)) none)
    (by decide +kernel) rfl (by unfold SafeName; decide) (by decide +kernel)
  obtain ⟨t, m', pre, evs, post, cs', a1, a2, a3, a4, a5⟩ := C115_machine_profile_tabs_partial (cad := strictCad)
    strictCad_assembles strictCad_from flatCad_boxMoves (shapes := [.wire innerSquare]) (outers := [innerSquare]) (inners := [])
    (outerOffset := some 1) (innerOffset := none) (r := 1) (stepdown := some (3 / 5)) (tabs := .edge ⟨3, 1, 1 / 2, none⟩) (tool := none)
    (before := []) (after := []) {} twoJob_ok
    (by rintro v ⟨⟩) (show ChainOK twoJob [_] from ⟨hr, fun _ _ => trivial⟩) rfl hc rfl rfl (by rintro n ⟨⟩) flatCad_keepsBelow
    (by rintro s ⟨⟩; norm_num) (by decide +kernel) (fun _ _ _ h => (by cases h)) rfl (by decide +kernel) rfl
    (part := squarePart) (τ := 3 / 2000) (s := 99 / 100) (fun _ _ => rfl) strictCad_tolerance
    (by
      rintro w o (⟨hw, ho⟩ | ⟨hw, -⟩)
      · cases ho
        refine ⟨⟨by decide +kernel, by norm_num, by norm_num, innerSquare_contours innerSquare_flat w hw⟩, ?_⟩
        cases List.mem_singleton.mp hw
        change OffsetsSound strictCad (innerSquare.map (Edge.toLocal twoJob.top)) (1 * 1) ∧
          OffsetsDivisible strictCad (innerSquare.map (Edge.toLocal twoJob.top)) (1 * 1) ∧
          OffsetsTabbed strictCad (.edge ⟨3, 1, 1 / 2, none⟩) (innerSquare.map (Edge.toLocal twoJob.top)) (1 * 1) ∧
          OffsetsAway strictCad squarePart (innerSquare.map (Edge.toLocal twoJob.top)) (1 * 1)
        rw [innerSquare_local, one_mul]
        exact ⟨innerSquare_sound 1, innerSquare_divisible 1, innerSquare_edge_tabs 1, innerSquare_away⟩
      · cases hw) (by norm_num)
    (by rintro o (h | h) <;> cases h; norm_num)
  refine ⟨_, t, m', pre, evs, post, cs', hc, a1, a2, a4, ?_, a5⟩
  have hm : (match (profileRequest strictCad [.wire innerSquare] (some 1) none (some (3 / 5)) (some (.edge ⟨3, 1, 1 / 2, none⟩)) none).gen
      (twoJob.updateTool none).2 with
    | .ok cs => decide (16 < (cs.filter (fun c => decide (c.kind.mot ≠ .rapid))).length) | .error _ => false) = true := by decide +kernel
  rw [a3] at hm
  exact of_decide_eq_true hm

end CQ
