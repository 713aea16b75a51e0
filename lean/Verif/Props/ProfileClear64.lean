import Verif.Spec.ProfileClear64
import Verif.Props.ProfileRun64
import Verif.Props.ProfileMachine

/-! # C144: profiles in floating point keep off the part -/

namespace CQ

/-- The distances asked for in the two attempts. -/
theorem offsets64_near {d : ℚ} (hd : |d| ≤ 2 ^ 20) :
    |b64 d - d| ≤ 2 / 1000000 ∧ |b64 (b64 d + b64 (1 / 1000000)) - d| ≤ 2 / 1000000 := by
  have e0 : (2 : ℚ) ^ (-52 : ℤ) = 1 / 4503599627370496 := by norm_num
  have h1 := abs_le.mp (b64_err_mu hd (by norm_num))
  have h2 := abs_le.mp (b64_err_mu (x := 1 / 1000000) (X := 1) (by norm_num) le_rfl)
  have h0 := abs_le.mp hd
  rw [e0] at h1 h2
  norm_num at h0 h1 h2
  have h3 := abs_le.mp (b64_err_mu (x := b64 d + b64 (1 / 1000000)) (X := 2 ^ 21)
    (abs_le.mpr ⟨by norm_num; linarith [h0.1, h1.1, h2.1], by norm_num; linarith [h0.2, h1.2, h2.2]⟩) (by norm_num))
  rw [e0] at h3
  norm_num at h3
  constructor <;> rw [abs_le] <;> constructor <;> linarith [h1.1, h1.2, h2.1, h2.2, h3.1, h3.2]

/-- The contours of a profile are among those the kernel finds. -/
theorem offsetWire64_found {cad : Cad} (hrel : ∀ v w, cad.relocate v w = w) {w : List Edge} {d : ℚ} {bases : List (List Edge)}
    (h : offsetWire64 cad w d = .ok bases) : bases = [] ∨ ∃ d' found, (d' = d ∨ d' = b64 (d + b64 (1 / 1000000))) ∧
      cad.offset2D w d' = .ok found ∧ ∀ b ∈ bases, b ∈ found := by
  obtain ⟨found, h1, h⟩ := bind_ok.mp h
  have hbase : bases = found.filter (offsetValid64 cad) := by
    cases h
    unfold circleBugWorkaround
    have : ∀ v ws, List.map (cad.relocate v) ws = ws := by
      intro v ws
      rw [show cad.relocate v = id from funext (hrel v), List.map_id]
    split
    · split
      · exact this _ _
      · rfl
    · rfl
  have hsub : ∀ b ∈ bases, b ∈ found := by
    intro b hb
    rw [hbase] at hb
    exact (List.mem_filter.mp hb).1
  unfold tryOffset64 at h1
  split at h1
  · split at h1
    · cases h1
      left
      rw [hbase]; rfl
    · exact .inr ⟨_, found, .inr rfl, h1, hsub⟩
  · exact .inr ⟨_, found, .inl rfl, h1, hsub⟩

/-- C144 for one profile (as far as it holds: the kernel's relocation of circles changes nothing, and its searches between passes find
vertices; profiles without tabs).  When the kernel's contours are as far from the part as asked for, up to `κ`, every feed move says where
it goes, and every point it passes over is `offset` tool radii away from the part, up to the tolerances. -/
theorem C144_moves_partial {cad : Cad} {j : Job} {wire : List Edge} {offset : ℚ} {stepdown : Option ℚ} {cs : List Motion}
    {part : Pt → Prop} {τ κ s r : ℚ} (hrel : ∀ v w, cad.relocate v w = w) (hτ : Tolerance cad j.precision τ)
    (hr : j.toolRadius = some r) (hd : |offset * r| ≤ 2 ^ 20)
    (hsound : OffsetsSoundWithin cad (wire.map (Edge.toLocal j.top)) (offset * r) (2 / 1000000))
    (haway : OffsetsAwayWithin cad part (wire.map (Edge.toLocal j.top)) (offset * r) (2 / 1000000) κ)
    (hs : 0 ≤ s) (hsr : s + τ + κ + 2 / 1000000 ≤ |offset * r|)
    (h : profile64 cad j wire offset stepdown = .ok cs) :
    ∀ c ∈ cs, c.kind.mot ≠ .rapid → Located c ∧ ∀ p, Sweeps c p → Away part s p := by
  have hτ0 : 0 ≤ τ := le_trans (by positivity) hτ.unit
  obtain ⟨r', bases, lss, hr', ho, h2, h⟩ := profile64_layers h
  rw [hr] at hr'
  cases hr'
  have hmem : ∀ w ∈ lss.flatten, ∃ b ∈ bases, ∃ dz, w = b.map (Edge.up dz) := by
    intro w hw
    obtain ⟨l, hl, hwl⟩ := List.mem_flatten.mp hw
    obtain ⟨b, hb, hf⟩ := forall₂_mem_right h2 hl
    exact ⟨b, hb, profileLayers64_mem hf w hwl⟩
  rcases offsetWire64_found hrel ho with rfl | ⟨d', found, hd', hf, hsub⟩
  · cases h2
    cases h
    simp
  · obtain ⟨n1, n2⟩ := offsets64_near hd
    have hnear' : |d' - offset * r| ≤ 2 / 1000000 := by
      rcases hd' with rfl | rfl
      · exact n1
      · exact n2
    have hlarge : s + τ + κ ≤ |d'| := by
      have := abs_sub_abs_le_abs_sub (offset * r) d'
      rw [abs_sub_comm] at this
      linarith
    intro c hc hk
    obtain ⟨hloc, hnear⟩ := routeWires_near hτ (ws := lss.flatten) (by
      intro w hw
      obtain ⟨b, hb, dz, rfl⟩ := hmem w hw
      obtain ⟨h1, h2, -⟩ := hsound d' hnear' found hf b (hsub b hb)
      intro e he
      refine ⟨(wireOK_up h1 dz).edgeOK e he, (wireOK_up h1 dz).routable e he, ?_⟩
      obtain ⟨e', he', rfl⟩ := List.mem_map.mp he
      exact trueShape_up dz (h2 e' he')) (by
      intro w hw
      obtain ⟨b, hb, dz, rfl⟩ := hmem w hw
      exact (hsound d' hnear' found hf b (hsub b hb)).2.2 dz) h c hc hk
    refine ⟨hloc, fun p hp => ?_⟩
    obtain ⟨w, hw, e, he, hne⟩ := hnear p hp
    obtain ⟨b, hb, dz, rfl⟩ := hmem w hw
    obtain ⟨e', he', rfl⟩ := List.mem_map.mp he
    obtain ⟨q, hq, hqd⟩ := (near_up dz).mp hne
    have ha : Away part (s + τ) q := haway d' hnear' found hf b (hsub b hb) e' he' q hq _ (by linarith) (by linarith)
    exact away_near ha hqd hs hτ0 (le_abs_self _)

theorem profiles64_away {cad : Cad} {j : Job} {wires : List (List Edge)} {offset : ℚ} {stepdown : Option ℚ} {cs : List Motion}
    {part : Pt → Prop} {τ κ s r : ℚ} (hrel : ∀ v w, cad.relocate v w = w) (hτ : Tolerance cad j.precision τ)
    (hr : j.toolRadius = some r) (hd : |offset * r| ≤ 2 ^ 20)
    (hw : ∀ w ∈ wires, OffsetsSoundWithin cad (w.map (Edge.toLocal j.top)) (offset * r) (2 / 1000000) ∧
      OffsetsAwayWithin cad part (w.map (Edge.toLocal j.top)) (offset * r) (2 / 1000000) κ)
    (hs : 0 ≤ s) (hsr : s + τ + κ + 2 / 1000000 ≤ |offset * r|) (h : profiles64 cad j offset stepdown wires = .ok cs) :
    ∀ c ∈ cs, c.kind.mot ≠ .rapid → Located c ∧ ∀ p, Sweeps c p → Away part s p := by
  obtain ⟨bs, h1, h⟩ := bind_ok.mp h
  cases h
  intro c hc
  obtain ⟨b, hb, hc⟩ := List.mem_flatten.mp hc
  obtain ⟨w, hwm, hw'⟩ := mapE_mem h1 hb
  exact C144_moves_partial hrel hτ hr hd (hw w hwm).1 (hw w hwm).2 hs hsr hw' c hc

/-- C144 for `wire_profile` on the machine (as far as it holds, see `C144_violated`).  In the program of any job with such a call in it, all
feed moves of the machine in the part of the operation keep off the part. -/
theorem C144_wire_profile_partial {cad : Cad} {wires : List (List Edge)} {offset r L τ' tol : ℚ}
    {stepdown : Option ℚ} {tool : Option Tool} {j0 j1 j2 jf : Job} {before after : List Request} (m : Machine) (h0 : InitOK j0)
    (hn : ∀ v, j0.toolNumber = some v → NumOK v)
    (hok : ChainOK j0 (before ++ wireProfileRequest64 cad wires offset stepdown tool :: after))
    (h1 : j0.chain before = .ok j1) (h2 : (j1.call (wireProfileRequest64 cad wires offset stepdown tool)).2 = .ok j2)
    (h3 : j2.chain after = .ok jf) (hend : m.ended = false) (htool : ∀ n, j0.toolNumber = some n → m.tool = some n.value)
    (hk : KeepsBelow cad j0.top) (hc : Steps64 stepdown L τ' tol) (hsafe : 0 ≤ j0.opSafeHeight) {j : Job}
    (hj : (j1.updateTool tool).2 = j) (hr : j.toolRadius = some r) (hd : |offset * r| ≤ 2 ^ 20)
    (hw : ∀ w ∈ wires, EachContour64 cad j offset w (PlainContour64 cad j τ' (2 * L)))
    {part : Pt → Prop} {τ κ s : ℚ} (hrel : ∀ v w, cad.relocate v w = w) (hτ : Tolerance cad j.precision τ)
    (ha : ∀ w ∈ wires, OffsetsSoundWithin cad (w.map (Edge.toLocal j.top)) (offset * r) (2 / 1000000) ∧
      OffsetsAwayWithin cad part (w.map (Edge.toLocal j.top)) (offset * r) (2 / 1000000) κ)
    (hs : 0 ≤ s) (hsr : s + 1 / 1000 + τ + κ + 2 / 1000000 ≤ |offset * r|) :
    ∃ t m' pre evs post cs, jf.toGcode = .ok t ∧ runText m t = some (m', pre ++ evs ++ post) ∧
      (wireProfileRequest64 cad wires offset stepdown tool).gen j = .ok cs ∧ List.Forall₂ Performs (evs.filter isMove) cs ∧
      ∀ e ∈ evs, isFeedMove e = true → KeepsOff part s e := by
  subst hj
  have hbase : SameBase j0 (j1.updateTool tool).2 := updateTool_base (chain_base (show SameBase j0 j0 from rfl) h1) _
  have hsafe' : j0.opSafeHeight = (j1.updateTool tool).2.opSafeHeight := by rw [hbase]
  have htop : j0.top = (j1.updateTool tool).2.top := by rw [hbase]
  refine chain_keepsOff m h0 hn hok h1 h2 h3 hend htool hs ?_
  intro cs hcs
  exact ⟨(profiles64_cut (htop ▸ hk) hc (hsafe' ▸ hsafe) hcs hw).1 _,
    profiles64_away hrel hτ hr hd ha (by linarith) hsr hcs⟩

/-- C144 for `profile` on the machine: outer wires at the outer offset, inner wires at the inner offset. -/
theorem C144_profile_partial {cad : Cad} {shapes : List Shape} {outers inners : List (List Edge)}
    {outerOffset innerOffset : Option ℚ} {r L τ' tol : ℚ} {stepdown : Option ℚ} {tool : Option Tool} {j0 j1 j2 jf : Job}
    {before after : List Request} (m : Machine) (h0 : InitOK j0) (hn : ∀ v, j0.toolNumber = some v → NumOK v)
    (hok : ChainOK j0 (before ++ profileRequest64 cad shapes outerOffset innerOffset stepdown tool :: after))
    (h1 : j0.chain before = .ok j1)
    (h2 : (j1.call (profileRequest64 cad shapes outerOffset innerOffset stepdown tool)).2 = .ok j2)
    (h3 : j2.chain after = .ok jf) (hend : m.ended = false) (htool : ∀ n, j0.toolNumber = some n → m.tool = some n.value)
    (hk : KeepsBelow cad j0.top) (hc : Steps64 stepdown L τ' tol) (hsafe : 0 ≤ j0.opSafeHeight) {j : Job}
    (hj : (j1.updateTool tool).2 = j) (hr : j.toolRadius = some r) (hx : extractWires shapes = .ok (outers, inners))
    {part : Pt → Prop} {τ κ s : ℚ} (hrel : ∀ v w, cad.relocate v w = w) (hτ : Tolerance cad j.precision τ)
    (hw : ∀ w o, (w ∈ outers ∧ outerOffset = some o) ∨ (w ∈ inners ∧ innerOffset = some o) →
      EachContour64 cad j o w (PlainContour64 cad j τ' (2 * L)) ∧
      OffsetsSoundWithin cad (w.map (Edge.toLocal j.top)) (o * r) (2 / 1000000) ∧
      OffsetsAwayWithin cad part (w.map (Edge.toLocal j.top)) (o * r) (2 / 1000000) κ)
    (hs : 0 ≤ s) (hsr : ∀ o, outerOffset = some o ∨ innerOffset = some o → |o * r| ≤ 2 ^ 20 ∧
      s + 1 / 1000 + τ + κ + 2 / 1000000 ≤ |o * r|) :
    ∃ t m' pre evs post cs, jf.toGcode = .ok t ∧ runText m t = some (m', pre ++ evs ++ post) ∧
      (profileRequest64 cad shapes outerOffset innerOffset stepdown tool).gen j = .ok cs ∧
      List.Forall₂ Performs (evs.filter isMove) cs ∧ ∀ e ∈ evs, isFeedMove e = true → KeepsOff part s e := by
  subst hj
  have hbase : SameBase j0 (j1.updateTool tool).2 := updateTool_base (chain_base (show SameBase j0 j0 from rfl) h1) _
  have hsafe' : j0.opSafeHeight = (j1.updateTool tool).2.opSafeHeight := by rw [hbase]
  have htop : j0.top = (j1.updateTool tool).2.top := by rw [hbase]
  refine chain_keepsOff m h0 hn hok h1 h2 h3 hend htool hs ?_
  intro cs hcs
  obtain ⟨⟨os, is⟩, h0, hcs⟩ := bind_ok.mp hcs
  rw [hx] at h0
  cases h0
  obtain ⟨a, g1, hcs⟩ := bind_ok.mp hcs
  obtain ⟨b, g2, hcs⟩ := bind_ok.mp hcs
  cases hcs
  have key : ∀ {o : Option ℚ} {ws : List (List Edge)} {cs : List Motion}, profilesOpt64 cad (j1.updateTool tool).2 o stepdown ws = .ok cs →
      (∀ w o', w ∈ ws → o = some o' → EachContour64 cad (j1.updateTool tool).2 o' w (PlainContour64 cad (j1.updateTool tool).2 τ' (2 * L)) ∧
        OffsetsSoundWithin cad (w.map (Edge.toLocal (j1.updateTool tool).2.top)) (o' * r) (2 / 1000000) ∧
        OffsetsAwayWithin cad part (w.map (Edge.toLocal (j1.updateTool tool).2.top)) (o' * r) (2 / 1000000) κ) →
      (∀ o', o = some o' → |o' * r| ≤ 2 ^ 20 ∧ s + 1 / 1000 + τ + κ + 2 / 1000000 ≤ |o' * r|) →
      (∀ p, Tracks p cs) ∧ ∀ c ∈ cs, c.kind.mot ≠ .rapid → Located c ∧ ∀ p, Sweeps c p → Away part (s + 1 / 1000) p := by
    intro o ws cs h hw hsr
    cases o with
    | none => cases h; exact ⟨fun _ => trivial, by simp⟩
    | some o =>
      exact ⟨(profiles64_cut (htop ▸ hk) hc (hsafe' ▸ hsafe) h (fun w hwm => (hw w o hwm rfl).1)).1,
        profiles64_away hrel hτ hr (hsr o rfl).1 (fun w hwm => (hw w o hwm rfl).2) (by linarith) (hsr o rfl).2 h⟩
  obtain ⟨t1, k1⟩ := key g1 (fun w o hwm ho => hw w o (.inr ⟨hwm, ho⟩)) (fun o ho => hsr o (.inr ho))
  obtain ⟨t2, k2⟩ := key g2 (fun w o hwm ho => hw w o (.inl ⟨hwm, ho⟩)) (fun o ho => hsr o (.inl ho))
  refine ⟨tracks_append.mpr ⟨t1 _, t2 _⟩, ?_⟩
  intro c hc
  rcases List.mem_append.mp hc with hc | hc
  · exact k1 c hc
  · exact k2 c hc

/-! ### The square -/

theorem innerSquare_offset64 {r : ℚ} {bases : List (List Edge)}
    (h : offsetWire64 gapCad (innerSquare.map (Edge.toLocal (twoJob.updateTool none).2.top)) (b64 (1 * r)) = .ok bases) :
    bases = [innerSquare] := by
  have hval : offsetValid64 gapCad innerSquare = true := by decide +kernel
  have h : offsetWire64 gapCad (innerSquare.map (Edge.toLocal twoJob.top)) (b64 (1 * r)) = .ok bases := h
  rw [innerSquare_local] at h
  change Except.ok (circleBugWorkaround gapCad innerSquare ([innerSquare].filter (offsetValid64 gapCad))) = _ at h
  rw [show [innerSquare].filter (offsetValid64 gapCad) = [innerSquare] from by simp [hval]] at h
  cases h
  rfl

theorem innerSquare_plain64 {j : Job} (hj : 0 ≤ j.opSafeHeight) : PlainContour64 gapCad j (1 / 10000) (2 * 1010000) innerSquare where
  ok := innerSquare_ok
  chained := innerSquare_plain.chained
  vertex := by intro dz v h hs; cases hs
  box := by
    rw [show (2 * 1010000 : ℚ) = 2020000 from by norm_num]
    exact gapCad_box innerSquare_ok.nonempty (by decide +kernel)
  level := by
    have hz : strictCad.zmin innerSquare = -1 := by decide +kernel
    exact ⟨-1, by decide +kernel, by linarith, fun e he => hz ▸ (innerSquare_edges e he).1.flat⟩

theorem innerSquare_sound64 (d η : ℚ) : OffsetsSoundWithin gapCad innerSquare d η := by
  intro d hd found hf c hc
  cases hf
  rw [List.mem_singleton] at hc
  subst hc
  exact ⟨innerSquare_ok, fun e he => (innerSquare_edges e he).2.1, by intro dz v h hh; cases hh⟩

theorem innerSquare_away64 : OffsetsAwayWithin gapCad squarePart innerSquare 1 (2 / 1000000) 0 := by
  intro d hd found hf c hc e he p hp a ha had q hq
  cases hf
  rw [List.mem_singleton] at hc
  subst hc
  have hbox : p.x = 0 ∨ p.x = 6 ∨ p.y = 0 ∨ p.y = 6 := by
    simp only [innerSquare, outline, List.map_cons, List.map_nil, List.mem_cons, List.not_mem_nil, or_false] at he
    rcases he with rfl | rfl | rfl | rfl <;>
      rcases hp with ⟨-, t, -, -, rfl⟩ | ⟨h | h, -⟩ | ⟨h | h, -⟩ | ⟨h | h | h, -⟩ <;>
      first
        | cases h
        | simp [Edge.travel, lineEdge, Pt.lerp, Vec.xy]
  have ha2 : a ≤ 2 := by
    have g1 := abs_le.mp hd
    have g2 : |d| ≤ 2 := abs_le.mpr ⟨by linarith [g1.1], by linarith [g1.2]⟩
    linarith
  obtain ⟨q1, q2, q3, q4⟩ := hq
  unfold sqDist
  have h4 : a ^ 2 ≤ 4 := by nlinarith
  rcases hbox with h | h | h | h <;> rw [h] <;> nlinarith [sq_nonneg (p.x - q.x), sq_nonneg (p.y - q.y)]

/-- The hypotheses of `C144_wire_profile_partial`: a square is milled along a larger one, in passes of 0.3 (rounded), with a tool of
radius 1, on a kernel whose boxes are rounded. -/
example : ∃ j2 t m' pre evs post, ∃ cs : List Motion,
    (twoJob.call (wireProfileRequest64 gapCad [innerSquare] 1 (some (b64 (3 / 10))) none)).2 = .ok j2 ∧
    j2.toGcode = .ok t ∧ runText {} t = some (m', pre ++ evs ++ post) ∧ List.Forall₂ Performs (evs.filter isMove) cs ∧
    16 < (cs.filter (fun c => decide (c.kind.mot ≠ .rapid))).length ∧
    ∀ e ∈ evs, isFeedMove e = true → KeepsOff squarePart (99 / 100) e := by
  obtain ⟨cs, hg, hr, hc⟩ := call_good (j := twoJob) (r := wireProfileRequest64 gapCad [innerSquare] 1 (some (b64 (3 / 10))) none)
    (by decide +kernel) rfl (by unfold SafeName; decide) (by decide +kernel)
  obtain ⟨t, m', pre, evs, post, cs', a1, a2, a3, a4, a5⟩ := C144_wire_profile_partial (cad := gapCad)
    (wires := [innerSquare]) (offset := 1) (r := 1) (stepdown := some (b64 (3 / 10))) (tool := none) (before := []) (after := []) {}
    twoJob_ok (by rintro v ⟨⟩) (show ChainOK twoJob [_] from ⟨hr, fun _ _ => trivial⟩) rfl hc rfl rfl (by rintro n ⟨⟩)
    gapCad_keepsBelow (steps64_millimetres (by decide +kernel) (by decide +kernel)) (by decide +kernel) rfl (by decide +kernel)
    (by norm_num) (by
      intro w hw r bases h1 h2 b hb
      cases List.mem_singleton.mp hw
      cases innerSquare_offset64 h2
      cases List.mem_singleton.mp hb
      exact innerSquare_plain64 (by decide +kernel))
    (part := squarePart) (τ := 3 / 2000) (κ := 0) (s := 99 / 100) (fun _ _ => rfl)
    ⟨strictCad_tolerance.unit, strictCad_tolerance.same⟩
    (by
      intro w hw
      cases List.mem_singleton.mp hw
      change OffsetsSoundWithin gapCad (innerSquare.map (Edge.toLocal twoJob.top)) (1 * 1) _ ∧
        OffsetsAwayWithin gapCad squarePart (innerSquare.map (Edge.toLocal twoJob.top)) (1 * 1) _ _
      rw [innerSquare_local, one_mul]
      exact ⟨innerSquare_sound64 1 _, innerSquare_away64⟩) (by norm_num) (by norm_num)
  refine ⟨_, t, m', pre, evs, post, cs', hc, a1, a2, a4, ?_, a5⟩
  have hm : (match (wireProfileRequest64 gapCad [innerSquare] 1 (some (b64 (3 / 10))) none).gen (twoJob.updateTool none).2 with
    | .ok cs => decide (16 < (cs.filter (fun c => decide (c.kind.mot ≠ .rapid))).length) | .error _ => false) = true := by decide +kernel
  rw [a3] at hm
  exact of_decide_eq_true hm

/-! ### Where it fails -/

/-- C144 is false for kernels with the fault of circles, as C115 (`C115_violated`): the right contours are one tool radius away from the
disc, but the machine cuts right into its edge, with the middle of the tool. -/
theorem C144_violated : Relocates discCad discLoc ∧ CircleFault discCad discLoc discRight ∧
    (∀ c ∈ discRight [disc 0 1 5] 1, ∀ e ∈ c, ∀ p, e.covers p → Away (discPart 1 5) 1 p) ∧ discPart 1 5 ⟨-4, 0⟩ ∧
    ∃ j2 t m' evs, (twoJob.call (wireProfileRequest64 discCad [[disc 0 1 5]] 1 none none)).2 = .ok j2 ∧ j2.toGcode = .ok t ∧
      runText {} t = some (m', evs) ∧ ∃ e ∈ evs, ∃ k tgt ctr, e.act = .move k tgt ctr ∧ k ≠ .rapid ∧ tgt.x = some (-4) ∧ tgt.y = some 0 := by
  obtain ⟨h1, h2, h3, h4, -⟩ := C115_violated
  refine ⟨h1, h2, h3, h4, ?_⟩
  obtain ⟨j2, t, m', evs, h1, h2, h3, e, he, hb⟩ := run_witness (j := twoJob)
    (r := wireProfileRequest64 discCad [[disc 0 1 5]] 1 none none) (bad := cutsIn) twoJob_ok (by rintro v ⟨⟩) rfl rfl
    (by unfold SafeName; decide) (by decide +kernel)
  refine ⟨j2, t, m', evs, h1, h2, h3, e, he, ?_⟩
  unfold cutsIn at hb
  split at hb
  · rename_i k tgt ctr ha
    simp only [Bool.and_eq_true, decide_eq_true_eq] at hb
    exact ⟨k, tgt, ctr, ha, hb.1.1, hb.1.2, hb.2⟩
  · cases hb

end CQ
