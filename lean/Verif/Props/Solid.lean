import Verif.Spec.Solid
import Verif.Props.ProfileMachine
import Verif.Props.PocketRun
import Verif.Props.Gouge
import Verif.Props.SurfacePath

/-! # C135: the finished part survives the whole program -/

namespace CQ

theorem spares_near {S : Solid} {R ρ ε : ℚ} {p p' : Pt} {z z' : ℚ} (hρ : 0 ≤ ρ) (hR : ρ + 1 / 1000 ≤ R) (h : Spares S R ε p z)
    (hp : sqDist p p' ≤ (1 / 1000) ^ 2) (hz : z ≤ z' + 1 / 2000) : Spares S ρ (ε + 1 / 2000) p' z' := by
  intro q ζ hq hζ
  have h1 := h q ζ hq (by linarith)
  by_contra hc
  rw [not_le] at hc
  have := sqDist_triangle_lt (a := 1 / 1000) (by norm_num) hρ hp hc
  nlinarith

theorem spares_lower {S : Solid} {R ε z z' : ℚ} {p : Pt} (h : Spares S R ε p z) (hz : z ≤ z' + 1 / 2000) :
    Spares S R (ε + 1 / 2000) p z' := fun q ζ hq hζ => h q ζ hq (by linarith)

theorem spares_mono {S : Solid} {R ρ ε z z' : ℚ} {p : Pt} (h : Spares S R ε p z) (h0 : 0 ≤ ρ) (hR : ρ ≤ R) (hz : z ≤ z') :
    Spares S ρ ε p z' := fun q ζ hq hζ => (pow_le_pow_left₀ h0 hR 2).trans (h q ζ hq (by linarith))

/-- A move that spares the solid is performed as one. -/
theorem runSpares_follows {S : Solid} {ρ ε : ℚ} (h0 : 0 ≤ ρ) {e : Event} {c : Motion} (hf : FollowsMove e c)
    (h : MoveSpares S (ρ + 1 / 1000) ε c) : RunSpares S ρ (ε + 1 / 2000) e := by
  obtain ⟨⟨tgt, ctr, hact, hx, hy, hz, hctr, -⟩, hst⟩ := hf
  obtain ⟨a, b, za, zb, ha, hb, hway⟩ := h
  rw [hb] at hx hy hz
  rw [ha] at hst
  refine ⟨_, tgt, ctr, ⟨rnd 3 a.x, rnd 3 a.y⟩, ⟨rnd 3 b.x, rnd 3 b.y⟩, rnd 3 za, rnd 3 zb, hact, pos_of_agrees hst, ?_, ?_⟩
  · ext1
    · exact hx.1 _ rfl
    · exact hy.1 _ rfl
    · exact hz.1 _ rfl
  have hza := abs_le.mp (abs_rnd3 za)
  have hzb := abs_le.mp (abs_rnd3 zb)
  cases hk : arcTurns c.kind.mot with
  | none =>
    rw [hk] at hway
    intro t t0 t1
    refine spares_near h0 le_rfl (hway t t0 t1) ?_ ?_
    · have h1 := near_mix t0 t1 (abs_rnd3 a.x) (abs_rnd3 b.x)
      have h2 := near_mix t0 t1 (abs_rnd3 a.y) (abs_rnd3 b.y)
      have h1 := sq_le_sq' (abs_le.mp h1).1 (abs_le.mp h1).2
      have h2 := sq_le_sq' (abs_le.mp h2).1 (abs_le.mp h2).2
      simp only [sqDist, Pt.lerp]
      nlinarith
    · have h3 := abs_le.mp (near_mix t0 t1 (abs_rnd3 za) (abs_rnd3 zb))
      linarith [h3.1, h3.2]
  | some ccw =>
    rw [hk] at hway
    obtain ⟨o, ⟨hox, hoy⟩, hway⟩ := hway
    have hk' : c.kind.isArc = true := by cases hck : c.kind <;> rw [hck] at hk <;> first | rfl | cases hk
    have hcx : ctr.x = some (rnd 3 (o.x - a.x)) := by
      rw [hctr, centreOff, if_pos hk', hox, ha]; rfl
    have hcy : ctr.y = some (rnd 3 (o.y - a.y)) := by
      rw [hctr, centreOff, if_pos hk', hoy, ha]; rfl
    refine ⟨a, b, ⟨rnd 3 a.x + rnd 3 (o.x - a.x), rnd 3 a.y + rnd 3 (o.y - a.y)⟩, o, by rw [hcx]; simp, by rw [hcy]; simp,
      ⟨abs_rnd3 _, abs_rnd3 _⟩, ⟨abs_rnd3 _, abs_rnd3 _⟩, ⟨?_, ?_⟩, fun p hp => spares_lower (hway p hp) ?_⟩
    · have p1 := abs_le.mp (abs_rnd3 a.x)
      have p2 := abs_le.mp (abs_rnd3 (o.x - a.x))
      dsimp only
      rw [abs_le]
      constructor <;> linarith [p1.1, p1.2, p2.1, p2.2]
    · have p1 := abs_le.mp (abs_rnd3 a.y)
      have p2 := abs_le.mp (abs_rnd3 (o.y - a.y))
      dsimp only
      rw [abs_le]
      constructor <;> linarith [p1.1, p1.2, p2.1, p2.2]
    · rw [← min_add_add_right]
      exact le_min ((min_le_left _ _).trans (by linarith [hza.1, hza.2])) ((min_le_right _ _).trans (by linarith [hzb.1, hzb.2]))

theorem chain_reachWith {P : Request → Prop} {j0 j jf : Job} {rs : List Request} (hp : ∀ r ∈ rs, P r) (hr : ReachWith P j0 j)
    (hok : ChainOK j rs) (h : j.chain rs = .ok jf) : ReachWith P j0 jf := by
  induction rs generalizing j with
  | nil => cases h; exact hr
  | cons r rs ih =>
    obtain ⟨j', hj', hch⟩ := chain_cons_ok h
    exact ih (fun r hr => hp r (by simp [hr])) (.result r hr (hp r (by simp)) hok.1 hj') (hok.2 j' hj') hch

/-- The moves of the calls of a chain. -/
theorem eachSpares_moves {S : Solid} {σ ε : ℚ} {j jf : Job} {rs : List Request} (h : EachSpares S σ ε j rs) (hch : j.chain rs = .ok jf) :
    List.Forall₂ (fun (cs : List Motion) (s : Settings) => Tracks {} cs ∧ ∀ D, s.toolDiameter = some D → D ≠ 0 → ∀ ρ, 0 ≤ ρ →
      ρ + σ ≤ D / 2 → ∀ c ∈ cs, c.kind.mot ≠ .rapid → MoveSpares S ρ ε c) (chainMoves j rs) (requestSettings j.settings rs) := by
  induction rs generalizing j with
  | nil => exact .nil
  | cons r rs ih =>
    obtain ⟨j', hj', hch⟩ := chain_cons_ok hch
    obtain ⟨-, cs, -, hcs, -, hset, -⟩ := call_commands hj'
    simp only [chainMoves, hcs, hj', requestSettings]
    have hset' : (j.updateTool r.tool).2.settings = j.settings.inherit r.tool := by
      obtain ⟨-, -, -, h, -⟩ := updateTool_commands j r.tool
      exact h
    refine .cons ⟨(h.1 cs hcs).1, fun D hD hne => ?_⟩ ?_
    · refine (h.1 cs hcs).2 (D / 2) ?_
      rw [← hset'] at hD
      have hD : (j.updateTool r.tool).2.toolDiameter = some D := hD
      simp [Job.toolRadius, hD, hne]
    · rw [← hset]
      exact ih (h.2 j' hj') hch

theorem rapidHarmless_free {rh sh : ℚ} (h1 : 0 ≤ rh) (h2 : 0 ≤ sh) {e : Event} (h : RapidFree rh sh e) : RapidHarmless e := by
  have p1 : 0 ≤ rnd 3 rh := rnd_zero ▸ rnd_mono h1
  have p2 : 0 ≤ rnd 3 sh := rnd_zero ▸ rnd_mono h2
  intro tgt ctr hact
  obtain ⟨hz, hl⟩ := h tgt ctr hact
  have hz' : ∃ z', tgt.z = some z' ∧ 0 ≤ z' := by
    rcases hz with hz | hz | hz
    · exact ⟨_, hz, p1⟩
    · exact ⟨_, hz, p2⟩
    · exact ⟨_, hz, le_rfl⟩
  obtain ⟨z', hz', hz0⟩ := hz'
  refine ⟨z', hz', hz0, ?_⟩
  by_cases hxy : tgt.x = e.st.pos.x ∧ tgt.y = e.st.pos.y
  · exact .inr hxy
  · refine .inl ⟨z', ?_, hz0⟩
    rw [← (hl (by tauto)).1]
    exact hz'

theorem forall₂_join {R : α → β → Prop} {T : β → γ → Prop} {l : List α} {m : List β} {n : List γ} (h1 : List.Forall₂ R l m)
    (h2 : List.Forall₂ T m n) : List.Forall₂ (fun a c => ∃ b, R a b ∧ T b c) l n := by
  induction h1 generalizing n with
  | nil => cases h2; exact .nil
  | cons h _ ih =>
    cases h2 with
    | cons h' t => exact .cons ⟨_, h, h'⟩ (ih t)

/-- C135.  Take any chain of calls of the library whose feed moves spare a solid, the finished part, and let the machine run the program.
In the part of the program that belongs to a call the tool of the call is in the spindle, and the machine spares the solid on the whole way of
every feed move, up to the given tolerances, a thousandth sideways, and half a thousandth downwards.  No rapid can touch anything below the
top plane except where the tool stood already: it stays at or above the top plane or goes straight up. -/
theorem C135_program {S : Solid} {σ ε : ℚ} {j0 jf : Job} {rs : List Request} (m : Machine) (h0 : InitOK j0)
    (hn : ∀ v, j0.toolNumber = some v → NumOK v) (hl : ∀ r ∈ rs, LibraryRequest r) (hok : ChainOK j0 rs) (h : j0.chain rs = .ok jf)
    (hend : m.ended = false) (htool : ∀ n, j0.toolNumber = some n → m.tool = some n.value)
    (hrh : 0 ≤ j0.rapidHeight) (hsh : 0 ≤ j0.opSafeHeight) (hS : EachSpares S σ ε j0 rs) :
    ∃ t m' e1 e2 e3 evss, jf.toGcode = .ok t ∧ runText m t = some (m', e1 :: (evss.flatten ++ [e2, e3])) ∧
      e1.act = .home ∧ e2.act = .home ∧ e3.act = .stop ∧
      List.Forall₂ (fun evs (s : Settings) =>
        (∀ e ∈ evs, isMove e = true → ∀ n, s.toolNumber = some n → e.st.tool = some n.value) ∧
        ∀ D, s.toolDiameter = some D → D ≠ 0 → ∀ ρ, 0 ≤ ρ → ρ + σ + 1 / 1000 ≤ D / 2 →
          ∀ e ∈ evs, isFeedMove e = true → RunSpares S ρ (ε + 1 / 2000) e) evss (requestSettings j0.settings rs) ∧
      ∀ e ∈ evss.flatten, RapidHarmless e := by
  obtain ⟨t, m', e1, e2, e3, evss, a1, a2, k1, k2, k3, a6, a7, -, -, a10⟩ := chain_program m h0 hn hok h hend htool
  obtain ⟨t', m'', evs', b1, b2, b3⟩ := C81_rapids m h0 hn (chain_reachWith hl .init hok h) hend
  rw [a1] at b1
  cases b1
  rw [a2] at b2
  cases b2
  refine ⟨t, m', e1, e2, e3, evss, a1, a2, k1, k2, k3, ?_, fun e he => rapidHarmless_free hrh hsh (b3 e (by simp [he]))⟩
  refine forall₂_and a7 ((forall₂_join (forall₂_and a6 a10) (eachSpares_moves hS h)).imp ?_)
  rintro evs s ⟨cs, ⟨c1, c2⟩, htr, hsp⟩ D hD hne ρ hρ hle e he hfm
  have hfol := forall₂_and c1 (c2 htr)
  obtain ⟨c, hc, hec⟩ := forall₂_mem_left hfol (List.mem_filter.mpr ⟨he, isMove_of_isFeedMove hfm⟩)
  refine runSpares_follows hρ hec (hsp D hD hne (ρ + 1 / 1000) (by linarith) (by linarith) c hc ?_)
  intro hr
  obtain ⟨⟨tgt, ctr, hact, -⟩, -⟩ := hec
  rw [hr] at hact
  simp [isFeedMove, hact] at hfm

/-! ### Drilling -/

/-- C135 for drilling: it is enough that a cylinder of the tool's size fits into every hole down to the depth. -/
theorem C135_drill {S : Solid} {σ ε : ℚ} {center : List Edge → Except Err Vec} {objs : List DrillObj} {d : ℚ} {tool : Option Tool}
    {j : Job} (hσ : 0 ≤ σ)
    (hS : ∀ R, j.toolRadius = some R → ∀ centres, List.Forall₂ (HoleCentres center) objs centres → ∀ v ∈ centres.flatten,
      Spares S R ε (j.top.toWorld v).xy (-|d|)) :
    CallSpares S σ ε j (drillRequest center (some objs) (some d) tool) := by
  intro cs hcs
  have hcs : drill center (some objs) (some d) j = .ok cs := hcs
  refine ⟨tracks_connected (C54_safe_motion hcs).1, ?_⟩
  intro R hR ρ hρ hle c hc hk
  obtain ⟨centres, ps, g1, g2, -, -, -, rfl⟩ := drill_ok hcs
  obtain ⟨p, hp, h1, h2, h3⟩ := holesMoves_feeds (drillHoles_moves j (-|d|) {} ps) c hc hk
  obtain ⟨v, hv, rfl⟩ := List.mem_map.mp (g2.mem_iff.mp hp)
  refine ⟨_, _, _, _, h2, h3, ?_⟩
  rw [h1]
  intro t t0 t1
  rw [show ∀ x : Pt, x.lerp x t = x from fun x => by ext <;> simp [Pt.lerp]]
  refine spares_mono (hS R hR centres g1 v hv) hρ (by linarith) ?_
  have := abs_nonneg d
  nlinarith

/-! ### Profiles -/

theorem connected_above {lo : ℚ} {cs : List Motion} : ∀ {p : AddrVec}, Connected p cs → MovesAbove lo cs →
    (p = {} ∨ ∃ z, p.z = some z ∧ lo ≤ z) → ∀ c ∈ cs, (∃ a, c.start.AtXY a) → ∃ z, c.start.z = some z ∧ lo ≤ z := by
  induction cs with
  | nil => intro p _ _ _ c hc; cases hc
  | cons d cs ih =>
    intro p h hm hp c hc ha
    rcases List.mem_cons.mp hc with rfl | hc
    · rw [h.1] at ha ⊢
      rcases hp with rfl | hp
      · obtain ⟨a, hx, -⟩ := ha
        cases hx
      · exact hp
    · exact ih h.2 (fun c hc => hm c (by simp [hc])) (.inr (hm d (by simp))) c hc ha

theorem addrVec_at {v : AddrVec} {a : Pt} {z : ℚ} (h : v.AtXY a) (hz : v.z = some z) : v = a.at z := by
  obtain ⟨hx, hy⟩ := h
  cases v
  simp_all [Pt.at]

/-- A move that keeps off what rises above `lo`, and does not go below. -/
theorem moveSpares_of_away {S : Solid} {ρ ε lo : ℚ} {c : Motion} (hl : Located c) (hs : ∃ z, c.start.z = some z ∧ lo ≤ z)
    (hf : ∃ z, c.fin.z = some z ∧ lo ≤ z) (ha : ∀ p, Sweeps c p → Away (fun q => ∃ ζ, S q ζ ∧ lo + ε < ζ) ρ p) :
    MoveSpares S ρ ε c := by
  obtain ⟨⟨a, hax⟩, ⟨b, hbx⟩, ho⟩ := hl
  obtain ⟨za, hza, la⟩ := hs
  obtain ⟨zb, hzb, lb⟩ := hf
  have key : ∀ p z, Sweeps c p → lo ≤ z → Spares S ρ ε p z := fun p z hp hz q ζ hq hζ => ha p hp q ⟨ζ, hq, by linarith⟩
  refine ⟨a, b, za, zb, addrVec_at hax hza, addrVec_at hbx hzb, ?_⟩
  have harc : c.kind.mot = .cw ∨ c.kind.mot = .ccw → c.kind.isArc = true := by
    intro h
    cases hck : c.kind <;> rw [hck] at h <;> simp_all [MKind.mot, MKind.isArc]
  cases hm : c.kind.mot with
  | cw =>
    obtain ⟨o, hoc⟩ := ho (harc (.inl hm))
    refine ⟨o, hoc, fun p hp => key p _ ⟨a, b, hax, hbx, ?_⟩ (le_min la lb)⟩
    rw [hm]
    exact ⟨o, hoc, hp⟩
  | ccw =>
    obtain ⟨o, hoc⟩ := ho (harc (.inr hm))
    refine ⟨o, hoc, fun p hp => key p _ ⟨a, b, hax, hbx, ?_⟩ (le_min la lb)⟩
    rw [hm]
    exact ⟨o, hoc, hp⟩
  | rapid =>
    intro t t0 t1
    refine key _ _ ⟨a, b, hax, hbx, ?_⟩ (by nlinarith)
    rw [hm]
    exact ⟨t, t0, t1, rfl⟩
  | linear =>
    intro t t0 t1
    refine key _ _ ⟨a, b, hax, hbx, ?_⟩ (by nlinarith)
    rw [hm]
    exact ⟨t, t0, t1, rfl⟩

/-- Lists of moves that begin anywhere, one after the other. -/
theorem spares_flatten {S : Solid} {ρ ε lo : ℚ} {css : List (List Motion)} (hc : ∀ cs ∈ css, Connected {} cs)
    (hm : MovesAbove lo css.flatten)
    (ha : ∀ c ∈ css.flatten, c.kind.mot ≠ .rapid → Located c ∧ ∀ p, Sweeps c p → Away (fun q => ∃ ζ, S q ζ ∧ lo + ε < ζ) ρ p) :
    ∀ c ∈ css.flatten, c.kind.mot ≠ .rapid → MoveSpares S ρ ε c := by
  intro c hcm hk
  obtain ⟨cs, hcs, hcc⟩ := List.mem_flatten.mp hcm
  obtain ⟨hl, haw⟩ := ha c hcm hk
  refine moveSpares_of_away hl ?_ (hm c hcm) haw
  exact connected_above (hc cs hcs) (fun c hc => hm c (List.mem_flatten.mpr ⟨cs, hcs, hc⟩)) (.inl rfl) c hcc hl.1

theorem profiles_connected {cad : Cad} (hb : BoxMoves cad) {j : Job} {wires : List (List Edge)} {offset : ℚ} {stepdown : Option ℚ}
    {cs : List Motion} (hsafe : 0 ≤ j.opSafeHeight) (h : profiles cad j offset stepdown none wires = .ok cs)
    (hw : ∀ w ∈ wires, PlainContours cad j offset w) : ∃ css : List (List Motion), cs = css.flatten ∧ ∀ b ∈ css, Connected {} b := by
  obtain ⟨css, hm, h⟩ := bind_ok.mp h
  cases h
  refine ⟨css, rfl, fun b hbm => ?_⟩
  obtain ⟨w, hwm, hp⟩ := mapE_mem hm hbm
  exact (profile_moves hb hp hsafe (hw w hwm)).1

theorem profiles_tabs_connected {cad : Cad} (hA : Assembles cad) (hb : BoxMoves cad) {j : Job} (hk : KeepsBelow cad j.top)
    {wires : List (List Edge)} {offset : ℚ} {stepdown : Option ℚ} {tabs : Tabs} {cs : List Motion}
    (hs : ∀ s, stepdown = some s → 0 ≤ s) (hsafe : 0 ≤ j.opSafeHeight) (hv : ∀ w, NearestIsVertex cad w)
    (h : profiles cad j offset stepdown (some tabs) wires = .ok cs) (hw : ∀ w ∈ wires, TabsUsable cad j offset w tabs) :
    ∃ css : List (List Motion), cs = css.flatten ∧ ∀ b ∈ css, Connected {} b := by
  obtain ⟨css, hm, h⟩ := bind_ok.mp h
  cases h
  refine ⟨css, rfl, fun b hbm => ?_⟩
  obtain ⟨w, hwm, hp⟩ := mapE_mem hm hbm
  obtain ⟨marks, hf⟩ := tabsUsable_fit hA hb (hw w hwm)
  exact (profile_tab_cuts hb hk hs hsafe hv hp hf).1

theorem tracks_parts {css : List (List Motion)} (h : ∀ b ∈ css, Connected {} b) : Tracks {} css.flatten :=
  tracks_flatten (fun a ha => tracks_connected (h a ha)) _

/-- C135 for `wire_profile` without tabs (as far as C115 holds): the contours keep off what of the part rises above the deepest pass. -/
theorem C135_wire_profile_partial {S : Solid} {σ ε lo : ℚ} {cad : Cad} (hb : BoxMoves cad) {wires : List (List Edge)} {offset : ℚ}
    {stepdown : Option ℚ} {tool : Option Tool} {j : Job} (hsafe : 0 ≤ j.opSafeHeight)
    (hw : ∀ w ∈ wires, PlainContours cad j offset w) {τ : ℚ} (hrel : ∀ v w, cad.relocate v w = w) (hτ : Tolerance cad j.precision τ)
    (hlo : ∀ cs, (wireProfileRequest cad wires offset stepdown none tool).gen j = .ok cs → MovesAbove lo cs)
    (hS : ∀ R, j.toolRadius = some R → R + τ + 1 / 1000000 ≤ |offset * R| + σ ∧ ∀ w ∈ wires,
      OffsetsSound cad (w.map (Edge.toLocal j.top)) (offset * R) ∧
      OffsetsAway cad (fun q => ∃ ζ, S q ζ ∧ lo + ε < ζ) (w.map (Edge.toLocal j.top)) (offset * R)) :
    CallSpares S σ ε j (wireProfileRequest cad wires offset stepdown none tool) := by
  intro cs hcs
  obtain ⟨css, rfl, hcon⟩ := profiles_connected hb hsafe hcs hw
  refine ⟨tracks_parts hcon, fun R hR ρ hρ hle => ?_⟩
  obtain ⟨h1, h2⟩ := hS R hR
  exact spares_flatten hcon (hlo _ hcs) (C115_wire_profile_partial hrel hτ hR h2 hρ (by linarith) hcs)

/-- C135 for `wire_profile` with tabs. -/
theorem C135_wire_profile_tabs_partial {S : Solid} {σ ε lo : ℚ} {cad : Cad} (hA : Assembles cad) (hF : AssemblesFrom cad) (hb : BoxMoves cad)
    {wires : List (List Edge)} {offset : ℚ} {stepdown : Option ℚ} {tabs : Tabs} {tool : Option Tool} {j : Job} (hk : KeepsBelow cad j.top)
    (hst : ∀ s, stepdown = some s → 0 ≤ s) (hsafe : 0 ≤ j.opSafeHeight) (hv : ∀ w, NearestIsVertex cad w)
    (hw : ∀ w ∈ wires, TabsUsable cad j offset w tabs) {τ : ℚ} (hrel : ∀ v w, cad.relocate v w = w) (hτ : Tolerance cad j.precision τ)
    (hlo : ∀ cs, (wireProfileRequest cad wires offset stepdown (some tabs) tool).gen j = .ok cs → MovesAbove lo cs)
    (hS : ∀ R, j.toolRadius = some R → R + τ + 1 / 1000000 ≤ |offset * R| + σ ∧ ∀ w ∈ wires,
      OffsetsSound cad (w.map (Edge.toLocal j.top)) (offset * R) ∧ OffsetsDivisible cad (w.map (Edge.toLocal j.top)) (offset * R) ∧
      OffsetsTabbed cad tabs (w.map (Edge.toLocal j.top)) (offset * R) ∧
      OffsetsAway cad (fun q => ∃ ζ, S q ζ ∧ lo + ε < ζ) (w.map (Edge.toLocal j.top)) (offset * R)) :
    CallSpares S σ ε j (wireProfileRequest cad wires offset stepdown (some tabs) tool) := by
  intro cs hcs
  obtain ⟨css, rfl, hcon⟩ := profiles_tabs_connected hA hb hk hst hsafe hv hcs hw
  refine ⟨tracks_parts hcon, fun R hR ρ hρ hle => ?_⟩
  obtain ⟨h1, h2⟩ := hS R hR
  exact spares_flatten hcon (hlo _ hcs) (C115_wire_profile_tabs_partial hrel hF hv hτ hR h2 hρ (by linarith) hcs)

/-- C135 for `profile`, without tabs: inner and outer wires, each at its offset. -/
theorem C135_profile_partial {S : Solid} {σ ε lo : ℚ} {cad : Cad} (hb : BoxMoves cad) {shapes : List Shape} {outers inners : List (List Edge)}
    {outerOffset innerOffset : Option ℚ} {stepdown : Option ℚ} {tool : Option Tool} {j : Job} (hsafe : 0 ≤ j.opSafeHeight)
    (hx : extractWires shapes = .ok (outers, inners))
    (hw : ∀ w o, (w ∈ outers ∧ outerOffset = some o) ∨ (w ∈ inners ∧ innerOffset = some o) → PlainContours cad j o w) {τ : ℚ}
    (hrel : ∀ v w, cad.relocate v w = w) (hτ : Tolerance cad j.precision τ)
    (hlo : ∀ cs, (profileRequest cad shapes outerOffset innerOffset stepdown none tool).gen j = .ok cs → MovesAbove lo cs)
    (hS : ∀ R, j.toolRadius = some R → (∀ o, outerOffset = some o ∨ innerOffset = some o → R + τ + 1 / 1000000 ≤ |o * R| + σ) ∧
      ∀ w o, (w ∈ outers ∧ outerOffset = some o) ∨ (w ∈ inners ∧ innerOffset = some o) →
        OffsetsSound cad (w.map (Edge.toLocal j.top)) (o * R) ∧
        OffsetsAway cad (fun q => ∃ ζ, S q ζ ∧ lo + ε < ζ) (w.map (Edge.toLocal j.top)) (o * R)) :
    CallSpares S σ ε j (profileRequest cad shapes outerOffset innerOffset stepdown none tool) := by
  intro cs hcs
  have hcss : ∃ css : List (List Motion), cs = css.flatten ∧ ∀ b ∈ css, Connected {} b := by
    obtain ⟨⟨os, is⟩, h0, hcs⟩ := bind_ok.mp hcs
    rw [hx] at h0
    cases h0
    obtain ⟨a, g1, hcs⟩ := bind_ok.mp hcs
    obtain ⟨b, g2, hcs⟩ := bind_ok.mp hcs
    cases hcs
    have ha : ∃ css : List (List Motion), a = css.flatten ∧ ∀ b ∈ css, Connected {} b := by
      cases hi : innerOffset with
      | none => rw [hi] at g1; cases g1; exact ⟨[], rfl, by simp⟩
      | some o =>
        rw [hi] at g1
        exact profiles_connected hb hsafe g1 (fun w hwm => hw w o (.inr ⟨hwm, hi⟩))
    have hb' : ∃ css : List (List Motion), b = css.flatten ∧ ∀ b ∈ css, Connected {} b := by
      cases hi : outerOffset with
      | none => rw [hi] at g2; cases g2; exact ⟨[], rfl, by simp⟩
      | some o =>
        rw [hi] at g2
        exact profiles_connected hb hsafe g2 (fun w hwm => hw w o (.inl ⟨hwm, hi⟩))
    obtain ⟨as, rfl, ha⟩ := ha
    obtain ⟨bs, rfl, hb'⟩ := hb'
    refine ⟨as ++ bs, (List.flatten_append).symm, fun x hx => ?_⟩
    rcases List.mem_append.mp hx with hx | hx
    · exact ha x hx
    · exact hb' x hx
  obtain ⟨css, rfl, hcon⟩ := hcss
  refine ⟨tracks_parts hcon, fun R hR ρ hρ hle => ?_⟩
  obtain ⟨h1, h2⟩ := hS R hR
  exact spares_flatten hcon (hlo _ hcs) (C115_partial hrel hτ hR hx h2 hρ (fun o ho => by linarith [h1 o ho]) hcs)

/-! ### Pockets -/

/-- A tool in the given faces spares a solid that leaves them free. -/
theorem toolIn_spares {S : Solid} {faces avoids : List PathFace} {δ r r' r'' d ρ ε : ℚ} {x : Pt} (hS : LeavesFree S faces avoids (d + ε))
    (hε : 0 ≤ ε) (hρ : 0 ≤ ρ) (h1 : ρ ≤ r) (h2 : ρ ≤ r') (h3 : avoids ≠ [] → ρ ≤ r'')
    (h : ToolIn faces avoids δ r r' r'' d x) : Spares S ρ ε x d := by
  intro q ζ hq hζ
  by_contra hc
  rw [not_le] at hc
  have hρ0 : 0 < ρ := by
    rcases hρ.lt_or_eq with h0 | h0
    · exact h0
    · rw [← h0] at hc
      simp only [sqDist] at hc
      nlinarith [sq_nonneg (x.x - q.x), sq_nonneg (x.y - q.y)]
  have hlt : ∀ s, ρ ≤ s → sqDist x q < s ^ 2 := fun s hs => hc.trans_le (pow_le_pow_left₀ hρ hs 2)
  obtain ⟨⟨f, hf, hfd, -, hin, hh⟩, ha⟩ := h
  rcases hS f hf (by linarith) q ζ hq hζ (hin (by linarith) q (hlt r h1)) with ⟨i, hi, hqi⟩ | ⟨a, ham, had, hqa, hni⟩
  · have := hh (by linarith) i hi q hqi
    linarith [hlt r' h2]
  · have hne : avoids ≠ [] := List.ne_nil_of_mem ham
    have := ha (by linarith [h3 hne]) a ham (by linarith) q hqa hni
    linarith [hlt r'' (h3 hne)]

/-- C135 for pockets, partial: as C103 and C108, the links from contour to contour are only known to run straight between places where the
tool can be, which is why it has to be asked of these (as it is for convex pockets without islands). -/
theorem C135_pocket_partial {S : Solid} {σ ε δ : ℚ} {D G : List Pt → Prop} {eng : Clipper} {j : Job} (heng : ClipperNearOn G δ eng)
    (hk : MakesKind G eng) (hi : StaysInside G δ j.precision eng) (hoff : OffsetsRight D δ j.precision eng)
    (hcut : CutsRight D G δ j.precision eng) (hr : NoRepeats eng) {veq : Vec → Vec → Bool} {fuel : ℕ} {opAreas avoidAreas : List CqFace}
    {a : PocketArgs} {tool : Option Tool} (hsafe : 0 < j.opSafeHeight) (hε : 0 ≤ ε)
    (hstep : ∀ diameter, j.toolDiameter = some diameter → 2 * δ < offsetDistance (diameter / 2) (1 / 2) a.stepover)
    (hD : ∀ c ∈ opAreas ++ avoidAreas, ∀ f, FlatFace veq j.precision c f → f.All D)
    (hS : ∀ diameter outer inner avoidOuter avoidInner faces avoidFaces areas avoids regions, j.toolDiameter = some diameter →
      outer = (if avoidAreas ≠ [] ∧ a.outerOffset = none then 0 else offsetDistance (diameter / 2) (-1) a.outerOffset) →
      inner = offsetDistance (diameter / 2) 1 a.innerOffset → avoidOuter = offsetDistance (diameter / 2) 1 a.avoidOuterOffset →
      avoidInner = offsetDistance (diameter / 2) (-1) a.avoidInnerOffset →
      List.Forall₂ (FlatFace veq j.precision) opAreas faces → List.Forall₂ (FlatFace veq j.precision) avoidAreas avoidFaces →
      List.Forall₂ (OffsetFaces eng outer inner j.precision) faces areas →
      List.Forall₂ (OffsetFaces eng avoidOuter avoidInner j.precision) avoidFaces avoids →
      buildPocketOps eng areas.flatten avoids.flatten = .ok regions →
      OpenPocket S σ ε δ (diameter / 2) eng j.precision outer inner avoidOuter avoidInner faces avoidFaces areas avoids regions) :
    CallSpares S σ ε j (pocketRequest eng veq fuel opAreas avoidAreas a tool) := by
  intro cs hcs
  have hcs : pocket eng veq fuel opAreas avoidAreas a j = .ok cs := hcs
  refine ⟨tracks_connected (C26_pocket hcs), ?_⟩
  intro R hR ρ hρ hle c hc hkc
  obtain ⟨diameter, faces, avoidFaces, g1, g3, g4, g5⟩ := pocket_open hcs
  have hRd : R = diameter / 2 := by
    unfold Job.toolRadius at hR
    rw [g1] at hR
    dsimp only at hR
    split at hR
    · cases hR
    · exact (Option.some.inj hR).symm
  obtain ⟨areas, avoids, regions, k1, k2, k3, k4⟩ := pocket_feeds heng hk hi hr g5 hsafe (by
    rw [calculateOffset_distance]; exact hstep _ g1)
  have e6 : List.Forall₂ (OffsetFaces eng
      (if avoidAreas ≠ [] ∧ a.outerOffset = none then 0 else offsetDistance (diameter / 2) (-1) a.outerOffset)
      (offsetDistance (diameter / 2) 1 a.innerOffset) j.precision) faces areas := by
    refine (mapE_ok.mp k1).imp fun f gs hf => ?_
    have := offsetPolyface_spec hf
    rw [calculateOffset_distance, calculateOffset_distance] at this
    by_cases hc : avoidAreas ≠ [] ∧ a.outerOffset = none
    · rw [if_pos hc] at this ⊢
      simpa [offsetDistance] using this
    · rw [if_neg hc] at this ⊢
      exact this
  have e7 : List.Forall₂ (OffsetFaces eng (offsetDistance (diameter / 2) 1 a.avoidOuterOffset)
      (offsetDistance (diameter / 2) (-1) a.avoidInnerOffset) j.precision) avoidFaces avoids := by
    refine (mapE_ok.mp k2).imp fun f gs hf => ?_
    have := offsetPolyface_spec hf
    rwa [calculateOffset_distance, calculateOffset_distance] at this
  have ho := hS diameter _ _ _ _ faces avoidFaces areas avoids regions g1 rfl rfl rfl rfl g3 g4 e6 e7 k3
  have hDf : ∀ f ∈ faces ++ avoidFaces, f.All D := by
    intro f hf
    rcases List.mem_append.mp hf with hf | hf
    · obtain ⟨c, hc, hcf⟩ := forall₂_mem_right g3 hf
      exact hD c (by simp [hc]) f hcf
    · obtain ⟨c, hc, hcf⟩ := forall₂_mem_right g4 hf
      exact hD c (by simp [hc]) f hcf
  obtain ⟨r, hrm, contours, d, -, d1, d2, p, q, hp, hq, hkl, hfin, hst⟩ := k4 c hc hkc
  have key : ∀ x, InRegion δ r x → ToolIn faces avoidFaces (5 * δ) _ _ _ r.depth x := fun x hx =>
    region_tool heng hk hoff hcut (s := -(if avoidAreas ≠ [] ∧ a.outerOffset = none then 0 else
        offsetDistance (diameter / 2) (-1) a.outerOffset)) (si := -offsetDistance (diameter / 2) (-1) a.avoidInnerOffset)
      (by linarith [ho.shrunk]) hDf (by rw [neg_neg]; exact e6) (by rw [neg_neg]; exact e7) k3 ho.rings hrm (ho.void r hrm) ho.holes
      (ho.separate r hrm) hx
  have hway : ∀ x, OnSegment p q x → Spares S ρ ε x r.depth := by
    intro x hx
    rcases ho.links r hrm p q x hx (key p hp) (key q hq) with h | h
    · exact toolIn_spares (ho.free r hrm) hε hρ (by linarith [ho.inset]) (by linarith [ho.outset])
        (fun hne => by linarith [ho.around hne]) h
    · exact spares_mono h hρ (by rw [← hRd]; linarith) le_rfl
  rcases hst with ⟨rfl, hst⟩ | ⟨hst, -⟩
  · refine ⟨p, p, _, _, hst, hfin, ?_⟩
    rw [hkl]
    intro t t0 t1
    refine spares_mono (hway _ ⟨t, t0, t1, rfl⟩) hρ le_rfl ?_
    nlinarith
  · refine ⟨p, q, _, _, hst, hfin, ?_⟩
    rw [hkl]
    intro t t0 t1
    refine spares_mono (hway _ ⟨t, t0, t1, rfl⟩) hρ le_rfl ?_
    nlinarith

/-! ### 3D surfacing -/

/-- C135 for 3D surfacing: it is enough that the heights which the drop cutter finds are right for a cylinder of the tool's size. -/
theorem C135_surface {S : Solid} {σ ε : ℚ} {eng : SurfaceEngine} {k : FaceKernel} {args : SurfaceArgs} {oo : ℚ × ℚ} {io : Option (ℚ × ℚ)}
    {bs : List BoundaryFace} {j : Job} {h : Pt → ℚ} {K r : ℚ} (hd : ∀ ps, eng.drop ps = ps.map h)
    (hK : SlopeUpTo K h) (hK0 : 0 ≤ K) (hm : Measures r eng.norm) (hr : 0 ≤ r) (hi : 0 < args.interpolationStep)
    (htop : args.topHeight ≤ 0) (hbot : eng.bottom ≤ args.topHeight) (hsafe : 0 ≤ j.opSafeHeight) (hrh : 0 ≤ j.rapidHeight)
    (hσ : 0 ≤ σ) (hε : K * (r * args.interpolationStep) / 2 ≤ ε)
    (hS : ∀ R, j.toolRadius = some R → ∀ p, Spares S R 0 p (h p)) :
    CallSpares S σ ε j (surface3dRequest eng k args oo io bs) := by
  intro cs hcs
  have hcs : surface3d eng k args oo io bs j = .ok cs := hcs
  obtain ⟨htr, hcl⟩ := C100_between hd hK hK0 hm hr hi htop hbot hsafe hrh hcs
  refine ⟨htr, ?_⟩
  intro R hR ρ hρ hle c hc hk
  rcases hcl c hc with h1 | h1 | ⟨h1, a, b, ha, hb, hab⟩
  · exact absurd h1.1 hk
  · exact absurd h1.1 hk
  · have hl : c.kind.mot = .linear := h1.resolve_left hk
    refine ⟨⟨a.x, a.y⟩, ⟨b.x, b.y⟩, a.z, b.z, ha, hb, ?_⟩
    rw [hl]
    intro t t0 t1 q ζ hq hζ
    have h2 := hab t t0 t1
    exact (pow_le_pow_left₀ hρ (by linarith) 2).trans (hS R hR _ q ζ hq (by linarith))

end CQ
