import Verif.Spec.Library64
import Verif.Props.Solid
import Verif.Props.DrillMachine64
import Verif.Props.TabClear64
import Verif.Props.Mesh64

/-! # C155: the finished part survives the whole program, computed in floating point -/

namespace CQ

/-! ### Rapids -/

theorem tame_routeFacesWith {near : Pt → List Pt → Except Err (Option Nearest)} {j : Job} {stepover : Option ℚ} {faces : List PathFace} :
    ∀ {pwe : Option Pt} {pos : AddrVec} {cs : List Motion}, routeFacesWith near j stepover pwe pos faces = .ok cs →
      Tame j.rapidHeight j.opSafeHeight pos cs := by
  induction faces with
  | nil => intro pwe pos cs h; cases h; trivial
  | cons f fs ih =>
    intro pwe pos cs h
    unfold routeFacesWith at h
    cases h1 : routeFaceWith near j stepover pwe pos f with
    | error e => rw [h1] at h; cases h
    | ok r =>
      obtain ⟨a, p⟩ := r
      rw [h1] at h
      simp only at h
      cases h2 : routeFacesWith near j stepover p (lastFin pos a) fs with
      | error e => rw [h2] at h; cases h
      | ok r =>
        rw [h2] at h
        cases h
        rw [tame_append, ← lastFin_eq]
        refine ⟨?_, ih h2⟩
        unfold routeFaceWith at h1
        cases ho : f.outer with
        | nil => rw [ho] at h1; cases h1
        | cons p0 ps =>
          rw [ho] at h1
          simp only at h1
          cases hn : nearestWith near pwe (p0 :: ps) with
          | error e => rw [hn] at h1; cases h1
          | ok found =>
            rw [hn] at h1
            simp only at h1
            have happ : ∀ n : Option Nearest, Tame j.rapidHeight j.opSafeHeight pos (match n with
                | some n => [cutTo j f.depth pos n.point]
                | none => rapidTo pos ⟨p0.x, p0.y, f.depth⟩ j.rapidHeight (some j.opSafeHeight) (some j.plungeFeed)) := by
              intro n
              cases n with
              | some n => exact tame_feeds (fun c hc => by rw [List.mem_singleton] at hc; subst hc; exact fun h => (by cases h))
              | none => exact tame_rapidTo _ _ _ _ _
            have hone : ∀ (q r : AddrVec) (x : Pt), Tame j.rapidHeight j.opSafeHeight q [cutTo j f.depth r x] :=
              fun q r x => tame_feeds (fun c hc => by rw [List.mem_singleton] at hc; subst hc; exact fun h => (by cases h))
            cases found with
            | some n =>
              cases h1
              rw [tame_append, tame_append]
              exact ⟨⟨happ _, tame_cutsTo _ _ _ _ _ _ _⟩, hone _ _ _⟩
            | none =>
              cases h1
              rw [tame_append]
              exact ⟨happ _, tame_cutsTo _ _ _ _ _ _ _⟩

theorem tame_routeSequences64 {lib : MathLib} {j : Job} {stepover : ℚ} (ss : List (List PathFace)) :
    ∀ {commands cs : List Motion} {pos : AddrVec}, routeSequences64 lib j stepover commands pos ss = .ok cs →
      Tame j.rapidHeight j.opSafeHeight {} commands → pos = finalPos {} commands → Tame j.rapidHeight j.opSafeHeight {} cs := by
  induction ss with
  | nil => intro commands cs pos h hc _; cases h; exact hc
  | cons s ss ih =>
    intro commands cs pos h hc hp
    unfold routeSequences64 at h
    obtain ⟨a, ha, h⟩ := bind_ok.mp h
    split at h
    · cases h
    · rename_i c hl
      refine ih h ?_ ?_
      · rw [tame_append, ← hp]
        exact ⟨hc, tame_routeFacesWith ha⟩
      · rw [← lastFin_eq]
        simp only [lastFin, hl]

theorem tame_pocket64 {lib : MathLib} {eng : Clipper} {veq : Vec → Vec → Bool} {fuel : ℕ} {opAreas avoidAreas : List CqFace} {a : PocketArgs}
    {j : Job} {cs : List Motion} (h : pocket64 lib eng veq fuel opAreas avoidAreas a j = .ok cs) :
    Tame j.rapidHeight j.opSafeHeight {} cs := by
  unfold pocket64 at h
  cases hr : j.toolRadius64 with
  | none => rw [hr] at h; cases h
  | some r =>
    rw [hr] at h
    obtain ⟨_, -, h⟩ := bind_ok.mp h
    obtain ⟨_, -, h⟩ := bind_ok.mp h
    unfold pocketClipper64 at h
    obtain ⟨_, -, h⟩ := bind_ok.mp h
    obtain ⟨_, -, h⟩ := bind_ok.mp h
    obtain ⟨_, -, h⟩ := bind_ok.mp h
    obtain ⟨seqs, -, h⟩ := bind_ok.mp h
    exact tame_routeSequences64 seqs h trivial rfl

theorem tame_profiles64 {cad : Cad} {j : Job} {offset : ℚ} {stepdown : Option ℚ} {wires : List (List Edge)} {cs : List Motion}
    (h : profiles64 cad j offset stepdown wires = .ok cs) : ∀ p, Tame j.rapidHeight j.opSafeHeight p cs := by
  obtain ⟨bs, h1, h⟩ := bind_ok.mp h
  cases h
  refine tame_flatten ?_
  intro b hb
  obtain ⟨w, -, hw⟩ := mapE_mem h1 hb
  unfold profile64 at hw
  cases hr : j.toolRadius with
  | none => rw [hr] at hw; cases hw
  | some r =>
    rw [hr] at hw
    obtain ⟨_, -, hw⟩ := bind_ok.mp hw
    obtain ⟨ws, -, hw⟩ := bind_ok.mp hw
    exact tame_routeWiresFrom ws.flatten hw trivial rfl

theorem tame_tabProfiles64 {cad : Cad} {len : Edge → ℚ} {total : List Edge → ℚ} {j : Job} {offset : ℚ} {stepdown : Option ℚ} {tabs : Tabs}
    {wires : List (List Edge)} {cs : List Motion} (h : tabProfiles64 cad len total j offset stepdown tabs wires = .ok cs) :
    ∀ p, Tame j.rapidHeight j.opSafeHeight p cs := by
  obtain ⟨bs, h1, h⟩ := bind_ok.mp h
  cases h
  refine tame_flatten ?_
  intro b hb
  obtain ⟨w, -, hw⟩ := mapE_mem h1 hb
  unfold tabProfile64 at hw
  cases hr : j.toolRadius with
  | none => rw [hr] at hw; cases hw
  | some r =>
    rw [hr] at hw
    obtain ⟨_, -, hw⟩ := bind_ok.mp hw
    obtain ⟨ws, -, hw⟩ := bind_ok.mp hw
    exact tame_routeWiresFrom ws.flatten hw trivial rfl

theorem tame_surface3d64 {sq : ℚ → ℚ} {eng : SurfaceEngine} {k : FaceKernel} {args : SurfaceArgs} {oo : ℚ × ℚ} {io : Option (ℚ × ℚ)}
    {bs : List BoundaryFace} {j : Job} {cs : List Motion} (hg : surface3d64 sq eng k args oo io bs j = .ok cs) :
    Tame j.rapidHeight j.opSafeHeight {} cs := by
  obtain ⟨css, rfl, hb⟩ := surface3d64_ok hg
  refine tame_flatten ?_ _
  intro b hbm
  obtain ⟨poly, -, hp⟩ := hb b hbm
  obtain ⟨_, -, hp⟩ := bind_ok.mp hp
  obtain ⟨_, -, hp⟩ := bind_ok.mp hp
  obtain ⟨_, -, hp⟩ := bind_ok.mp hp
  obtain ⟨_, -, hp⟩ := bind_ok.mp hp
  cases hp
  exact tame_passesMoves _ _ _ _ _ _

/-- The moves of every operation of the library, computed in floating point. -/
theorem tame_library64 {r : Request} (h : LibraryRequest64 r) {j : Job} {cs : List Motion} (hg : r.gen j = .ok cs) :
    Tame j.rapidHeight j.opSafeHeight {} cs := by
  cases h with
  | pocket lib eng veq fuel opAreas avoidAreas a tool => exact tame_pocket64 hg
  | wireProfile cad wires offset stepdown tool => exact tame_profiles64 hg {}
  | tabWireProfile cad len total wires offset stepdown tabs tool => exact tame_tabProfiles64 hg {}
  | profile cad shapes outerOffset innerOffset stepdown tool =>
    obtain ⟨⟨os, is⟩, -, h⟩ := bind_ok.mp hg
    obtain ⟨a, h1, h⟩ := bind_ok.mp h
    obtain ⟨b, h2, h⟩ := bind_ok.mp h
    cases h
    have key : ∀ {o : Option ℚ} {ws : List (List Edge)} {cs : List Motion}, profilesOpt64 cad j o stepdown ws = .ok cs →
        ∀ p, Tame j.rapidHeight j.opSafeHeight p cs := by
      intro o ws cs h
      cases o with
      | none => cases h; exact fun _ => trivial
      | some o => exact tame_profiles64 h
    rw [tame_append]
    exact ⟨key h1 _, key h2 _⟩
  | tabProfile cad len total shapes outerOffset innerOffset stepdown tabs tool =>
    obtain ⟨⟨os, is⟩, -, h⟩ := bind_ok.mp hg
    obtain ⟨a, h1, h⟩ := bind_ok.mp h
    obtain ⟨b, h2, h⟩ := bind_ok.mp h
    cases h
    have key : ∀ {o : Option ℚ} {ws : List (List Edge)} {cs : List Motion},
        tabProfilesOpt64 cad len total j o stepdown tabs ws = .ok cs → ∀ p, Tame j.rapidHeight j.opSafeHeight p cs := by
      intro o ws cs h
      cases o with
      | none => cases h; exact fun _ => trivial
      | some o => exact tame_tabProfiles64 h
    rw [tame_append]
    exact ⟨key h1 _, key h2 _⟩
  | drill sq world center o depth tool =>
    change drill64 sq (world j.top) center o depth j = .ok cs at hg
    cases o with
    | none => cases hg
    | some o =>
      cases depth with
      | none => cases hg
      | some d =>
        obtain ⟨vs, -, hg⟩ := bind_ok.mp hg
        dsimp only at hg
        split at hg
        · cases hg
        · obtain ⟨ps, -, hg⟩ := bind_ok.mp hg
          cases hg
          exact tame_drillHoles _ _ _ _
  | surface3d sq eng k args oo io bs => exact tame_surface3d64 hg
  | surface3dMesh sq m k s z args oo io bs =>
    rcases surface3dMesh64_engine hg with rfl | ⟨tris, -, h⟩
    · trivial
    · exact tame_surface3d64 h

theorem operations_rapids64 {j0 : Job} (os : List Operation) :
    ∀ m : Machine, (∀ o ∈ os, BaseOrigin LibraryRequest64 j0 o) →
      ∀ e ∈ (effects m (os.map Operation.commands).flatten).2, RapidFree j0.rapidHeight j0.opSafeHeight e := by
  induction os with
  | nil => intro m _ e he; simp [effects] at he
  | cons o os ih =>
    intro m h e he
    rw [List.map_cons, List.flatten_cons, effects_append] at he
    rcases List.mem_append.mp he with he | he
    · rcases h o (by simp) with ⟨n, s, c, hc⟩ | ⟨s, c, hc⟩ | ⟨r, j, cs, hp, hb, hg, hc⟩
      · rw [hc] at he
        simp only [effects, Command.effect, toolChangeEffect, List.append_nil, List.mem_cons, List.not_mem_nil, or_false] at he
        intro tgt ctr hact
        rcases he with rfl | rfl | rfl <;> cases hact
      · rw [hc] at he
        simp [effects, Command.effect] at he
      · rw [hc] at he
        obtain ⟨e1, e2, -⟩ := sameBase_heights hb
        have ht := tame_library64 hp hg
        rw [e1, e2] at ht
        refine tame_events cs {} m ht ?_ e he
        exact ⟨fun _ h => (by cases h), fun _ h => (by cases h), fun _ h => (by cases h)⟩
    · exact ih _ (fun o ho => h o (by simp [ho])) e he

/-- C155, rapids.  In the program of every job made of operations of the library as computed in floating point, whatever their arguments and
whatever the kernel, the clipper and the C library answer: every rapid ends at the job's rapid height, its operation-safe height, or 0, and a
rapid that changes X or Y starts and ends at the same one of the first two (as printed). -/
theorem C155_rapids {j0 j : Job} (m : Machine) (h0 : InitOK j0) (hn : ∀ v, j0.toolNumber = some v → NumOK v)
    (h : ReachWith LibraryRequest64 j0 j) (hend : m.ended = false) :
    ∃ t m' evs, j.toGcode = .ok t ∧ runText m t = some (m', evs) ∧ ∀ e ∈ evs, RapidFree j0.rapidHeight j0.opSafeHeight e := by
  have hok := (inv_reach (inv_init h0 hn) (reachWith_reach h)).ok
  obtain ⟨t, ht, hr⟩ := run_job m j hok hend
  rw [intended_eq] at hr
  refine ⟨t, _, _, ht, hr, ?_⟩
  intro e he
  simp only [List.mem_cons, List.mem_append, List.not_mem_nil, or_false] at he
  rcases he with rfl | he | rfl | rfl
  · intro tgt ctr hact; cases hact
  · exact operations_rapids64 j.operations _ (reach_baseOrigin h0.fresh h).2 e he
  · intro tgt ctr hact; cases hact
  · intro tgt ctr hact; cases hact

/-! ### Programs -/

/-- C155.  Take any chain of calls of the library, computed in floating point, whose feed moves spare a solid, the finished part, and let the
machine run the program.  In the part of the program that belongs to a call the tool of the call is in the spindle, and the machine spares the
solid on the whole way of every feed move, up to the given tolerances, a thousandth sideways, and half a thousandth downwards.  No rapid can
touch anything below the top plane except where the tool stood already. -/
theorem C155_program {S : Solid} {σ ε : ℚ} {j0 jf : Job} {rs : List Request} (m : Machine) (h0 : InitOK j0)
    (hn : ∀ v, j0.toolNumber = some v → NumOK v) (hl : ∀ r ∈ rs, LibraryRequest64 r) (hok : ChainOK j0 rs) (h : j0.chain rs = .ok jf)
    (hend : m.ended = false) (htool : ∀ n, j0.toolNumber = some n → m.tool = some n.value)
    (hrh : 0 ≤ j0.rapidHeight) (hsh : 0 ≤ j0.opSafeHeight) (hS : EachSpares S σ ε j0 rs) :
    ∃ t m' e1 e2 e3 evss, jf.toGcode = .ok t ∧ runText m t = some (m', e1 :: (evss.flatten ++ [e2, e3])) ∧
      e1.act = .home ∧ e2.act = .home ∧ e3.act = .stop ∧
      List.Forall₂ (fun evs (s : Settings) =>
        (∀ e ∈ evs, isMove e = true → ∀ n, s.toolNumber = some n → e.st.tool = some n.value) ∧
        ∀ D, s.toolDiameter = some D → D ≠ 0 → ∀ ρ, 0 ≤ ρ → ρ + σ + 1 / 1000 ≤ D / 2 →
          ∀ e ∈ evs, isFeedMove e = true → RunSpares S ρ (ε + 1 / 2000) e) evss (requestSettings j0.settings rs) ∧
      ∀ e ∈ evss.flatten, RapidHarmless e := by
  obtain ⟨t, m', e1, e2, e3, evss, a1, a2, k1, k2, k3, a6, a7, -, -, a10⟩ := chain_program m h0 hn hok h hend htool
  obtain ⟨t', m'', evs', b1, b2, b3⟩ := C155_rapids m h0 hn (chain_reachWith hl .init hok h) hend
  rw [a1] at b1
  cases b1
  rw [a2] at b2
  cases b2
  refine ⟨t, m', e1, e2, e3, evss, a1, a2, k1, k2, k3, ?_, fun e he => rapidHarmless_free hrh hsh (b3 e (by simp [he]))⟩
  refine forall₂_and a7 ((forall₂_join (forall₂_and a6 a10) (eachSpares_moves hS h)).imp ?_)
  rintro evs s ⟨cs, ⟨c1, c2⟩, htr, hsp⟩ D hD hne ρ hρ hle e he hfm
  have hfol := forall₂_and c1 (c2 htr)
  obtain ⟨c, hc, hec⟩ := forall₂_mem_left hfol (List.mem_filter.mpr ⟨he, isMove_of_isFeedMove hfm⟩)
  refine runSpares_follows hρ hec (hsp D hD hne (ρ + 1 / 1000) (by linarith) (by linarith) c hc ?_)
  intro hr
  obtain ⟨⟨tgt, ctr, hact, -⟩, -⟩ := hec
  rw [hr] at hact
  simp [isFeedMove, hact] at hfm

/-! ### Drilling -/

/-- C155 for drilling: it is enough that a cylinder of the tool's size fits into every hole down to the depth, where the kernel puts it. -/
theorem C155_drill {S : Solid} {σ ε : ℚ} {sq : ℚ → ℚ} (hs : SquaresUpToUlp sq) {world : Frame → Vec → Vec}
    {center : List Edge → Except Err Vec} {objs : List DrillObj} {d : ℚ} {tool : Option Tool}
    {j : Job} (hw : ∀ v, IsDouble (world j.top v).x ∧ IsDouble (world j.top v).y) (hσ : 0 ≤ σ)
    (hS : ∀ R, j.toolRadius = some R → ∀ centres, List.Forall₂ (HoleCentres center) objs centres → ∀ v ∈ centres.flatten,
      Spares S R ε (world j.top v).xy (-|d|)) :
    CallSpares S σ ε j (drillRequest64 sq world center (some objs) (some d) tool) := by
  intro cs hcs
  have hcs : drill64 sq (world j.top) center (some objs) (some d) j = .ok cs := hcs
  refine ⟨tracks_connected (C140_safe_motion hs hw hcs).1, ?_⟩
  intro R hR ρ hρ hle c hc hk
  obtain ⟨centres, ps, g1, -, g3, g2, -⟩ := C137_order hs hw hcs
  obtain ⟨p, hp, h1, h2, h3⟩ := holesMoves_feeds g3 c hc hk
  obtain ⟨v, hv, rfl⟩ := List.mem_map.mp (g2.mem_iff.mp hp)
  refine ⟨_, _, _, _, h2, h3, ?_⟩
  rw [h1]
  intro t t0 t1
  rw [show ∀ x : Pt, x.lerp x t = x from fun x => by ext <;> simp [Pt.lerp]]
  refine spares_mono (hS R hR centres g1 v hv) hρ (by linarith) ?_
  have := abs_nonneg d
  nlinarith

/-! ### Profiles -/

theorem profiles64_connected {cad : Cad} {j : Job} (hk : KeepsBelow cad j.top) {wires : List (List Edge)} {offset L τ tol : ℚ}
    {stepdown : Option ℚ} {cs : List Motion} (hc : Steps64 stepdown L τ tol) (hsafe : 0 ≤ j.opSafeHeight)
    (h : profiles64 cad j offset stepdown wires = .ok cs)
    (hw : ∀ w ∈ wires, EachContour64 cad j offset w (PlainContour64 cad j τ (2 * L))) :
    ∃ css : List (List Motion), cs = css.flatten ∧ ∀ b ∈ css, Connected {} b := by
  obtain ⟨css, hm, h⟩ := bind_ok.mp h
  cases h
  refine ⟨css, rfl, fun b hbm => ?_⟩
  obtain ⟨w, hwm, hp⟩ := mapE_mem hm hbm
  exact (profile64_moves hk hc hsafe hp (hw w hwm)).1

theorem tabProfiles64_connected {cad : Cad} {len : Edge → ℚ} {total : List Edge → ℚ} {j : Job} (hk : KeepsBelow cad j.top)
    {wires : List (List Edge)} {offset L τ tol : ℚ} {stepdown : Option ℚ} {tabs : Tabs} {cs : List Motion}
    {marks : List Edge → List Edge → List (List (ℚ × Transition)) → Prop} (hc : Steps64 stepdown L τ tol)
    (hsafe : 0 ≤ j.opSafeHeight) (hv : ∀ w, NearestIsVertex cad w) (h : tabProfiles64 cad len total j offset stepdown tabs wires = .ok cs)
    (hw : ∀ w ∈ wires, EachContour64 cad j offset w (fun b => TabsFit64 cad len total j τ (2 * L) L stepdown tabs (marks b) b)) :
    ∃ css : List (List Motion), cs = css.flatten ∧ ∀ b ∈ css, Connected {} b := by
  obtain ⟨css, hm, h⟩ := bind_ok.mp h
  cases h
  refine ⟨css, rfl, fun b hbm => ?_⟩
  obtain ⟨w, hwm, hp⟩ := mapE_mem hm hbm
  exact (tabProfile64_cuts hk hc hsafe hv hp (hw w hwm)).1

/-- C155 for `wire_profile` without tabs (as far as C144 holds): the contours keep off what of the part rises above the deepest pass. -/
theorem C155_wire_profile_partial {S : Solid} {σ ε lo L τ' tol : ℚ} {cad : Cad} {wires : List (List Edge)} {offset : ℚ}
    {stepdown : Option ℚ} {tool : Option Tool} {j : Job} (hk : KeepsBelow cad j.top) (hc : Steps64 stepdown L τ' tol)
    (hsafe : 0 ≤ j.opSafeHeight) (hw : ∀ w ∈ wires, EachContour64 cad j offset w (PlainContour64 cad j τ' (2 * L)))
    {τ κ : ℚ} (hrel : ∀ v w, cad.relocate v w = w) (hτ : Tolerance cad j.precision τ)
    (hlo : ∀ cs, (wireProfileRequest64 cad wires offset stepdown tool).gen j = .ok cs → MovesAbove lo cs)
    (hS : ∀ R, j.toolRadius = some R → |offset * R| ≤ 2 ^ 20 ∧ R + τ + κ + 2 / 1000000 ≤ |offset * R| + σ ∧ ∀ w ∈ wires,
      OffsetsSoundWithin cad (w.map (Edge.toLocal j.top)) (offset * R) (2 / 1000000) ∧
      OffsetsAwayWithin cad (fun q => ∃ ζ, S q ζ ∧ lo + ε < ζ) (w.map (Edge.toLocal j.top)) (offset * R) (2 / 1000000) κ) :
    CallSpares S σ ε j (wireProfileRequest64 cad wires offset stepdown tool) := by
  intro cs hcs
  obtain ⟨css, rfl, hcon⟩ := profiles64_connected hk hc hsafe hcs hw
  refine ⟨tracks_parts hcon, fun R hR ρ hρ hle => ?_⟩
  obtain ⟨h0, h1, h2⟩ := hS R hR
  exact spares_flatten hcon (hlo _ hcs) (profiles64_away hrel hτ hR h0 h2 hρ (by linarith) hcs)

/-- Profiles of inner and outer wires. -/
theorem spares_two {S : Solid} {ρ ε lo : ℚ} {a b : List Motion} (ha : ∃ css : List (List Motion), a = css.flatten ∧ ∀ b ∈ css, Connected {} b)
    (hb : ∃ css : List (List Motion), b = css.flatten ∧ ∀ b ∈ css, Connected {} b) (hm : MovesAbove lo (a ++ b))
    (ka : ∀ c ∈ a, c.kind.mot ≠ .rapid → Located c ∧ ∀ p, Sweeps c p → Away (fun q => ∃ ζ, S q ζ ∧ lo + ε < ζ) ρ p)
    (kb : ∀ c ∈ b, c.kind.mot ≠ .rapid → Located c ∧ ∀ p, Sweeps c p → Away (fun q => ∃ ζ, S q ζ ∧ lo + ε < ζ) ρ p) :
    ∀ c ∈ a ++ b, c.kind.mot ≠ .rapid → MoveSpares S ρ ε c := by
  obtain ⟨as, rfl, ha⟩ := ha
  obtain ⟨bs, rfl, hb⟩ := hb
  intro c hc
  rcases List.mem_append.mp hc with hc | hc
  · exact spares_flatten ha (fun c hc => hm c (by simp only [List.mem_append]; exact .inl hc)) ka c hc
  · exact spares_flatten hb (fun c hc => hm c (by simp only [List.mem_append]; exact .inr hc)) kb c hc

theorem tracks_two {a b : List Motion} (ha : ∃ css : List (List Motion), a = css.flatten ∧ ∀ b ∈ css, Connected {} b)
    (hb : ∃ css : List (List Motion), b = css.flatten ∧ ∀ b ∈ css, Connected {} b) : Tracks {} (a ++ b) := by
  obtain ⟨as, rfl, ha⟩ := ha
  obtain ⟨bs, rfl, hb⟩ := hb
  rw [← List.flatten_append]
  refine tracks_parts fun x hx => ?_
  rcases List.mem_append.mp hx with hx | hx
  · exact ha x hx
  · exact hb x hx

/-- C155 for `profile` without tabs: inner and outer wires, each at its offset. -/
theorem C155_profile_partial {S : Solid} {σ ε lo L τ' tol : ℚ} {cad : Cad} {shapes : List Shape} {outers inners : List (List Edge)}
    {outerOffset innerOffset : Option ℚ} {stepdown : Option ℚ} {tool : Option Tool} {j : Job} (hk : KeepsBelow cad j.top)
    (hc : Steps64 stepdown L τ' tol) (hsafe : 0 ≤ j.opSafeHeight) (hx : extractWires shapes = .ok (outers, inners))
    (hw : ∀ w o, (w ∈ outers ∧ outerOffset = some o) ∨ (w ∈ inners ∧ innerOffset = some o) →
      EachContour64 cad j o w (PlainContour64 cad j τ' (2 * L)))
    {τ κ : ℚ} (hrel : ∀ v w, cad.relocate v w = w) (hτ : Tolerance cad j.precision τ)
    (hlo : ∀ cs, (profileRequest64 cad shapes outerOffset innerOffset stepdown tool).gen j = .ok cs → MovesAbove lo cs)
    (hS : ∀ R, j.toolRadius = some R → (∀ o, outerOffset = some o ∨ innerOffset = some o →
        |o * R| ≤ 2 ^ 20 ∧ R + τ + κ + 2 / 1000000 ≤ |o * R| + σ) ∧
      ∀ w o, (w ∈ outers ∧ outerOffset = some o) ∨ (w ∈ inners ∧ innerOffset = some o) →
        OffsetsSoundWithin cad (w.map (Edge.toLocal j.top)) (o * R) (2 / 1000000) ∧
        OffsetsAwayWithin cad (fun q => ∃ ζ, S q ζ ∧ lo + ε < ζ) (w.map (Edge.toLocal j.top)) (o * R) (2 / 1000000) κ) :
    CallSpares S σ ε j (profileRequest64 cad shapes outerOffset innerOffset stepdown tool) := by
  intro cs hcs
  have hlo' := hlo cs hcs
  obtain ⟨⟨os, is⟩, h0, hcs⟩ := bind_ok.mp hcs
  rw [hx] at h0
  cases h0
  obtain ⟨a, g1, hcs⟩ := bind_ok.mp hcs
  obtain ⟨b, g2, hcs⟩ := bind_ok.mp hcs
  cases hcs
  have con : ∀ {o : Option ℚ} {ws : List (List Edge)} {cs : List Motion}, profilesOpt64 cad j o stepdown ws = .ok cs →
      (∀ w o', w ∈ ws → o = some o' → EachContour64 cad j o' w (PlainContour64 cad j τ' (2 * L))) →
      ∃ css : List (List Motion), cs = css.flatten ∧ ∀ b ∈ css, Connected {} b := by
    intro o ws cs h hw
    cases o with
    | none => cases h; exact ⟨[], rfl, by simp⟩
    | some o => exact profiles64_connected hk hc hsafe h (fun w hwm => hw w o hwm rfl)
  have ca := con g1 (fun w o hwm ho => hw w o (.inr ⟨hwm, ho⟩))
  have cb := con g2 (fun w o hwm ho => hw w o (.inl ⟨hwm, ho⟩))
  refine ⟨tracks_two ca cb, fun R hR ρ hρ hle => ?_⟩
  obtain ⟨h1, h2⟩ := hS R hR
  have key : ∀ {o : Option ℚ} {ws : List (List Edge)} {cs : List Motion}, profilesOpt64 cad j o stepdown ws = .ok cs →
      (∀ w o', w ∈ ws → o = some o' → OffsetsSoundWithin cad (w.map (Edge.toLocal j.top)) (o' * R) (2 / 1000000) ∧
        OffsetsAwayWithin cad (fun q => ∃ ζ, S q ζ ∧ lo + ε < ζ) (w.map (Edge.toLocal j.top)) (o' * R) (2 / 1000000) κ) →
      (∀ o', o = some o' → |o' * R| ≤ 2 ^ 20 ∧ R + τ + κ + 2 / 1000000 ≤ |o' * R| + σ) →
      ∀ c ∈ cs, c.kind.mot ≠ .rapid → Located c ∧ ∀ p, Sweeps c p → Away (fun q => ∃ ζ, S q ζ ∧ lo + ε < ζ) ρ p := by
    intro o ws cs h hw hsr
    cases o with
    | none => cases h; simp
    | some o => exact profiles64_away hrel hτ hR (hsr o rfl).1 (fun w hwm => hw w o hwm rfl) hρ (by linarith [(hsr o rfl).2]) h
  exact spares_two ca cb hlo' (key g1 (fun w o hwm ho => h2 w o (.inr ⟨hwm, ho⟩)) (fun o ho => h1 o (.inr ho)))
    (key g2 (fun w o hwm ho => h2 w o (.inl ⟨hwm, ho⟩)) (fun o ho => h1 o (.inl ho)))

theorem tabWireProfile64_spares {S : Solid} {σ ε lo L τ' tol : ℚ} {cad : Cad} {len : Edge → ℚ} {total : List Edge → ℚ}
    {wires : List (List Edge)} {offset : ℚ} {stepdown : Option ℚ} {tabs : Tabs} {tool : Option Tool} {j : Job} (hk : KeepsBelow cad j.top)
    (hc : Steps64 stepdown L τ' tol) (hsafe : 0 ≤ j.opSafeHeight) (hv : ∀ w, NearestIsVertex cad w)
    {marks : List Edge → List Edge → List (List (ℚ × Transition)) → Prop}
    (hw : ∀ w ∈ wires, EachContour64 cad j offset w (fun b => TabsFit64 cad len total j τ' (2 * L) L stepdown tabs (marks b) b ∧
      TabsWithin64 cad len total tabs b))
    {τ κ : ℚ} (hrel : ∀ v w, cad.relocate v w = w) (hτ : Tolerance cad j.precision τ)
    (hlo : ∀ cs, (tabWireProfileRequest64 cad len total wires offset stepdown tabs tool).gen j = .ok cs → MovesAbove lo cs)
    (hS : ∀ R, j.toolRadius = some R → |offset * R| ≤ 2 ^ 20 ∧ R + τ + κ + 2 / 1000000 ≤ |offset * R| + σ ∧ ∀ w ∈ wires,
      OffsetsAwayWithin cad (fun q => ∃ ζ, S q ζ ∧ lo + ε < ζ) (w.map (Edge.toLocal j.top)) (offset * R) (2 / 1000000) κ) :
    CallSpares S σ ε j (tabWireProfileRequest64 cad len total wires offset stepdown tabs tool) := by
  intro cs hcs
  obtain ⟨css, rfl, hcon⟩ := tabProfiles64_connected hk hc hsafe hv hcs
    (fun w hwm r bases g1 g2 b hb => (hw w hwm r bases g1 g2 b hb).1)
  refine ⟨tracks_parts hcon, fun R hR ρ hρ hle => ?_⟩
  obtain ⟨h0, h1, h2⟩ := hS R hR
  exact spares_flatten hcon (hlo _ hcs) (tabProfiles64_away hrel hv hτ hR h0
    (fun w hwm r bases g1 g2 b hb => (hw w hwm r bases g1 g2 b hb).2) h2 hρ (by linarith) hcs)

theorem tabProfile64_spares {S : Solid} {σ ε lo L τ' tol : ℚ} {cad : Cad} {len : Edge → ℚ} {total : List Edge → ℚ}
    {shapes : List Shape} {outers inners : List (List Edge)} {outerOffset innerOffset : Option ℚ} {stepdown : Option ℚ} {tabs : Tabs}
    {tool : Option Tool} {j : Job} (hk : KeepsBelow cad j.top)
    (hc : Steps64 stepdown L τ' tol) (hsafe : 0 ≤ j.opSafeHeight) (hv : ∀ w, NearestIsVertex cad w)
    (hx : extractWires shapes = .ok (outers, inners))
    {marks : List Edge → List Edge → List (List (ℚ × Transition)) → Prop}
    (hw : ∀ w o, (w ∈ outers ∧ outerOffset = some o) ∨ (w ∈ inners ∧ innerOffset = some o) →
      EachContour64 cad j o w (fun b => TabsFit64 cad len total j τ' (2 * L) L stepdown tabs (marks b) b ∧ TabsWithin64 cad len total tabs b))
    {τ κ : ℚ} (hrel : ∀ v w, cad.relocate v w = w) (hτ : Tolerance cad j.precision τ)
    (hlo : ∀ cs, (tabProfileRequest64 cad len total shapes outerOffset innerOffset stepdown tabs tool).gen j = .ok cs → MovesAbove lo cs)
    (hS : ∀ R, j.toolRadius = some R → (∀ o, outerOffset = some o ∨ innerOffset = some o →
        |o * R| ≤ 2 ^ 20 ∧ R + τ + κ + 2 / 1000000 ≤ |o * R| + σ) ∧
      ∀ w o, (w ∈ outers ∧ outerOffset = some o) ∨ (w ∈ inners ∧ innerOffset = some o) →
        OffsetsAwayWithin cad (fun q => ∃ ζ, S q ζ ∧ lo + ε < ζ) (w.map (Edge.toLocal j.top)) (o * R) (2 / 1000000) κ) :
    CallSpares S σ ε j (tabProfileRequest64 cad len total shapes outerOffset innerOffset stepdown tabs tool) := by
  intro cs hcs
  have hlo' := hlo cs hcs
  obtain ⟨⟨os, is⟩, h0, hcs⟩ := bind_ok.mp hcs
  rw [hx] at h0
  cases h0
  obtain ⟨a, g1, hcs⟩ := bind_ok.mp hcs
  obtain ⟨b, g2, hcs⟩ := bind_ok.mp hcs
  cases hcs
  have con : ∀ {o : Option ℚ} {ws : List (List Edge)} {cs : List Motion}, tabProfilesOpt64 cad len total j o stepdown tabs ws = .ok cs →
      (∀ w o', w ∈ ws → o = some o' → EachContour64 cad j o' w
        (fun b => TabsFit64 cad len total j τ' (2 * L) L stepdown tabs (marks b) b ∧ TabsWithin64 cad len total tabs b)) →
      ∃ css : List (List Motion), cs = css.flatten ∧ ∀ b ∈ css, Connected {} b := by
    intro o ws cs h hw
    cases o with
    | none => cases h; exact ⟨[], rfl, by simp⟩
    | some o =>
      exact tabProfiles64_connected hk hc hsafe hv h (fun w hwm r bases g1 g2 b hb => (hw w o hwm rfl r bases g1 g2 b hb).1)
  have ca := con g1 (fun w o hwm ho => hw w o (.inr ⟨hwm, ho⟩))
  have cb := con g2 (fun w o hwm ho => hw w o (.inl ⟨hwm, ho⟩))
  refine ⟨tracks_two ca cb, fun R hR ρ hρ hle => ?_⟩
  obtain ⟨h1, h2⟩ := hS R hR
  have key : ∀ {o : Option ℚ} {ws : List (List Edge)} {cs : List Motion}, tabProfilesOpt64 cad len total j o stepdown tabs ws = .ok cs →
      (∀ w o', w ∈ ws → o = some o' → EachContour64 cad j o' w
          (fun b => TabsFit64 cad len total j τ' (2 * L) L stepdown tabs (marks b) b ∧ TabsWithin64 cad len total tabs b) ∧
        OffsetsAwayWithin cad (fun q => ∃ ζ, S q ζ ∧ lo + ε < ζ) (w.map (Edge.toLocal j.top)) (o' * R) (2 / 1000000) κ) →
      (∀ o', o = some o' → |o' * R| ≤ 2 ^ 20 ∧ R + τ + κ + 2 / 1000000 ≤ |o' * R| + σ) →
      ∀ c ∈ cs, c.kind.mot ≠ .rapid → Located c ∧ ∀ p, Sweeps c p → Away (fun q => ∃ ζ, S q ζ ∧ lo + ε < ζ) ρ p := by
    intro o ws cs h hw hsr
    cases o with
    | none => cases h; simp
    | some o =>
      exact tabProfiles64_away hrel hv hτ hR (hsr o rfl).1 (fun w hwm r bases g1 g2 b hb => ((hw w o hwm rfl).1 r bases g1 g2 b hb).2)
        (fun w hwm => (hw w o hwm rfl).2) hρ (by linarith [(hsr o rfl).2]) h
  exact spares_two ca cb hlo'
    (key g1 (fun w o hwm ho => ⟨hw w o (.inr ⟨hwm, ho⟩), h2 w o (.inr ⟨hwm, ho⟩)⟩) (fun o ho => h1 o (.inr ho)))
    (key g2 (fun w o hwm ho => ⟨hw w o (.inl ⟨hwm, ho⟩), h2 w o (.inl ⟨hwm, ho⟩)⟩) (fun o ho => h1 o (.inl ho)))

/-- C155 for `wire_profile` with tabs along the edges. -/
theorem C155_edge_tabs_partial {S : Solid} {σ ε lo L τ' tol : ℚ} {cad : Cad} (hA : Assembles cad) (hF : AssemblesFrom cad)
    {len : Edge → ℚ} {total : List Edge → ℚ} {wires : List (List Edge)} {offset : ℚ} {stepdown : Option ℚ} {tabs : EdgeTabs}
    (hwidth : 1 / 10 ^ 5 ≤ tabs.width) (hgap : 3 * tabs.width + 1 / 10 ^ 5 ≤ 2 * tabs.spacing) {tool : Option Tool} {j : Job}
    (hk : KeepsBelow cad j.top) (hc : Steps64 stepdown L τ' tol) (hsafe : 0 ≤ j.opSafeHeight) (hv : ∀ w, NearestIsVertex cad w)
    (hw : ∀ w ∈ wires, EachContour64 cad j offset w
      (fun b => TabContour64 cad j τ' (2 * L) L tabs.height stepdown b ∧ EdgesMeasured len b ∧ ShapedContour b))
    {τ κ : ℚ} (hrel : ∀ v w, cad.relocate v w = w) (hτ : Tolerance cad j.precision τ)
    (hlo : ∀ cs, (tabWireProfileRequest64 cad len total wires offset stepdown (.edge tabs) tool).gen j = .ok cs → MovesAbove lo cs)
    (hS : ∀ R, j.toolRadius = some R → |offset * R| ≤ 2 ^ 20 ∧ R + τ + κ + 2 / 1000000 ≤ |offset * R| + σ ∧ ∀ w ∈ wires,
      OffsetsAwayWithin cad (fun q => ∃ ζ, S q ζ ∧ lo + ε < ζ) (w.map (Edge.toLocal j.top)) (offset * R) (2 / 1000000) κ) :
    CallSpares S σ ε j (tabWireProfileRequest64 cad len total wires offset stepdown (.edge tabs) tool) :=
  tabWireProfile64_spares (marks := (fun _ => NearTabsOnEdges tabs)) hk hc hsafe hv
    (fun w hw' r bases g1 g2 b hb' => by
      obtain ⟨k1, k2, k3⟩ := hw w hw' r bases g1 g2 b hb'
      exact ⟨tabsFit64_edge hA hwidth hgap k1 k2, tabsWithin64_edge hF hwidth hgap k1 k2 k3⟩) hrel hτ hlo hS

/-- C155 for `profile` with tabs along the edges. -/
theorem C155_profile_edge_tabs_partial {S : Solid} {σ ε lo L τ' tol : ℚ} {cad : Cad} (hA : Assembles cad) (hF : AssemblesFrom cad)
    {len : Edge → ℚ} {total : List Edge → ℚ} {shapes : List Shape} {outers inners : List (List Edge)} {outerOffset innerOffset : Option ℚ}
    {stepdown : Option ℚ} {tabs : EdgeTabs}
    (hwidth : 1 / 10 ^ 5 ≤ tabs.width) (hgap : 3 * tabs.width + 1 / 10 ^ 5 ≤ 2 * tabs.spacing) {tool : Option Tool} {j : Job}
    (hk : KeepsBelow cad j.top) (hc : Steps64 stepdown L τ' tol) (hsafe : 0 ≤ j.opSafeHeight) (hv : ∀ w, NearestIsVertex cad w)
    (hx : extractWires shapes = .ok (outers, inners))
    (hw : ∀ w o, (w ∈ outers ∧ outerOffset = some o) ∨ (w ∈ inners ∧ innerOffset = some o) → EachContour64 cad j o w
      (fun b => TabContour64 cad j τ' (2 * L) L tabs.height stepdown b ∧ EdgesMeasured len b ∧ ShapedContour b))
    {τ κ : ℚ} (hrel : ∀ v w, cad.relocate v w = w) (hτ : Tolerance cad j.precision τ)
    (hlo : ∀ cs, (tabProfileRequest64 cad len total shapes outerOffset innerOffset stepdown (.edge tabs) tool).gen j = .ok cs →
      MovesAbove lo cs)
    (hS : ∀ R, j.toolRadius = some R → (∀ o, outerOffset = some o ∨ innerOffset = some o →
        |o * R| ≤ 2 ^ 20 ∧ R + τ + κ + 2 / 1000000 ≤ |o * R| + σ) ∧
      ∀ w o, (w ∈ outers ∧ outerOffset = some o) ∨ (w ∈ inners ∧ innerOffset = some o) →
        OffsetsAwayWithin cad (fun q => ∃ ζ, S q ζ ∧ lo + ε < ζ) (w.map (Edge.toLocal j.top)) (o * R) (2 / 1000000) κ) :
    CallSpares S σ ε j (tabProfileRequest64 cad len total shapes outerOffset innerOffset stepdown (.edge tabs) tool) :=
  tabProfile64_spares (marks := (fun _ => NearTabsOnEdges tabs)) hk hc hsafe hv hx
    (fun w o hwo r bases g1 g2 b hb' => by
      obtain ⟨k1, k2, k3⟩ := hw w o hwo r bases g1 g2 b hb'
      exact ⟨tabsFit64_edge hA hwidth hgap k1 k2, tabsWithin64_edge hF hwidth hgap k1 k2 k3⟩) hrel hτ hlo hS

/-- C155 for `wire_profile` with tabs around the contour. -/
theorem C155_wire_tabs_partial {S : Solid} {σ ε lo L τ' tol : ℚ} {cad : Cad} (hA : Assembles cad) (hF : AssemblesFrom cad)
    {len : Edge → ℚ} {total : List Edge → ℚ} {wires : List (List Edge)} {offset : ℚ} {stepdown : Option ℚ} {tabs : WireTabs} {n : ℕ}
    (hpos : 0 < n) (hcount : tabs.count = n) {tool : Option Tool} {j : Job}
    (hk : KeepsBelow cad j.top) (hc : Steps64 stepdown L τ' tol) (hsafe : 0 ≤ j.opSafeHeight) (hv : ∀ w, NearestIsVertex cad w)
    (hw : ∀ w ∈ wires, EachContour64 cad j offset w
      (fun b => TabContour64 cad j τ' (2 * L) L tabs.height stepdown b ∧ ZonesFit64 cad total n tabs.width b ∧ ShapedContour b))
    {τ κ : ℚ} (hrel : ∀ v w, cad.relocate v w = w) (hτ : Tolerance cad j.precision τ)
    (hlo : ∀ cs, (tabWireProfileRequest64 cad len total wires offset stepdown (.wire tabs) tool).gen j = .ok cs → MovesAbove lo cs)
    (hS : ∀ R, j.toolRadius = some R → |offset * R| ≤ 2 ^ 20 ∧ R + τ + κ + 2 / 1000000 ≤ |offset * R| + σ ∧ ∀ w ∈ wires,
      OffsetsAwayWithin cad (fun q => ∃ ζ, S q ζ ∧ lo + ε < ζ) (w.map (Edge.toLocal j.top)) (offset * R) (2 / 1000000) κ) :
    CallSpares S σ ε j (tabWireProfileRequest64 cad len total wires offset stepdown (.wire tabs) tool) :=
  tabWireProfile64_spares (marks := (fun b => NearMarks (5 / 10 ^ 6) n tabs.width (b.map Edge.length).sum)) hk hc hsafe hv
    (fun w hw' r bases g1 g2 b hb' => by
      obtain ⟨k1, k2, k3⟩ := hw w hw' r bases g1 g2 b hb'
      exact ⟨tabsFit64_wire hA hpos hcount k1 k2, tabsWithin64_wire hF hpos hcount k1 k2 k3⟩) hrel hτ hlo hS

/-- C155 for `profile` with tabs around the contour. -/
theorem C155_profile_wire_tabs_partial {S : Solid} {σ ε lo L τ' tol : ℚ} {cad : Cad} (hA : Assembles cad) (hF : AssemblesFrom cad)
    {len : Edge → ℚ} {total : List Edge → ℚ} {shapes : List Shape} {outers inners : List (List Edge)} {outerOffset innerOffset : Option ℚ}
    {stepdown : Option ℚ} {tabs : WireTabs} {n : ℕ}
    (hpos : 0 < n) (hcount : tabs.count = n) {tool : Option Tool} {j : Job}
    (hk : KeepsBelow cad j.top) (hc : Steps64 stepdown L τ' tol) (hsafe : 0 ≤ j.opSafeHeight) (hv : ∀ w, NearestIsVertex cad w)
    (hx : extractWires shapes = .ok (outers, inners))
    (hw : ∀ w o, (w ∈ outers ∧ outerOffset = some o) ∨ (w ∈ inners ∧ innerOffset = some o) → EachContour64 cad j o w
      (fun b => TabContour64 cad j τ' (2 * L) L tabs.height stepdown b ∧ ZonesFit64 cad total n tabs.width b ∧ ShapedContour b))
    {τ κ : ℚ} (hrel : ∀ v w, cad.relocate v w = w) (hτ : Tolerance cad j.precision τ)
    (hlo : ∀ cs, (tabProfileRequest64 cad len total shapes outerOffset innerOffset stepdown (.wire tabs) tool).gen j = .ok cs →
      MovesAbove lo cs)
    (hS : ∀ R, j.toolRadius = some R → (∀ o, outerOffset = some o ∨ innerOffset = some o →
        |o * R| ≤ 2 ^ 20 ∧ R + τ + κ + 2 / 1000000 ≤ |o * R| + σ) ∧
      ∀ w o, (w ∈ outers ∧ outerOffset = some o) ∨ (w ∈ inners ∧ innerOffset = some o) →
        OffsetsAwayWithin cad (fun q => ∃ ζ, S q ζ ∧ lo + ε < ζ) (w.map (Edge.toLocal j.top)) (o * R) (2 / 1000000) κ) :
    CallSpares S σ ε j (tabProfileRequest64 cad len total shapes outerOffset innerOffset stepdown (.wire tabs) tool) :=
  tabProfile64_spares (marks := (fun b => NearMarks (5 / 10 ^ 6) n tabs.width (b.map Edge.length).sum)) hk hc hsafe hv hx
    (fun w o hwo r bases g1 g2 b hb' => by
      obtain ⟨k1, k2, k3⟩ := hw w o hwo r bases g1 g2 b hb'
      exact ⟨tabsFit64_wire hA hpos hcount k1 k2, tabsWithin64_wire hF hpos hcount k1 k2 k3⟩) hrel hτ hlo hS

/-! ### Surfacing -/

/-- C155 for 3D surfacing, if the drop cutter knows the part up to `η`: what it is told to be the shape is spared. -/
theorem C155_surface {S : Solid} {σ ε : ℚ} {sq : ℚ → ℚ} {eng : SurfaceEngine} {k : FaceKernel} {args : SurfaceArgs} {oo : ℚ × ℚ}
    {io : Option (ℚ × ℚ)} {bs : List BoundaryFace} {j : Job} {h H : Pt → ℚ} {K r L η : ℚ} (hd : ∀ ps, eng.drop ps = ps.map h)
    (hη : ∀ p, H p ≤ h p + η) (hK : SlopeUpTo K H) (hK0 : 0 ≤ K) (hm : Measures64 r eng.norm) (hr0 : 0 ≤ r) (hr : r ≤ 2) (hL : 1 ≤ L)
    (hclip : ClipsWithin L eng.scan) (hpoly : ∀ poly, SurfacePolygon k args oo io bs poly → ∀ p ∈ poly, p.Upto L)
    (hi : 0 < args.interpolationStep) (hiL : args.interpolationStep ≤ L) (hid : IsDouble args.interpolationStep)
    (htd : IsDouble args.topHeight) (htop : args.topHeight ≤ 0) (hbot : eng.bottom ≤ args.topHeight)
    (hsafe : 0 ≤ j.opSafeHeight) (hrh : 0 ≤ j.rapidHeight) (hσ : 0 ≤ σ)
    (hε : K * (r * args.interpolationStep + L / 10 ^ 13) / 2 + η ≤ ε)
    (hS : ∀ R, j.toolRadius = some R → ∀ p, Spares S R 0 p (H p)) :
    CallSpares S σ ε j (surface3dRequest64 sq eng k args oo io bs) := by
  intro cs hcs
  have hcs : surface3d64 sq eng k args oo io bs j = .ok cs := hcs
  obtain ⟨htr, hcl⟩ := C146_between_partial hd hη hK hK0 hm hr0 hr hL hclip hpoly hi hiL hid htd htop hbot hsafe hrh hcs
  refine ⟨htr, ?_⟩
  intro R hR ρ hρ hle c hc hk
  rcases hcl c hc with h1 | h1 | ⟨h1, a, b, ha, hb, hab⟩
  · exact absurd h1.1 hk
  · exact absurd h1.1 hk
  · have hl : c.kind.mot = .linear := h1.resolve_left hk
    refine ⟨⟨a.x, a.y⟩, ⟨b.x, b.y⟩, a.z, b.z, ha, hb, ?_⟩
    rw [hl]
    intro t t0 t1 q ζ hq hζ
    have h2 := hab t t0 t1
    exact (pow_le_pow_left₀ hρ (by linarith) 2).trans (hS R hR _ q ζ hq (by linarith))

/-- C155 for 3D surfacing with the triangles of the shape: a solid that is nowhere above the shape is spared, if the drop cutter drops a
cylinder of the size of the tool of the job.  Partial as C153: the faces have to be where their geometry is. -/
theorem C155_mesh_partial {S : Solid} {σ ε R : ℚ} {sq : ℚ → ℚ} {m : SurfaceLibs} {k : FaceKernel} {s : CadShape} {z : ℚ}
    {args : SurfaceArgs} {oo : ℚ × ℚ} {io : Option (ℚ × ℚ)} {bs : List BoundaryFace} {j : Job} {K r L η : ℚ} (hR : j.toolRadius = some R)
    (hs : ∀ tris, shapeToTriangles s = .ok tris → SteepNear (cylinder R) K η m.drop tris z) (hu : ∀ f ∈ s.faces, Unplaced f) (hK0 : 0 ≤ K)
    (hm : Measures64 r m.norm) (hr0 : 0 ≤ r) (hr : r ≤ 2) (hL : 1 ≤ L) (hclip : ClipsWithin L m.scan)
    (hpoly : ∀ poly, SurfacePolygon k args oo io bs poly → ∀ p ∈ poly, p.Upto L)
    (hi : 0 < args.interpolationStep) (hiL : args.interpolationStep ≤ L) (hid : IsDouble args.interpolationStep)
    (htd : IsDouble args.topHeight) (htop : args.topHeight ≤ 0) (hbot : z ≤ args.topHeight)
    (hsafe : 0 ≤ j.opSafeHeight) (hrh : 0 ≤ j.rapidHeight) (hσ : 0 ≤ σ)
    (hε : K * (r * args.interpolationStep + L / 10 ^ 13) / 2 + η ≤ ε)
    (hS : ∀ q ζ, S q ζ → ∃ v, OnShape s v ∧ v.x = q.x ∧ v.y = q.y ∧ ζ ≤ v.z) :
    CallSpares S σ ε j (surface3dMeshRequest64 sq m k s z args oo io bs) := by
  intro cs hcs
  have hcs : surface3dMesh64 sq m k s z args oo io bs j = .ok cs := hcs
  rcases surface3dMesh64_engine hcs with rfl | ⟨tris, h3, h4⟩
  · exact ⟨trivial, by simp⟩
  · obtain ⟨h, H, hd, hη, hK, hclear⟩ := hs tris h3
    refine C155_surface (eng := m.engine z tris) (sq := sq) (k := k) (oo := oo) (io := io) (bs := bs) hd hη hK hK0 hm hr0 hr hL hclip hpoly
      hi hiL hid htd htop hbot hsafe hrh hσ hε ?_ cs h4
    intro R' hR' p q ζ hq hζ
    rw [hR] at hR'
    cases hR'
    obtain ⟨v, hv, hx, hy, hz⟩ := hS q ζ hq
    by_contra hc
    rw [not_le] at hc
    refine hclear p v ((C116_triangles_partial hu h3 v).mpr hv) ⟨?_, ?_⟩
    · simp only [sqDist] at hc
      rw [hx, hy]
      dsimp only
      nlinarith
    · dsimp only
      linarith

end CQ
