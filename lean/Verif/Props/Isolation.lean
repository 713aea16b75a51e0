import Verif.Props.Machining

/-! # C65, C66: homing, and the start of operations -/

namespace CQ

/-! ### C65 -/

theorem effects_last {cs : List Motion} {c : Motion} (h : cs.getLast? = some c) {z : ℚ} (hz : c.fin.z = some z) (m : Machine) :
    (effects m (cs.map .motion)).1.pos.z = some (rnd 3 z) := by
  obtain ⟨ys, rfl⟩ := List.getLast?_eq_some_iff.mp h
  rw [List.map_append, effects_append]
  simp [effects, Command.effect, Motion.effect, reach, hz]

/-- The moves of an operation do not home. -/
theorem motions_noHome {cs : List Motion} (m : Machine) : ∀ e ∈ (effects m (cs.map .motion)).2, e.act ≠ .home := by
  induction cs generalizing m with
  | nil => simp [effects]
  | cons c cs ih =>
    intro e he
    simp only [List.map_cons, effects, List.mem_append] at he
    rcases he with he | he
    · simp only [Command.effect, Motion.effect, List.mem_singleton] at he
      subst he
      simp
    · exact ih _ e he

theorem operations_home {safe : ℚ} (os : List Operation) (m : Machine)
    (h : ∀ o ∈ os, Origin (fun r => ∀ j cs, r.gen j = .ok cs → EndsHigh safe cs) o)
    (hm : ∀ z, m.pos.z = some z → safe ≤ z) :
    (∀ z, (effects m (os.map Operation.commands).flatten).1.pos.z = some z → safe ≤ z) ∧
      HomesHigh safe (effects m (os.map Operation.commands).flatten).2 := by
  induction os generalizing m with
  | nil => exact ⟨hm, by simp [HomesHigh, effects]⟩
  | cons o os ih =>
    rw [List.map_cons, List.flatten_cons, effects_append]
    have hfirst : (∀ z, (effects m o.commands).1.pos.z = some z → safe ≤ z) ∧ HomesHigh safe (effects m o.commands).2 := by
      rcases h o (by simp) with ⟨n, s, c, e⟩ | ⟨s, c, e⟩ | ⟨r, j, cs, hp, hg, e⟩
      · rw [e]
        constructor
        · intro z hz
          rcases c with _ | c
          · simp [effects, Command.effect, toolChangeEffect, startEffect, setCoolant] at hz
          · cases c <;> simp [effects, Command.effect, toolChangeEffect, startEffect, setCoolant] at hz
        · intro e he hh z hz
          simp only [effects, Command.effect, toolChangeEffect, List.append_nil, List.mem_cons, List.not_mem_nil, or_false] at he
          rcases he with rfl | rfl | rfl
          · have : (stopEffect m c).pos = m.pos := by cases c <;> rfl
            simp only [this] at hz
            exact hm z hz
          · cases hh
          · cases hh
      · rw [e]
        constructor
        · intro z hz
          rcases c with _ | c
          · exact hm z hz
          · cases c <;> exact hm z hz
        · intro e he; simp [effects, Command.effect] at he
      · rw [e]
        refine ⟨?_, fun e he hh => absurd hh (motions_noHome m e he)⟩
        intro z hz
        cases hl : cs.getLast? with
        | none =>
          rw [List.getLast?_eq_none_iff] at hl
          subst hl
          exact hm z hz
        | some c =>
          obtain ⟨z', hz', hs⟩ := hp j cs hg c hl
          rw [effects_last hl hz'] at hz
          cases hz
          exact hs
    obtain ⟨h1, h2⟩ := ih (effects m o.commands).1 (fun o ho => h o (by simp [ho])) hfirst.1
    refine ⟨h1, ?_⟩
    intro e he
    rcases List.mem_append.mp he with he | he
    · exact hfirst.2 e he
    · exact h2 e he

/-- C65, for jobs made of operations that end at or above the height `safe` (none of the operations of the library does): the
machine homes only from that height or above, if it starts there or its height is unknown. -/
theorem C65_retract_partial {j0 j : Job} {safe : ℚ} (m : Machine) (h0 : InitOK j0)
    (hn : ∀ v, j0.toolNumber = some v → NumOK v)
    (h : ReachWith (fun r => ∀ j cs, r.gen j = .ok cs → EndsHigh safe cs) j0 j) (hend : m.ended = false)
    (hm : ∀ z, m.pos.z = some z → safe ≤ z) :
    ∃ t m' evs, j.toGcode = .ok t ∧ runText m t = some (m', evs) ∧ HomesHigh safe evs := by
  have hok := (inv_reach (inv_init h0 hn) (reachWith_reach h)).ok
  obtain ⟨t, ht, hr⟩ := run_job m j hok hend
  rw [intended_eq] at hr
  refine ⟨t, _, _, ht, hr, ?_⟩
  obtain ⟨h1, h2⟩ := operations_home j.operations (startEffect (safetyEffect m).1 j.speed j.coolant)
    (reach_origin h0.fresh h) (by
      intro z hz
      rcases hc : j.coolant with _ | c
      · simp [hc, startEffect, setCoolant, safetyEffect] at hz
      · cases c <;> simp [hc, startEffect, setCoolant, safetyEffect] at hz)
  intro e he
  simp only [List.mem_cons, List.mem_append, List.not_mem_nil, or_false] at he
  rcases he with rfl | he | rfl | rfl
  · exact fun _ z hz => hm z hz
  · exact h2 e he
  · exact fun _ z hz => h1 z hz
  · intro hh; cases hh

/-- What happens: the machine homes at the end from the height where the last move ended. -/
theorem C65_end_height {j : Job} (m : Machine) (h : JobOK j) (hend : m.ended = false) {A : List Command} {c : Motion} {z : ℚ}
    (hc : j.allCommands = A ++ [.motion c]) (hz : c.fin.z = some z) :
    ∃ t m' evs, j.toGcode = .ok t ∧ runText m t = some (m', evs) ∧
      ∃ e ∈ evs, e.act = .home ∧ e.st.pos.z = some (rnd 3 z) := by
  obtain ⟨t, ht, hr⟩ := run_job m j h hend
  rw [intended_eq] at hr
  refine ⟨t, _, _, ht, hr, ?_⟩
  refine ⟨⟨safeModal (effects (startEffect (safetyEffect m).1 j.speed j.coolant) j.allCommands).1, .home⟩, by simp, rfl, ?_⟩
  rw [hc, effects_append]
  simp [effects, Command.effect, Motion.effect, reach, hz, safeModal]

/-- The same before a tool change. -/
theorem C65_change_height {j : Job} (m : Machine) (h : JobOK j) (hend : m.ended = false) {A B : List Command} {c : Motion}
    {z : ℚ} {n s : Option PyNum} {co : Option Coolant}
    (hc : j.allCommands = A ++ .motion c :: .toolChange n s co :: B) (hz : c.fin.z = some z) :
    ∃ t m' evs a b e1 e2 e3, j.toGcode = .ok t ∧ runText m t = some (m', evs) ∧ evs = a ++ e1 :: e2 :: e3 :: b ∧
      e1.act = .home ∧ e1.st.pos.z = some (rnd 3 z) ∧ e3.act = .toolChange ((n.map PyNum.value).getD 0) := by
  obtain ⟨t, ht, hr⟩ := run_job m j h hend
  obtain ⟨m1, hm1⟩ : ∃ m1, startEffect (safetyEffect m).1 j.speed j.coolant = m1 := ⟨_, rfl⟩
  obtain ⟨m2, hm2⟩ : ∃ m2, (effects m1 A).1 = m2 := ⟨_, rfl⟩
  have hp : (stopEffect (c.effect m2).1 co).pos = (c.effect m2).1.pos := by cases co <;> rfl
  rw [intended_eq, hm1, hc, effects_append, hm2] at hr
  simp only [effects, Command.effect, toolChangeEffect, List.cons_append, List.append_assoc, List.nil_append] at hr
  refine ⟨t, _, _, (⟨safeModal m, .home⟩ : Event) :: ((effects m1 A).2 ++ (c.effect m2).2), _, _, _, _, ht, hr,
    by simp only [List.cons_append, List.append_assoc]; rfl, rfl, ?_, rfl⟩
  rw [hp]
  simp [Motion.effect, reach, hz]

theorem drillHoles_last (j : Job) (d : ℚ) (ps : List Pt) (pos : AddrVec) (h : ps ≠ []) :
    ∃ c, (drillHoles j d pos ps).getLast? = some c ∧ c.fin.z = some d := by
  induction ps generalizing pos with
  | nil => exact absurd rfl h
  | cons p ps ih =>
    by_cases hp : ps = []
    · subst hp
      simp only [drillHoles, drillHole, List.append_nil]
      exact ⟨_, rfl, rfl⟩
    · obtain ⟨c, hc, hz⟩ := ih (lastFin pos (drillHole j d pos p)) hp
      refine ⟨c, ?_, hz⟩
      rw [drillHoles, List.getLast?_append, hc]
      rfl

/-- C65 fails for every job that ends with drilling: the machine homes at the end from the bottom of the last hole. -/
theorem C65_violated {j0 j j' : Job} {center : List Edge → Except Err Vec} {objs : List DrillObj} {d : ℚ} {tool : Option Tool}
    (m : Machine) (h0 : InitOK j0) (hn : ∀ v, j0.toolNumber = some v → NumOK v) (hj : Reach j0 j)
    (hr : RequestOK j (drillRequest center (some objs) (some d) tool))
    (h : (j.call (drillRequest center (some objs) (some d) tool)).2 = .ok j') (hend : m.ended = false) :
    ∃ t m' evs, j'.toGcode = .ok t ∧ runText m t = some (m', evs) ∧
      ∃ e ∈ evs, e.act = .home ∧ e.st.pos.z = some (rnd 3 (-|d|)) := by
  have hok := (inv_reach (inv_init h0 hn) (.result _ hj hr h)).ok
  obtain ⟨-, cs, hg, e⟩ := call_ok h
  change drill center (some objs) (some d) (j.updateTool tool).2 = .ok cs at hg
  obtain ⟨-, ps, -, -, -, hps, -, hcs⟩ := drill_ok hg
  obtain ⟨c, hl, hz⟩ := drillHoles_last (j.updateTool tool).2 (-|d|) ps {} hps
  rw [← hcs] at hl
  obtain ⟨ys, hys⟩ := List.getLast?_eq_some_iff.mp hl
  have hall : ∃ A, j'.allCommands = A ++ [.motion c] := by
    rw [e]
    simp only [Job.addOperation, Job.allCommands, List.map_append, List.flatten_append, List.map_cons, List.map_nil,
      List.flatten_cons, List.flatten_nil, List.append_nil]
    rw [hys, List.map_append, ← List.append_assoc]
    exact ⟨_, rfl⟩
  obtain ⟨A, hA⟩ := hall
  exact C65_end_height m hok hend hA hz

/-! ### C66 -/

theorem opening_append {z : ℚ} {a b : List Motion} (h : Opening z a) : Opening z (a ++ b) := by
  obtain ⟨c1, c2, rest, x, y, rfl, h⟩ := h
  exact ⟨c1, c2, rest ++ b, x, y, by simp, h⟩

theorem opening_ne {z : ℚ} {a : List Motion} (h : Opening z a) : a ≠ [] := by
  obtain ⟨c1, c2, rest, x, y, rfl, h⟩ := h
  simp

theorem rapidTo_opening (e : Vec) (rh : ℚ) (sh : ℚ) (pf : Option PyNum) : Opening rh (rapidTo {} e rh (some sh) pf) := by
  obtain ⟨up, side, down, feed, h, rfl, hs, rfl, hf⟩ := rapidTo_pieces {} e rh sh pf
  rcases hs with ⟨hx, -⟩ | ⟨-, rfl⟩
  · cases hx
  · rw [h]
    exact ⟨_, _, _, e.x, e.y, rfl, rfl, rfl, rfl, rfl⟩

theorem routeFaces_opening {j : Job} {stepover : Option ℚ} {faces : List PathFace} {cs : List Motion}
    (h : routeFaces j stepover none {} faces = .ok cs) : cs = [] ∨ Opening j.rapidHeight cs := by
  cases faces with
  | nil => cases h; exact .inl rfl
  | cons f fs =>
    right
    unfold routeFaces at h
    cases h1 : routeFace j stepover none {} f with
    | error e => rw [h1] at h; cases h
    | ok r =>
      obtain ⟨a, p⟩ := r
      rw [h1] at h
      simp only at h
      cases h2 : routeFaces j stepover p (lastFin {} a) fs with
      | error e => rw [h2] at h; cases h
      | ok r =>
        rw [h2] at h
        cases h
        refine opening_append ?_
        unfold routeFace at h1
        cases ho : f.outer with
        | nil => rw [ho] at h1; cases h1
        | cons p0 ps =>
          rw [ho] at h1
          simp only [nearestTo] at h1
          have : shortLink stepover none = none := by cases stepover <;> rfl
          simp only [this] at h1
          cases h1
          exact opening_append (rapidTo_opening _ _ _ _)

theorem routeSequences_prefix {j : Job} {stepover : ℚ} (ss : List (List PathFace)) {commands cs : List Motion} {pos : AddrVec}
    (h : routeSequences j stepover commands pos ss = .ok cs) : ∃ rest, cs = commands ++ rest := by
  induction ss generalizing commands pos with
  | nil => cases h; exact ⟨[], by simp⟩
  | cons s ss ih =>
    unfold routeSequences at h
    obtain ⟨a, -, h⟩ := bind_ok.mp h
    split at h
    · cases h
    · obtain ⟨rest, rfl⟩ := ih h
      exact ⟨a ++ rest, by simp⟩

/-- C66 for pockets. -/
theorem C66_pocket {eng : Clipper} {veq : Vec → Vec → Bool} {fuel : ℕ} {opAreas avoidAreas : List CqFace}
    {a : PocketArgs} {tool : Option Tool} {j : Job} {cs : List Motion}
    (h : (pocketRequest eng veq fuel opAreas avoidAreas a tool).gen j = .ok cs) : cs = [] ∨ Opening j.rapidHeight cs := by
  change pocket eng veq fuel opAreas avoidAreas a j = .ok cs at h
  unfold pocket at h
  cases hr : j.toolRadius with
  | none => rw [hr] at h; cases h
  | some r =>
    rw [hr] at h
    obtain ⟨_, -, h⟩ := bind_ok.mp h
    obtain ⟨_, -, h⟩ := bind_ok.mp h
    unfold pocketClipper at h
    obtain ⟨_, -, h⟩ := bind_ok.mp h
    obtain ⟨_, -, h⟩ := bind_ok.mp h
    obtain ⟨_, -, h⟩ := bind_ok.mp h
    obtain ⟨seqs, -, h⟩ := bind_ok.mp h
    cases seqs with
    | nil => cases h; exact .inl rfl
    | cons s ss =>
      unfold routeSequences at h
      obtain ⟨b, hb, h⟩ := bind_ok.mp h
      split at h
      · cases h
      · rename_i cmd hcmd
        obtain ⟨rest, rfl⟩ := routeSequences_prefix ss h
        rcases routeFaces_opening hb with rfl | ho
        · cases hcmd
        · exact .inr (opening_append (by simpa using ho))

theorem routeWiresFrom_prefix {veq : Vec → Vec → Bool} {search : Vec → List Edge → Option WireHit} {j : Job}
    {stepover : Option ℚ} (ws : List (List Edge)) {acc cs : List Motion} {pwe : Option Vec} {pos : AddrVec}
    (h : routeWiresFrom veq search j stepover acc pwe pos ws = .ok cs) : cs = [] ∨ ∃ rest, cs = acc ++ rest := by
  induction ws generalizing acc pwe pos with
  | nil => cases h; exact .inr ⟨[], by simp⟩
  | cons w ws ih =>
    cases w with
    | nil => cases h; exact .inl rfl
    | cons e es =>
      simp only [routeWiresFrom] at h
      cases h1 : routeWire veq j stepover (pwe.bind (search · (e :: es))) pos (e :: es) with
      | error x => rw [h1] at h; cases h
      | ok r =>
        obtain ⟨ds, fin⟩ := r
        rw [h1] at h
        rcases ih h with rfl | ⟨rest, rfl⟩
        · exact .inl rfl
        · exact .inr ⟨ds ++ rest, by simp⟩

theorem routeWire_opening {veq : Vec → Vec → Bool} {j : Job} {stepover : Option ℚ} {edges : List Edge} {cs : List Motion}
    {v : Vec} (h : routeWire veq j stepover none {} edges = .ok (cs, v)) : Opening j.rapidHeight cs := by
  unfold routeWire at h
  cases he : enterWire veq j stepover none {} edges with
  | error x => rw [he] at h; cases h
  | ok r =>
    obtain ⟨es, app⟩ := r
    have happ : Opening j.rapidHeight app := by
      unfold enterWire at he
      have : wireLink stepover none = none := by cases stepover <;> rfl
      rw [this] at he
      cases edges with
      | nil => cases he
      | cons e es => cases he; exact rapidTo_opening _ _ _ _
    rw [he] at h
    cases es with
    | nil => cases h
    | cons e es =>
      simp only [Option.bind_none] at h
      cases h1 : routeEdge veq e j.precision none none (some j.feed) with
      | error x => rw [h1] at h; cases h
      | ok r =>
        obtain ⟨a, b⟩ := r
        rw [h1] at h
        simp only at h
        cases h2 : routeEdges veq j b es with
        | error x => rw [h2] at h; cases h
        | ok r =>
          obtain ⟨a', b'⟩ := r
          rw [h2] at h
          cases h
          exact opening_append (opening_append happ)

theorem routeWires_opening {veq : Vec → Vec → Bool} {search : Vec → List Edge → Option WireHit} {j : Job}
    {wires : List (List Edge)} {stepover : Option ℚ} {cs : List Motion}
    (h : routeWires veq search j wires stepover none = .ok cs) : cs = [] ∨ Opening j.rapidHeight cs := by
  unfold routeWires at h
  cases wires with
  | nil => cases h; exact .inl rfl
  | cons w ws =>
    cases w with
    | nil => cases h; exact .inl rfl
    | cons e es =>
      simp only [routeWiresFrom, Option.bind_none, Option.getD_none, List.nil_append] at h
      cases h1 : routeWire veq j stepover none {} (e :: es) with
      | error x => rw [h1] at h; cases h
      | ok r =>
        obtain ⟨ds, fin⟩ := r
        rw [h1] at h
        rcases routeWiresFrom_prefix ws h with rfl | ⟨rest, rfl⟩
        · exact .inl rfl
        · exact .inr (opening_append (routeWire_opening h1))

theorem opening_flatten {z : ℚ} {l : List (List Motion)} (h : ∀ a ∈ l, a = [] ∨ Opening z a) :
    l.flatten = [] ∨ Opening z l.flatten := by
  induction l with
  | nil => exact .inl rfl
  | cons a l ih =>
    rcases h a (by simp) with rfl | ha
    · simpa using ih (fun a ha => h a (by simp [ha]))
    · exact .inr (opening_append ha)

/-- C66 for `Job.wire_profile`. -/
theorem C66_wire_profile {cad : Cad} {wires : List (List Edge)} {offset : ℚ} {stepdown : Option ℚ} {tabs : Option Tabs}
    {tool : Option Tool} {j : Job} {cs : List Motion}
    (h : (wireProfileRequest cad wires offset stepdown tabs tool).gen j = .ok cs) :
    cs = [] ∨ Opening j.rapidHeight cs := by
  change profiles cad j offset stepdown tabs wires = .ok cs at h
  obtain ⟨bs, h1, h⟩ := bind_ok.mp h
  cases h
  refine opening_flatten ?_
  intro b hb
  obtain ⟨w, -, hw⟩ := mapE_mem h1 hb
  obtain ⟨ws, -, hw⟩ := bind_ok.mp hw
  exact routeWires_opening hw

/-- C66 for `Job.profile`. -/
theorem C66_profile {cad : Cad} {shapes : List Shape} {outerOffset innerOffset stepdown : Option ℚ} {tabs : Option Tabs}
    {tool : Option Tool} {j : Job} {cs : List Motion}
    (h : (profileRequest cad shapes outerOffset innerOffset stepdown tabs tool).gen j = .ok cs) :
    cs = [] ∨ Opening j.rapidHeight cs := by
  obtain ⟨⟨os, is⟩, -, h⟩ := bind_ok.mp h
  obtain ⟨a, h1, h⟩ := bind_ok.mp h
  obtain ⟨b, h2, h⟩ := bind_ok.mp h
  cases h
  have key : ∀ {o : Option ℚ} {ws : List (List Edge)} {cs : List Motion}, profilesOpt cad j o stepdown tabs ws = .ok cs →
      cs = [] ∨ Opening j.rapidHeight cs := by
    intro o ws cs h
    cases o with
    | none => cases h; exact .inl rfl
    | some o => exact C66_wire_profile (tool := tool) h
  rcases key h1 with rfl | ha
  · simpa using key h2
  · exact .inr (opening_append ha)

/-- C66 for drilling: it goes to the operation-safe height. -/
theorem C66_drill {center : List Edge → Except Err Vec} {o : Option (List DrillObj)} {depth : Option ℚ} {tool : Option Tool}
    {j : Job} {cs : List Motion} (h : (drillRequest center o depth tool).gen j = .ok cs) : Opening j.opSafeHeight cs := by
  change drill center o depth j = .ok cs at h
  cases o with
  | none => cases h
  | some o =>
    cases depth with
    | none => cases h
    | some d =>
      obtain ⟨-, ps, -, -, -, hps, -, rfl⟩ := drill_ok h
      cases ps with
      | nil => exact absurd rfl hps
      | cons p ps => exact opening_append ⟨_, _, _, p.x, p.y, rfl, rfl, rfl, rfl, rfl⟩

/-- C66 for 3D surfacing. -/
theorem C66_surface {eng : SurfaceEngine} {k : FaceKernel} {args : SurfaceArgs} {oo : ℚ × ℚ} {io : Option (ℚ × ℚ)}
    {bs : List BoundaryFace} {j : Job} {cs : List Motion}
    (h : (surface3dRequest eng k args oo io bs).gen j = .ok cs) : cs = [] ∨ Opening j.rapidHeight cs := by
  have h2 : ∀ (d : ℚ) (ps : List Vec), pieceMoves j d {} ps = [] ∨ Opening j.rapidHeight (pieceMoves j d {} ps) := by
    intro d ps
    cases ps with
    | nil => exact .inl rfl
    | cons p ps => exact .inr (opening_append ⟨_, _, _, p.x, p.y, rfl, rfl, rfl, rfl, rfl⟩)
  have h3 : ∀ (d : ℚ) (ss : List (List Vec)), piecesMoves j d {} ss = [] ∨ Opening j.rapidHeight (piecesMoves j d {} ss) := by
    intro d ss
    induction ss with
    | nil => exact .inl rfl
    | cons s ss ih =>
      unfold piecesMoves
      rcases h2 d s with e | ho
      · rw [e]; simpa [lastFin] using ih
      · exact .inr (opening_append ho)
  have h4 : ∀ (ds : List ℚ) (seqs : List (List Vec)) (rest : List ℚ) (i : ℕ), passesMoves j ds seqs i {} rest = [] ∨
      Opening j.rapidHeight (passesMoves j ds seqs i {} rest) := by
    intro ds seqs rest
    induction rest with
    | nil => intro i; exact .inl rfl
    | cons d rest ih =>
      intro i
      unfold passesMoves
      dsimp only
      rcases h3 d (chopSequences seqs (passLimit ds i)) with e | ho
      · rw [e]; simpa [lastFin] using ih (i + 1)
      · exact .inr (opening_append ho)
  change surface3d eng k args oo io bs j = .ok cs at h
  obtain ⟨css, rfl, hb⟩ := surface3d_ok h
  refine opening_flatten ?_
  intro b hbm
  obtain ⟨poly, hp⟩ := hb b hbm
  obtain ⟨_, -, hp⟩ := bind_ok.mp hp
  obtain ⟨_, -, hp⟩ := bind_ok.mp hp
  obtain ⟨_, -, hp⟩ := bind_ok.mp hp
  obtain ⟨_, -, hp⟩ := bind_ok.mp hp
  cases hp
  exact h4 _ _ _ _

/-- C66.  An operation that starts like this behaves the same wherever the previous operation left the tool.  Run its text on two
machines that differ only in position (and last motion): the first event is a rapid straight up or down, from where each is, to
the height `z`; the second goes to the same place; all further events, and the machine afterwards, are the same. -/
theorem C66_isolated {o : Operation} {cs : List Motion} {z : ℚ} (ho : Opening z cs) (hc : o.commands = cs.map .motion)
    (h1 : SafeName o.jobName) (h2 : SafeName o.name) (h3 : ∀ c ∈ cs, MotionOK c) (m : Machine) (habs : m.absDist = true)
    (hend : m.ended = false) (p : Pos) (k : Option Mot) :
    ∃ t e1 e2 e1' e2' es mf, o.toGcode = .ok t ∧ runText m t = some (mf, e1 :: e2 :: es) ∧
      runText { m with pos := p, motion := k } t = some (mf, e1' :: e2' :: es) ∧
      e1.act = .move .rapid ⟨m.pos.x, m.pos.y, some (rnd 3 z)⟩ {} ∧ e1'.act = .move .rapid ⟨p.x, p.y, some (rnd 3 z)⟩ {} ∧
      e2.act = e2'.act ∧ ∃ x y, e2.act = .move .rapid ⟨some (rnd 3 x), some (rnd 3 y), some (rnd 3 z)⟩ {} := by
  obtain ⟨c1, c2, rest, x, y, rfl, k1, f1, k2, f2⟩ := ho
  have hok : ∀ c ∈ o.commands, CommandOK c := by
    intro c hm
    rw [hc] at hm
    obtain ⟨c, hm', rfl⟩ := List.mem_map.mp hm
    exact h3 c hm'
  obtain ⟨t, ht, hr⟩ := run_operation m o h1 h2 hok habs hend
  obtain ⟨t', ht', hr'⟩ := run_operation { m with pos := p, motion := k } o h1 h2 hok habs hend
  rw [ht] at ht'
  cases ht'
  have w1 : ∀ m : Machine, withFeed m c1 = m := by
    intro m; unfold withFeed; cases hk : c1.kind <;> rw [hk] at k1 <;> first | rfl | cases k1
  have w2 : ∀ m : Machine, withFeed m c2 = m := by
    intro m; unfold withFeed; cases hk : c2.kind <;> rw [hk] at k2 <;> first | rfl | cases k2
  have o1 : centreOff c1 = {} := by
    unfold centreOff; cases hk : c1.kind <;> rw [hk] at k1 <;> first | rfl | cases k1
  have o2 : centreOff c2 = {} := by
    unfold centreOff; cases hk : c2.kind <;> rw [hk] at k2 <;> first | rfl | cases k2
  rw [hc] at hr hr'
  simp only [List.map_cons, effects, Command.effect, Motion.effect, w1, w2, o1, o2, f1, f2, k1, k2, reach, Option.map_none,
    Option.map_some, Option.none_or, Option.some_or, List.cons_append, List.nil_append] at hr hr'
  exact ⟨t, _, _, _, _, _, _, ht, hr, hr', rfl, rfl, rfl, x, y, rfl⟩

/-! ### Examples -/

/-- Drilling four holes of depth 3. -/
def demoDrill (tool : Option Tool) : Request := drillRequest drillCenter (some drillObjs) (some 3) tool

theorem demoDrill_moves : ∃ cs, drill drillCenter (some drillObjs) (some 3) demoInit = .ok cs ∧ cs.length = 16 ∧
    (∀ c ∈ cs, MotionOK c) ∧ ∃ c ∈ cs, c.kind.mot ≠ .rapid := by
  have h : (match drill drillCenter (some drillObjs) (some 3) demoInit with
      | .ok cs => decide (cs.length = 16) && cs.all plainMove && cs.any (fun c => c.kind.mot ≠ .rapid)
      | .error _ => false) = true := by decide +kernel
  cases hr : drill drillCenter (some drillObjs) (some 3) demoInit with
  | error e => rw [hr] at h; cases h
  | ok cs =>
    rw [hr] at h
    simp only [Bool.and_eq_true, List.all_eq_true, List.any_eq_true, decide_eq_true_eq] at h
    exact ⟨cs, rfl, h.1.1, fun c hc => plainMove_ok (h.1.2 c hc), h.2⟩

theorem demoDrill_ok : RequestOK demoInit (demoDrill none) where
  name := by unfold SafeName; decide
  tool := by intro t ht; cases ht
  gen := by
    obtain ⟨cs, h, -, hok, -⟩ := demoDrill_moves
    intro cs' hg
    change drill drillCenter (some drillObjs) (some 3) demoInit = .ok cs' at hg
    rw [h] at hg
    cases hg
    exact hok

theorem demoDrill_call : ∃ cs : List Motion, (∃ c ∈ cs, c.kind.mot ≠ .rapid) ∧
    (demoInit.call (demoDrill none)).2 = .ok (demoInit.addOperation "Drill".toList (cs.map .motion)) := by
  obtain ⟨cs, h, -, -, hf⟩ := demoDrill_moves
  refine ⟨cs, hf, ?_⟩
  have hgen : (demoDrill none).gen (demoInit.updateTool none).2 = .ok cs := h
  have htool : (demoDrill none).tool = none := rfl
  have hpre : (demoDrill none).pre demoInit = .ok () := rfl
  simp only [Job.call, hpre, htool, hgen]
  rfl

/-- A job with drilling meets the hypotheses of `C60_feeds_partial` and `C65_violated`. -/
example : ∃ j, ReachWith (fun r => ∀ j cs, r.gen j = .ok cs → FeedsGiven cs) demoInit j ∧
    ∃ c ∈ motionsOf j.allCommands, c.kind.mot ≠ .rapid := by
  obtain ⟨cs, ⟨c, hc, hk⟩, h⟩ := demoDrill_call
  refine ⟨_, .result (demoDrill none) .init (fun j cs hg c hc hk => by rw [(C60_drill hg c hc hk).2]; simp) demoDrill_ok h, c, ?_, hk⟩
  have : (demoInit.addOperation "Drill".toList (cs.map .motion)).allCommands = cs.map .motion := by
    simp [Job.allCommands, Job.addOperation, show demoInit.operations = [] from rfl]
  rw [this, motionsOf_map]
  exact hc

/-- An operation that retracts at its end. -/
def highRequest : Request :=
  { opName := "Pocket".toList, tool := none, gen := fun _ => .ok [rapidAbs { z := some 10 } none,
      rapidAbs { x := some 1, y := some 2 } (some { z := some 10 }),
      cutAbs { z := some (-1) } (some ⟨some 1, some 2, some 10⟩) (some (.int 500)),
      rapidAbs { z := some 10 } (some ⟨some 1, some 2, some (-1)⟩)] }

/-- It meets the hypotheses of `C65_retract_partial`. -/
example : ∃ j, ReachWith (fun r => ∀ j cs, r.gen j = .ok cs → EndsHigh 1 cs) demoInit j ∧
    (motionsOf j.allCommands).length = 4 := by
  refine ⟨_, .result highRequest .init ?_ ⟨by unfold SafeName; decide, (by intro t ht; cases ht), ?_⟩ rfl, rfl⟩
  · intro j cs hg c hc
    cases hg
    cases hc
    exact ⟨10, rfl, by decide +kernel⟩
  · intro cs hg c hc
    cases hg
    exact plainMove_ok ((by decide +kernel : ∀ c ∈ _, plainMove c = true) c hc)

/-- Drilling, then an operation with another tool: the tool is changed in the last hole (`C65_change_height`). -/
example : ∃ (j' j'' : Job) (A B : List Command) (c : Motion) (n s : Option PyNum) (co : Option Coolant),
    (demoInit.call (demoDrill none)).2 = .ok j' ∧ (j'.call (demoRequest (some { toolNumber := some (.int 2) }))).2 = .ok j'' ∧
      j''.allCommands = A ++ .motion c :: .toolChange n s co :: B ∧ c.fin.z = some (-3) := by
  have h : (match (demoInit.call (demoDrill none)).2 with
      | .ok j' =>
          (match (j'.call (demoRequest (some { toolNumber := some (.int 2) }))).2 with
            | .ok j'' => (match j''.allCommands.drop 15 with
              | .motion c :: .toolChange _ _ _ :: _ => decide (c.fin.z = some (-3))
              | _ => false)
            | .error _ => false)
      | .error _ => false) = true := by decide +kernel
  cases h1 : (demoInit.call (demoDrill none)).2 with
  | error e => rw [h1] at h; cases h
  | ok j' =>
    rw [h1] at h
    simp only at h
    cases h2 : (j'.call (demoRequest (some { toolNumber := some (.int 2) }))).2 with
    | error e => rw [h2] at h; cases h
    | ok j'' =>
      rw [h2] at h
      simp only at h
      split at h
      · rename_i c n s co rest he
        refine ⟨j', j'', j''.allCommands.take 15, rest, c, n, s, co, rfl, h2, ?_, of_decide_eq_true h⟩
        rw [← he, List.take_append_drop]
      · cases h

/-- The drilling operation meets the hypotheses of `C66_isolated`. -/
example : ∃ cs, drill drillCenter (some drillObjs) (some 3) demoInit = .ok cs ∧ Opening demoInit.opSafeHeight cs ∧
    (∀ c ∈ cs, MotionOK c) ∧ SafeName demoInit.name ∧ SafeName "Drill".toList := by
  obtain ⟨cs, h, -, hok, -⟩ := demoDrill_moves
  exact ⟨cs, h, C66_drill (center := drillCenter) (o := some drillObjs) (depth := some 3) (tool := none) h, hok, by unfold SafeName; decide, by unfold SafeName; decide⟩

end CQ
