import Verif.Props.EndToEnd
import Verif.Props.ProfilePath

/-! # C95, C96: arcs as the machine runs them -/

namespace CQ

/-! ### C95 -/

/-- Vectors that differ by at most `η` in both coordinates have lengths that differ by at most `3 / 2 η`. -/
theorem sq_shift {x y x' y' η ρ : ℚ} (hη : 0 ≤ η) (hρ : 0 ≤ ρ) (hx : |x' - x| ≤ η) (hy : |y' - y| ≤ η)
    (h : x * x + y * y ≤ ρ ^ 2) : x' * x' + y' * y' ≤ (ρ + 3 / 2 * η) ^ 2 := by
  have h2 : sqDist ⟨x', y'⟩ ⟨x, y⟩ ≤ (3 / 2 * η) ^ 2 := by
    have hx := sq_le_sq' (abs_le.mp hx).1 (abs_le.mp hx).2
    have hy := sq_le_sq' (abs_le.mp hy).1 (abs_le.mp hy).2
    simp only [sqDist]
    nlinarith
  have h3 : sqDist ⟨x, y⟩ ⟨0, 0⟩ ≤ ρ ^ 2 := by simpa [sqDist] using h
  have := sqDist_triangle hρ (by positivity) h2 h3
  simpa [sqDist] using this

theorem abs_rnd3 (q : ℚ) : |rnd 3 q - q| ≤ 1 / 2000 := by
  have := abs_rnd_sub_le 3 q
  norm_num at this ⊢
  exact this

/-- Equal radii stay within 0.003 of each other when the first vector moves by 0.0005 and the second by 0.0015 per axis. -/
theorem roots_shift {u v u' v' w z w' z' : ℚ} (k1 : |u' - u| ≤ 1 / 2000) (k2 : |v' - v| ≤ 1 / 2000)
    (k3 : |w' - w| ≤ 3 / 2000) (k4 : |z' - z| ≤ 3 / 2000) (k5 : u * u + v * v = w * w + z * z) :
    RootsNear (3 / 1000) (u' * u' + v' * v') (w' * w' + z' * z') := by
  intro ρ hρ
  have e1 : ρ + 3 / 2 * (1 / 2000) + 3 / 2 * (3 / 2000) = ρ + 3 / 1000 := by ring
  have e2 : ρ + 3 / 2 * (3 / 2000) + 3 / 2 * (1 / 2000) = ρ + 3 / 1000 := by ring
  have n1 : (0 : ℚ) ≤ 1 / 2000 := by norm_num
  have n3 : (0 : ℚ) ≤ 3 / 2000 := by norm_num
  constructor
  · intro hle
    have g1 := sq_shift n1 hρ (abs_sub_comm u' u ▸ k1) (abs_sub_comm v' v ▸ k2) hle
    rw [k5] at g1
    have g2 := sq_shift n3 (by linarith) k3 k4 g1
    rwa [e1] at g2
  · intro hle
    have g1 := sq_shift n3 hρ (abs_sub_comm w' w ▸ k3) (abs_sub_comm z' z ▸ k4) hle
    rw [← k5] at g1
    have g2 := sq_shift n1 (by linarith) k1 k2 g1
    rwa [e2] at g2

/-- C95 for one move: rounding start, end and centre offset of an arc to three decimals changes the two radii by at most 0.003
relative to each other. -/
theorem C95_move {e : Event} {c : Motion} (h : FollowsMove e c) (hc : c.kind.isArc = true → CircularArc c) :
    RoundArc (3 / 1000) e := by
  obtain ⟨⟨tgt, ctr, hact, hx, hy, -, hctr, -⟩, hst⟩ := h
  intro k tgt' ctr' hact' hk
  rw [hact] at hact'
  cases hact'
  have harc : c.kind.isArc = true := by
    cases hck : c.kind <;> rw [hck] at hk <;> first | rfl | (rcases hk with hk | hk <;> cases hk)
  obtain ⟨a, b, o, h1, h2, h3, heq⟩ := hc harc
  rw [h1] at hst
  rw [h2] at hx hy
  have hcx : ctr.x = some (rnd 3 (o.x - a.x)) := by
    rw [hctr, centreOff, if_pos harc, h1, h3]; rfl
  have hcy : ctr.y = some (rnd 3 (o.y - a.y)) := by
    rw [hctr, centreOff, if_pos harc, h1, h3]; rfl
  refine ⟨⟨rnd 3 a.x, rnd 3 a.y⟩, ⟨rnd 3 b.x, rnd 3 b.y⟩, ⟨rnd 3 a.x + rnd 3 (o.x - a.x), rnd 3 a.y + rnd 3 (o.y - a.y)⟩,
    hst.1 _ rfl, hst.2.1 _ rfl, hx.1 _ rfl, hy.1 _ rfl, ?_, ?_, ?_⟩
  · rw [hcx]; simp
  · rw [hcy]; simp
  have p1 := abs_le.mp (abs_rnd3 a.x)
  have p2 := abs_le.mp (abs_rnd3 a.y)
  have p3 := abs_le.mp (abs_rnd3 b.x)
  have p4 := abs_le.mp (abs_rnd3 b.y)
  have p5 := abs_le.mp (abs_rnd3 (o.x - a.x))
  have p6 := abs_le.mp (abs_rnd3 (o.y - a.y))
  simp only [sqDist] at heq ⊢
  refine roots_shift (u := a.x - o.x) (v := a.y - o.y) (w := b.x - o.x) (z := b.y - o.y) ?_ ?_ ?_ ?_ heq
  · rw [abs_le]; constructor <;> linarith [p5.1, p5.2]
  · rw [abs_le]; constructor <;> linarith [p6.1, p6.2]
  · rw [abs_le]; constructor <;> linarith [p1.1, p1.2, p3.1, p3.2, p5.1, p5.2]
  · rw [abs_le]; constructor <;> linarith [p2.1, p2.2, p4.1, p4.2, p6.1, p6.2]

/-- C95.  In the program of every job whose operations make moves that continue each other, with circular arcs, all arcs the
machine is told to run have radii at their start and at their end that differ by at most 0.003. -/
theorem C95_program_partial {j0 jf : Job} {rs : List Request} (m : Machine) (h0 : InitOK j0)
    (hn : ∀ v, j0.toolNumber = some v → NumOK v) (hok : ChainOK j0 rs) (h : j0.chain rs = .ok jf)
    (hend : m.ended = false) (htool : ∀ n, j0.toolNumber = some n → m.tool = some n.value)
    (hfit : ∀ cs ∈ chainMoves j0 rs, ArcsFit cs) :
    ∃ t m' evs, jf.toGcode = .ok t ∧ runText m t = some (m', evs) ∧ ∀ e ∈ evs, RoundArc (3 / 1000) e := by
  obtain ⟨t, m', e1, e2, e3, evss, a1, a2, k1, k2, k3, a6, -, -, -, a10⟩ := chain_program m h0 hn hok h hend htool
  refine ⟨t, m', _, a1, a2, ?_⟩
  intro e he
  simp only [List.mem_cons, List.mem_append, List.not_mem_nil, or_false] at he
  rcases he with rfl | he | rfl | rfl
  · intro k tgt ctr hact; rw [k1] at hact; cases hact
  · obtain ⟨evs, hevs, he⟩ := List.mem_flatten.mp he
    obtain ⟨cs, hcs, g1, g2⟩ := forall₂_mem_left (forall₂_and a6 a10) hevs
    obtain ⟨ht, hc⟩ := hfit cs hcs
    by_cases hm : isMove e = true
    · obtain ⟨c, hcm, hec⟩ := forall₂_mem_left (forall₂_and g1 (g2 ht)) (List.mem_filter.mpr ⟨he, hm⟩)
      exact C95_move hec (hc c hcm)
    · intro k tgt ctr hact
      simp [isMove, hact] at hm
  · intro k tgt ctr hact; rw [k2] at hact; cases hact
  · intro k tgt ctr hact; rw [k3] at hact; cases hact

/-! ### Which operations meet this -/

theorem fits_of_straight {cs : List Motion} (h : Connected {} cs) (hs : ∀ c ∈ cs, c.kind.isArc = false) :
    ArcsFit cs ∧ ArcsOpen cs :=
  ⟨⟨tracks_connected h, fun c hc ha => absurd ha (by rw [hs c hc]; decide)⟩,
    tracks_connected h, fun c hc ha => absurd ha (by rw [hs c hc]; decide)⟩

/-- Pockets have no arcs. -/
theorem pocket_arcs {eng : Clipper} {veq : Vec → Vec → Bool} {fuel : ℕ} {opAreas avoidAreas : List CqFace} {a : PocketArgs}
    {tool : Option Tool} {j : Job} {cs : List Motion}
    (h : (pocketRequest eng veq fuel opAreas avoidAreas a tool).gen j = .ok cs) : ArcsFit cs ∧ ArcsOpen cs := by
  have h' : pocket eng veq fuel opAreas avoidAreas a j = .ok cs := h
  refine fits_of_straight (C26_pocket h') ?_
  unfold pocket at h'
  cases hr : j.toolRadius with
  | none => rw [hr] at h'; cases h'
  | some r =>
    rw [hr] at h'
    obtain ⟨ops, h1, h'⟩ := bind_ok.mp h'
    obtain ⟨avoids, h2, h'⟩ := bind_ok.mp h'
    obtain ⟨-, -, -, g4⟩ := C45_pocket_path h'
    intro c hc
    by_cases hk : c.kind.mot = .rapid
    · cases hck : c.kind <;> rw [hck] at hk <;> first | rfl | cases hk
    · obtain ⟨z, ⟨-, hf⟩, -⟩ := g4 c hc hk
      rcases hf with ⟨hf, -⟩ | ⟨hf, -, -⟩
      · rw [hf]; rfl
      · rw [hf]; rfl

/-- Drilling has no arcs. -/
theorem drill_arcs {center : List Edge → Except Err Vec} {o : Option (List DrillObj)} {depth : Option ℚ} {tool : Option Tool}
    {j : Job} {cs : List Motion} (h : (drillRequest center o depth tool).gen j = .ok cs) :
    ArcsFit cs ∧ ArcsOpen cs := by
  have h' : drill center o depth j = .ok cs := h
  cases o with
  | none => cases h'
  | some objs =>
  cases depth with
  | none => cases h'
  | some d =>
  have hc := (C54_safe_motion h').1
  obtain ⟨centres, ps, -, -, -, -, -, rfl⟩ := drill_ok h'
  refine fits_of_straight hc ?_
  have hm := drillHoles_moves j (-|d|) {} ps
  intro c hc
  by_cases hk : c.kind.mot = .rapid
  · cases hck : c.kind <;> rw [hck] at hk <;> first | rfl | cases hk
  · obtain ⟨p, -, hl, -⟩ := holesMoves_feeds hm c hc hk
    cases hck : c.kind <;> rw [hck] at hl <;> first | rfl | cases hl

theorem C95_pocket {eng : Clipper} {veq : Vec → Vec → Bool} {fuel : ℕ} {opAreas avoidAreas : List CqFace} {a : PocketArgs}
    {tool : Option Tool} {j : Job} {cs : List Motion}
    (h : (pocketRequest eng veq fuel opAreas avoidAreas a tool).gen j = .ok cs) : ArcsFit cs := (pocket_arcs h).1

theorem C95_drill {center : List Edge → Except Err Vec} {o : Option (List DrillObj)} {depth : Option ℚ} {tool : Option Tool}
    {j : Job} {cs : List Motion} (h : (drillRequest center o depth tool).gen j = .ok cs) : ArcsFit cs := (drill_arcs h).1

/-- What holds of the moves of every edge and of all moves other than arcs holds of the moves along wires. -/
theorem routeWires_each {E : Edge → Prop} {Q : Motion → Prop} {L : Prop} {veq : Vec → Vec → Bool}
    {search : Vec → List Edge → Option WireHit} {j : Job} {wires : List (List Edge)} {stepover : Option ℚ}
    {prev : Option AddrVec} {cs : List Motion} (hE : ∀ w ∈ wires, ∀ e ∈ w, E e)
    (hQ : ∀ c : Motion, c.kind.isArc = false → Q c)
    (hR : ∀ e sp ep cs v, E e → (sp = none ∧ ep = none ∨ L) → routeEdge veq e j.precision sp ep (some j.feed) = .ok (cs, v) →
      ∀ c ∈ cs, Q c)
    (hL : ∀ w ∈ wires, ∀ v h, search v w = some h → L)
    (h : routeWires veq search j wires stepover prev = .ok cs) : ∀ c ∈ cs, Q c := by
  have hes : ∀ {es : List Edge} {fin v : Vec} {cs : List Motion}, (∀ e ∈ es, E e) → routeEdges veq j fin es = .ok (cs, v) →
      ∀ c ∈ cs, Q c := by
    intro es
    induction es with
    | nil => intro fin v cs _ h; cases h; simp
    | cons e es ih =>
      intro fin v cs he h
      unfold routeEdges at h
      cases h1 : routeEdge veq e j.precision none none (some j.feed) with
      | error x => rw [h1] at h; cases h
      | ok r =>
        obtain ⟨a, b⟩ := r
        rw [h1] at h
        simp only at h
        cases h2 : routeEdges veq j b es with
        | error x => rw [h2] at h; cases h
        | ok r =>
          obtain ⟨a', b'⟩ := r
          rw [h2] at h
          cases h
          intro c hc
          rcases List.mem_append.mp hc with hc | hc
          · exact hR e _ _ _ _ (he e (by simp)) (.inl ⟨rfl, rfl⟩) h1 c hc
          · exact ih (fun e h => he e (by simp [h])) h2 c hc
  have hen : ∀ {hit : Option WireHit} {pos : AddrVec} {edges es : List Edge} {app : List Motion}, (∀ e ∈ edges, E e) →
      enterWire veq j stepover hit pos edges = .ok (es, app) → (∀ e ∈ es, E e) ∧ ∀ c ∈ app, Q c := by
    intro hit pos edges es app hE he
    unfold enterWire at he
    cases hl : wireLink stepover hit with
    | some hh =>
      rw [hl] at he
      simp only at he
      cases hs : shiftEdges veq edges hh with
      | error x => rw [hs] at he; cases he
      | ok es' =>
        have hes : ∀ e ∈ es', E e := by
          unfold shiftEdges at hs
          simp only at hs
          split at hs
          · cases hs
          · cases hs
            intro e he
            rcases List.mem_append.mp he with he | he
            · exact hE e (List.mem_of_mem_drop he)
            · exact hE e (List.mem_of_mem_take he)
        rw [hs] at he
        cases es' with
        | nil => cases he
        | cons e es' =>
          cases he
          refine ⟨hes, ?_⟩
          intro c hc
          rw [List.mem_singleton] at hc
          subst hc
          exact hQ _ rfl
    | none =>
      rw [hl] at he
      cases edges with
      | nil => cases he
      | cons e es' =>
        cases he
        refine ⟨hE, ?_⟩
        intro c hc
        refine hQ c ?_
        rcases rapidTo_approach _ _ _ _ _ c hc with hk | ⟨hk, -⟩
        · cases hck : c.kind <;> rw [hck] at hk <;> first | rfl | cases hk
        · rw [hk]; rfl
  have hwire : ∀ {hit : Option WireHit} {pos : AddrVec} {edges : List Edge} {cs : List Motion} {v : Vec}, (∀ e ∈ edges, E e) →
      (∀ h, hit = some h → L) → routeWire veq j stepover hit pos edges = .ok (cs, v) → ∀ c ∈ cs, Q c := by
    intro hit pos edges cs v hE hL h
    have hpar : ∀ p, hit.bind WireHit.param = some p → L := by
      intro p hp
      cases hit with
      | none => cases hp
      | some hh => exact hL hh rfl
    unfold routeWire at h
    cases he : enterWire veq j stepover hit pos edges with
    | error x => rw [he] at h; cases h
    | ok r =>
      obtain ⟨es, app⟩ := r
      obtain ⟨hes', happ⟩ := hen hE he
      rw [he] at h
      cases es with
      | nil => cases h
      | cons e es =>
        simp only at h
        cases h1 : routeEdge veq e j.precision (hit.bind WireHit.param) none (some j.feed) with
        | error x => rw [h1] at h; cases h
        | ok r =>
          obtain ⟨a, b⟩ := r
          rw [h1] at h
          simp only at h
          cases h2 : routeEdges veq j b es with
          | error x => rw [h2] at h; cases h
          | ok r =>
            obtain ⟨a', b'⟩ := r
            rw [h2] at h
            simp only at h
            have hfirst : hit.bind WireHit.param = none ∧ (none : Option ℚ) = none ∨ L := by
              cases hp : hit.bind WireHit.param with
              | none => exact .inl ⟨rfl, rfl⟩
              | some p => exact .inr (hpar p hp)
            have hbase : ∀ c ∈ app ++ a ++ a', Q c := by
              intro c hc
              rcases List.mem_append.mp hc with hc | hc
              · rcases List.mem_append.mp hc with hc | hc
                · exact happ c hc
                · exact hR e _ _ _ _ (hes' e (by simp)) hfirst h1 c hc
              · exact hes (fun e he => hes' e (by simp [he])) h2 c hc
            cases hp : hit.bind WireHit.param with
            | none => rw [hp] at h; cases h; exact hbase
            | some p =>
              rw [hp] at h
              simp only at h
              split at h
              · cases h; exact hbase
              · cases h3 : routeEdge veq e j.precision none (some p) (some j.feed) with
                | error x => rw [h3] at h; cases h
                | ok r =>
                  obtain ⟨a'', b''⟩ := r
                  rw [h3] at h
                  cases h
                  intro c hc
                  rcases List.mem_append.mp hc with hc | hc
                  · exact hbase c hc
                  · exact hR e _ _ _ _ (hes' e (by simp)) (.inr (hpar p hp)) h3 c hc
  have key : ∀ (ws : List (List Edge)) (acc : List Motion) (pwe : Option Vec) (pos : AddrVec) (cs : List Motion),
      (∀ w ∈ ws, (∀ e ∈ w, E e) ∧ ∀ v h, search v w = some h → L) → (∀ c ∈ acc, Q c) →
      routeWiresFrom veq search j stepover acc pwe pos ws = .ok cs → ∀ c ∈ cs, Q c := by
    intro ws
    induction ws with
    | nil => intro acc pwe pos cs _ ha h; cases h; exact ha
    | cons w ws ih =>
      intro acc pwe pos cs hw ha h
      cases w with
      | nil => cases h; simp
      | cons e es =>
        simp only [routeWiresFrom] at h
        cases h1 : routeWire veq j stepover (pwe.bind (search · (e :: es))) pos (e :: es) with
        | error x => rw [h1] at h; cases h
        | ok r =>
          obtain ⟨ds, fin⟩ := r
          rw [h1] at h
          refine ih _ _ _ _ (fun w hw' => hw w (by simp [hw'])) ?_ h
          intro c hc
          rcases List.mem_append.mp hc with hc | hc
          · exact ha c hc
          · refine hwire (hw _ (by simp)).1 ?_ h1 c hc
            intro hh hb
            cases pwe with
            | none => cases hb
            | some v => exact (hw _ (by simp)).2 v hh hb
  exact key wires [] none (prev.getD {}) cs (fun w hw => ⟨hE w hw, hL w hw⟩) (by simp) h

theorem cutsThroughPoints_kind {feed : Option PyNum} (vs : List Vec) : ∀ pos, ∀ c ∈ cutsThroughPoints feed pos vs, c.kind = .cut := by
  induction vs with
  | nil => simp [cutsThroughPoints]
  | cons v vs ih =>
    intro pos c hc
    rcases List.mem_cons.mp hc with rfl | hc
    · rfl
    · exact ih _ c hc

/-- An arc made of the edge: from end to end, or one of the two halves of a closed edge. -/
def ArcOf (e : Edge) (sp ep : Option ℚ) (c : Motion) : Prop :=
  let p0 := sp.getD (edgeStartParam e)
  let p1 := ep.getD (edgeEndParam e)
  let half := e.posParam (p0 + 2 * ((p1 - p0) / 4))
  (e.closed = false ∧ c.start = .fromVec (routeStart e sp) ∧ c.fin = .fromVec (routeEnd e ep)) ∨
  (e.closed = true ∧ c.start = .fromVec (e.posParam p0) ∧ c.fin = .fromVec half) ∨
  (e.closed = true ∧ c.start = .fromVec half ∧ c.fin = .fromVec (routeEnd e ep))

theorem routeEdge_shapes {veq : Vec → Vec → Bool} {e : Edge} {prec : ℕ} {sp ep : Option ℚ} {feed : Option PyNum}
    {cs : List Motion} {v : Vec} (h : routeEdge veq e prec sp ep feed = .ok (cs, v)) : ∀ c ∈ cs, c.kind.isArc = true →
      e.circular ∧ c.center = .fromVec e.center ∧ ArcOf e sp ep c := by
  have hcut : ∀ {c : Motion}, c.kind = .cut → c.kind.isArc = true → False := by
    intro c h1 h2; rw [h1] at h2; cases h2
  have harc : e.circular → ∀ {ds}, routeArc veq e sp ep feed = .ok ds →
      ∀ c ∈ ds, c.kind.isArc = true → e.circular ∧ c.center = .fromVec e.center ∧ ArcOf e sp ep c := by
    intro hcirc ds hd
    unfold routeArc at hd
    simp only at hd
    cases hcw : isArcClockwise2 e.normal e.reversed with
    | error x => rw [hcw] at hd; cases hd
    | ok b =>
      rw [hcw] at hd
      simp only at hd
      split at hd
      · rename_i hcl
        cases hd
        intro c hc _
        simp only [List.mem_cons, List.not_mem_nil, or_false] at hc
        rcases hc with rfl | rfl
        · exact ⟨hcirc, rfl, .inr (.inl ⟨hcl, rfl, rfl⟩)⟩
        · exact ⟨hcirc, rfl, .inr (.inr ⟨hcl, rfl, rfl⟩)⟩
      · rename_i hcl
        split at hd <;> cases hd <;> intro c hc ha <;> rw [List.mem_singleton] at hc <;> subst hc
        · exact (hcut rfl ha).elim
        · exact ⟨hcirc, rfl, .inl ⟨by simpa using hcl, rfl, rfl⟩⟩
  unfold routeEdge at h
  simp only at h
  cases hg : e.geom <;> rw [hg] at h <;> simp only at h
  · cases h
    intro c hc ha
    rw [List.mem_singleton] at hc
    subst hc
    exact (hcut rfl ha).elim
  · cases ha : routeArc veq e sp ep feed with
    | error x => rw [ha] at h; cases h
    | ok ds => rw [ha] at h; cases h; exact harc (.inl hg) ha
  · cases ha : routeArc veq e sp ep feed with
    | error x => rw [ha] at h; cases h
    | ok ds => rw [ha] at h; cases h; exact harc (.inr hg) ha
  · cases h; intro c hc ha; exact (hcut (cutsThroughPoints_kind _ _ c hc) ha).elim
  · cases h; intro c hc ha; exact (hcut (cutsThroughPoints_kind _ _ c hc) ha).elim
  · cases h; intro c hc ha; exact (hcut (cutsThroughPoints_kind _ _ c hc) ha).elim
  · cases h

/-- C95 for the router: along wires of level circles all arcs are circular, wherever the wires are entered. -/
theorem C95_wires {veq : Vec → Vec → Bool} {search : Vec → List Edge → Option WireHit} {j : Job} {wires : List (List Edge)}
    {stepover : Option ℚ} {prev : Option AddrVec} {cs : List Motion} (hE : ∀ w ∈ wires, ∀ e ∈ w, LevelCircle e)
    (h : routeWires veq search j wires stepover prev = .ok cs) : ∀ c ∈ cs, c.kind.isArc = true → CircularArc c := by
  refine routeWires_each (E := LevelCircle) (Q := fun c => c.kind.isArc = true → CircularArc c) (L := True) hE ?_ ?_
    (fun _ _ _ _ _ => trivial) h
  · intro c h1 h2; rw [h1] at h2; cases h2
  · intro e sp ep cs v he _ hr c hc ha
    obtain ⟨hcirc, hctr, hcase⟩ := routeEdge_shapes hr c hc ha
    obtain ⟨s, hs⟩ := he hcirc
    have hst : sqDist ⟨(routeStart e sp).x, (routeStart e sp).y⟩ ⟨e.center.x, e.center.y⟩ = s := by
      refine hs _ ?_
      unfold routeStart edgeStartPoint
      split
      · split <;> simp
      · exact .inr (.inr ⟨_, rfl⟩)
    have hen : sqDist ⟨(routeEnd e ep).x, (routeEnd e ep).y⟩ ⟨e.center.x, e.center.y⟩ = s := by
      refine hs _ ?_
      unfold routeEnd edgeEndPoint
      split
      · split <;> simp
      · exact .inr (.inr ⟨_, rfl⟩)
    have hp : ∀ p, sqDist ⟨(e.posParam p).x, (e.posParam p).y⟩ ⟨e.center.x, e.center.y⟩ = s :=
      fun p => hs _ (.inr (.inr ⟨p, rfl⟩))
    rcases hcase with ⟨-, h1, h2⟩ | ⟨-, h1, h2⟩ | ⟨-, h1, h2⟩
    · exact ⟨_, _, _, h1, h2, hctr, by rw [hst, hen]⟩
    · exact ⟨_, _, _, h1, h2, hctr, by rw [hp, hp]⟩
    · exact ⟨_, _, _, h1, h2, hctr, by rw [hp, hen]⟩

/-! ### Profiles -/

theorem travel_up (e : Edge) (dz t : ℚ) : (e.up dz).travel t = (e.travel t).up dz := rfl

theorem chained_up {w : List Edge} (h : Chained w) (dz : ℚ) : Chained (w.map (Edge.up dz)) := by
  induction w with
  | nil => trivial
  | cons a es ih =>
    cases es with
    | nil => trivial
    | cons b es => exact ⟨by rw [travel_up, travel_up, h.1], ih h.2⟩

theorem levelCircle_up {e : Edge} (h : LevelCircle e) (dz : ℚ) : LevelCircle (e.up dz) := by
  intro hc
  obtain ⟨s, hs⟩ := h hc
  refine ⟨s, ?_⟩
  rintro v (rfl | rfl | ⟨p, rfl⟩)
  · exact hs e.startPoint (.inl rfl)
  · exact hs e.endPoint (.inr (.inl rfl))
  · exact hs (e.posParam p) (.inr (.inr ⟨p, rfl⟩))

theorem map_up_zero (b : List Edge) : b.map (Edge.up 0) = b := by
  rw [show Edge.up 0 = id from by funext e; simp [Edge.up, Vec.up], List.map_id]

theorem profile_moves {cad : Cad} (hb : BoxMoves cad) {j : Job} {wire : List Edge} {offset : ℚ} {stepdown : Option ℚ}
    {cs : List Motion} (h : profile cad j wire offset stepdown none = .ok cs) (hsafe : 0 ≤ j.opSafeHeight)
    (hw : ∀ r bases, j.toolRadius = some r → offsetWire cad (wire.map (Edge.toLocal j.top)) (offset * r) = .ok bases →
      ∀ b ∈ bases, PlainContour cad j b) :
    Connected {} cs ∧ ∃ ws, routeWires cad.veq (fun _ _ => none) j ws none none = .ok cs ∧
      ∀ w ∈ ws, ∃ r bases b dz, j.toolRadius = some r ∧
        offsetWire cad (wire.map (Edge.toLocal j.top)) (offset * r) = .ok bases ∧ b ∈ bases ∧ w = b.map (Edge.up dz) := by
  obtain ⟨ws, h1, h⟩ := bind_ok.mp h
  unfold profileWires at h1
  cases hr : j.toolRadius with
  | none => rw [hr] at h1; cases h1
  | some r =>
  rw [hr] at h1
  obtain ⟨bases, ho, h1⟩ := bind_ok.mp h1
  obtain ⟨lss, h2, h1⟩ := bind_ok.mp h1
  cases h1
  have hws : ∀ w ∈ lss.flatten, ∃ b ∈ bases, ∃ dz, w = b.map (Edge.up dz) ∧ cad.zmin b + dz ≤ j.opSafeHeight := by
    intro w hwm
    obtain ⟨ls, hls, hwm⟩ := List.mem_flatten.mp hwm
    obtain ⟨b, hbm, hf⟩ := mapE_mem h2 hls
    have hp := hw r bases hr ho b hbm
    obtain ⟨ls', hl, hf⟩ := bind_ok.mp hf
    cases hf
    rcases profileLayers_mem hl w hwm with rfl | ⟨s, hs, k, k1, k2, rfl, k4⟩
    · exact ⟨w, hbm, 0, (map_up_zero w).symm, by simpa using hp.low⟩
    · refine ⟨b, hbm, _, rfl, ?_⟩
      rw [zmin_up hb hp.ok.nonempty] at k4
      linarith
  have hv : ∀ w ∈ lss.flatten, ∀ v h, cad.search v w = some h → ∃ d q, h = .vertex d q := by
    intro w hwm
    obtain ⟨b, hbm, dz, rfl, -⟩ := hws w hwm
    exact (hw r bases hr ho b hbm).vertex dz
  rw [routeWires_vertex hv] at h
  obtain ⟨cs', g1, g2⟩ := C72_wires_connected_partial cad.veq (fun _ _ => none) j lss.flatten none none
    (by
      intro w hwm
      obtain ⟨b, hbm, dz, rfl, -⟩ := hws w hwm
      exact wireOK_up (hw r bases hr ho b hbm).ok dz)
    (by intro w _ v h hh; cases hh) (by intro w _ v h hh; cases hh)
    (by
      intro w hwm
      obtain ⟨b, hbm, dz, rfl, hz⟩ := hws w hwm
      have hp := hw r bases hr ho b hbm
      refine ⟨chained_up hp.chained dz, by simp, ?_⟩
      intro e he
      obtain ⟨e0, he0, rfl⟩ := List.mem_map.mp he
      have hl := (hp.level e0 he0).len (if e0.reversed then 1 - 0 else 0)
      rw [travel_up]
      change (e0.travel 0).z + dz ≤ _
      change (e0.travel 0).z = _ at hl
      rw [hl]
      exact hz)
  rw [h] at g1
  cases g1
  refine ⟨g2, _, h, ?_⟩
  intro w hwm
  obtain ⟨b, hbm, dz, hwb, -⟩ := hws w hwm
  exact ⟨r, bases, b, dz, rfl, ho, hbm, hwb⟩

/-- C95 for profiles without tabs: the arcs of plain contours of level circles. -/
theorem C95_wire_profile {cad : Cad} (hb : BoxMoves cad) {wires : List (List Edge)} {offset : ℚ} {stepdown : Option ℚ}
    {tool : Option Tool} {j : Job} {cs : List Motion}
    (h : (wireProfileRequest cad wires offset stepdown none tool).gen j = .ok cs) (hsafe : 0 ≤ j.opSafeHeight)
    (hw : ∀ w ∈ wires, ∀ r bases, j.toolRadius = some r →
      offsetWire cad (w.map (Edge.toLocal j.top)) (offset * r) = .ok bases →
      ∀ b ∈ bases, PlainContour cad j b ∧ ∀ e ∈ b, LevelCircle e) : ArcsFit cs := by
  obtain ⟨bs, hm, h⟩ := bind_ok.mp h
  cases h
  have hall : ∀ b ∈ bs, Tracks {} b ∧ ∀ c ∈ b, c.kind.isArc = true → CircularArc c := by
    intro b hbm
    obtain ⟨w, hwm, hp⟩ := mapE_mem hm hbm
    obtain ⟨hc, ws, hr, hws⟩ := profile_moves hb hp hsafe (fun r bases h1 h2 x hx => (hw w hwm r bases h1 h2 x hx).1)
    refine ⟨tracks_connected hc, C95_wires ?_ hr⟩
    intro l hl e he
    obtain ⟨r, bases, x, dz, h1, h2, hx, rfl⟩ := hws l hl
    obtain ⟨e0, he0, rfl⟩ := List.mem_map.mp he
    exact levelCircle_up ((hw w hwm r bases h1 h2 x hx).2 e0 he0) dz
  refine ⟨tracks_flatten (fun b hbm => (hall b hbm).1) _, ?_⟩
  intro c hc
  obtain ⟨b, hbm, hc⟩ := List.mem_flatten.mp hc
  exact (hall b hbm).2 c hc

/-! ### C96 -/

/-- C96 for one move: the machine runs an arc as a full circle exactly if start and end are printed alike. -/
theorem C96_full_iff {e : Event} {c : Motion} {a b : Vec} (h : FollowsMove e c) (hc : c.kind.isArc = true)
    (ha : c.start = .fromVec a) (hb : c.fin = .fromVec b) : FullTurn e ↔ rnd 3 b.x = rnd 3 a.x ∧ rnd 3 b.y = rnd 3 a.y := by
  obtain ⟨⟨tgt, ctr, hact, hx, hy, -⟩, hst⟩ := h
  rw [ha] at hst
  rw [hb] at hx hy
  have h1 := hst.1 _ rfl
  have h2 := hst.2.1 _ rfl
  have h3 := hx.1 _ rfl
  have h4 := hy.1 _ rfl
  have hk : c.kind.mot = .cw ∨ c.kind.mot = .ccw := by
    cases hck : c.kind <;> rw [hck] at hc <;> first | exact .inl rfl | exact .inr rfl | cases hc
  constructor
  · rintro ⟨k, tgt', ctr', hact', -, g1, g2⟩
    rw [hact] at hact'
    cases hact'
    rw [h3, h1] at g1
    rw [h4, h2] at g2
    exact ⟨Option.some.inj g1, Option.some.inj g2⟩
  · rintro ⟨g1, g2⟩
    exact ⟨_, _, _, hact, hk, by rw [h3, h1, g1], by rw [h4, h2, g2]⟩

theorem farApart_rnd {a b : Vec} (h : FarApart a b) : ¬ (rnd 3 b.x = rnd 3 a.x ∧ rnd 3 b.y = rnd 3 a.y) := by
  rintro ⟨h1, h2⟩
  have p1 := abs_le.mp (abs_rnd3 a.x)
  have p2 := abs_le.mp (abs_rnd3 a.y)
  have p3 := abs_le.mp (abs_rnd3 b.x)
  have p4 := abs_le.mp (abs_rnd3 b.y)
  rw [h1] at p3
  rw [h2] at p4
  rcases h with h | h
  · refine absurd h (not_lt.mpr (abs_le.mpr ⟨?_, ?_⟩)) <;> linarith [p1.1, p1.2, p3.1, p3.2]
  · refine absurd h (not_lt.mpr (abs_le.mpr ⟨?_, ?_⟩)) <;> linarith [p2.1, p2.2, p4.1, p4.2]

/-- C96.  In the program of every job whose operations make moves that continue each other, with arcs whose ends are more than
a thousandth apart in X or Y, the machine runs no full circle. -/
theorem C96_program_partial {j0 jf : Job} {rs : List Request} (m : Machine) (h0 : InitOK j0)
    (hn : ∀ v, j0.toolNumber = some v → NumOK v) (hok : ChainOK j0 rs) (h : j0.chain rs = .ok jf)
    (hend : m.ended = false) (htool : ∀ n, j0.toolNumber = some n → m.tool = some n.value)
    (hfit : ∀ cs ∈ chainMoves j0 rs, ArcsOpen cs) :
    ∃ t m' evs, jf.toGcode = .ok t ∧ runText m t = some (m', evs) ∧ ∀ e ∈ evs, ¬ FullTurn e := by
  obtain ⟨t, m', e1, e2, e3, evss, a1, a2, k1, k2, k3, a6, -, -, -, a10⟩ := chain_program m h0 hn hok h hend htool
  refine ⟨t, m', _, a1, a2, ?_⟩
  intro e he hfull
  obtain ⟨k, tgt, ctr, hact, hk, -⟩ := id hfull
  simp only [List.mem_cons, List.mem_append, List.not_mem_nil, or_false] at he
  rcases he with rfl | he | rfl | rfl
  · rw [k1] at hact; cases hact
  · obtain ⟨evs, hevs, he⟩ := List.mem_flatten.mp he
    obtain ⟨cs, hcs, g1, g2⟩ := forall₂_mem_left (forall₂_and a6 a10) hevs
    obtain ⟨ht, hc⟩ := hfit cs hcs
    have hm : isMove e = true := by simp [isMove, hact]
    obtain ⟨c, hcm, hec⟩ := forall₂_mem_left (forall₂_and g1 (g2 ht)) (List.mem_filter.mpr ⟨he, hm⟩)
    have harc : c.kind.isArc = true := by
      obtain ⟨tgt', ctr', hact', -⟩ := hec.1
      rw [hact] at hact'
      have : k = c.kind.mot := by injection hact'
      subst this
      cases hck : c.kind <;> rw [hck] at hk <;> first | rfl | (rcases hk with hk | hk <;> cases hk)
    obtain ⟨a, b, ha, hb, hab⟩ := hc c hcm harc
    exact farApart_rnd hab ((C96_full_iff hec harc ha hb).mp hfull)
  · rw [k2] at hact; cases hact
  · rw [k3] at hact; cases hact

theorem farApart_up {a b : Vec} (h : FarApart a b) (dz : ℚ) : FarApart (a.up dz) (b.up dz) := h

theorem spreadOut_up {e : Edge} (h : SpreadOut e) (dz : ℚ) : SpreadOut (e.up dz) := h

/-- C96 for the router without search for entries: all arcs have ends that are apart. -/
theorem C96_wires {veq : Vec → Vec → Bool} {j : Job} {wires : List (List Edge)}
    {stepover : Option ℚ} {prev : Option AddrVec} {cs : List Motion} (hE : ∀ w ∈ wires, ∀ e ∈ w, EdgeOK e ∧ SpreadOut e)
    (h : routeWires veq (fun _ _ => none) j wires stepover prev = .ok cs) :
    ∀ c ∈ cs, c.kind.isArc = true → ∃ a b, c.start = .fromVec a ∧ c.fin = .fromVec b ∧ FarApart a b := by
  refine routeWires_each (E := fun e => EdgeOK e ∧ SpreadOut e)
    (Q := fun c => c.kind.isArc = true → ∃ a b, c.start = .fromVec a ∧ c.fin = .fromVec b ∧ FarApart a b) (L := False) hE ?_ ?_
    (by intro _ _ _ _ h; cases h) h
  · intro c h1 h2; rw [h1] at h2; cases h2
  · intro e sp ep cs v he hL hr c hc ha
    obtain ⟨rfl, rfl⟩ : sp = none ∧ ep = none := hL.resolve_right id
    obtain ⟨hcirc, -, hcase⟩ := routeEdge_shapes hr c hc ha
    obtain ⟨hok, hsp⟩ := he
    have hsp := hsp hcirc
    have hs : edgeStartPoint e = e.travel 0 := edgeStartPoint_eq hok
    have he' : edgeEndPoint e = e.travel 1 := edgeEndPoint_eq hok
    have hp0 : e.posParam (edgeStartParam e) = e.travel 0 := by
      rw [← hs]
      unfold edgeStartParam edgeStartPoint
      split
      · exact hok.param1
      · exact hok.param0
    have hhalf : edgeStartParam e + 2 * ((edgeEndParam e - edgeStartParam e) / 4) = (e.fromParam + e.toParam) / 2 := by
      unfold edgeStartParam edgeEndParam Edge.fromParam Edge.toParam
      split <;> simp_all <;> ring
    simp only [ArcOf, Option.getD_none, routeStart, routeEnd] at hcase
    rw [hp0, hhalf, hs, he'] at hcase
    rcases hcase with ⟨hcl, h1, h2⟩ | ⟨hcl, h1, h2⟩ | ⟨hcl, h1, h2⟩
    · rw [hcl] at hsp
      exact ⟨_, _, h1, h2, by simpa using hsp⟩
    · rw [if_pos hcl] at hsp
      exact ⟨_, _, h1, h2, hsp.1⟩
    · rw [if_pos hcl] at hsp
      exact ⟨_, _, h1, h2, hsp.2⟩

/-- C96 for profiles without tabs. -/
theorem C96_wire_profile {cad : Cad} (hb : BoxMoves cad) {wires : List (List Edge)} {offset : ℚ} {stepdown : Option ℚ}
    {tool : Option Tool} {j : Job} {cs : List Motion}
    (h : (wireProfileRequest cad wires offset stepdown none tool).gen j = .ok cs) (hsafe : 0 ≤ j.opSafeHeight)
    (hw : ∀ w ∈ wires, ∀ r bases, j.toolRadius = some r →
      offsetWire cad (w.map (Edge.toLocal j.top)) (offset * r) = .ok bases →
      ∀ b ∈ bases, PlainContour cad j b ∧ ∀ e ∈ b, SpreadOut e) : ArcsOpen cs := by
  obtain ⟨bs, hm, h⟩ := bind_ok.mp h
  cases h
  have hall : ∀ b ∈ bs, ArcsOpen b := by
    intro b hbm
    obtain ⟨w, hwm, hp⟩ := mapE_mem hm hbm
    obtain ⟨hc, ws, hr, hws⟩ := profile_moves hb hp hsafe (fun r bases h1 h2 x hx => (hw w hwm r bases h1 h2 x hx).1)
    refine ⟨tracks_connected hc, C96_wires ?_ hr⟩
    intro l hl e he
    obtain ⟨r, bases, x, dz, h1, h2, hx, rfl⟩ := hws l hl
    have hx' := hw w hwm r bases h1 h2 x hx
    refine ⟨(wireOK_up hx'.1.ok dz).edgeOK e he, ?_⟩
    obtain ⟨e0, he0, rfl⟩ := List.mem_map.mp he
    exact spreadOut_up (hx'.2 e0 he0) dz
  refine ⟨tracks_flatten (fun b hbm => (hall b hbm).1) _, ?_⟩
  intro c hc
  obtain ⟨b, hbm, hc⟩ := List.mem_flatten.mp hc
  exact (hall b hbm).2 c hc

theorem C96_pocket {eng : Clipper} {veq : Vec → Vec → Bool} {fuel : ℕ} {opAreas avoidAreas : List CqFace} {a : PocketArgs}
    {tool : Option Tool} {j : Job} {cs : List Motion}
    (h : (pocketRequest eng veq fuel opAreas avoidAreas a tool).gen j = .ok cs) : ArcsOpen cs := (pocket_arcs h).2

theorem C96_drill {center : List Edge → Except Err Vec} {o : Option (List DrillObj)} {depth : Option ℚ} {tool : Option Tool}
    {j : Job} {cs : List Motion} (h : (drillRequest center o depth tool).gen j = .ok cs) : ArcsOpen cs := (drill_arcs h).2

/-! ### Witnesses -/

/-- A call whose run has an event of the given kind. -/
theorem run_witness {j : Job} {r : Request} {bad : Event → Bool} (h0 : InitOK j) (hn : ∀ v, j.toolNumber = some v → NumOK v)
    (hp : r.pre j = .ok ()) (ht : r.tool = none) (hname : SafeName r.opName)
    (h : (match r.gen j with
      | .ok cs => cs.all goodMove && ((j.addOperation r.opName (cs.map .motion)).intended {}).2.any bad
      | .error _ => false) = true) :
    ∃ j2 t m' evs, (j.call r).2 = .ok j2 ∧ j2.toGcode = .ok t ∧ runText {} t = some (m', evs) ∧ ∃ e ∈ evs, bad e = true := by
  obtain ⟨cs, hg, hr, hc⟩ := call_good hp ht hname (by
    cases hg : r.gen j with
    | error e => rw [hg] at h; cases h
    | ok cs => rw [hg] at h; exact (Bool.and_eq_true _ _ ▸ h).1)
  rw [hg] at h
  have hb := (Bool.and_eq_true _ _ ▸ h).2
  obtain ⟨t, ht, hrun⟩ := run_job {} _ (inv_reach (inv_init h0 hn) (.result r .init hr hc)).ok rfl
  exact ⟨_, t, _, _, hc, ht, hrun, List.any_eq_true.mp hb⟩

/-- An arc whose start is within 5/4 of its centre and whose end is farther than 9/4 from it. -/
def lopsided (e : Event) : Bool :=
  match e.act with
  | .move .ccw tgt ctr => match e.st.pos.x, e.st.pos.y, tgt.x, tgt.y, ctr.x, ctr.y with
      | some ax, some ay, some bx, some b_y, some i, some k =>
          decide (i * i + k * k ≤ (5 / 4) ^ 2) && decide ((9 / 4) ^ 2 < (bx - ax - i) * (bx - ax - i) + (b_y - ay - k) * (b_y - ay - k))
      | _, _, _, _, _, _ => false
  | _ => false

theorem lopsided_not {e : Event} (h : lopsided e = true) : ¬ RoundArc 1 e := by
  intro hr
  unfold lopsided at h
  split at h
  · rename_i tgt ctr hact
    obtain ⟨a, b, o, h1, h2, h3, h4, h5, h6, h7⟩ := hr _ _ _ hact (.inr rfl)
    rw [h1, h2, h3, h4, h5, h6] at h
    simp only [Bool.and_eq_true, decide_eq_true_eq] at h
    have := (h7 (5 / 4) (by norm_num)).1 (by simp only [sqDist]; linarith [h.1])
    simp only [sqDist] at this
    have h' := h.2
    ring_nf at this h'
    linarith
  · cases h

/-- A kernel for which the offset of any wire is the triangle and the slot with the round end. -/
def slotCad : Cad := { flatCad with search := slotSearch, offset2D := fun _ _ => .ok [demoTriangle, roundSlot] }

theorem halfCircle_level : LevelCircle halfCircle := by
  intro _
  refine ⟨1, ?_⟩
  have key : ∀ s : ℚ, sqDist ⟨(halfCircle.posParam s).x, (halfCircle.posParam s).y⟩ ⟨1, 0⟩ = 1 := by
    intro s
    have hd : (1 - s) * (1 - s) + s * s ≠ 0 := by nlinarith [sq_nonneg (1 - 2 * s)]
    simp only [halfCircle, sqDist]
    rw [show ∀ A B D : ℚ, (1 - A / D - 1) * (1 - A / D - 1) + (-B / D - 0) * (-B / D - 0) = (A * A + B * B) / (D * D) from by
      intro A B D; ring, div_eq_one_iff_eq (mul_ne_zero hd hd)]
    ring
  rintro v (rfl | rfl | ⟨p, rfl⟩)
  · norm_num [halfCircle, sqDist]
  · norm_num [halfCircle, sqDist]
  · exact key p

theorem outline_level {l : List (ℕ × Pt × Pt × ℚ)} : ∀ e ∈ outline l, LevelCircle e ∧ SpreadOut e := by
  intro e he
  obtain ⟨x, -, rfl⟩ := List.mem_map.mp he
  constructor <;> rintro (h | h) <;> cases h

/-- C95 is false in general: profiling a wire whose offset has two contours, a triangle and a slot with a round end, both made of
straight edges and level circles, tells the machine to run an arc whose radii differ by more than 1. -/
theorem C95_violated : ∃ j2 t m' evs,
    offsetWire slotCad (demoTriangle.map (Edge.toLocal twoJob.top)) (1 * 1) = .ok [demoTriangle, roundSlot] ∧
    (∀ w ∈ [demoTriangle, roundSlot], WireOK w ∧ Chained w ∧ Closes w ∧ SearchRight slotCad.search w ∧ ∀ e ∈ w, LevelCircle e) ∧
    (twoJob.call (wireProfileRequest slotCad [demoTriangle] 1 none none none)).2 = .ok j2 ∧ j2.toGcode = .ok t ∧
    runText {} t = some (m', evs) ∧ ∃ e ∈ evs, ¬ RoundArc 1 e := by
  obtain ⟨j2, t, m', evs, h1, h2, h3, e, he, hb⟩ := run_witness (j := twoJob) (bad := lopsided)
    (r := wireProfileRequest slotCad [demoTriangle] 1 none none none) twoJob_ok (by rintro v ⟨⟩) (by decide +kernel) rfl
    (by unfold SafeName; decide) (by decide +kernel)
  refine ⟨j2, t, m', evs, ?_, ?_, h1, h2, h3, e, he, lopsided_not hb⟩
  · change Except.ok (circleBugWorkaround slotCad roundSlot ([demoTriangle, roundSlot].filter (offsetValid slotCad))) = _
    have hv : offsetValid slotCad demoTriangle = true := by decide +kernel
    have hv2 : offsetValid slotCad roundSlot = true := by decide +kernel
    rw [show [demoTriangle, roundSlot].filter (offsetValid slotCad) = [demoTriangle, roundSlot] from by simp [hv, hv2]]
    rfl
  · obtain ⟨-, hw, -⟩ := C72_violated
    intro w hwm
    refine ⟨(hw w hwm).1, ?_, ?_, (hw w hwm).2, ?_⟩ <;> simp only [List.mem_cons, List.not_mem_nil, or_false] at hwm <;>
      rcases hwm with rfl | rfl
    · exact ⟨by decide +kernel, by decide +kernel, trivial⟩
    · exact ⟨by decide +kernel, by decide +kernel, by decide +kernel, trivial⟩
    · rintro a b ⟨⟩ ⟨⟩; decide +kernel
    · rintro a b ⟨⟩ ⟨⟩; decide +kernel
    · exact fun e he => (outline_level e he).1
    · intro e he
      rcases List.mem_cons.mp he with rfl | he
      · exact halfCircle_level
      · exact (outline_level e he).1

/-- An arc of length 0.0004 on the circle of radius 10 around the origin. -/
def tinyArc : Edge where
  id := 1
  geom := .circle
  startPoint := ⟨10, 0, -1⟩
  endPoint := ⟨10 * (2500000000 - 1) / (2500000000 + 1), 1000000 / (2500000000 + 1), -1⟩
  posParam := fun s => ⟨10 * (2500000000 - s * s) / (2500000000 + s * s), 1000000 * s / (2500000000 + s * s), -1⟩
  posLen := fun s => ⟨10 * (2500000000 - s * s) / (2500000000 + s * s), 1000000 * s / (2500000000 + s * s), -1⟩
  paramAt := fun s => s
  center := ⟨0, 0, -1⟩
  length := 1 / 2500

/-- A triangle, one corner of which is rounded by this arc. -/
def tinyWire : List Edge :=
  tinyArc :: outline [(2, ⟨10 * (2500000000 - 1) / (2500000000 + 1), 1000000 / (2500000000 + 1)⟩, ⟨0, 5⟩, 11), (3, ⟨0, 5⟩, ⟨10, 0⟩, 11)]

/-- cadquery's `==` on vectors: at most 0.00001 apart. -/
def nearEq (a b : Vec) : Bool := decide ((a.sub b).sq ≤ (1 / 100000) ^ 2)

def nearCad : Cad := { flatCad with veq := nearEq }

def fullTurn10 (e : Event) : Bool :=
  match e.act with
  | .move .ccw tgt ctr => decide (tgt.x = e.st.pos.x) && decide (tgt.y = e.st.pos.y) && decide (ctr.x = some (-10))
  | _ => false

theorem tinyArc_level : LevelCircle tinyArc := by
  intro _
  refine ⟨100, ?_⟩
  rintro v (rfl | rfl | ⟨s, rfl⟩)
  · norm_num [tinyArc, sqDist]
  · norm_num [tinyArc, sqDist]
  · have hd : 2500000000 + s * s ≠ 0 := by nlinarith [sq_nonneg s]
    simp only [tinyArc, sqDist]
    rw [show ∀ A B D : ℚ, (A / D - 0) * (A / D - 0) + (B / D - 0) * (B / D - 0) = (A * A + B * B) / (D * D) from by
      intro A B D; ring, div_eq_iff (mul_ne_zero hd hd)]
    ring

/-- C96 is false in general: an arc of length 0.0004 on a circle of radius 10 makes the machine run the full circle. -/
theorem C96_violated : ∃ j2 t m' evs, WireOK tinyWire ∧ Chained tinyWire ∧ Closes tinyWire ∧
    (∀ e ∈ tinyWire, LevelCircle e ∧ e.closed = false ∧ (e.circular → e.length = 1 / 2500)) ∧
    (twoJob.call (wireProfileRequest nearCad [tinyWire] 0 none none none)).2 = .ok j2 ∧ j2.toGcode = .ok t ∧
    runText {} t = some (m', evs) ∧ ∃ e ∈ evs, FullTurn e ∧ ∃ k tgt ctr, e.act = .move k tgt ctr ∧ ctr.x = some (-10) := by
  obtain ⟨j2, t, m', evs, h1, h2, h3, e, he, hb⟩ := run_witness (j := twoJob) (bad := fullTurn10)
    (r := wireProfileRequest nearCad [tinyWire] 0 none none none) twoJob_ok (by rintro v ⟨⟩) (by decide +kernel) rfl
    (by unfold SafeName; decide) (by decide +kernel)
  have ho : WireOK (outline [(2, ⟨10 * (2500000000 - 1) / (2500000000 + 1), 1000000 / (2500000000 + 1)⟩, ⟨0, 5⟩, 11),
      (3, ⟨0, 5⟩, ⟨10, 0⟩, 11)]) := outline_ok (by decide +kernel) (by decide +kernel) (by decide +kernel)
  refine ⟨j2, t, m', evs, ⟨by simp [tinyWire], ?_, ?_, ?_⟩, ⟨by decide +kernel, by decide +kernel, trivial⟩, ?_, ?_, h1, h2, h3, e, he, ?_⟩
  · intro e he
    rcases List.mem_cons.mp he with rfl | he
    · constructor <;> norm_num [tinyArc]
    · exact ho.edgeOK e he
  · intro e he
    rcases List.mem_cons.mp he with rfl | he
    · exact ⟨by simp [tinyArc], by simp [tinyArc]⟩
    · exact ho.routable e he
  · exact List.pairwise_cons.mpr ⟨by decide +kernel, ho.distinct⟩
  · rintro a b ⟨⟩ ⟨⟩; decide +kernel
  · intro e he
    rcases List.mem_cons.mp he with rfl | he
    · exact ⟨tinyArc_level, rfl, fun _ => rfl⟩
    · refine ⟨(outline_level e he).1, ?_, ?_⟩ <;> obtain ⟨x, -, rfl⟩ := List.mem_map.mp he
      · rfl
      · rintro (h | h) <;> cases h
  · unfold fullTurn10 at hb
    split at hb
    · rename_i tgt ctr hact
      simp only [Bool.and_eq_true, decide_eq_true_eq] at hb
      exact ⟨⟨_, _, _, hact, .inr rfl, hb.1.1, hb.1.2⟩, _, _, _, hact, hb.2⟩
    · cases hb

/-! ### An example of the conditions -/

theorem toLocal_xy (e : Edge) : Edge.toLocal Frame.xy e = e := by
  have h : ∀ v : Vec, Frame.xy.toLocal v = v := by intro v; simp [Frame.toLocal, Frame.xy, Vec.sub, Vec.dot]
  have h' : ∀ v : Vec, Frame.xy.toLocalDir v = v := by intro v; simp [Frame.toLocalDir, Frame.xy, Vec.dot]
  simp [Edge.toLocal, h, h']

theorem roundSlot_offset : offsetWire flatCad (roundSlot.map (Edge.toLocal twoJob.top)) (1 * 1) = .ok [roundSlot] := by
  have hval : offsetValid flatCad roundSlot = true := by decide +kernel
  rw [show roundSlot.map (Edge.toLocal twoJob.top) = roundSlot from by
    rw [show Edge.toLocal twoJob.top = id from funext toLocal_xy, List.map_id]]
  change Except.ok (circleBugWorkaround flatCad roundSlot ([roundSlot].filter (offsetValid flatCad))) = _
  rw [show [roundSlot].filter (offsetValid flatCad) = [roundSlot] from by simp [hval]]
  rfl

theorem roundSlot_plain : PlainContour flatCad twoJob roundSlot where
  ok := by
    obtain ⟨-, hw, -⟩ := C72_violated
    exact (hw roundSlot (by simp)).1
  chained := ⟨by decide +kernel, by decide +kernel, by decide +kernel, trivial⟩
  vertex := by intro dz v h hs; cases hs
  level := by
    have hz : flatCad.zmin roundSlot = -1 := by decide +kernel
    rw [hz]
    simp only [roundSlot, outline, List.map_cons, List.map_nil, List.mem_cons, List.not_mem_nil, or_false]
    rintro e (rfl | rfl | rfl | rfl) <;> constructor <;> simp [lineEdge, halfCircle]
  low := by decide +kernel

theorem roundSlot_arcs : ∀ e ∈ roundSlot, LevelCircle e ∧ SpreadOut e := by
  intro e he
  rcases List.mem_cons.mp he with rfl | he
  · refine ⟨halfCircle_level, fun _ => ?_⟩
    left
    norm_num [halfCircle, Edge.travel]
  · exact outline_level e he

def anArc (e : Event) : Bool := match e.act with | .move .ccw _ _ => true | _ => false

/-- The hypotheses of `C95_wire_profile`, `C96_wire_profile` and with them those of `C95_program_partial` and
`C96_program_partial`: the profile of the slot with the round end. -/
example : ∃ j2 t m' evs, (twoJob.call (wireProfileRequest flatCad [roundSlot] 1 none none none)).2 = .ok j2 ∧
    j2.toGcode = .ok t ∧ runText {} t = some (m', evs) ∧ (∃ e ∈ evs, anArc e = true) ∧
    ∀ e ∈ evs, RoundArc (3 / 1000) e ∧ ¬ FullTurn e := by
  obtain ⟨j2, t, m', evs, h1, h2, h3, h4⟩ := run_witness (j := twoJob) (bad := anArc)
    (r := wireProfileRequest flatCad [roundSlot] 1 none none none) twoJob_ok (by rintro v ⟨⟩) (by decide +kernel) rfl
    (by unfold SafeName; decide) (by decide +kernel)
  obtain ⟨cs, hg, hr, hc⟩ := call_good (j := twoJob) (r := wireProfileRequest flatCad [roundSlot] 1 none none none)
    (by decide +kernel) rfl (by unfold SafeName; decide) (by decide +kernel)
  have hchain : twoJob.chain [wireProfileRequest flatCad [roundSlot] 1 none none none] = .ok j2 := by
    unfold Job.chain; rw [h1]; rfl
  have hmoves : ∀ cs' ∈ chainMoves twoJob [wireProfileRequest flatCad [roundSlot] 1 none none none], cs' = cs := by
    have hg' : (wireProfileRequest flatCad [roundSlot] 1 none none none).gen (twoJob.updateTool none).2 = .ok cs := hg
    intro cs' h
    unfold chainMoves at h
    rw [show (wireProfileRequest flatCad [roundSlot] 1 none none none).tool = none from rfl, hg', h1] at h
    simpa [chainMoves] using h
  have hw : ∀ w ∈ [roundSlot], ∀ r bases, twoJob.toolRadius = some r →
      offsetWire flatCad (w.map (Edge.toLocal twoJob.top)) (1 * r) = .ok bases →
      ∀ b ∈ bases, PlainContour flatCad twoJob b ∧ ∀ e ∈ b, LevelCircle e ∧ SpreadOut e := by
    intro w hw r bases h1 h2 b hb
    cases List.mem_singleton.mp hw
    rw [show twoJob.toolRadius = some 1 from by decide +kernel] at h1
    cases h1
    rw [roundSlot_offset] at h2
    cases h2
    cases List.mem_singleton.mp hb
    exact ⟨roundSlot_plain, roundSlot_arcs⟩
  obtain ⟨t1, m1, evs1, a1, a2, a3⟩ := C95_program_partial {} twoJob_ok (by rintro v ⟨⟩) (show ChainOK twoJob [_] from ⟨hr, fun _ _ => trivial⟩) hchain rfl
    (by rintro n ⟨⟩) (by
      intro cs' hcs'
      rw [hmoves cs' hcs']
      exact C95_wire_profile flatCad_boxMoves hg (by decide +kernel) (fun w h r bs h1 h2 b hb =>
        ⟨(hw w h r bs h1 h2 b hb).1, fun e he => ((hw w h r bs h1 h2 b hb).2 e he).1⟩))
  obtain ⟨t2, m2, evs2, b1, b2, b3⟩ := C96_program_partial {} twoJob_ok (by rintro v ⟨⟩) (show ChainOK twoJob [_] from ⟨hr, fun _ _ => trivial⟩) hchain rfl
    (by rintro n ⟨⟩) (by
      intro cs' hcs'
      rw [hmoves cs' hcs']
      exact C96_wire_profile flatCad_boxMoves hg (by decide +kernel) (fun w h r bs h1 h2 b hb =>
        ⟨(hw w h r bs h1 h2 b hb).1, fun e he => ((hw w h r bs h1 h2 b hb).2 e he).2⟩))
  rw [h2] at a1 b1
  cases a1
  cases b1
  rw [h3] at a2 b2
  cases a2
  cases b2
  exact ⟨j2, t, m', evs, h1, h2, h3, h4, fun e he => ⟨a3 e he, b3 e he⟩⟩

end CQ
