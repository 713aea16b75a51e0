import Verif.Props.Coverage
import Verif.Props.CoverageExample
import Verif.Props.Rapids
import Verif.Props.Drill

/-! # C94, C95: what the program makes the machine do -/

namespace CQ

/-! ### The part of a run that belongs to a call -/

theorem chain_append {j0 : Job} {a b : List Request} {jf : Job} :
    j0.chain (a ++ b) = .ok jf ↔ ∃ j1, j0.chain a = .ok j1 ∧ j1.chain b = .ok jf := by
  induction a generalizing j0 with
  | nil => simp [Job.chain]
  | cons r a ih =>
    simp only [List.cons_append, Job.chain]
    cases (j0.call r).2 with
    | error e => simp
    | ok j' => exact ih

theorem chainMoves_append {j0 j1 : Job} {a b : List Request} (h : j0.chain a = .ok j1) :
    chainMoves j0 (a ++ b) = chainMoves j0 a ++ chainMoves j1 b := by
  induction a generalizing j0 with
  | nil => cases h; rfl
  | cons r a ih =>
    obtain ⟨j', hj', hch⟩ := chain_cons_ok h
    obtain ⟨-, cs, hcs, -⟩ := call_ok hj'
    simp only [List.cons_append, chainMoves, hcs, hj', ih hch]

theorem requestSettings_append {j0 j1 : Job} {a b : List Request} (h : j0.chain a = .ok j1) :
    requestSettings j0.settings (a ++ b) = requestSettings j0.settings a ++ requestSettings j1.settings b := by
  induction a generalizing j0 with
  | nil => cases h; rfl
  | cons r a ih =>
    obtain ⟨j', hj', hch⟩ := chain_cons_ok h
    obtain ⟨-, -, -, -, -, hset, -⟩ := call_commands hj'
    simp only [List.cons_append, requestSettings]
    rw [← hset, ih hch]

theorem forall₂_split {R : α → β → Prop} {l : List α} {a : List β} {x : β} {b : List β}
    (h : List.Forall₂ R l (a ++ x :: b)) {S : α → γ → Prop} {a' : List γ} {y : γ} {b' : List γ}
    (h' : List.Forall₂ S l (a' ++ y :: b')) (hlen : a.length = a'.length) :
    ∃ l1 z l2, l = l1 ++ z :: l2 ∧ R z x ∧ S z y := by
  induction a generalizing l a' with
  | nil =>
    cases a' with
    | cons _ _ => simp at hlen
    | nil =>
      cases h with
      | cons h1 h2 =>
        cases h' with
        | cons h3 h4 => exact ⟨[], _, _, rfl, h1, h3⟩
  | cons u a ih =>
    cases a' with
    | nil => simp at hlen
    | cons u' a' =>
      cases h with
      | cons h1 h2 =>
        cases h' with
        | cons h3 h4 =>
          obtain ⟨l1, z, l2, e, r1, r2⟩ := ih h2 h4 (by simpa using hlen)
          exact ⟨_ :: l1, z, l2, by rw [e]; rfl, r1, r2⟩

theorem chainMoves_length {j j' : Job} {rs : List Request} (h : j.chain rs = .ok j') :
    (chainMoves j rs).length = (requestSettings j.settings rs).length := by
  induction rs generalizing j with
  | nil => rfl
  | cons r rs ih =>
    obtain ⟨j2, hj', hch⟩ := chain_cons_ok h
    obtain ⟨-, cs, -, hcs, -, hset, -⟩ := call_commands hj'
    simp only [chainMoves, hcs, hj', requestSettings, List.length_cons]
    rw [← hset, ih hch]

theorem forall₂_and {R S : α → β → Prop} {a : List α} {b : List β} (h : List.Forall₂ R a b) (h' : List.Forall₂ S a b) :
    List.Forall₂ (fun x y => R x y ∧ S x y) a b := by
  induction h with
  | nil => exact .nil
  | cons h1 _ ih =>
    cases h' with
    | cons h3 h4 => exact .cons ⟨h1, h3⟩ (ih h4)

theorem tracks_connected {p : AddrVec} {cs : List Motion} (h : Connected p cs) : Tracks p cs := by
  induction cs generalizing p with
  | nil => trivial
  | cons c cs ih => exact ⟨by rw [h.1]; exact .refl _, ih h.2⟩

theorem tracks_mono {p q : AddrVec} {cs : List Motion} (h : Tracks p cs) (hl : p.Le q) : Tracks q cs := by
  cases cs with
  | nil => trivial
  | cons c cs => exact ⟨h.1.trans hl, h.2⟩

theorem tracks_append {p : AddrVec} {a b : List Motion} : Tracks p (a ++ b) ↔ Tracks p a ∧ Tracks (finalPos p a) b := by
  induction a generalizing p with
  | nil => simp [Tracks, finalPos]
  | cons c a ih => simp only [List.cons_append, Tracks, finalPos, ih, and_assoc]

theorem tracks_flatten {l : List (List Motion)} (h : ∀ a ∈ l, Tracks {} a) : ∀ p, Tracks p l.flatten := by
  induction l with
  | nil => intro p; trivial
  | cons a l ih =>
    intro p
    rw [List.flatten_cons, tracks_append]
    exact ⟨tracks_mono (h a (by simp)) (AddrVec.empty_le p), ih (fun b hb => h b (by simp [hb])) _⟩

/-- C94.  The program of a chain of calls contains for every call a part in which the machine performs exactly the moves
which the call generated, in order; if each of these starts where the one before ended, as far as it says where it starts (C26,
C54, C72), every move begins where the library takes the tool to be;
the tool of the call is in the spindle, and at every feed move the spindle is running. -/
theorem C94_followed {j0 j1 j2 jf : Job} {before after : List Request} {r : Request} (m : Machine) (h0 : InitOK j0)
    (hn : ∀ v, j0.toolNumber = some v → NumOK v) (hok : ChainOK j0 (before ++ r :: after))
    (h1 : j0.chain before = .ok j1) (h2 : (j1.call r).2 = .ok j2) (h3 : j2.chain after = .ok jf)
    (hend : m.ended = false) (htool : ∀ n, j0.toolNumber = some n → m.tool = some n.value) :
    ∃ t m' pre part post cs, jf.toGcode = .ok t ∧ runText m t = some (m', pre ++ part ++ post) ∧
      r.gen (j1.updateTool r.tool).2 = .ok cs ∧ List.Forall₂ Performs (part.filter isMove) cs ∧
      (Tracks {} cs → List.Forall₂ FollowsMove (part.filter isMove) cs) ∧
      ∀ e ∈ part, (isMove e = true → ∀ n, (j1.settings.inherit r.tool).toolNumber = some n → e.st.tool = some n.value) ∧
        (isFeedMove e = true → e.st.spindle = .cw) := by
  have h : j0.chain (before ++ r :: after) = .ok jf := by
    refine chain_append.mpr ⟨j1, h1, ?_⟩
    simp only [Job.chain, h2]
    exact h3
  obtain ⟨t, m', e1, e2, e3, evss, a1, a2, -, -, -, a6, a7, -, -, a10⟩ := chain_program m h0 hn hok h hend htool
  obtain ⟨t', m'', evs', b1, b2, b3⟩ := C10_spindle_on m h0 hn (reach_chain .init hok h) hend
  rw [a1] at b1
  cases b1
  rw [a2] at b2
  cases b2
  obtain ⟨-, cs, hcs, -⟩ := call_ok h2
  have hm : chainMoves j0 (before ++ r :: after) = chainMoves j0 before ++ cs :: chainMoves j2 after := by
    rw [chainMoves_append h1]
    simp only [chainMoves, hcs, h2]
  rw [hm] at a6 a10
  rw [requestSettings_append h1] at a7
  simp only [requestSettings] at a7
  obtain ⟨l1, part, l2, rfl, ⟨c1, c2⟩, c3⟩ := forall₂_split (forall₂_and a6 a10) a7 (chainMoves_length h1)
  refine ⟨t, m', e1 :: l1.flatten, part, l2.flatten ++ [e2, e3], cs, a1, ?_, hcs, c1, fun hc => forall₂_and c1 (c2 hc), ?_⟩
  · rw [a2]
    simp
  · intro e he
    refine ⟨fun hm n hn => c3 e he hm n hn, fun hf => b3 e ?_ hf⟩
    simp [he]

/-! ### Pockets -/

/-- Rounding the ends of a segment moves its points by less than a thousandth. -/
theorem onSegment_rnd {a b q : Pt} (h : OnSegment a b q) :
    ∃ q', OnSegment ⟨rnd 3 a.x, rnd 3 a.y⟩ ⟨rnd 3 b.x, rnd 3 b.y⟩ q' ∧ sqDist q q' ≤ (1 / 1000) ^ 2 := by
  obtain ⟨t, t0, t1, rfl⟩ := h
  refine ⟨_, ⟨t, t0, t1, rfl⟩, ?_⟩
  have hax := abs_le.mp (abs_rnd_sub_le 3 a.x)
  have hay := abs_le.mp (abs_rnd_sub_le 3 a.y)
  have hbx := abs_le.mp (abs_rnd_sub_le 3 b.x)
  have hby := abs_le.mp (abs_rnd_sub_le 3 b.y)
  generalize hε : (1 : ℚ) / (2 * 10 ^ 3) = ε at *
  have hε' : ε = 1 / 2000 := by rw [← hε]; norm_num
  have key : ∀ u u' v v' : ℚ, (-ε ≤ u' - u ∧ u' - u ≤ ε) → (-ε ≤ v' - v ∧ v' - v ≤ ε) →
      |u + t * (v - u) - (u' + t * (v' - u'))| ≤ ε := by
    intro u u' v v' hu hv
    rw [abs_le]
    have e : u + t * (v - u) - (u' + t * (v' - u')) = -((1 - t) * (u' - u) + t * (v' - v)) := by ring
    rw [e]
    constructor <;> nlinarith [mul_le_mul_of_nonneg_left hu.1 (sub_nonneg.mpr t1), mul_le_mul_of_nonneg_left hu.2 (sub_nonneg.mpr t1),
      mul_le_mul_of_nonneg_left hv.1 t0, mul_le_mul_of_nonneg_left hv.2 t0]
  have kx := key _ _ _ _ hax hbx
  have ky := key _ _ _ _ hay hby
  simp only [sqDist, Pt.lerp]
  have hx := sq_le_sq' (abs_le.mp kx).1 (abs_le.mp kx).2
  have hy := sq_le_sq' (abs_le.mp ky).1 (abs_le.mp ky).2
  rw [hε'] at hx hy
  nlinarith

theorem pos_of_agrees {p : Pt} {d : ℚ} {q : Pos} (h : Agrees (p.at d) q) : q = Pt.pos ⟨rnd 3 p.x, rnd 3 p.y⟩ (rnd 3 d) := by
  obtain ⟨h1, h2, h3⟩ := h
  ext1
  · exact h1 _ rfl
  · exact h2 _ rfl
  · exact h3 _ rfl

/-- A cut over a point is performed as a feed move over a point near it. -/
theorem mills_of_follows {e : Event} {c : Motion} {d : ℚ} {q : Pt} (h : FollowsMove e c) (hc : CutsThrough d q c)
    (hs : isFeedMove e = true → e.st.spindle = .cw) : ∃ q', MillsOver (rnd 3 d) q' e ∧ sqDist q q' ≤ (1 / 1000) ^ 2 := by
  obtain ⟨hk, a, b, ha, hb, hq⟩ := hc
  obtain ⟨⟨tgt, ctr, hact, hx, hy, hz, -, -⟩, hst⟩ := h
  obtain ⟨q', hq', hd⟩ := onSegment_rnd hq
  rw [ha] at hst
  rw [hb] at hx hy hz
  rw [hk] at hact
  refine ⟨q', ⟨hs ?_, _, _, ctr, pos_of_agrees hst, ?_, hq'⟩, hd⟩
  · simp [isFeedMove, hact, MKind.mot]
  · rw [hact]
    have : tgt = Pt.pos ⟨rnd 3 b.x, rnd 3 b.y⟩ (rnd 3 d) := by
      ext1
      · exact hx.1 _ rfl
      · exact hy.1 _ rfl
      · exact hz.1 _ rfl
    rw [this]
    rfl

theorem chain_base {j0 j j' : Job} {rs : List Request} (hb : SameBase j0 j) (h : j.chain rs = .ok j') : SameBase j0 j' := by
  induction rs generalizing j with
  | nil => cases h; exact hb
  | cons r rs ih =>
    obtain ⟨j2, hj, hch⟩ := chain_cons_ok h
    obtain ⟨-, cs, -, rfl⟩ := call_ok hj
    exact ih (addOperation_base (updateTool_base hb _) _ _) hch

/-- C94 for pockets.  Take the program of any job with a pocket in it and let the machine read it: every point of every region
of the pocket is passed, at the printed depth of the region, with the spindle running and the pocket's tool in it, at a distance
of at most the stepover, twice the tolerance of the polygon engine, and a thousandth for the rounding of the coordinates. -/
theorem C94_pocket {G : List Pt → Prop} {δ : ℚ} {eng : Clipper} {j0 : Job} (heng : ClipperNearOn G δ eng) (hk : MakesKind G eng)
    (hs : ShrinksNear G δ j0.precision eng) (hr : NoRepeats eng) {veq : Vec → Vec → Bool} {fuel : ℕ} {opAreas avoidAreas : List CqFace}
    {a : PocketArgs} {tool : Option Tool} {j1 j2 jf : Job} {before after : List Request} (m : Machine) (h0 : InitOK j0)
    (hn : ∀ v, j0.toolNumber = some v → NumOK v)
    (hok : ChainOK j0 (before ++ pocketRequest eng veq fuel opAreas avoidAreas a tool :: after))
    (h1 : j0.chain before = .ok j1) (h2 : (j1.call (pocketRequest eng veq fuel opAreas avoidAreas a tool)).2 = .ok j2)
    (h3 : j2.chain after = .ok jf) (hend : m.ended = false)
    (htool : ∀ n, j0.toolNumber = some n → m.tool = some n.value) (hsafe : 0 < j0.opSafeHeight) :
    ∃ t m' evs diameter faces avoidFaces areas avoids regions, jf.toGcode = .ok t ∧ runText m t = some (m', evs) ∧
      (j1.settings.inherit tool).toolDiameter = some diameter ∧
      List.Forall₂ (FlatFace veq j0.precision) opAreas faces ∧
      List.Forall₂ (FlatFace veq j0.precision) avoidAreas avoidFaces ∧
      List.Forall₂ (OffsetFaces eng
          (if avoidAreas ≠ [] ∧ a.outerOffset = none then 0 else offsetDistance (diameter / 2) (-1) a.outerOffset)
          (offsetDistance (diameter / 2) 1 a.innerOffset) j0.precision) faces areas ∧
      List.Forall₂ (OffsetFaces eng (offsetDistance (diameter / 2) 1 a.avoidOuterOffset)
          (offsetDistance (diameter / 2) (-1) a.avoidInnerOffset) j0.precision) avoidFaces avoids ∧
      buildPocketOps eng areas.flatten avoids.flatten = .ok regions ∧
      (0 < offsetDistance (diameter / 2) (1 / 2) a.stepover →
        ∀ r ∈ regions, ∀ p, FaceRegion r p → (∀ i ∈ r.inners, FarFrom δ i p) →
          ∃ e ∈ evs, ∃ q, MillsOver (rnd 3 r.depth) q e ∧
            sqDist p q ≤ (offsetDistance (diameter / 2) (1 / 2) a.stepover + 2 * δ + 1 / 1000) ^ 2 ∧
            ∀ n, (j1.settings.inherit tool).toolNumber = some n → e.st.tool = some n.value) := by
  obtain ⟨t, m', pre, part, post, cs, e1, e2, hcs, -, hfol, hpart⟩ := C94_followed m h0 hn hok h1 h2 h3 hend htool
  have hb : SameBase j0 (j1.updateTool tool).2 :=
    updateTool_base (chain_base (by unfold SameBase; rfl) h1) _
  have hset : (j1.updateTool tool).2.settings = j1.settings.inherit tool := by
    obtain ⟨-, -, -, h, -⟩ := updateTool_commands j1 tool
    exact h
  have hprec : (j1.updateTool tool).2.precision = j0.precision := by rw [hb]
  have hcs : pocket eng veq fuel opAreas avoidAreas a (j1.updateTool tool).2 = .ok cs := hcs
  obtain ⟨diameter, faces, avoidFaces, areas, avoids, regions, g1, -, g3, g4, g5, g6, g7, g8⟩ := C74_areas hcs
  rw [hprec] at g3 g4 g5 g6 g8
  refine ⟨t, m', _, diameter, faces, avoidFaces, areas, avoids, regions, e1, e2, ?_, g3, g4, g5, g6, g7, ?_⟩
  · rw [← hset]; exact g1
  intro hpos r hr' p hp hfar
  obtain ⟨contours, hu, hcut⟩ := g8 hr (by rw [(sameBase_heights hb).2.1]; exact hsafe) r hr'
  obtain ⟨c, hc, q, hq, hd⟩ := region_covered heng hk hs hr g7 hr' hpos hu hcut hp hfar
  obtain ⟨e, he, hec⟩ := forall₂_mem_right (hfol (tracks_connected (C26_pocket hcs))) hc
  obtain ⟨hem, hmv⟩ := List.mem_filter.mp he
  obtain ⟨q', hq', hd'⟩ := mills_of_follows hec hq (hpart e hem).2
  refine ⟨e, by simp [hem], q', hq', ?_, (hpart e hem).1 hmv⟩
  have := heng.nonneg
  rw [add_comm _ (1 / 1000 : ℚ)]
  exact sqDist_triangle (by norm_num) (by linarith) hd hd'

/-! ### Drilling -/

theorem holesMoves_mem {sh depth : ℚ} {feed : PyNum} {ps : List Pt} : ∀ {pos : AddrVec} {cs : List Motion},
    HolesMoves sh depth feed pos ps cs → ∀ p ∈ ps, ∃ c ∈ cs, c.kind.mot = .linear ∧ c.start = p.at 0 ∧ c.fin = p.at depth := by
  induction ps with
  | nil => simp
  | cons q ps ih =>
    rintro pos cs ⟨x, y, rfl, ⟨up, side, down, plunge, rfl, -, -, -, k1, k2, k3, -⟩, h2⟩ p hp
    rcases List.mem_cons.mp hp with rfl | hp
    · exact ⟨plunge, by simp, k1, k2, k3⟩
    · obtain ⟨c, hc, h⟩ := ih h2 p hp
      exact ⟨c, by simp [hc], h⟩

theorem holesMoves_feeds {sh depth : ℚ} {feed : PyNum} {ps : List Pt} : ∀ {pos : AddrVec} {cs : List Motion},
    HolesMoves sh depth feed pos ps cs → ∀ c ∈ cs, c.kind.mot ≠ .rapid →
      ∃ p ∈ ps, c.kind.mot = .linear ∧ c.start = p.at 0 ∧ c.fin = p.at depth := by
  induction ps with
  | nil => rintro pos cs rfl; simp
  | cons q ps ih =>
    rintro pos cs ⟨x, y, rfl, ⟨up, side, down, plunge, rfl, ⟨u, -⟩, ⟨s, -⟩, ⟨d, -⟩, k1, k2, k3, -⟩, h2⟩ c hc hr
    rcases List.mem_append.mp hc with hc | hc
    · simp only [List.mem_cons, List.not_mem_nil, or_false] at hc
      rcases hc with rfl | rfl | rfl | rfl
      · exact absurd u hr
      · exact absurd s hr
      · exact absurd d hr
      · exact ⟨q, by simp, k1, k2, k3⟩
    · obtain ⟨p, hp, h⟩ := ih h2 c hc hr
      exact ⟨p, by simp [hp], h⟩

theorem bores_of_follows {e : Event} {c : Motion} {d : ℚ} {p : Pt} (h : FollowsMove e c)
    (hc : c.kind.mot = .linear ∧ c.start = p.at 0 ∧ c.fin = p.at d)
    (hs : isFeedMove e = true → e.st.spindle = .cw) : Bores 0 (rnd 3 d) ⟨rnd 3 p.x, rnd 3 p.y⟩ e := by
  obtain ⟨hk, ha, hb⟩ := hc
  obtain ⟨⟨tgt, ctr, hact, hx, hy, hz, -, -⟩, hst⟩ := h
  rw [ha] at hst
  rw [hb] at hx hy hz
  rw [hk] at hact
  refine ⟨hs ?_, ctr, ?_, ?_⟩
  · simp [isFeedMove, hact]
  · rw [pos_of_agrees hst, rnd_zero]
  · rw [hact]
    have : tgt = Pt.pos ⟨rnd 3 p.x, rnd 3 p.y⟩ (rnd 3 d) := by
      ext1
      · exact hx.1 _ rfl
      · exact hy.1 _ rfl
      · exact hz.1 _ rfl
    rw [this]

/-- C94 for drilling.  In the program of any job with a drilling operation in it the machine bores, with the spindle running and
the right tool in it, from height 0 to the (printed) depth at the place of every hole (C55), and in the part of the operation
it makes no other feed moves, and as many as there are holes. -/
theorem C94_drill {center : List Edge → Except Err Vec} {objs : List DrillObj} {d : ℚ} {tool : Option Tool}
    {j0 j1 j2 jf : Job} {before after : List Request} (m : Machine) (h0 : InitOK j0)
    (hn : ∀ v, j0.toolNumber = some v → NumOK v)
    (hok : ChainOK j0 (before ++ drillRequest center (some objs) (some d) tool :: after))
    (h1 : j0.chain before = .ok j1) (h2 : (j1.call (drillRequest center (some objs) (some d) tool)).2 = .ok j2)
    (h3 : j2.chain after = .ok jf) (hend : m.ended = false)
    (htool : ∀ n, j0.toolNumber = some n → m.tool = some n.value) :
    ∃ t m' pre part post centres, jf.toGcode = .ok t ∧ runText m t = some (m', pre ++ part ++ post) ∧
      List.Forall₂ (HoleCentres center) objs centres ∧
      (∀ v ∈ centres.flatten, ∃ e ∈ part,
        Bores 0 (rnd 3 (-|d|)) ⟨rnd 3 (j0.top.toWorld v).x, rnd 3 (j0.top.toWorld v).y⟩ e ∧
        ∀ n, (j1.settings.inherit tool).toolNumber = some n → e.st.tool = some n.value) ∧
      (∀ e ∈ part, isFeedMove e = true → ∃ v ∈ centres.flatten,
        Bores 0 (rnd 3 (-|d|)) ⟨rnd 3 (j0.top.toWorld v).x, rnd 3 (j0.top.toWorld v).y⟩ e) ∧
      (part.filter isFeedMove).length = centres.flatten.length := by
  obtain ⟨t, m', pre, part, post, cs, e1, e2, hcs, -, hfol, hpart⟩ := C94_followed m h0 hn hok h1 h2 h3 hend htool
  have hb : SameBase j0 (j1.updateTool tool).2 := updateTool_base (chain_base (by unfold SameBase; rfl) h1) _
  have htop : (j1.updateTool tool).2.top = j0.top := (sameBase_heights hb).2.2
  have hcs : drill center (some objs) (some d) (j1.updateTool tool).2 = .ok cs := hcs
  have hfol := hfol (tracks_connected (C54_safe_motion hcs).1)
  obtain ⟨centres, ps, g1, g2, -, -, -, rfl⟩ := drill_ok hcs
  have hm := drillHoles_moves (j1.updateTool tool).2 (-|d|) {} ps
  have hmem : ∀ p, p ∈ ps ↔ ∃ v ∈ centres.flatten, p = (⟨(j0.top.toWorld v).x, (j0.top.toWorld v).y⟩ : Pt) := by
    intro p
    rw [g2.mem_iff, List.mem_map, htop]
    exact ⟨fun ⟨v, hv, e⟩ => ⟨v, hv, e.symm⟩, fun ⟨v, hv, e⟩ => ⟨v, hv, e.symm⟩⟩
  refine ⟨t, m', pre, part, post, centres, e1, e2, g1, ?_, ?_, ?_⟩
  · intro v hv
    obtain ⟨c, hc, hcp⟩ := holesMoves_mem hm _ ((hmem _).mpr ⟨v, hv, rfl⟩)
    obtain ⟨e, he, hec⟩ := forall₂_mem_right hfol hc
    obtain ⟨hem, hmv⟩ := List.mem_filter.mp he
    exact ⟨e, hem, bores_of_follows hec hcp (hpart e hem).2, (hpart e hem).1 hmv⟩
  · intro e he hf
    obtain ⟨c, hc, hec⟩ := forall₂_mem_left hfol (List.mem_filter.mpr ⟨he, isMove_of_isFeedMove hf⟩)
    obtain ⟨p, hp, hcp⟩ := holesMoves_feeds hm c hc (by
      intro hr
      obtain ⟨⟨tgt, ctr, hact, -⟩, -⟩ := hec
      rw [hr] at hact
      simp [isFeedMove, hact] at hf)
    obtain ⟨v, hv, rfl⟩ := (hmem p).mp hp
    exact ⟨v, hv, bores_of_follows hec hcp (hpart e he).2⟩
  · have hl : (part.filter isFeedMove).length = (workedAt (drillHoles (j1.updateTool tool).2 (-|d|) {} ps)).length := by
      have hff : part.filter isFeedMove = (part.filter isMove).filter isFeedMove := by
        rw [List.filter_filter]
        congr 1
        funext e
        cases hfe : isFeedMove e
        · simp
        · simp [isMove_of_isFeedMove hfe]
      rw [hff, workedAt, List.length_map]
      clear hm hmem hff hcs hpart e2 g2
      generalize part.filter isMove = es at hfol
      generalize drillHoles (j1.updateTool tool).2 (-|d|) {} ps = cs at hfol
      induction hfol with
      | nil => rfl
      | cons h _ ih =>
        obtain ⟨⟨tgt, ctr, hact, -⟩, -⟩ := h
        rename_i e c es cs _
        by_cases hk : c.kind.mot = .rapid
        · have : isFeedMove e = false := by simp [isFeedMove, hact, hk]
          simp [this, hk, ih]
        · have : isFeedMove e = true := by simp [isFeedMove, hact, hk]
          simp [this, hk, ih]
    rw [hl, holesMoves_worked hm, List.length_map, g2.length_eq, List.length_map]

/-! ### Examples -/

/-- Moves whose numbers are printable, arcs included, decided. -/
def goodMove (c : Motion) : Bool :=
  plainMove c ||
  (c.kind.isArc && (match c.feed with | none => true | some (.int _) => true | some (.flt _) => false) &&
    [(c.fin.x, c.start.x, c.center.x), (c.fin.y, c.start.y, c.center.y), (c.fin.z, c.start.z, c.center.z)].all (fun v =>
      match v with | (some b, some a, some o) => decide (|b| < 2 ^ 53) && decide (|o - a| < 2 ^ 53) | _ => false))

theorem goodMove_ok {c : Motion} (h : goodMove c = true) : MotionOK c := by
  rcases Bool.or_eq_true _ _ ▸ h with h | h
  · exact plainMove_ok h
  simp only [Bool.and_eq_true, List.all_cons, List.all_nil, Bool.and_true] at h
  obtain ⟨⟨h1, h2⟩, h3, h4, h5⟩ := h
  have key : ∀ {b a o : Option ℚ}, (match (b, a, o) with
      | (some b, some a, some o) => decide (|b| < 2 ^ 53) && decide (|o - a| < 2 ^ 53) | _ => false) = true →
      (∀ q, b = some q → DoubleLike q) ∧ ArcAxisOK o a := by
    intro b a o h
    cases b <;> cases a <;> cases o <;> simp only [Bool.and_eq_true, decide_eq_true_eq] at h <;> try exact absurd h (by decide)
    refine ⟨?_, ?_⟩
    · rintro q ⟨⟩; exact .inl h.1
    · rintro v ⟨⟩; exact ⟨_, rfl, .inl h.2⟩
  refine ⟨⟨(key h3).1, (key h4).1, (key h5).1⟩, ?_, ?_, fun _ => ⟨(key h3).2, (key h4).2, (key h5).2⟩⟩
  · intro f hf
    rw [hf] at h2
    cases f with
    | int n => exact numOK_int n
    | flt q => cases h2
  · intro ha; rw [ha] at h1; cases h1

theorem call_good {j : Job} {r : Request} (hp : r.pre j = .ok ()) (ht : r.tool = none) (hname : SafeName r.opName)
    (h : (match r.gen j with | .ok cs => cs.all goodMove | .error _ => false) = true) :
    ∃ cs, r.gen j = .ok cs ∧ RequestOK j r ∧ (j.call r).2 = .ok (j.addOperation r.opName (cs.map .motion)) := by
  cases hg : r.gen j with
  | error e => rw [hg] at h; cases h
  | ok cs =>
    rw [hg] at h
    refine ⟨cs, rfl, ⟨hname, by rw [ht]; rintro t ⟨⟩, ?_⟩, ?_⟩
    · intro cs' hg' c hc
      rw [ht] at hg'
      change r.gen j = .ok cs' at hg'
      rw [hg] at hg'
      cases hg'
      exact goodMove_ok (List.all_eq_true.mp h c hc)
    · have : r.gen (j.updateTool r.tool).2 = .ok cs := by rw [ht]; exact hg
      unfold Job.call
      rw [hp]
      simp only [this]
      rw [ht]
      rfl

/-- The hypotheses of `C94_drill`: four holes. -/
example : ∃ j2 t m' pre part post, (demoInit.call (demoDrill none)).2 = .ok j2 ∧ j2.toGcode = .ok t ∧
    runText { tool := some 1 } t = some (m', pre ++ part ++ post) ∧
    ∃ centres : List (List Vec), (part.filter isFeedMove).length = centres.flatten.length ∧
      List.Forall₂ (HoleCentres drillCenter) drillObjs centres := by
  obtain ⟨cs, -, h⟩ := demoDrill_call
  obtain ⟨t, m', pre, part, post, centres, h1, h2, h3, -, -, h6⟩ := C94_drill (before := []) (after := []) (tool := none)
    (objs := drillObjs) (center := drillCenter) (d := 3) { tool := some 1 } demo_reach.1
    (by rintro v ⟨⟩; exact numOK_int _) ⟨demoDrill_ok, fun _ _ => trivial⟩ rfl h rfl rfl (by rintro n ⟨⟩; rfl)
  exact ⟨_, t, m', pre, part, post, h, h1, h2, centres, h6, h3⟩

/-- A job with a tool of diameter 2. -/
def twoJob : Job := Job.init Frame.xy (.int 500) (toolDiameter := some 2)

theorem twoJob_ok : InitOK twoJob := ⟨rfl, by unfold SafeName; decide, numOK_int _, by rintro v ⟨⟩⟩

def squarePocket : Request := pocketRequest boxEngine exactEq 9 [squareFace] [] {}

theorem squarePocket_call : ∃ cs, squarePocket.gen twoJob = .ok cs ∧ RequestOK twoJob squarePocket ∧
    (twoJob.call squarePocket).2 = .ok (twoJob.addOperation "Pocket".toList (cs.map .motion)) :=
  call_good rfl rfl (by unfold SafeName; decide) (by decide +kernel)

theorem squarePocket_faces {f : PathFace} (h : FlatFace exactEq twoJob.precision squareFace f) : f = ⟨rect 0 0 6 6, [], -1⟩ := by
  obtain ⟨-, h2, h3, h4⟩ := h
  have hp : wireToPath exactEq squareFace.outerWire twoJob.precision = .ok (rect 0 0 6 6) := by
    have : (match wireToPath exactEq squareFace.outerWire twoJob.precision with
        | .ok p => decide (p = rect 0 0 6 6) | .error _ => false) = true := by decide +kernel
    cases h : wireToPath exactEq squareFace.outerWire twoJob.precision with
    | error e => rw [h] at this; cases this
    | ok p => rw [h] at this; rw [of_decide_eq_true this]
  rw [hp] at h2
  obtain ⟨o, i, d⟩ := f
  cases h2
  cases h3
  cases h4
  rfl

theorem squarePocket_areas {k : ℚ} {fs : List PathFace} (h : OffsetFaces boxEngine (-1) k twoJob.precision ⟨rect 0 0 6 6, [], -1⟩ fs) :
    fs = [⟨rect 1 1 5 5, [], -1⟩] := by
  obtain ⟨outlines, ⟨raw, h1, h2⟩, h3⟩ := h
  rw [if_pos rfl] at h3
  have ho : boxEngine.offset (rect 0 0 6 6) (-1) twoJob.precision = .ok [rect 1 1 5 5] := by
    simp only [boxEngine, rectOf_rect (by norm_num : (0 : ℚ) < 6) (by norm_num : (0 : ℚ) < 6)]
    norm_num
  rw [ho] at h1
  cases h1
  cases h2 with
  | cons a b =>
    cases b
    rw [IsRect.closed a] at h3
    exact h3

/-- The hypotheses of `C94_pocket`: pocketing a square of side 6 to depth 1 with a tool of diameter 2 mills every point of the
square of side 4 in it, up to the stepover of 1/2 and the thousandth. -/
example : ∃ j2 t m' evs, (twoJob.call squarePocket).2 = .ok j2 ∧ j2.toGcode = .ok t ∧ runText {} t = some (m', evs) ∧
    ∀ p : Pt, ((1 ≤ p.x ∧ p.x < 5) ∧ 1 ≤ p.y ∧ p.y < 5) →
      ∃ e ∈ evs, ∃ q, MillsOver (-1) q e ∧ sqDist p q ≤ (1 / 2 + 1 / 1000) ^ 2 := by
  obtain ⟨cs, -, hr, h⟩ := squarePocket_call
  obtain ⟨t, m', evs, d, faces, avoidFaces, areas, avoids, regions, h1, h2, h3, h4, h5, h6, h7, h8, h9⟩ :=
    C94_pocket (before := []) (after := []) boxEngine_near boxEngine_kind boxEngine_shrinks boxEngine_noRepeats {} twoJob_ok
      (by rintro v ⟨⟩) ⟨hr, fun _ _ => trivial⟩ rfl h rfl rfl (by rintro n ⟨⟩) (by decide +kernel)
  refine ⟨_, t, m', evs, h, h1, h2, fun p hp => ?_⟩
  cases h3
  cases h4 with
  | cons a b =>
  cases b
  cases squarePocket_faces a
  cases h5
  cases h7
  cases h6 with
  | cons a b =>
  cases b
  have hd : (if ([] : List CqFace) ≠ [] ∧ ({} : PocketArgs).outerOffset = none then (0 : ℚ)
      else offsetDistance (2 / 2) (-1) ({} : PocketArgs).outerOffset) = -1 := by simp [offsetDistance]
  rw [hd] at a
  cases squarePocket_areas a
  have hreg : buildPocketOps boxEngine [⟨rect 1 1 5 5, [], -1⟩] [] = .ok [⟨rect 1 1 5 5, [], -1⟩] := by
    have : (match buildPocketOps boxEngine [⟨rect 1 1 5 5, [], -1⟩] [] with
        | .ok a => decide (a = [⟨rect 1 1 5 5, [], -1⟩]) | .error _ => false) = true := by decide +kernel
    cases h : buildPocketOps boxEngine [⟨rect 1 1 5 5, [], -1⟩] [] with
    | error e => rw [h] at this; cases this
    | ok a => rw [h] at this; rw [of_decide_eq_true this]
  rw [show [[(⟨rect 1 1 5 5, [], -1⟩ : PathFace)]].flatten = [⟨rect 1 1 5 5, [], -1⟩] from rfl, List.flatten_nil, hreg] at h8
  cases h8
  obtain ⟨e, he, q, hq, hdist, -⟩ := h9 (by norm_num [offsetDistance]) _ (List.mem_singleton.mpr rfl) p
    ⟨(inside_rect (by norm_num) (by norm_num) p).mpr hp, by simp⟩ (by simp)
  refine ⟨e, he, q, ?_, ?_⟩
  · rwa [show rnd 3 (-1) = -1 from by decide +kernel] at hq
  · norm_num [offsetDistance] at hdist ⊢
    exact hdist

end CQ
