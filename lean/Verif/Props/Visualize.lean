import Verif.Spec.Visualize
import Verif.Props.Isolation

/-!
# C67: the drawing shows the programmed moves
-/

namespace CQ

theorem axisIs_getD (o : Option ℚ) (d : ℚ) : AxisIs o d (o.getD d) := by
  cases o with
  | none => exact ⟨(by intro q h; cases h), fun _ => rfl⟩
  | some v => exact ⟨(by intro q h; cases h; rfl), by intro h; cases h⟩

theorem ends_model (c : Motion) : Ends c c.start.orZero (c.fin.toVecAbs c.start.orZero) :=
  ⟨⟨axisIs_getD _ _, axisIs_getD _ _, axisIs_getD _ _⟩, axisIs_getD _ _, axisIs_getD _ _, axisIs_getD _ _⟩

theorem ends_full {c : Motion} {a b : Vec} (ha : c.start = AddrVec.fromVec a) (hb : c.fin = AddrVec.fromVec b) :
    Ends c a b := by
  have h : ∀ (v d : ℚ), AxisIs (some v) d v := fun v d => axisIs_getD (some v) d
  unfold Ends
  rw [ha, hb]
  exact ⟨⟨h _ _, h _ _, h _ _⟩, h _ _, h _ _, h _ _⟩

theorem ends_unique {c : Motion} {a b a' b' : Vec} (h : Ends c a b) (h' : Ends c a' b') : a = a' ∧ b = b' := by
  have u : ∀ {o : Option ℚ} {d v w : ℚ}, AxisIs o d v → AxisIs o d w → v = w := by
    intro o d v w h1 h2
    cases o with
    | none => rw [h1.2 rfl, h2.2 rfl]
    | some q => rw [h1.1 q rfl, h2.1 q rfl]
  obtain ⟨⟨h1, h2, h3⟩, h4, h5, h6⟩ := h
  obtain ⟨⟨g1, g2, g3⟩, g4, g5, g6⟩ := h'
  have e1 := u h1 g1
  have e2 := u h2 g2
  have e3 := u h3 g3
  rw [e1] at h4
  rw [e2] at h5
  rw [e3] at h6
  exact ⟨Vec.ext e1 e2 e3, Vec.ext (u h4 g4) (u h5 g5) (u h6 g6)⟩

theorem fromVec_inj {a b : Vec} (h : AddrVec.fromVec a = AddrVec.fromVec b) : a = b := by
  unfold AddrVec.fromVec at h
  simp only [AddrVec.mk.injEq, Option.some.injEq] at h
  exact Vec.ext h.1 h.2.1 h.2.2

theorem draw_straight (k : DrawKernel) (b : Bool) {c : Motion} (h : c.kind.isArc = false) :
    Command.draw k b (.motion c) = c.drawStraight k b := by
  unfold Command.draw
  cases hk : c.kind <;> rw [hk] at h <;> first | exact absurd h (by decide) | simp only [hk]

theorem draw_arc (k : DrawKernel) (b : Bool) {c : Motion} (h : c.kind.isArc = true) :
    Command.draw k b (.motion c) = c.drawArc k := by
  unfold Command.draw
  cases hk : c.kind <;> rw [hk] at h <;> first | exact absurd h (by decide) | simp only [hk]

theorem drawStraight_stay {k : DrawKernel} (b : Bool) {c : Motion}
    (he : k.eq c.start.orZero (c.fin.toVecAbs c.start.orZero) = true) : c.drawStraight k b = .ok none := by
  unfold Motion.drawStraight
  exact if_pos he

theorem drawStraight_line {k : DrawKernel} (hl : LinesMade k) (b : Bool) {c : Motion}
    (he : k.eq c.start.orZero (c.fin.toVecAbs c.start.orZero) = false) :
    c.drawStraight k b = .ok (some (.line c.start.orZero (c.fin.toVecAbs c.start.orZero))) := by
  have h1 := hl _ _ he
  unfold Motion.drawStraight
  simp only
  rw [if_neg (by rw [he]; decide)]
  cases b with
  | false => rfl
  | true => rw [if_pos rfl, if_pos h1]

/-- C67.  The edges drawn for a list of moves are exactly the moves whose ends differ, in order, from start to end, in world
coordinates.  Partial: arcs are included only if the kernel takes the `AddressVector` that the code gives it as their start
(`ArcDrawn`), and the start of a move is where the command says, an unknown coordinate counting as 0; see `C67_violated` and
`C67_violated_start`. -/
theorem C67_edges_partial {k : DrawKernel} (hl : LinesMade k) (top : Frame) (cs : List Motion) (ha : ∀ c ∈ cs, ArcDrawn k c) :
    ∃ ds, visualizeEdges k top (cs.map .motion) = .ok ds ∧ Shown k.eq top cs ds := by
  induction cs with
  | nil => exact ⟨[], rfl, .nil⟩
  | cons c cs ih =>
    obtain ⟨ds, h, hs⟩ := ih (fun x hx => ha x (by simp [hx]))
    rw [List.map_cons]
    unfold visualizeEdges
    rw [h]
    cases hk : c.kind.isArc with
    | false =>
      rw [draw_straight k true hk]
      cases he : k.eq c.start.orZero (c.fin.toVecAbs c.start.orZero) with
      | true =>
        rw [drawStraight_stay true he]
        exact ⟨ds, rfl, .stay hk (ends_model c) he hs⟩
      | false =>
        rw [drawStraight_line hl true he]
        exact ⟨_, rfl, .line hk (ends_model c) he hs⟩
    | true =>
      obtain ⟨a, m, b, h1, h2, h3, h4, h5⟩ := ha c (by simp) hk
      rw [draw_arc k true hk]
      have e : c.drawArc k = .ok (some (.arc a m b)) := by
        unfold Motion.drawArc
        rw [h4, h3, h2]
        simp [AddrVec.toVecFrom, AddrVec.fromVec, h5]
      rw [e]
      exact ⟨_, rfl, .arc hk (ends_full h1 h3) h2 hs⟩

/-- C67.  The drawing says what the moves are: two drawings that show the same moves are the same. -/
theorem C67_shown_unique {eq : Vec → Vec → Bool} {top : Frame} {cs : List Motion} {ds ds' : List Drawn}
    (h : Shown eq top cs ds) (h' : Shown eq top cs ds') : ds = ds' := by
  induction h generalizing ds' with
  | nil => cases h'; rfl
  | stay hk h1 he hs ih =>
    cases h' with
    | stay _ _ _ hs' => exact ih hs'
    | line _ h2 he' hs' =>
      obtain ⟨rfl, rfl⟩ := ends_unique h1 h2
      rw [he] at he'; cases he'
    | arc hk' _ _ _ => rw [hk] at hk'; cases hk'
  | line hk h1 he hs ih =>
    cases h' with
    | stay _ h2 he' hs' =>
      obtain ⟨rfl, rfl⟩ := ends_unique h1 h2
      rw [he] at he'; cases he'
    | line _ h2 he' hs' =>
      obtain ⟨rfl, rfl⟩ := ends_unique h1 h2
      rw [ih hs']
    | arc hk' _ _ _ => rw [hk] at hk'; cases hk'
  | arc hk h1 hm hs ih =>
    cases h' with
    | stay hk' _ _ _ => rw [hk] at hk'; cases hk'
    | line hk' _ _ _ => rw [hk] at hk'; cases hk'
    | arc _ h2 hm' hs' =>
      obtain ⟨rfl, rfl⟩ := ends_unique h1 h2
      rw [hm] at hm'
      rw [ih hs', fromVec_inj hm']

/-- C67.  `Job.to_shapes(as_edges=True)` draws, for every job a user can have in hand, the moves of each operation after the
first.  Partial like `C67_edges_partial`. -/
theorem C67_job_partial {k : DrawKernel} (hl : LinesMade k) {j0 j : Job} (h0 : j0.operations = [])
    (h : ReachWith (fun r => ∀ j cs, r.gen j = .ok cs → ∀ c ∈ cs, ArcDrawn k c) j0 j) :
    ∃ dss : List (List Drawn), j.toEdges k = .ok dss.flatten ∧
      List.Forall₂ (fun (o : Operation) ds => Shown k.eq j.top (motionsOf o.commands.tail) ds) j.operations dss := by
  have ho := reach_origin h0 h
  have hd : ∀ o ∈ j.operations, ∃ ds, visualizeEdges k j.top (o.commands.drop 1) = .ok ds ∧
      Shown k.eq j.top (motionsOf o.commands.tail) ds := by
    intro o hm
    rcases ho o hm with ⟨n, s, c, e⟩ | ⟨s, c, e⟩ | ⟨r, j', cs, hp, hg, e⟩
    · rw [e]; exact ⟨[], rfl, .nil⟩
    · rw [e]; exact ⟨[], rfl, .nil⟩
    · rw [e, List.drop_one, ← List.map_tail, motionsOf_map]
      exact C67_edges_partial hl j.top cs.tail (fun c hc => hp j' cs hg c (List.mem_of_mem_tail hc))
  have : ∃ dss, mapE (fun o : Operation => visualizeEdges k j.top (o.commands.drop 1)) j.operations = .ok dss :=
    mapE_total (fun o hm => ⟨_, (hd o hm).choose_spec.1⟩)
  obtain ⟨dss, hm⟩ := this
  refine ⟨dss, by unfold Job.toEdges; rw [hm]; rfl, ?_⟩
  rw [mapE_ok] at hm
  refine List.forall₂_iff_get.mpr ⟨hm.length_eq, ?_⟩
  intro i hi hi'
  have e := (List.forall₂_iff_get.mp hm).2 i hi hi'
  obtain ⟨ds, h1, h2⟩ := hd _ (List.get_mem j.operations ⟨i, hi⟩)
  rw [h1] at e
  cases e
  exact h2

/-- C67.  Neither drawing routine fails where the other succeeds, and cq-editor is shown the same shapes as everyone else, plus
the axes of the job plane. -/
theorem C67_groups {k : DrawKernel} (hl : LinesMade k) (top : Frame) (cs : List Command) :
    (visualizeGroup k top cs).map (List.map Prod.fst) =
      (visualizeEdges k top cs).map (· ++ [.line top.origin (top.toWorld ⟨1, 0, 0⟩), .line top.origin (top.toWorld ⟨0, 1, 0⟩),
        .line top.origin (top.toWorld ⟨0, 0, 1⟩)]) := by
  have hc : ∀ c : Command, c.draw k true = c.draw k false := by
    intro c
    cases c with
    | motion c =>
      cases hk : c.kind.isArc with
      | true => rw [draw_arc k _ hk, draw_arc k _ hk]
      | false =>
        rw [draw_straight k _ hk, draw_straight k _ hk]
        cases he : k.eq c.start.orZero (c.fin.toVecAbs c.start.orZero) with
        | true => rw [drawStraight_stay _ he, drawStraight_stay _ he]
        | false => rw [drawStraight_line hl _ he, drawStraight_line hl _ he]
    | _ => rfl
  have hd : ∀ (cs : List Command) (i : ℕ), (drawColored k i cs).map (List.map (fun s => s.1.map top.toWorld)) =
      visualizeEdges k top cs := by
    intro cs
    induction cs with
    | nil => intro i; rfl
    | cons c cs ih =>
      intro i
      unfold drawColored visualizeEdges
      rw [hc c, ← ih (i + 1)]
      cases hcd : c.draw k false with
      | error e => rfl
      | ok s =>
        cases drawColored k (i + 1) cs with
        | error e => rfl
        | ok rest =>
          cases s with
          | none => cases c <;> rfl
          | some s =>
            cases c with
            | motion m => rfl
            | _ => cases hcd
  have hp : (visualizePlane top).map Prod.fst = [.line top.origin (top.toWorld ⟨1, 0, 0⟩),
      .line top.origin (top.toWorld ⟨0, 1, 0⟩), .line top.origin (top.toWorld ⟨0, 0, 1⟩)] := by
    simp [visualizePlane, Frame.toWorld, Vec.add, Vec.smul]
  unfold visualizeGroup
  rw [← hd cs 0, ← hp]
  cases drawColored k 0 cs with
  | error e => rfl
  | ok ss => simp [bind, Except.bind, pure, Except.pure, Except.map, Function.comp_def]

/-- C67 for whole jobs.  There is one group per operation, and they show the same shapes as the drawing made of edges, in the
same order, each followed by the axes of the job plane; and neither drawing fails where the other succeeds. -/
theorem C67_groups_job {k : DrawKernel} (hl : LinesMade k) (j : Job) :
    (∀ gs, j.toGroups k = .ok gs → ∃ lists : List (List Drawn), j.toEdges k = .ok lists.flatten ∧ lists.length = j.operations.length ∧
      List.Forall₂ (fun g ds => g.map Prod.fst = ds ++ [.line j.top.origin (j.top.toWorld ⟨1, 0, 0⟩),
        .line j.top.origin (j.top.toWorld ⟨0, 1, 0⟩), .line j.top.origin (j.top.toWorld ⟨0, 0, 1⟩)]) gs lists) ∧
    (∀ ds, j.toEdges k = .ok ds → ∃ gs, j.toGroups k = .ok gs) := by
  have hg := fun o : Operation => C67_groups hl j.top (o.commands.drop 1)
  constructor
  · intro gs h
    have h1 := mapE_ok.mp h
    have key : ∃ lists, List.Forall₂ (fun (o : Operation) ds => visualizeEdges k j.top (o.commands.drop 1) = .ok ds) j.operations lists ∧
        List.Forall₂ (fun (g : List (Drawn × String)) ds => g.map Prod.fst = ds ++ [.line j.top.origin (j.top.toWorld ⟨1, 0, 0⟩),
          .line j.top.origin (j.top.toWorld ⟨0, 1, 0⟩), .line j.top.origin (j.top.toWorld ⟨0, 0, 1⟩)]) gs lists := by
      clear h
      generalize j.operations = os at h1 ⊢
      induction h1 with
      | nil => exact ⟨[], .nil, .nil⟩
      | @cons o g os gs h1 _ ih =>
        obtain ⟨lists, i1, i2⟩ := ih
        have := hg o
        rw [h1] at this
        cases hd : visualizeEdges k j.top (o.commands.drop 1) with
        | error e => rw [hd] at this; cases this
        | ok ds =>
          rw [hd] at this
          exact ⟨ds :: lists, .cons hd i1, .cons (Except.ok.inj this) i2⟩
    obtain ⟨lists, k1, k2⟩ := key
    exact ⟨lists, by rw [Job.toEdges, mapE_ok.mpr k1]; rfl, k1.length_eq.symm, k2⟩
  · intro ds h
    obtain ⟨lists, h1, -⟩ := bind_ok.mp h
    apply mapE_total
    intro o ho
    obtain ⟨ds, -, hd⟩ := forall₂_mem_left (mapE_ok.mp h1) ho
    have := hg o
    rw [hd] at this
    cases hv : visualizeGroup k j.top (o.commands.drop 1) with
    | error e => rw [hv] at this; cases this
    | ok g => exact ⟨g, rfl⟩

/-- C67 is violated: with cadquery, no arc is ever drawn, and no error is reported.  The drawing of any list of moves is the
drawing of its straight moves. -/
theorem C67_violated {k : DrawKernel} (hn : NoAddress k) (top : Frame) (cs : List Motion) (hk : ∀ c ∈ cs, ArcKnown c) :
    visualizeEdges k top (cs.map .motion) =
      visualizeEdges k top ((cs.filter (fun c => !c.kind.isArc)).map .motion) := by
  induction cs with
  | nil => rfl
  | cons c cs ih =>
    have ih := ih (fun x hx => hk x (by simp [hx]))
    cases ha : c.kind.isArc with
    | false =>
      rw [List.filter_cons_of_pos (by simp [ha]), List.map_cons, List.map_cons]
      unfold visualizeEdges
      rw [ih]
    | true =>
      rw [List.filter_cons_of_neg (by simp [ha]), List.map_cons, ← ih]
      conv_lhs => unfold visualizeEdges
      obtain ⟨a, m, b, h1, h2, h3⟩ := hk c (by simp) ha
      have e : c.drawArc k = .ok none := by
        unfold Motion.drawArc
        rw [hn, h3, h2]
        simp [AddrVec.toVecFrom, AddrVec.fromVec]
      rw [draw_arc k true ha, e]
      cases visualizeEdges k top (cs.map .motion) <;> rfl

/-- C67 is violated: an operation that starts as in C66 (all do) is drawn as if the tool came from the origin of the job plane at
height `z`, wherever it is: the first edge does not depend on the machine. -/
theorem C67_violated_start {k : DrawKernel} (hl : LinesMade k) (top : Frame) {cs : List Motion} {z : ℚ} (ho : Opening z cs)
    (hcon : Connected {} cs) {ds : List Drawn} (h : visualizeEdges k top ((cs.map .motion).drop 1) = .ok ds) :
    ∃ x y, cs[1]?.map Motion.fin = some ⟨some x, some y, some z⟩ ∧ (k.eq ⟨0, 0, z⟩ ⟨x, y, z⟩ = false →
      ds.head? = some (.line (top.toWorld ⟨0, 0, z⟩) (top.toWorld ⟨x, y, z⟩))) := by
  obtain ⟨c1, c2, rest, x, y, rfl, k1, f1, k2, f2⟩ := ho
  obtain ⟨-, s2, -⟩ := hcon
  refine ⟨x, y, by simp [f2], fun he => ?_⟩
  rw [f1] at s2
  have ha : c2.kind.isArc = false := by cases hk : c2.kind <;> rw [hk] at k2 <;> first | rfl | cases k2
  simp only [List.map_cons, List.drop_succ_cons, List.drop_zero] at h
  unfold visualizeEdges at h
  rw [draw_straight k true ha] at h
  have e : c2.drawStraight k true = .ok (some (.line ⟨0, 0, z⟩ ⟨x, y, z⟩)) := by
    unfold Motion.drawStraight
    rw [s2, f2]
    simp [AddrVec.orZero, AddrVec.toVecAbs, he, hl _ _ he]
  rw [e, ok_bind] at h
  obtain ⟨r, -, h⟩ := bind_ok.mp h
  cases h
  rfl

/-! ### Examples -/

/-- A kernel like cadquery, with exact comparison. -/
def exactKernel : DrawKernel := { eq := fun a b => a = b, line := fun a b => a ≠ b, arc := fun _ _ _ => true, asVector := fun _ => none }

/-- A kernel that takes an `AddressVector` for a vector. -/
def lenientKernel : DrawKernel :=
  { exactKernel with asVector := fun a => a.toVecFrom {} }

theorem exactKernel_lines : LinesMade exactKernel := by
  intro a b h
  simpa [exactKernel] using h

theorem lenientKernel_lines : LinesMade lenientKernel := exactKernel_lines

/-- A half circle. -/
def halfArc : Motion :=
  { kind := .cw, start := ⟨some 0, some 0, some (-1)⟩, fin := ⟨some 2, some 0, some (-1)⟩, feed := some (.int 500)
    center := ⟨some 1, some 0, some (-1)⟩, mid := ⟨some 1, some 1, some (-1)⟩ }

/-- The half circle meets the hypotheses of `C67_edges_partial` (with a kernel that takes an `AddressVector`) and of `C67_violated`
(with cadquery); it is drawn as an arc by the one and not at all by the other. -/
example : ArcDrawn lenientKernel halfArc ∧ visualizeEdges lenientKernel Frame.xy [.motion halfArc] =
      .ok [.arc ⟨0, 0, -1⟩ ⟨1, 1, -1⟩ ⟨2, 0, -1⟩] ∧
    ArcKnown halfArc ∧ NoAddress exactKernel ∧ visualizeEdges exactKernel Frame.xy [.motion halfArc] = .ok [] := by
  refine ⟨fun _ => ⟨⟨0, 0, -1⟩, ⟨1, 1, -1⟩, ⟨2, 0, -1⟩, rfl, rfl, rfl, rfl, rfl⟩, by decide +kernel,
    fun _ => ⟨⟨0, 0, -1⟩, ⟨1, 1, -1⟩, ⟨2, 0, -1⟩, rfl, rfl, rfl⟩, fun _ => rfl, by decide +kernel⟩

/-- A job meets the hypotheses of `C67_job_partial`: the drawing shows its moves after the first. -/
example : ∃ j, ReachWith (fun r => ∀ j cs, r.gen j = .ok cs → ∀ c ∈ cs, ArcDrawn exactKernel c) demoInit j ∧
    j.toEdges exactKernel = .ok [.line ⟨0, 0, 10⟩ ⟨1, 2, 10⟩, .line ⟨1, 2, 10⟩ ⟨1, 2, -1⟩, .line ⟨1, 2, -1⟩ ⟨1, 2, 10⟩] := by
  refine ⟨_, .result highRequest .init ?_ ⟨by unfold SafeName; decide, (by intro t ht; cases ht), ?_⟩ rfl, by decide +kernel⟩
  · intro j cs hg c hc ha
    cases hg
    simp only [List.mem_cons, List.not_mem_nil, or_false] at hc
    rcases hc with rfl | rfl | rfl | rfl <;> cases ha
  · intro cs hg c hc
    cases hg
    exact plainMove_ok ((by decide +kernel : ∀ c ∈ _, plainMove c = true) c hc)

/-- Its moves meet the hypotheses of `C67_violated_start`. -/
example : ∃ cs, highRequest.gen demoInit = .ok cs ∧ Opening 10 cs ∧ Connected {} cs := by
  refine ⟨_, rfl, ⟨_, _, _, 1, 2, rfl, rfl, rfl, rfl, rfl⟩, ?_⟩
  simp [Connected, rapidAbs, cutAbs, fillEnd]

end CQ
