import Verif.Props.TurnPocket
import Verif.Props.TurnPlanar
import Verif.Props.ShiftExample
import Verif.Props.SurfaceTotal

/-! # C136: instances and violations -/

namespace CQ

/-- A quarter turn counterclockwise. -/
def quarter : Turn := ⟨0, -1, 1, 0, by norm_num, by norm_num, by norm_num⟩

/-- A turn by the angle of the triangle with sides 3, 4 and 5. -/
def oblique : Turn := ⟨3 / 5, -4 / 5, 4 / 5, 3 / 5, by norm_num, by norm_num, by norm_num⟩

/-- The left and the right side exchanged. -/
def mirror : Turn := ⟨-1, 0, 0, 1, by norm_num, by norm_num, by norm_num⟩

example : quarter.det = 1 ∧ oblique.det = 1 ∧ mirror.det = -1 := by
  refine ⟨?_, ?_, ?_⟩ <;> norm_num [Turn.det, quarter, oblique, mirror]

theorem xy_cube : Frame.xy.Cube := ⟨xy_square, by decide +kernel⟩

theorem xy_level (z : ℚ) : ({ Frame.xy with origin := ⟨0, 0, z⟩ } : Frame).Level := ⟨rfl, rfl, rfl, rfl, rfl⟩

/-! ### Drilling -/

theorem drillCenter_turns (f : Frame) (s : Turn) : CentreTurns f s drillCenter := by
  intro w
  cases w with
  | nil => rfl
  | cons e w => rfl

/-- Four holes turned by a quarter turn, in a plane at height 5: they are drilled in the same order, at the turned places. -/
example : (TurnWork quarter (drillJob ⟨0, 0, 5⟩).top (drillRequest drillCenter (some drillObjs) (some 3) none)
      (drillRequest drillCenter (some (drillObjs.map ((drillJob ⟨0, 0, 5⟩).top.turnDrill quarter))) (some 3) none)) ∧
    (match drill drillCenter (some (drillObjs.map ((drillJob ⟨0, 0, 5⟩).top.turnDrill quarter))) (some 3) (drillJob ⟨0, 0, 5⟩) with
      | .ok cs => decide (workedAt cs = [(some 0, some 0), (some (-1), some 2), (some 0, some 10), (some 0, some 10)])
      | .error _ => false) = true :=
  ⟨C136_drill_partial (drillCenter_turns _ _) (xy_level 5) _ _ _, by decide +kernel⟩

/-- C136 fails for drilling in a plane whose origin is not above that of the world: a hole 2 from the axis the part is turned
about, to the right, is drilled at 4 from it; turned by a quarter turn, it is drilled at (2, 2), not at (0, 4). -/
theorem C136_violated_drill : ∃ (f : Frame) (s : Turn) (v : Vec) (j : Job) (cs cs' : List Motion), f.Cube ∧ s = quarter ∧ j.top = f ∧
    j.operations = [] ∧ drill drillCenter (some [.vector v]) (some 1) j = .ok cs ∧
    drill drillCenter (some [.vector (f.turnPoint s v)]) (some 1) j = .ok cs' ∧
    workedAt cs = [(some 4, some 0)] ∧ workedAt cs' = [(some 2, some 2)] := by
  have h : (match drill drillCenter (some [.vector ⟨3, 0, 0⟩]) (some 1) (drillJob ⟨1, 0, 0⟩),
        drill drillCenter (some [.vector ((drillJob ⟨1, 0, 0⟩).top.turnPoint quarter ⟨3, 0, 0⟩)]) (some 1) (drillJob ⟨1, 0, 0⟩) with
      | .ok cs, .ok cs' => decide (workedAt cs = [(some 4, some 0)] ∧ workedAt cs' = [(some 2, some 2)])
      | _, _ => false) = true := by decide +kernel
  cases h1 : drill drillCenter (some [.vector ⟨3, 0, 0⟩]) (some 1) (drillJob ⟨1, 0, 0⟩) with
  | error e => rw [h1] at h; cases h
  | ok cs =>
    cases h2 : drill drillCenter (some [.vector ((drillJob ⟨1, 0, 0⟩).top.turnPoint quarter ⟨3, 0, 0⟩)]) (some 1)
        (drillJob ⟨1, 0, 0⟩) with
    | error e => rw [h1, h2] at h; cases h
    | ok cs' =>
      rw [h1, h2] at h
      exact ⟨(drillJob ⟨1, 0, 0⟩).top, quarter, _, drillJob ⟨1, 0, 0⟩, cs, cs',
        ⟨⟨by decide +kernel, by decide +kernel, by decide +kernel, by decide +kernel, by decide +kernel⟩, by decide +kernel⟩,
        rfl, rfl, rfl, h1, h2, of_decide_eq_true h⟩

/-! ### Profiles -/

theorem travel_turn (s : Turn) (e : Edge) (t : ℚ) : (e.turn s).travel t = (e.travel t).turn s := by
  unfold Edge.travel
  rfl

theorem lowest_turn (s : Turn) (w : List Edge) : lowest (w.map (Edge.turn s)) = lowest w := by
  induction w with
  | nil => rfl
  | cons e w ih =>
    cases w with
    | nil => simp [lowest, travel_turn, Vec.turn]
    | cons e2 w =>
      simp only [List.map_cons, lowest] at ih ⊢
      rw [ih, travel_turn]
      rfl

theorem exactEq_turn (s : Turn) (a b : Vec) : exactEq (a.turn s) (b.turn s) = exactEq a b := by
  unfold exactEq
  rw [decide_eq_decide]
  exact (vec_turn_inj s).eq_iff

theorem flatCad_turn (s : Turn) : CadTurn s flatCad where
  veq := exactEq_turn s
  search := fun _ _ => rfl
  offset2D := fun _ _ => rfl
  area := fun _ => rfl
  relocate := fun _ _ => rfl
  zmin := lowest_turn s
  wireLength := by
    intro w
    simp only [flatCad, List.map_map]
    rfl
  assemble := fun _ => rfl

theorem flatCad_cutTurn (s : Turn) : CutTurn s Frame.xy flatCad := by
  intro w
  have hin : ∀ e : Edge, inPlane Frame.xy (e.turn s) = inPlane Frame.xy e := by
    intro e
    simp [inPlane, travel_turn, Frame.xy, Vec.sub, Vec.dot, Vec.turn]
  have hz : ∀ e : Edge, flatCad.centerZ (e.turn s) = flatCad.centerZ e := by
    intro e
    simp only [flatCad, travel_turn]
    rfl
  simp only [flatCad, List.mem_filter, List.mem_map]
  constructor
  · rintro ⟨_, ⟨⟨e, he, rfl⟩, h1⟩, h2⟩
    exact ⟨e, ⟨he, by rw [← hin e]; exact h1⟩, by have := hz e; simp only [flatCad] at this; rw [← this]; exact h2⟩
  · rintro ⟨e, ⟨he, h1⟩, h2⟩
    exact ⟨e.turn s, ⟨⟨e, he, rfl⟩, by rw [hin e]; exact h1⟩, by have := hz e; simp only [flatCad] at this; rw [this]; exact h2⟩

/-- A half circle of radius 5 about (7, 0), counterclockwise (its points are those of the rational parametrization of the circle). -/
def turnArc : Edge where
  id := 1
  geom := .arc
  startPoint := ⟨12, 0, -1⟩
  endPoint := ⟨2, 0, -1⟩
  posParam u := let w := 2 * u - 1; ⟨7 - 10 * w / (1 + w * w), 5 * (1 - w * w) / (1 + w * w), -1⟩
  posLen u := let w := 2 * u - 1; ⟨7 - 10 * w / (1 + w * w), 5 * (1 - w * w) / (1 + w * w), -1⟩
  paramAt u := u
  center := ⟨7, 0, -1⟩
  length := 785 / 50

/-- Half a disc: an arc and its chord. -/
def turnWire : List Edge := [turnArc, { sideEdge ⟨2, 0, -1⟩ ⟨12, 0, -1⟩ with id := 2 }]

/-- The half disc turned or mirrored in any way, profiled with a stepdown of 1/2 on the world's XY plane. -/
example (s : Turn) : TurnWork s placedJob.top (profileRequest flatCad [.wire turnWire] (some 1) none (some (1 / 2)) none none)
    (profileRequest flatCad [.wire (turnWire.map (Frame.xy.turnEdge s))] (some 1) none (some (1 / 2)) none none) :=
  C136_profile_partial (f := Frame.xy) xy_cube (flatCad_turn s) (.inr (.inr (flatCad_cutTurn s))) _ _ _ _ _

/-- The profile of the half disc. -/
def turnProfile (s : Turn) : Request :=
  profileRequest flatCad [.wire (turnWire.map (Frame.xy.turnEdge s))] (some 1) none (some (1 / 2)) none none

/-- Turned by an oblique angle the arcs are still counterclockwise, mirrored they are clockwise. -/
example : (match placedJob.chain [profileRequest flatCad [.wire turnWire] (some 1) none (some (1 / 2)) none none],
      placedJob.chain [turnProfile oblique], placedJob.chain [turnProfile mirror] with
    | .ok j, .ok j', .ok j'' => decide (j.operations.map (fun o => o.commands.length) = [11] ∧
        j'.operations = (j.turn oblique).operations ∧ j''.operations = (j.turn mirror).operations ∧ j.operations ≠ j'.operations ∧
        (j.operations.flatMap (fun o => o.commands.map (fun c => match c with | .motion m => decide (m.kind = .ccw) | _ => false))).count true = 2 ∧
        (j'.operations.flatMap (fun o => o.commands.map (fun c => match c with | .motion m => decide (m.kind = .ccw) | _ => false))).count true = 2 ∧
        (j''.operations.flatMap (fun o => o.commands.map (fun c => match c with | .motion m => decide (m.kind = .cw) | _ => false))).count true = 2)
    | _, _, _ => false) = true := by decide +kernel

/-! ### Pockets -/

/-- A polygon library for squares in any position: the corners move along the diagonals. -/
def diamondEngine : Clipper where
  offset path o _ := match path with
    | [a, b, c, d, e] =>
        let half := Rat.sqrt (dist2 a b) / 2
        let out := fun p : Pt => (⟨(a.x + c.x) / 2 + (1 + o / half) * (p.x - (a.x + c.x) / 2),
          (a.y + c.y) / 2 + (1 + o / half) * (p.y - (a.y + c.y) / 2)⟩ : Pt)
        if 0 < half + o then .ok [[a, b, c, d, e].map out] else .ok []
    | _ => .ok []
  union ss cs := match ss, cs with
    | [s], [] => .ok [.node s []]
    | _, _ => .error .valueError
  difference ss cs := match ss, cs with
    | [s], [] => .ok [.node s []]
    | _, _ => .error .valueError
  contains _ _ := false

theorem diamondEngine_turn (s : Turn) : ClipperTurn s diamondEngine where
  offset := by
    intro p o n
    match p with
    | [] => rfl
    | [_] => rfl
    | [_, _] => rfl
    | [_, _, _] => rfl
    | [_, _, _, _] => rfl
    | _ :: _ :: _ :: _ :: _ :: _ :: _ => rfl
    | [a, b, c, d, e] =>
      simp only [diamondEngine, List.map_cons, List.map_nil, dist2_turn]
      generalize Rat.sqrt (dist2 a b) / 2 = half
      have key : ∀ p : Pt, (⟨((Pt.turn s a).x + (Pt.turn s c).x) / 2 + (1 + o / half) * ((Pt.turn s p).x - ((Pt.turn s a).x + (Pt.turn s c).x) / 2),
          ((Pt.turn s a).y + (Pt.turn s c).y) / 2 + (1 + o / half) * ((Pt.turn s p).y - ((Pt.turn s a).y + (Pt.turn s c).y) / 2)⟩ : Pt) =
          Pt.turn s ⟨(a.x + c.x) / 2 + (1 + o / half) * (p.x - (a.x + c.x) / 2),
            (a.y + c.y) / 2 + (1 + o / half) * (p.y - (a.y + c.y) / 2)⟩ := by
        intro p
        simp only [Pt.turn]
        ext <;> simp only <;> ring
      simp only [key]
      split <;> rfl
  union := by
    intro a b
    match a, b with
    | [p], [] => rfl
    | [], _ => rfl
    | [_], _ :: _ => rfl
    | _ :: _ :: _, _ => rfl
  difference := by
    intro a b
    match a, b with
    | [p], [] => rfl
    | [], _ => rfl
    | [_], _ :: _ => rfl
    | _ :: _ :: _, _ => rfl
  contains := fun _ _ => rfl

/-- A square pocket, 6 by 6 and 6 deep, turned. -/
def turnPocket (s : Turn) : Request :=
  pocketPlacedRequest diamondEngine exactEq levelBox 50 [Frame.xy.turnFace s ⟨placedSquare, []⟩] [] {} none

theorem turnPocket_work (s : Turn) : TurnWork s placedJob.top
    (pocketPlacedRequest diamondEngine exactEq levelBox 50 [⟨placedSquare, []⟩] [] {} none) (turnPocket s) :=
  C136_pocket (f := Frame.xy) xy_cube (diamondEngine_turn s) (exactEq_turn s)
    (fun o is => by simp only [levelBox, lowest_turn]) 50 [⟨placedSquare, []⟩] [] {} none

/-- A pocket turned by an oblique angle. -/
example : (match placedJob.chain [pocketPlacedRequest diamondEngine exactEq levelBox 50 [⟨placedSquare, []⟩] [] {} none],
      placedJob.chain [turnPocket oblique] with
    | .ok j, .ok j' => decide ((j.operations.map (fun o => o.commands.length)) = [26] ∧
        j.operations ≠ j'.operations ∧ j'.operations = (j.turn oblique).operations)
    | _, _ => false) = true := by decide +kernel

/-- The mirrored half disc on the machine. -/
example : ∃ t t' m1 m1' a b c a' b' c' evss evss', runText {} t = some (m1, a :: (evss.flatten ++ [b, c])) ∧
    runText {} t' = some (m1', a' :: (evss'.flatten ++ [b', c'])) ∧ evss.length = 1 ∧
    List.Forall₂ (fun evs evs' => List.Forall₂ (MovesTurned mirror) (evs.filter isMove) (evs'.filter isMove)) evss evss' := by
  obtain ⟨cs, -, hr, hc⟩ := call_good (j := placedJob)
    (r := profileRequest flatCad [.wire turnWire] (some 1) none (some (1 / 2)) none none)
    rfl rfl (by unfold SafeName; decide) (by decide +kernel)
  obtain ⟨cs', -, hr', hc'⟩ := call_good (j := placedJob) (r := turnProfile mirror)
    rfl rfl (by unfold SafeName; decide) (by decide +kernel)
  have hchain : placedJob.chain [profileRequest flatCad [.wire turnWire] (some 1) none (some (1 / 2)) none none] =
      .ok (placedJob.addOperation "Profile".toList (cs.map .motion)) := by
    simp only [Job.chain, hc]
    rfl
  obtain ⟨jf', t, t', m1, m1', a, b, c, a', b', c', evss, evss', -, -, -, q1, q2, q3, -, -, q4⟩ :=
    C136_machine {} (s := mirror) (j0 := placedJob)
      (rs := [profileRequest flatCad [.wire turnWire] (some 1) none (some (1 / 2)) none none])
      (rs' := [turnProfile mirror]) ⟨rfl, by unfold SafeName; decide, numOK_int _, by rintro v ⟨⟩⟩
      (by rintro v ⟨⟩) ⟨hr, fun _ _ => trivial⟩ ⟨hr', fun _ _ => trivial⟩
      (.cons (C136_profile_partial (f := Frame.xy) xy_cube (flatCad_turn _) (.inr (.inr (flatCad_cutTurn _))) _ _ _ _ _) .nil)
      (by
        intro r hr j cs h
        rw [List.mem_singleton] at hr
        subst hr
        exact planar_profile _ _ _ _ _ _ _ j cs h) hchain rfl (by rintro n ⟨⟩)
  exact ⟨t, t', m1, m1', a, b, c, a', b', c', evss, evss', q1, q2, q3, q4⟩

/-! ### 3D surfacing -/

/-- C136 fails for 3D surfacing: a rectangle of 10 by 8 is surfaced, and the same rectangle turned by a quarter turn is refused,
because the outline now begins with a side along Y. -/
theorem C136_violated_surface : ∃ (eng : SurfaceEngine) (k : FaceKernel) (b : BoundaryFace), AnswersAll eng ∧ KernelWorks k ∧
    (∃ cs, surface3d eng k {} (0, 0) (some (0, 0)) [b] demoInit = .ok cs) ∧
    surface3d eng k {} (0, 0) (some (0, 0)) [b.turn quarter] demoInit = .error .assertionError :=
  ⟨boxSurface, idleKernel, rectangle 0 0 10 8 0, fun ps => by simp [boxSurface], ⟨fun w d => ⟨_, rfl⟩, fun _ _ => rfl⟩,
    surfacing_made (by decide +kernel), surfacing_refused (by decide +kernel)⟩

end CQ
