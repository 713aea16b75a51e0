import Verif.Props.ShiftSurface
import Verif.Props.ShiftMachine
import Verif.Props.Surface
import Verif.Props.EndToEnd

/-! # C123: instances and violations -/

namespace CQ

theorem xy_square : Frame.xy.Square := ⟨by decide +kernel, by decide +kernel, by decide +kernel, by decide +kernel, by decide +kernel⟩

/-! ### Drilling -/

theorem drillCenter_moves (g : Rigid) : CentreMoves g drillCenter := by
  intro w
  cases w with
  | nil => rfl
  | cons e w => rfl

theorem xy_drillsAlong (s : Pt) : DrillsAlong Frame.xy s := by
  constructor <;> simp [Frame.along, Frame.xy, Vec.add, Vec.smul]

/-- Four holes moved by (5, 7): they are drilled in the same order, at the moved places. -/
example : (SideWork ⟨5, 7⟩ (drillJob ⟨0, 0, 0⟩).top (drillRequest drillCenter (some drillObjs) (some 3) none)
      (drillRequest drillCenter (some (drillObjs.map (Frame.xy.slide ⟨5, 7⟩).drillObj)) (some 3) none)) ∧
    (match drill drillCenter (some (drillObjs.map (Frame.xy.slide ⟨5, 7⟩).drillObj)) (some 3) (drillJob ⟨0, 0, 0⟩) with
      | .ok cs => decide (workedAt cs = [(some 5, some 7), (some 7, some 8), (some 15, some 7), (some 15, some 7)])
      | .error _ => false) = true :=
  ⟨C123_drill_partial (drillCenter_moves _) (xy_drillsAlong _) _ _ _, by decide +kernel⟩

/-- A plane turned by a quarter turn about its normal. -/
def turnedTop : Frame := ⟨⟨0, 0, 0⟩, ⟨0, 1, 0⟩, ⟨-1, 0, 0⟩, ⟨0, 0, 1⟩⟩

/-- C123 fails for drilling in a plane whose axes are turned: moving the part by 10 along the plane's X axis moves the hole by -10
in the program. -/
theorem C123_violated_drill : ∃ (f : Frame) (s : Pt) (v : Vec) (j : Job) (cs cs' : List Motion), f.Square ∧ j.top = f ∧
    j.operations = [] ∧ s = ⟨10, 0⟩ ∧ drill drillCenter (some [.vector v]) (some 1) j = .ok cs ∧
    drill drillCenter (some [.vector ((f.slide s).point v)]) (some 1) j = .ok cs' ∧
    workedAt cs = [(some 0, some 1)] ∧ workedAt cs' = [(some (-10), some 1)] := by
  have h : (match drill drillCenter (some [.vector ⟨1, 0, 0⟩]) (some 1) (Job.init turnedTop (.int 100)),
        drill drillCenter (some [.vector ((turnedTop.slide ⟨10, 0⟩).point ⟨1, 0, 0⟩)]) (some 1) (Job.init turnedTop (.int 100)) with
      | .ok cs, .ok cs' => decide (workedAt cs = [(some 0, some 1)] ∧ workedAt cs' = [(some (-10), some 1)])
      | _, _ => false) = true := by decide +kernel
  cases h1 : drill drillCenter (some [.vector ⟨1, 0, 0⟩]) (some 1) (Job.init turnedTop (.int 100)) with
  | error e => rw [h1] at h; cases h
  | ok cs =>
    cases h2 : drill drillCenter (some [.vector ((turnedTop.slide ⟨10, 0⟩).point ⟨1, 0, 0⟩)]) (some 1)
        (Job.init turnedTop (.int 100)) with
    | error e => rw [h1, h2] at h; cases h
    | ok cs' =>
      rw [h1, h2] at h
      exact ⟨turnedTop, ⟨10, 0⟩, _, Job.init turnedTop (.int 100), cs, cs', ⟨by decide +kernel, by decide +kernel, by decide +kernel, by decide +kernel, by decide +kernel⟩,
        rfl, rfl, rfl, h1, h2, of_decide_eq_true h⟩

/-! ### Profiles -/

theorem travel_side (s : Pt) (e : Edge) (t : ℚ) : (e.side s).travel t = (e.travel t).side s := by
  unfold Edge.travel
  rfl

theorem lowest_side (s : Pt) (w : List Edge) : lowest (w.map (Edge.side s)) = lowest w := by
  induction w with
  | nil => rfl
  | cons e w ih =>
    cases w with
    | nil => simp [lowest, travel_side, Vec.side]
    | cons e2 w =>
      simp only [List.map_cons, lowest] at ih ⊢
      rw [ih, travel_side]
      rfl

theorem exactEq_side (s : Pt) (a b : Vec) : exactEq (a.side s) (b.side s) = exactEq a b := by
  unfold exactEq
  rw [decide_eq_decide]
  exact (vec_side_inj s).eq_iff

theorem flatCad_side (s : Pt) : CadSide s flatCad where
  veq := exactEq_side s
  search := fun _ _ => rfl
  offset2D := fun _ _ => rfl
  area := fun _ => rfl
  relocate := fun _ _ => rfl
  zmin := lowest_side s
  wireLength := by
    intro w
    simp only [flatCad, List.map_map]
    rfl
  assemble := fun _ => rfl

theorem flatCad_cutSide (s : Pt) : CutSide s Frame.xy flatCad := by
  intro w
  have hin : ∀ e : Edge, inPlane Frame.xy (e.side s) = inPlane Frame.xy e := by
    intro e
    simp [inPlane, travel_side, Frame.xy, Vec.sub, Vec.dot, Vec.side]
  have hz : ∀ e : Edge, flatCad.centerZ (e.side s) = flatCad.centerZ e := by
    intro e
    simp only [flatCad, travel_side]
    rfl
  simp only [flatCad, List.mem_filter, List.mem_map]
  constructor
  · rintro ⟨_, ⟨⟨e, he, rfl⟩, h1⟩, h2⟩
    exact ⟨e, ⟨he, by rw [← hin e]; exact h1⟩, by have := hz e; simp only [flatCad] at this; rw [← this]; exact h2⟩
  · rintro ⟨e, ⟨he, h1⟩, h2⟩
    exact ⟨e.side s, ⟨⟨e, he, rfl⟩, by rw [hin e]; exact h1⟩, by have := hz e; simp only [flatCad] at this; rw [this]; exact h2⟩

/-- The square at depth 6 moved by (3/2, -4), profiled with a stepdown of 1 on the world's XY plane. -/
example (s : Pt) : SideWork s placedJob.top (profileRequest flatCad [.wire placedSquare] (some 1) none (some 1) none none)
    (profileRequest flatCad [.wire (placedSquare.map (Frame.xy.slide s).edge)] (some 1) none (some 1) none none) :=
  C123_profile_partial (f := Frame.xy) xy_square (flatCad_side s) (.inr (.inr (flatCad_cutSide s))) _ _ _ _ _

example : (match placedJob.chain [profileRequest flatCad [.wire placedSquare] (some 1) none (some 1) none none],
      placedJob.chain [profileRequest flatCad [.wire (placedSquare.map (Frame.xy.slide ⟨3 / 2, -4⟩).edge)] (some 1) none (some 1) none none] with
    | .ok j, .ok j' => decide (j.operations.map (fun o => o.commands.length) = j'.operations.map (fun o => o.commands.length) ∧
        j.operations ≠ j'.operations ∧ j'.operations = (j.side ⟨3 / 2, -4⟩).operations)
    | _, _ => false) = true := by decide +kernel

/-! ### Pockets -/

theorem rect_side (s : Pt) (a b c d : ℚ) : (rect a b c d).map (Pt.side s) = rect (a + s.x) (b + s.y) (c + s.x) (d + s.y) := rfl

theorem rectOf_side (s : Pt) (p : List Pt) : rectOf (p.map (Pt.side s)) = (rectOf p).map (fun x => (Pt.side s x.1, Pt.side s x.2)) := by
  unfold rectOf
  match p with
  | [] => rfl
  | [_] => rfl
  | [_, _] => rfl
  | [_, _, _] => rfl
  | [_, _, _, _] => rfl
  | _ :: _ :: _ :: _ :: _ :: _ :: _ => rfl
  | [a, b, c, d, e] =>
    simp only [List.map_cons, List.map_nil]
    have hi : ([Pt.side s a, Pt.side s b, Pt.side s c, Pt.side s d, Pt.side s e] =
        rect (Pt.side s a).x (Pt.side s a).y (Pt.side s c).x (Pt.side s c).y) ↔ [a, b, c, d, e] = rect a.x a.y c.x c.y := by
      have : rect (Pt.side s a).x (Pt.side s a).y (Pt.side s c).x (Pt.side s c).y = (rect a.x a.y c.x c.y).map (Pt.side s) :=
        (rect_side s _ _ _ _).symm
      rw [this]
      exact (List.map_injective_iff.mpr (side_inj s)).eq_iff (a := [a, b, c, d, e])
    by_cases h : a.x < c.x ∧ a.y < c.y ∧ [a, b, c, d, e] = rect a.x a.y c.x c.y
    · rw [if_pos h, if_pos ⟨by simpa [Pt.side] using h.1, by simpa [Pt.side] using h.2.1, hi.mpr h.2.2⟩]
      rfl
    · rw [if_neg h, if_neg (fun hh => h ⟨by simpa [Pt.side] using hh.1, by simpa [Pt.side] using hh.2.1, hi.mp hh.2.2⟩)]
      rfl

theorem boxEngine_side (s : Pt) : ClipperSide s boxEngine where
  offset := by
    intro p o n
    simp only [boxEngine, rectOf_side]
    cases rectOf p with
    | none => rfl
    | some x =>
      obtain ⟨a, b⟩ := x
      have e1 : ∀ u v : ℚ, (u + v - o < o) = (u + v - o < o) := fun _ _ => rfl
      simp only [Option.map]
      by_cases h : a.x - o < b.x + o ∧ a.y - o < b.y + o
      · rw [if_pos h, if_pos ⟨by simp only [Pt.side]; linarith [h.1], by simp only [Pt.side]; linarith [h.2]⟩]
        simp only [Except.map, List.map_cons, List.map_nil, rect_side]
        congr 2
        simp only [Pt.side, rect]
        ring_nf
      · rw [if_neg h, if_neg (fun hh => h ⟨by simp only [Pt.side] at hh; linarith [hh.1], by simp only [Pt.side] at hh; linarith [hh.2]⟩)]
        rfl
  union := by
    intro a b
    match a, b with
    | [p], [] =>
      simp only [boxEngine, List.map_cons, List.map_nil, rectOf_side]
      cases rectOf p <;> rfl
    | [], _ => rfl
    | [_], _ :: _ => rfl
    | _ :: _ :: _, _ => rfl
  difference := by
    intro a b
    match a, b with
    | [p], [] =>
      simp only [boxEngine, List.map_cons, List.map_nil, rectOf_side]
      cases rectOf p <;> rfl
    | [p], [q] =>
      simp only [boxEngine, List.map_cons, List.map_nil, rectOf_side]
      cases rectOf p with
      | none => rfl
      | some x =>
        cases rectOf q with
        | none => rfl
        | some y =>
          obtain ⟨a, b⟩ := x
          obtain ⟨u, v⟩ := y
          simp only [Option.map]
          have c1 : ((Pt.side s a).x < (Pt.side s u).x ∧ (Pt.side s a).y < (Pt.side s u).y ∧ (Pt.side s v).x < (Pt.side s b).x ∧
              (Pt.side s v).y < (Pt.side s b).y) = (a.x < u.x ∧ a.y < u.y ∧ v.x < b.x ∧ v.y < b.y) := by simp [Pt.side]
          have c2 : ((Pt.side s u).x ≤ (Pt.side s a).x ∧ (Pt.side s u).y ≤ (Pt.side s a).y ∧ (Pt.side s b).x ≤ (Pt.side s v).x ∧
              (Pt.side s b).y ≤ (Pt.side s v).y) = (u.x ≤ a.x ∧ u.y ≤ a.y ∧ b.x ≤ v.x ∧ b.y ≤ v.y) := by simp [Pt.side]
          by_cases h1 : a.x < u.x ∧ a.y < u.y ∧ v.x < b.x ∧ v.y < b.y
          · rw [if_pos h1, if_pos (c1 ▸ h1)]
            rfl
          · rw [if_neg h1, if_neg (c1 ▸ h1)]
            by_cases h2 : u.x ≤ a.x ∧ u.y ≤ a.y ∧ b.x ≤ v.x ∧ b.y ≤ v.y
            · rw [if_pos h2, if_pos (c2 ▸ h2)]
              rfl
            · rw [if_neg h2, if_neg (c2 ▸ h2)]
              rfl
    | [], _ => rfl
    | [_], _ :: _ :: _ => rfl
    | _ :: _ :: _, _ => rfl
  contains := fun _ _ => rfl

/-- The height of a level face. -/
def levelBox (o : List Edge) (_ : List (List Edge)) : ℚ × ℚ := (lowest o, lowest o)

/-- A square pocket, 6 by 6 and 6 deep. -/
def sidePocket (f : Rigid) : Request := pocketPlacedRequest boxEngine exactEq levelBox 50 [f.face ⟨placedSquare, []⟩] [] {} none

/-- A pocket moved by any shift. -/
example (s : Pt) : SideWork s placedJob.top (pocketPlacedRequest boxEngine exactEq levelBox 50 [⟨placedSquare, []⟩] [] {} none)
    (sidePocket (Frame.xy.slide s)) :=
  C123_pocket (f := Frame.xy) xy_square (boxEngine_side s) (exactEq_side s)
    (fun o is => by simp only [levelBox, lowest_side]) 50 [⟨placedSquare, []⟩] [] {} none

example : (match placedJob.chain [sidePocket (Frame.xy.slide ⟨0, 0⟩)], placedJob.chain [sidePocket (Frame.xy.slide ⟨3 / 2, -4⟩)] with
    | .ok j, .ok j' => decide ((j.operations.map (fun o => o.commands.length)) = [26] ∧
        j.operations ≠ j'.operations ∧ j'.operations = (j.side ⟨3 / 2, -4⟩).operations)
    | _, _ => false) = true := by decide +kernel

/-! ### 3D surfacing -/

/-- A clipper for rectangles, given by their corners from lower right counterclockwise. -/
def blockScan : ScanClipper where
  bounds bs := match bs.flatten with
    | [a, _, c, _] => (c.x, a.y, a.x, c.y)
    | [] => (0, 0, 0, 0)
    | p :: _ => (p.x, p.y, p.x, p.y)
  diagonal _ := 1077 / 100
  clip bs ls := match bs.flatten with
    | [a, _, c, _] => .ok ((ls.filter (fun l => decide (a.y < l.1.y ∧ l.1.y < c.y))).map (fun l => (⟨c.x, l.1.y⟩, ⟨a.x, l.1.y⟩)))
    | _ => .ok []

/-- The flat top of a block, at depth 1 everywhere. -/
def blockEngine : SurfaceEngine where
  scan := blockScan
  norm v := |v.x| + |v.y|
  strict := true
  bottom := -5
  drop ps := ps.map (fun _ => -1)

theorem blockEngine_side (s : Pt) : SurfaceSide s blockEngine blockEngine where
  norm := rfl
  strict := rfl
  bottom := rfl
  drop := fun ps => by simp [blockEngine]
  bounds := by
    intro bs hne
    simp only [blockEngine, blockScan, ← List.map_flatten]
    match bs.flatten, hne with
    | [], h => exact absurd rfl h
    | [_], _ => rfl
    | [_, _], _ => rfl
    | [_, _, _], _ => rfl
    | [_, _, _, _], _ => rfl
    | _ :: _ :: _ :: _ :: _ :: _, _ => rfl
  diagonal := fun _ _ _ _ => rfl
  clip := by
    intro bs ls
    simp only [blockEngine, blockScan, ← List.map_flatten]
    match bs.flatten with
    | [] => rfl
    | [_] => rfl
    | [_, _] => rfl
    | [_, _, _] => rfl
    | _ :: _ :: _ :: _ :: _ :: _ => rfl
    | [a, b, c, d] =>
      simp only [List.map_cons, List.map_nil, Except.map, List.filter_map, List.map_map]
      congr 1
      have : ((fun l : Pt × Pt => decide ((Pt.side s a).y < l.1.y ∧ l.1.y < (Pt.side s c).y)) ∘
          fun l : Pt × Pt => (Pt.side s l.1, Pt.side s l.2)) = fun l : Pt × Pt => decide (a.y < l.1.y ∧ l.1.y < c.y) := by
        funext l
        simp [Pt.side]
      rw [this]
      rfl
  empty := by
    intro bs ls ls' h
    simp only [blockEngine, blockScan, ← List.map_flatten, h]
    rfl

theorem idleKernel_side (s : Pt) : FaceKernelSide s idleKernel := by
  constructor <;> intros <;> rfl

/-- The top of the block, 10 by 4. -/
def blockFace : BoundaryFace where
  flat := true
  outer := [sideEdge ⟨0, 0, 0⟩ ⟨10, 0, 0⟩, sideEdge ⟨10, 0, 0⟩ ⟨10, 4, 0⟩, sideEdge ⟨10, 4, 0⟩ ⟨0, 4, 0⟩,
    sideEdge ⟨0, 4, 0⟩ ⟨0, 0, 0⟩]
  inners := []

/-- Moved by whole units, the block is surfaced by the same moves, moved. -/
example : SideWork ⟨3, -2⟩ demoInit.top (surface3dRequest blockEngine idleKernel hillArgs (-1, 0) (some (1, 0)) [blockFace])
    (surface3dRequest blockEngine idleKernel hillArgs (-1, 0) (some (1, 0)) [blockFace.side ⟨3, -2⟩]) :=
  C123_surface_partial (idleKernel_side _) (blockEngine_side _) (m := 3) (n := -2) (by norm_num) _ _ _ _ _

example : (match surface3d blockEngine idleKernel hillArgs (-1, 0) (some (1, 0)) [blockFace] demoInit,
      surface3d blockEngine idleKernel hillArgs (-1, 0) (some (1, 0)) [blockFace.side ⟨3, -2⟩] demoInit with
    | .ok cs, .ok cs' => decide (cs ≠ cs' ∧ cs' = cs.map (Motion.side ⟨3, -2⟩))
    | _, _ => false) = true := by decide +kernel

/-- C123 fails for 3D surfacing: moving the part by half a unit along Y changes the number of moves, because scan lines start at
a coordinate rounded down to a whole number. -/
theorem C123_violated_surface : ∃ (s : Pt) (eng : SurfaceEngine) (k : FaceKernel) (args : SurfaceArgs) (b : BoundaryFace) (j : Job)
    (cs cs' : List Motion), s = ⟨0, 1 / 2⟩ ∧ SurfaceSide s eng eng ∧ FaceKernelSide s k ∧ j.operations = [] ∧
    (surface3dRequest eng k args (-1, 0) (some (1, 0)) [b]).gen j = .ok cs ∧
    (surface3dRequest eng k args (-1, 0) (some (1, 0)) [b.side s]).gen j = .ok cs' ∧ cs'.length < cs.length := by
  have h : (match surface3d blockEngine idleKernel hillArgs (-1, 0) (some (1, 0)) [blockFace] demoInit,
      surface3d blockEngine idleKernel hillArgs (-1, 0) (some (1, 0)) [blockFace.side ⟨0, 1 / 2⟩] demoInit with
    | .ok cs, .ok cs' => decide (cs'.length < cs.length)
    | _, _ => false) = true := by decide +kernel
  cases h1 : surface3d blockEngine idleKernel hillArgs (-1, 0) (some (1, 0)) [blockFace] demoInit with
  | error e => rw [h1] at h; cases h
  | ok cs =>
    cases h2 : surface3d blockEngine idleKernel hillArgs (-1, 0) (some (1, 0)) [blockFace.side ⟨0, 1 / 2⟩] demoInit with
    | error e => rw [h1, h2] at h; cases h
    | ok cs' =>
      rw [h1, h2] at h
      exact ⟨⟨0, 1 / 2⟩, blockEngine, idleKernel, hillArgs, blockFace, demoInit, cs, cs', rfl, blockEngine_side _, idleKernel_side _,
        rfl, h1, h2, of_decide_eq_true h⟩

/-! ### On the machine -/

/-- The pocket and the pocket moved by (3/2, -4), run on the machine: move by move, the second run is beside the first. -/
example : ∃ t t' m1 m1' a b c a' b' c' evss evss', runText {} t = some (m1, a :: (evss.flatten ++ [b, c])) ∧
    runText {} t' = some (m1', a' :: (evss'.flatten ++ [b', c'])) ∧ evss.length = 1 ∧
    List.Forall₂ (fun evs evs' => List.Forall₂ (MovesBeside ⟨3 / 2, -4⟩) (evs.filter isMove) (evs'.filter isMove)) evss evss' := by
  obtain ⟨cs, -, hr, hc⟩ := call_good (j := placedJob) (r := pocketPlacedRequest boxEngine exactEq levelBox 50 [⟨placedSquare, []⟩] [] {} none)
    rfl rfl (by unfold SafeName; decide) (by decide +kernel)
  obtain ⟨cs', -, hr', hc'⟩ := call_good (j := placedJob) (r := sidePocket (Frame.xy.slide ⟨3 / 2, -4⟩))
    rfl rfl (by unfold SafeName; decide) (by decide +kernel)
  have hchain : placedJob.chain [pocketPlacedRequest boxEngine exactEq levelBox 50 [⟨placedSquare, []⟩] [] {} none] =
      .ok (placedJob.addOperation "Pocket".toList (cs.map .motion)) := by
    simp only [Job.chain, hc]
    rfl
  obtain ⟨jf', t, t', m1, m1', a, b, c, a', b', c', evss, evss', -, -, -, q1, q2, q3, -, -, q4⟩ :=
    C123_machine {} (j0 := placedJob) (rs := [pocketPlacedRequest boxEngine exactEq levelBox 50 [⟨placedSquare, []⟩] [] {} none])
      (rs' := [sidePocket (Frame.xy.slide ⟨3 / 2, -4⟩)]) ⟨rfl, by unfold SafeName; decide, numOK_int _, by rintro v ⟨⟩⟩
      (by rintro v ⟨⟩) ⟨hr, fun _ _ => trivial⟩ ⟨hr', fun _ _ => trivial⟩
      (.cons (C123_pocket (f := Frame.xy) xy_square (boxEngine_side _) (exactEq_side _)
        (fun o is => by simp only [levelBox, lowest_side]) 50 [⟨placedSquare, []⟩] [] {} none) .nil) hchain rfl (by rintro n ⟨⟩)
  exact ⟨t, t', m1, m1', a, b, c, a', b', c', evss, evss', q1, q2, q3, q4⟩

end CQ
