import Verif.Spec.Placement
import Verif.Props.Profile
import Verif.Props.Drill
import Mathlib.Tactic.LinearCombination

/-! # C107: the program does not depend on where the part is in the world -/

namespace CQ

theorem Rigid.dot_dir (g : Rigid) (a b : Vec) : (g.dir a).dot (g.dir b) = a.dot b := by
  have h1 := g.unitX; have h2 := g.unitY; have h3 := g.unitZ
  have h4 := g.perpXY; have h5 := g.perpXZ; have h6 := g.perpYZ
  simp only [Rigid.dir, Vec.dot, Vec.add, Vec.smul] at *
  linear_combination (a.x * b.x) * h1 + (a.y * b.y) * h2 + (a.z * b.z) * h3 + (a.x * b.y + a.y * b.x) * h4 +
    (a.x * b.z + a.z * b.x) * h5 + (a.y * b.z + a.z * b.y) * h6

theorem Rigid.sub_point (g : Rigid) (a b : Vec) : (g.point a).sub (g.point b) = g.dir (a.sub b) := by
  simp only [Rigid.point, Rigid.dir, Vec.sub, Vec.add, Vec.smul, Vec.mk.injEq]
  refine ⟨?_, ?_, ?_⟩ <;> ring

/-- The coordinates of a point on a plane do not change when both are moved. -/
theorem Rigid.toLocal (g : Rigid) (f : Frame) (p : Vec) : (g.frame f).toLocal (g.point p) = f.toLocal p := by
  simp only [Frame.toLocal, Rigid.frame, g.sub_point, g.dot_dir]

theorem Rigid.toLocalDir (g : Rigid) (f : Frame) (d : Vec) : (g.frame f).toLocalDir (g.dir d) = f.toLocalDir d := by
  simp only [Frame.toLocalDir, Rigid.frame, g.dot_dir]

theorem Rigid.edge_toLocal (g : Rigid) (f : Frame) (e : Edge) : Edge.toLocal (g.frame f) (g.edge e) = Edge.toLocal f e := by
  simp only [Edge.toLocal, Rigid.edge, g.toLocal, g.toLocalDir]

theorem Rigid.wire_toLocal (g : Rigid) (f : Frame) (w : List Edge) :
    (w.map g.edge).map (Edge.toLocal (g.frame f)) = w.map (Edge.toLocal f) := by
  simp only [List.map_map]
  exact List.map_congr_left fun e _ => g.edge_toLocal f e

/-! ### The whole program -/

theorem updateTool_frame (j : Job) (g : Rigid) (t : Option Tool) :
    ((g.job j).updateTool t).2 = g.job (j.updateTool t).2 ∧ ((j.updateTool t).2).top = j.top := by
  cases t with
  | none => exact ⟨rfl, rfl⟩
  | some t =>
    have hs : (g.job j).settings.inherit (some t) = j.settings.inherit (some t) := rfl
    have h1 := updateTool_some j t
    have h2 := updateTool_some (g.job j) t
    simp only [hs] at h1 h2
    generalize j.settings.inherit (some t) = s at h1 h2
    have hA : needsToolChange (g.job j) s ↔ needsToolChange j s := Iff.rfl
    have hB : needsSpeedChange (g.job j) s ↔ needsSpeedChange j s := Iff.rfl
    rcases h1 with ⟨a, e⟩ | ⟨a, b, e⟩ | ⟨a, b, e⟩ <;> rcases h2 with ⟨a', e'⟩ | ⟨a', b', e'⟩ | ⟨a', b', e'⟩ <;>
      first | (exfalso; tauto) | (rw [e, e']; exact ⟨rfl, rfl⟩)

theorem call_frame {g : Rigid} {j : Job} {r r' : Request} (h : SameWork g j.top r r') :
    ((g.job j).call r').2 = (j.call r).2.map g.job ∧ ∀ j', (j.call r).2 = .ok j' → j'.top = j.top := by
  obtain ⟨h1, h2⟩ := updateTool_frame j g r.tool
  simp only [Job.call, h.tool, h.name, h.pre j rfl, h1, h.gen _ h2]
  cases hp : r.pre j with
  | error e => exact ⟨rfl, fun j' hj => by cases hj⟩
  | ok _ =>
    cases hg : r.gen (j.updateTool r.tool).2 with
    | error e => exact ⟨rfl, fun j' hj => by cases hj⟩
    | ok cs => exact ⟨rfl, fun j' hj => by cases hj; exact h2⟩

theorem chain_frame {g : Rigid} {rs rs' : List Request} : ∀ {j : Job}, List.Forall₂ (SameWork g j.top) rs rs' →
    (g.job j).chain rs' = (j.chain rs).map g.job := by
  induction rs generalizing rs' with
  | nil => intro j h; cases h; rfl
  | cons r rs ih =>
    intro j h
    cases h with
    | cons hr hrs =>
      obtain ⟨h1, h2⟩ := call_frame hr
      simp only [Job.chain, h1]
      cases hc : (j.call r).2 with
      | error e => rfl
      | ok j' =>
        simp only [Except.map]
        rw [← h2 j' hc] at hrs
        exact ih hrs

/-- C107.  If every call does the same work after moving part and plane, the moved chain of calls is accepted or refused
like the original one, and the program it writes is the same text. -/
theorem C107_program {g : Rigid} {j : Job} {rs rs' : List Request} (h : List.Forall₂ (SameWork g j.top) rs rs') :
    ((g.job j).chain rs').map Job.toGcode = (j.chain rs).map Job.toGcode := by
  rw [chain_frame h]
  cases j.chain rs <;> rfl

/-! ### Routers do not look at the plane -/

theorem Rigid.job_fields (g : Rigid) (j : Job) : (g.job j).top = g.frame j.top ∧ (g.job j).feed = j.feed ∧
    (g.job j).precision = j.precision ∧ (g.job j).rapidHeight = j.rapidHeight ∧ (g.job j).opSafeHeight = j.opSafeHeight ∧
    (g.job j).plungeFeed = j.plungeFeed ∧ (g.job j).toolRadius = j.toolRadius ∧ (g.job j).toolDiameter = j.toolDiameter :=
  ⟨rfl, rfl, rfl, rfl, rfl, rfl, rfl, rfl⟩

theorem routeEdges_frame (g : Rigid) (veq : Vec → Vec → Bool) (j : Job) (fin : Vec) (es : List Edge) :
    routeEdges veq (g.job j) fin es = routeEdges veq j fin es := by
  induction es generalizing fin with
  | nil => rfl
  | cons e es ih => simp only [routeEdges, ih, g.job_fields]

theorem routeWire_frame (g : Rigid) (veq : Vec → Vec → Bool) (j : Job) (stepover : Option ℚ) (hit : Option WireHit)
    (pos : AddrVec) (es : List Edge) : routeWire veq (g.job j) stepover hit pos es = routeWire veq j stepover hit pos es := by
  simp only [routeWire, routeEdges_frame, enterWire, g.job_fields]

theorem routeWires_frame (g : Rigid) (veq : Vec → Vec → Bool) (search : Vec → List Edge → Option WireHit) (j : Job)
    (wires : List (List Edge)) (stepover : Option ℚ) (pos : Option AddrVec) :
    routeWires veq search (g.job j) wires stepover pos = routeWires veq search j wires stepover pos := by
  unfold routeWires
  generalize ([] : List Motion) = acc
  generalize (none : Option Vec) = pwe
  generalize pos.getD {} = p
  induction wires generalizing acc pwe p with
  | nil => simp only [routeWiresFrom]
  | cons w ws ih =>
    cases w with
    | nil => simp only [routeWiresFrom]
    | cons e es => simp only [routeWiresFrom, routeWire_frame, ih]

theorem cutsTo_frame (g : Rigid) (j : Job) (d : ℚ) (pos : AddrVec) (ps : List Pt) : cutsTo (g.job j) d pos ps = cutsTo j d pos ps := by
  induction ps generalizing pos with
  | nil => rfl
  | cons p ps ih => simp only [cutsTo, ih, cutTo, g.job_fields]

theorem routeFace_frame (g : Rigid) (j : Job) (stepover : Option ℚ) (pwe : Option Pt) (pos : AddrVec) (f : PathFace) :
    routeFace (g.job j) stepover pwe pos f = routeFace j stepover pwe pos f := by
  simp only [routeFace, cutsTo_frame, cutTo, g.job_fields]

theorem routeFaces_frame (g : Rigid) (j : Job) (stepover : Option ℚ) (pwe : Option Pt) (pos : AddrVec) (fs : List PathFace) :
    routeFaces (g.job j) stepover pwe pos fs = routeFaces j stepover pwe pos fs := by
  induction fs generalizing pwe pos with
  | nil => rfl
  | cons f fs ih => simp only [routeFaces, routeFace_frame, ih]

theorem routeSequences_frame (g : Rigid) (j : Job) (stepover : ℚ) (commands : List Motion) (pos : AddrVec)
    (ss : List (List PathFace)) : routeSequences (g.job j) stepover commands pos ss = routeSequences j stepover commands pos ss := by
  induction ss generalizing commands pos with
  | nil => rfl
  | cons s ss ih => simp only [routeSequences, routePolyfaceOuters, routeFaces_frame, ih]

theorem pocket_frame (g : Rigid) (eng : Clipper) (veq : Vec → Vec → Bool) (fuel : ℕ) (ops avoids : List CqFace) (a : PocketArgs)
    (j : Job) : pocket eng veq fuel ops avoids a (g.job j) = pocket eng veq fuel ops avoids a j := by
  simp only [pocket, pocketClipper, routeSequences_frame, g.job_fields]

/-! ### Profiles -/

theorem mapE_congr {α β : Type} {f f' : α → Except Err β} {l : List α} (h : ∀ a ∈ l, f a = f' a) : mapE f l = mapE f' l := by
  induction l with
  | nil => rfl
  | cons a l ih =>
    simp only [mapE, h a (by simp), ih fun b hb => h b (by simp [hb])]

theorem mapE_map {α β γ : Type} (f : β → Except Err γ) (m : α → β) (l : List α) :
    mapE f (l.map m) = mapE (fun a => f (m a)) l := by
  induction l with
  | nil => rfl
  | cons a l ih => simp only [List.map_cons, mapE, ih]

/-- The plane has no say in the passes of a profile: there is one pass only, or cutting with the plane never removes a whole
pass, neither before nor after moving it. -/
def PlaneAside (cad : Cad) (f f' : Frame) (stepdown : Option ℚ) : Prop :=
  stepdown = none ∨ stepdown = some 0 ∨ KeepsBelow cad f ∧ KeepsBelow cad f'

theorem stepLayers_frame {cad : Cad} {f f' : Frame} (h : KeepsBelow cad f) (h' : KeepsBelow cad f') (base : List Edge) (s : ℚ)
    (n i : ℕ) : stepLayers cad f' base s n i = stepLayers cad f base s n i := by
  induction n generalizing i with
  | zero => rfl
  | succ n ih =>
    simp only [stepLayers, ih]
    split
    · rfl
    · rename_i hz
      rw [not_le] at hz
      rw [leftBelow_iff.mpr (h _ hz), leftBelow_iff.mpr (h' _ hz)]

theorem profileLayers_frame {cad : Cad} {f f' : Frame} {stepdown : Option ℚ} (h : PlaneAside cad f f' stepdown)
    (base : List Edge) : profileLayers cad f' base stepdown = profileLayers cad f base stepdown := by
  rcases h with rfl | rfl | ⟨h, h'⟩
  · rfl
  · rfl
  · cases stepdown with
    | none => rfl
    | some s => simp only [profileLayers, stepLayers_frame h h']

theorem profile_frame {cad : Cad} {g : Rigid} {j : Job} {stepdown : Option ℚ}
    (h : PlaneAside cad j.top (g.frame j.top) stepdown) (wire : List Edge) (offset : ℚ) (tabs : Option Tabs) :
    profile cad (g.job j) (wire.map g.edge) offset stepdown tabs = profile cad j wire offset stepdown tabs := by
  have hf : profileFeature cad (g.frame j.top) stepdown tabs = profileFeature cad j.top stepdown tabs := by
    funext base
    simp only [profileFeature, profileLayers_frame h]
  have hw : profileWires cad (g.job j) (wire.map g.edge) offset stepdown tabs = profileWires cad j wire offset stepdown tabs := by
    simp only [profileWires, g.job_fields, g.wire_toLocal, hf]
  simp only [profile, hw, routeWires_frame]

theorem profiles_frame {cad : Cad} {g : Rigid} {j : Job} {stepdown : Option ℚ}
    (h : PlaneAside cad j.top (g.frame j.top) stepdown) (wires : List (List Edge)) (offset : ℚ) (tabs : Option Tabs) :
    profiles cad (g.job j) offset stepdown tabs (wires.map (List.map g.edge)) = profiles cad j offset stepdown tabs wires := by
  simp only [profiles, mapE_map, profile_frame h]

theorem extractWires_moved (g : Rigid) (shapes : List Shape) :
    extractWires (shapes.map g.shape) =
      (extractWires shapes).map (fun x => (x.1.map (List.map g.edge), x.2.map (List.map g.edge))) := by
  induction shapes with
  | nil => rfl
  | cons s ss ih =>
    cases s with
    | other => rfl
    | wire w =>
      simp only [List.map_cons, Rigid.shape, extractWires, ih]
      cases extractWires ss <;> rfl
    | face o is =>
      simp only [List.map_cons, Rigid.shape, extractWires, ih]
      cases extractWires ss with
      | error e => rfl
      | ok x => simp only [Except.map, ok_bind, List.map_cons, List.map_append]

theorem profilesOpt_frame {cad : Cad} {g : Rigid} {j : Job} {stepdown : Option ℚ}
    (h : PlaneAside cad j.top (g.frame j.top) stepdown) (wires : List (List Edge)) (offset : Option ℚ) (tabs : Option Tabs) :
    profilesOpt cad (g.job j) offset stepdown tabs (wires.map (List.map g.edge)) = profilesOpt cad j offset stepdown tabs wires := by
  cases offset with
  | none => rfl
  | some o => exact profiles_frame h wires o tabs

theorem profileRequest_pre (cad : Cad) (g : Rigid) (j : Job) (shapes : List Shape) (outerOffset innerOffset stepdown : Option ℚ)
    (tabs : Option Tabs) (tool : Option Tool) :
    (profileRequest cad (shapes.map g.shape) outerOffset innerOffset stepdown tabs tool).pre (g.job j) =
      (profileRequest cad shapes outerOffset innerOffset stepdown tabs tool).pre j := by
  have hpre : ∀ (ss : List Shape) (i : Job), (profileRequest cad ss outerOffset innerOffset stepdown tabs tool).pre i =
      if i.toolDiameter = none then .error .valueError
      else if outerOffset = none ∧ innerOffset = none then .error .valueError
      else (do
        let _ ← extractWires ss
        .ok ()) := fun _ _ => rfl
  rw [hpre, hpre, (g.job_fields j).2.2.2.2.2.2.2, extractWires_moved]
  cases extractWires shapes with
  | error e => simp only [Except.map, error_bind]
  | ok x => simp only [Except.map, ok_bind]

theorem profileRequest_gen (cad : Cad) (j : Job) (shapes : List Shape) (outerOffset innerOffset stepdown : Option ℚ)
    (tabs : Option Tabs) (tool : Option Tool) :
    (profileRequest cad shapes outerOffset innerOffset stepdown tabs tool).gen j = (do
      let x ← extractWires shapes
      let a ← profilesOpt cad j innerOffset stepdown tabs x.2
      let b ← profilesOpt cad j outerOffset stepdown tabs x.1
      .ok (a ++ b)) := rfl

/-- C107, for profiles (as far as it holds, see `C107_violated`).  A profile is the same work wherever the part is, if it is
made in one pass, or if the top plane does not cut a pass away (before and after the motion). -/
theorem C107_profile_partial {cad : Cad} {g : Rigid} {f : Frame} {stepdown : Option ℚ}
    (h : PlaneAside cad f (g.frame f) stepdown) (shapes : List Shape) (outerOffset innerOffset : Option ℚ)
    (tabs : Option Tabs) (tool : Option Tool) :
    SameWork g f (profileRequest cad shapes outerOffset innerOffset stepdown tabs tool)
      (profileRequest cad (shapes.map g.shape) outerOffset innerOffset stepdown tabs tool) where
  name := rfl
  tool := rfl
  pre := fun j _ => profileRequest_pre cad g j shapes outerOffset innerOffset stepdown tabs tool
  gen := by
    rintro j rfl
    rw [profileRequest_gen, profileRequest_gen, extractWires_moved]
    cases extractWires shapes with
    | error e => simp only [Except.map, error_bind]
    | ok x => simp only [Except.map, ok_bind, profilesOpt_frame h]

/-- C107, for wire profiles. -/
theorem C107_wire_profile_partial {cad : Cad} {g : Rigid} {f : Frame} {stepdown : Option ℚ}
    (h : PlaneAside cad f (g.frame f) stepdown) (wires : List (List Edge)) (offset : ℚ)
    (tabs : Option Tabs) (tool : Option Tool) :
    SameWork g f (wireProfileRequest cad wires offset stepdown tabs tool)
      (wireProfileRequest cad (wires.map (List.map g.edge)) offset stepdown tabs tool) where
  name := rfl
  tool := rfl
  pre := fun _ _ => rfl
  gen := by
    rintro j rfl
    exact profiles_frame h wires offset tabs

/-! ### Pockets -/

/-- C107, for pockets with any stepdown, offsets and avoid areas. -/
theorem C107_pocket (eng : Clipper) (veq : Vec → Vec → Bool) (box : List Edge → List (List Edge) → ℚ × ℚ) (fuel : ℕ)
    (g : Rigid) (f : Frame) (opAreas avoidAreas : List WorldFace) (a : PocketArgs) (tool : Option Tool) :
    SameWork g f (pocketPlacedRequest eng veq box fuel opAreas avoidAreas a tool)
      (pocketPlacedRequest eng veq box fuel (opAreas.map g.face) (avoidAreas.map g.face) a tool) where
  name := rfl
  tool := rfl
  pre := fun _ _ => rfl
  gen := by
    rintro j rfl
    have key : ∀ w : WorldFace, WorldFace.toJob box (g.frame j.top) (g.face w) = WorldFace.toJob box j.top w := by
      intro w
      have hi : (w.innerWires.map (List.map g.edge)).map (List.map (Edge.toLocal (g.frame j.top))) =
          w.innerWires.map (List.map (Edge.toLocal j.top)) := by
        rw [List.map_map]
        exact List.map_congr_left fun v _ => g.wire_toLocal j.top v
      simp only [WorldFace.toJob, Rigid.face, g.wire_toLocal, hi]
    have hl : ∀ ws : List WorldFace, (ws.map g.face).map (WorldFace.toJob box (g.frame j.top)) = ws.map (WorldFace.toJob box j.top) := by
      intro ws
      rw [List.map_map]
      exact List.map_congr_left fun w _ => key w
    simp only [pocketPlacedRequest, pocketPlaced]
    have ht : (g.job j).top = g.frame j.top := rfl
    rw [ht, hl, hl, pocket_frame]

/-! ### Instances and violations -/

/-- A quarter turn about an axis along X, and a shift. -/
def tilt : Rigid where
  shift := ⟨5, -7, 11⟩
  ex := ⟨1, 0, 0⟩
  ey := ⟨0, 0, 1⟩
  ez := ⟨0, -1, 0⟩
  unitX := by simp [Vec.dot]
  unitY := by simp [Vec.dot]
  unitZ := by simp [Vec.dot]
  perpXY := by simp [Vec.dot]
  perpXZ := by simp [Vec.dot]
  perpYZ := by simp [Vec.dot]

/-- The job of the instances. -/
def placedJob : Job := Job.init Frame.xy (.int 100) (toolDiameter := some 2)

/-- The square at depth 6. -/
def placedSquare : List Edge := innerSquare.map (Edge.up (-5))

/-- A profile of the square in one pass, before and after the quarter turn: both chains are accepted, and the programs (with
a cut at depth 6) are the same text. -/
example : ((tilt.job placedJob).chain [profileRequest flatCad [.wire (placedSquare.map tilt.edge)] (some 1) none none none none]).map
      Job.toGcode =
    (placedJob.chain [profileRequest flatCad [.wire placedSquare] (some 1) none none none none]).map Job.toGcode ∧
    (match placedJob.chain [profileRequest flatCad [.wire placedSquare] (some 1) none none none none] with
      | .ok j => decide ((j.operations.map (fun o => o.commands.length)) = [8]) | .error _ => false) = true :=
  ⟨C107_program (.cons (C107_profile_partial (.inl rfl) _ _ _ _ _) .nil), by decide +kernel⟩

/-- C107 fails for profiles with a stepdown: the plane the passes are cut with is the job's plane in world coordinates, the
passes are in job coordinates.  With the part on the world's XY plane there are six passes, the first one at depth 1.
Shifted down by 3 together with its plane, the same part gets three passes: the first cut is at depth 4. -/
theorem C107_violated : ∃ (g : Rigid) (j : Job) (w : List Edge) (cs cs' : List Motion), BoxMoves flatCad ∧ WireOK w ∧
    profile flatCad j w 1 (some 1) none = .ok cs ∧ profile flatCad (g.job j) (w.map g.edge) 1 (some 1) none = .ok cs' ∧
    (cs.filterMap (fun c => if c.kind = .plungeCut then c.fin.z else none)).head? = some (-1) ∧
    (cs'.filterMap (fun c => if c.kind = .plungeCut then c.fin.z else none)).head? = some (-4) := by
  have h : (match profile flatCad placedJob placedSquare 1 (some 1) none,
        profile flatCad ((Rigid.translation ⟨0, 0, -3⟩).job placedJob) (placedSquare.map (Rigid.translation ⟨0, 0, -3⟩).edge) 1
          (some 1) none with
      | .ok cs, .ok cs' => decide ((cs.filterMap (fun c => if c.kind = .plungeCut then c.fin.z else none)).head? = some (-1) ∧
          (cs'.filterMap (fun c => if c.kind = .plungeCut then c.fin.z else none)).head? = some (-4))
      | _, _ => false) = true := by decide +kernel
  cases h1 : profile flatCad placedJob placedSquare 1 (some 1) none with
  | error e => rw [h1] at h; cases h
  | ok cs =>
    cases h2 : profile flatCad ((Rigid.translation ⟨0, 0, -3⟩).job placedJob)
        (placedSquare.map (Rigid.translation ⟨0, 0, -3⟩).edge) 1 (some 1) none with
    | error e => rw [h1, h2] at h; cases h
    | ok cs' =>
      rw [h1, h2] at h
      exact ⟨_, _, _, cs, cs', flatCad_boxMoves, wireOK_up innerSquare_ok _, h1, h2, of_decide_eq_true h⟩

/-- C107 fails for drilling: shifting the part and its plane by 10 along X moves the hole by 20 in the program. -/
theorem C107_violated_drill : ∃ (g : Rigid) (j : Job) (v : Vec) (cs cs' : List Motion),
    drill drillCenter (some [.vector v]) (some 1) j = .ok cs ∧
    drill drillCenter (some [.vector (g.point v)]) (some 1) (g.job j) = .ok cs' ∧
    workedAt cs = [(some 1, some 0)] ∧ workedAt cs' = [(some 21, some 0)] := by
  have h : (match drill drillCenter (some [.vector ⟨1, 0, 0⟩]) (some 1) placedJob,
        drill drillCenter (some [.vector ((Rigid.translation ⟨10, 0, 0⟩).point ⟨1, 0, 0⟩)]) (some 1)
          ((Rigid.translation ⟨10, 0, 0⟩).job placedJob) with
      | .ok cs, .ok cs' => decide (workedAt cs = [(some 1, some 0)] ∧ workedAt cs' = [(some 21, some 0)])
      | _, _ => false) = true := by decide +kernel
  cases h1 : drill drillCenter (some [.vector ⟨1, 0, 0⟩]) (some 1) placedJob with
  | error e => rw [h1] at h; cases h
  | ok cs =>
    cases h2 : drill drillCenter (some [.vector ((Rigid.translation ⟨10, 0, 0⟩).point ⟨1, 0, 0⟩)]) (some 1)
        ((Rigid.translation ⟨10, 0, 0⟩).job placedJob) with
    | error e => rw [h1, h2] at h; cases h
    | ok cs' =>
      rw [h1, h2] at h
      exact ⟨_, _, _, cs, cs', h1, h2, of_decide_eq_true h⟩

end CQ
