import Verif.Props.UnitsProfile
import Verif.Props.UnitsMachine
import Verif.Props.ShiftExample

/-! # C134: instances and violations -/

namespace CQ

/-- Millimetres to inches, feeds rounded to inches per minute. -/
def toInches : Units where
  c := 5 / 127
  pos := by norm_num
  feed := fun f => .int ⌊f.value * (5 / 127)⌋
  unit := .imperial
  precision := 3

/-- Twice the area to the left of straight edges. -/
def edgesArea (w : List Edge) : ℚ :=
  (w.map (fun e => (e.travel 0).x * (e.travel 1).y - (e.travel 1).x * (e.travel 0).y)).sum

/-- A kernel for wires of horizontal straight edges that knows their area. -/
def polyCad : Cad := { flatCad with area := fun w => .ok (|edgesArea w| / 2) }

theorem travel_conv (κ : Units) (e : Edge) (t : ℚ) : (e.conv κ).travel t = (e.travel t).conv κ := by
  unfold Edge.travel
  rfl

theorem edgesArea_conv (κ : Units) (w : List Edge) : edgesArea (w.map (Edge.conv κ)) = κ.c ^ 2 * edgesArea w := by
  unfold edgesArea
  induction w with
  | nil => simp
  | cons e w ih =>
    simp only [List.map_cons, List.sum_cons, ih, travel_conv, Vec.conv]
    ring

theorem lowest_conv (κ : Units) (w : List Edge) : lowest (w.map (Edge.conv κ)) = κ.c * lowest w := by
  induction w with
  | nil => simp [lowest]
  | cons e w ih =>
    cases w with
    | nil => simp [lowest, travel_conv, Vec.conv]
    | cons e2 w =>
      simp only [List.map_cons, lowest] at ih ⊢
      rw [ih, travel_conv, mul_min_of_nonneg _ _ κ.pos.le]
      rfl

theorem polyCad_units (κ : Units) : CadUnits κ polyCad where
  veq := by
    intro a b
    change exactEq _ _ = exactEq _ _
    unfold exactEq
    rw [decide_eq_decide]
    exact (vec_conv_inj κ).eq_iff
  search := fun _ _ => rfl
  offset2D := fun _ _ => rfl
  area := by
    intro w
    change Except.ok _ = Except.ok _
    rw [edgesArea_conv, abs_mul, abs_of_pos (pow_pos κ.pos 2), mul_div_assoc]
  relocate := fun _ _ => rfl
  zmin := lowest_conv κ
  wireLength := by
    intro w
    change ((w.map (Edge.conv κ)).map Edge.length).sum = κ.c * (w.map Edge.length).sum
    induction w with
    | nil => simp
    | cons e w ih =>
      simp only [List.map_cons, List.sum_cons, ih, mul_add]
      rfl
  assemble := fun _ => rfl

theorem polyCad_plain : KeepsPlain polyCad where
  offset2D := by
    intro w o ws hw h v hv
    cases h
    rw [List.mem_singleton.mp hv]
    exact hw
  relocate := fun _ _ h => h
  assemble := by
    intro es w hes h
    cases h
    exact hes

theorem polyCad_hits : HitsAlike polyCad := by
  intro v e es d e' p h
  cases h

theorem polyCad_cut (κ : Units) : CutUnits κ Frame.xy polyCad := by
  intro w
  have hin : ∀ e : Edge, inPlane (Frame.xy.conv κ) (e.conv κ) = inPlane Frame.xy e := by
    intro e
    simp [inPlane, travel_conv, Frame.xy, Frame.conv, Vec.sub, Vec.dot, Vec.conv, κ.pos.ne']
  have hz : ∀ e : Edge, ((e.conv κ).travel 0).z < 0 ↔ (e.travel 0).z < 0 := by
    intro e
    rw [travel_conv]
    simp only [Vec.conv]
    constructor
    · intro h; by_contra hn; exact absurd h (not_lt.mpr (mul_nonneg κ.pos.le (not_lt.mp hn)))
    · exact fun h => mul_neg_of_pos_of_neg κ.pos h
  simp only [polyCad, flatCad, List.mem_filter, List.mem_map]
  constructor
  · rintro ⟨_, ⟨⟨e, he, rfl⟩, h1⟩, h2⟩
    exact ⟨e, ⟨he, by rw [← hin e]; exact h1⟩, (hz e).mp h2⟩
  · rintro ⟨e, ⟨he, h1⟩, h2⟩
    exact ⟨e.conv κ, ⟨⟨e, he, rfl⟩, by rw [hin e]; exact h1⟩, (hz e).mpr h2⟩

/-- A square plate of 25.4 mm, 6 mm deep. -/
def inchPlate : List Edge :=
  let l : ℚ := 127 / 5
  [lineEdge 1 ⟨0, 0⟩ ⟨l, 0⟩ (-6) l, lineEdge 2 ⟨l, 0⟩ ⟨l, l⟩ (-6) l, lineEdge 3 ⟨l, l⟩ ⟨0, l⟩ (-6) l, lineEdge 4 ⟨0, l⟩ ⟨0, 0⟩ (-6) l]

/-- A square plate of 7.62 mm, 1 mm deep. -/
def smallPlate : List Edge :=
  let l : ℚ := 381 / 50
  [lineEdge 1 ⟨0, 0⟩ ⟨l, 0⟩ (-1) l, lineEdge 2 ⟨l, 0⟩ ⟨l, l⟩ (-1) l, lineEdge 3 ⟨l, l⟩ ⟨0, l⟩ (-1) l, lineEdge 4 ⟨0, l⟩ ⟨0, 0⟩ (-1) l]

theorem inchPlate_plain : PlainWire inchPlate := by
  intro e he
  simp only [inchPlate, List.mem_cons, List.not_mem_nil, or_false] at he
  rcases he with rfl | rfl | rfl | rfl <;> exact ⟨by decide, by decide, by decide⟩

theorem inchPlate_free : ToleranceFree toInches polyCad inchPlate 0 (some 2) where
  first := by intro h; cases h
  area := by
    intro ws h v hv a ha
    cases h
    rw [List.mem_singleton.mp hv] at ha
    have e : polyCad.area inchPlate = .ok (127 / 5 * (127 / 5)) := by
      change Except.ok _ = Except.ok _
      congr 1
      decide +kernel
    rw [e] at ha
    cases ha
    norm_num [toInches]
  thin := by
    intro ws h v hv b hb d hd i
    cases h
    cases hd
    have hbw : b = inchPlate := by
      rcases hb with rfl | ⟨u, rfl⟩ <;> exact List.mem_singleton.mp hv
    have e : polyCad.zmin (inchPlate.map (Edge.up (2 * (i + 1)))) = -6 + 2 * (i + 1) := by
      simp [polyCad, flatCad, inchPlate, lowest, Edge.up, Edge.travel, lineEdge, Vec.up]
    rw [hbw, e]
    rcases Nat.lt_or_ge i 2 with h | h
    · have : i = 0 ∨ i = 1 := by omega
      rcases this with rfl | rfl <;> norm_num [toInches]
    · have : (2 : ℚ) ≤ i := by exact_mod_cast h
      simp only [toInches]
      constructor <;> intro _ <;> nlinarith

/-- The plate of one inch with a stepdown of 2 mm and four tabs, in millimetres and in inches. -/
example : UnitWork toInches millJob (wireProfileRequest polyCad [inchPlate] 0 (some 2) (some (.wire ⟨4, 3, 1⟩)) none)
    (wireProfileRequest polyCad [inchPlate.map (Edge.conv toInches)] 0 (some (5 / 127 * 2))
      (some (.wire ⟨4, 5 / 127 * 3, 5 / 127 * 1⟩)) none) :=
  C134_wire_profile_partial (polyCad_units toInches) polyCad_plain polyCad_hits millJob (wires := [inchPlate])
    (fun w hw => by rw [List.mem_singleton.mp hw]; exact inchPlate_plain) (tool := none)
    (.inr (.inr (polyCad_cut toInches)))
    (fun w hw r _ => by
      rw [List.mem_singleton.mp hw]
      have e : inchPlate.map (Edge.toLocal Frame.xy) = inchPlate := by
        rw [show Edge.toLocal Frame.xy = id from funext toLocal_xy, List.map_id]
      change ToleranceFree toInches polyCad (inchPlate.map (Edge.toLocal Frame.xy)) (0 * r) (some 2)
      rw [e, zero_mul]
      exact inchPlate_free)
    (some (.wire ⟨4, 3, 1⟩))

/-- C134 is false.  A plate of 7.62 mm is cut by a job in millimetres.  The same job in inches is accepted, and cuts nothing: the
plate has less than 0.1 square inches. -/
theorem C134_violated_small : ∃ (κ : Units) (cad : Cad) (j : Job) (w : List Edge) (j1 j2 : Job) (o1 o2 : Operation),
    κ.c = 10 / 254 ∧ κ.unit = .imperial ∧ CadUnits κ cad ∧ KeepsPlain cad ∧ HitsAlike cad ∧ PlainWire w ∧
    (j.call (wireProfileRequest cad [w] 0 none none none)).2 = .ok j1 ∧
    ((j.conv κ).call (wireProfileRequest cad [w.map (Edge.conv κ)] 0 none none none)).2 = .ok j2 ∧
    j1.operations = [o1] ∧ j2.operations = [o2] ∧ o1.commands.length = 8 ∧ o2.commands = [] := by
  have h : (match (millJob.call (wireProfileRequest polyCad [smallPlate] 0 none none none)).2,
        ((millJob.conv toInches).call (wireProfileRequest polyCad [smallPlate.map (Edge.conv toInches)] 0 none none none)).2 with
      | .ok j1, .ok j2 => (match j1.operations, j2.operations with
          | [o1], [o2] => decide (o1.commands.length = 8 ∧ o2.commands = [])
          | _, _ => false)
      | _, _ => false) = true := by decide +kernel
  cases h1 : (millJob.call (wireProfileRequest polyCad [smallPlate] 0 none none none)).2 with
  | error e => rw [h1] at h; cases h
  | ok j1 =>
    cases h2 : ((millJob.conv toInches).call (wireProfileRequest polyCad [smallPlate.map (Edge.conv toInches)] 0 none none none)).2 with
    | error e => rw [h1, h2] at h; cases h
    | ok j2 =>
      rw [h1, h2] at h
      simp only at h
      split at h
      · rename_i o1 o2 e1 e2
        have h := of_decide_eq_true h
        refine ⟨toInches, polyCad, millJob, smallPlate, j1, j2, o1, o2, by norm_num [toInches], rfl, polyCad_units _, polyCad_plain,
          polyCad_hits, ?_, h1, h2, e1, e2, h.1, h.2⟩
        intro e he
        simp only [smallPlate, List.mem_cons, List.not_mem_nil, or_false] at he
        rcases he with rfl | rfl | rfl | rfl <;> exact ⟨by decide, by decide, by decide⟩
      · cases h

/-- A square plate of 25.4 mm, 2.01 mm deep. -/
def shallowPlate : List Edge := inchPlate.map (Edge.up (399 / 100))

/-- The depths of the cuts of an operation that end a plunge. -/
def plungeDepths (o : Operation) : List (Option ℚ) :=
  o.commands.filterMap (fun | .motion m => if m.kind = .plungeCut then some m.fin.z else none | _ => none)

/-- C134 fails for passes that end just below the surface: a plate 2.01 mm deep with a stepdown of 1 mm is cut in three passes by a
job in millimetres, and in two by the same job in inches. -/
theorem C134_violated_pass : ∃ (κ : Units) (cad : Cad) (j : Job) (w : List Edge) (j1 j2 : Job) (o1 o2 : Operation),
    κ.c = 10 / 254 ∧ κ.unit = .imperial ∧ CadUnits κ cad ∧ KeepsPlain cad ∧ HitsAlike cad ∧ CutUnits κ j.top cad ∧ PlainWire w ∧
    (j.call (wireProfileRequest cad [w] 0 (some 1) none none)).2 = .ok j1 ∧
    ((j.conv κ).call (wireProfileRequest cad [w.map (Edge.conv κ)] 0 (some (κ.c * 1)) none none)).2 = .ok j2 ∧
    j1.operations = [o1] ∧ j2.operations = [o2] ∧ plungeDepths o1 = [some (-1 / 100), some (-101 / 100), some (-201 / 100)] ∧
    plungeDepths o2 = [some (κ.c * (-101 / 100)), some (κ.c * (-201 / 100))] := by
  have h : (match (millJob.call (wireProfileRequest polyCad [shallowPlate] 0 (some 1) none none)).2,
        ((millJob.conv toInches).call (wireProfileRequest polyCad [shallowPlate.map (Edge.conv toInches)] 0
          (some (toInches.c * 1)) none none)).2 with
      | .ok j1, .ok j2 => (match j1.operations, j2.operations with
          | [o1], [o2] => decide (plungeDepths o1 = [some (-1 / 100), some (-101 / 100), some (-201 / 100)] ∧
              plungeDepths o2 = [some (toInches.c * (-101 / 100)), some (toInches.c * (-201 / 100))])
          | _, _ => false)
      | _, _ => false) = true := by decide +kernel
  cases h1 : (millJob.call (wireProfileRequest polyCad [shallowPlate] 0 (some 1) none none)).2 with
  | error e => rw [h1] at h; cases h
  | ok j1 =>
    cases h2 : ((millJob.conv toInches).call (wireProfileRequest polyCad [shallowPlate.map (Edge.conv toInches)] 0
        (some (toInches.c * 1)) none none)).2 with
    | error e => rw [h1, h2] at h; cases h
    | ok j2 =>
      rw [h1, h2] at h
      simp only at h
      split at h
      · rename_i o1 o2 e1 e2
        have h := of_decide_eq_true h
        exact ⟨toInches, polyCad, millJob, shallowPlate, j1, j2, o1, o2, by norm_num [toInches], rfl, polyCad_units _, polyCad_plain,
          polyCad_hits, polyCad_cut _, plain_up inchPlate_plain _, h1, h2, e1, e2, h.1, h.2⟩
      · cases h

/-- An edge that is a spline: here a straight one, 25.4 mm long. -/
def splineEdge : Edge := { lineEdge 1 ⟨0, 0⟩ ⟨127 / 5, 0⟩ (-1) (127 / 5) with geom := .bspline }

/-- C134 fails for splines, which are cut in steps of a fixed number of units: with a precision of 0 digits, a spline of 25.4 mm is
cut in 25 moves by a job in millimetres, and in two by the same job in inches. -/
theorem C134_violated_spline : ∃ (κ : Units) (veq : Vec → Vec → Bool) (e : Edge) (cs cs' : List Motion) (v v' : Vec),
    κ.c = 10 / 254 ∧ κ.unit = .imperial ∧ routeEdge veq e 0 none none none = .ok (cs, v) ∧
    routeEdge veq (e.conv κ) 0 none none none = .ok (cs', v') ∧ v' = v.conv κ ∧ cs.length = 25 ∧ cs'.length = 2 :=
  ⟨toInches, exactEq, splineEdge, _, _, _, _, by norm_num [toInches], rfl, rfl, rfl, rfl, by decide +kernel, by decide +kernel⟩

/-- Four holes in millimetres and in inches. -/
example : UnitWork toInches (drillJob ⟨0, 0, 0⟩) (drillRequest drillCenter (some drillObjs) (some 3) none)
      (drillRequest drillCenter (some (drillObjs.map (DrillObj.conv toInches))) (some (5 / 127 * 3)) none) ∧
    (match drill drillCenter (some (drillObjs.map (DrillObj.conv toInches))) (some (5 / 127 * 3)) ((drillJob ⟨0, 0, 0⟩).conv toInches) with
      | .ok cs => decide (workedAt cs = [(some 0, some 0), (some (10 / 127), some (5 / 127)), (some (50 / 127), some 0), (some (50 / 127), some 0)])
      | .error _ => false) = true :=
  ⟨C134_drill (κ := toInches) (fun w => by cases w <;> rfl) _ (some drillObjs) (some 3) none, by decide +kernel⟩

/-- Drilling the holes in millimetres and in inches, run on the machine: move by move, the second run is the first in inches. -/
example : ∃ t t' m1 m1' a b c a' b' c' evss evss', runText {} t = some (m1, a :: (evss.flatten ++ [b, c])) ∧
    runText {} t' = some (m1', a' :: (evss'.flatten ++ [b', c'])) ∧ evss.length = 1 ∧
    List.Forall₂ (fun evs evs' => List.Forall₂ (MovesScaled (5 / 127)) (evs.filter isMove) (evs'.filter isMove)) evss evss' := by
  obtain ⟨cs, -, hr, hc⟩ := call_good (j := drillJob ⟨0, 0, 0⟩) (r := drillRequest drillCenter (some drillObjs) (some 3) none)
    rfl rfl (by unfold SafeName; decide) (by decide +kernel)
  obtain ⟨cs', -, hr', hc'⟩ := call_good (j := (drillJob ⟨0, 0, 0⟩).conv toInches)
    (r := drillRequest drillCenter (some (drillObjs.map (DrillObj.conv toInches))) (some (5 / 127 * 3)) none)
    rfl rfl (by unfold SafeName; decide) (by decide +kernel)
  have hchain : (drillJob ⟨0, 0, 0⟩).chain [drillRequest drillCenter (some drillObjs) (some 3) none] =
      .ok ((drillJob ⟨0, 0, 0⟩).addOperation "Drill".toList (cs.map .motion)) := by
    simp only [Job.chain, hc]
    rfl
  obtain ⟨jf', t, t', m1, m1', a, b, c, a', b', c', evss, evss', -, -, -, q1, q2, q3, -, -, q4⟩ :=
    C134_machine {} (κ := toInches) (j0 := drillJob ⟨0, 0, 0⟩) (rs := [drillRequest drillCenter (some drillObjs) (some 3) none])
      (rs' := [drillRequest drillCenter (some (drillObjs.map (DrillObj.conv toInches))) (some (5 / 127 * 3)) none])
      ⟨rfl, by unfold SafeName; decide, numOK_int _, by rintro v ⟨⟩⟩ ⟨rfl, by unfold SafeName; decide, numOK_int _, by rintro v ⟨⟩⟩
      (by rintro v ⟨⟩) ⟨hr, fun _ _ => trivial⟩ ⟨hr', fun _ _ => trivial⟩
      (.cons (C134_drill (κ := toInches) (fun w => by cases w <;> rfl) _ (some drillObjs) (some 3) none) (fun _ _ => .nil _))
      hchain rfl (by rintro n ⟨⟩)
  exact ⟨t, t', m1, m1', a, b, c, a', b', c', evss, evss', q1, q2, q3, q4⟩

end CQ
