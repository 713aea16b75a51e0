import Verif.Props.Turn
import Verif.Props.ShiftProfile

/-! # C136 for profiles -/

namespace CQ

/-! ### Edges -/

theorem toLocal_turned {f : Frame} (hf : f.Cube) (s : Turn) (p : Vec) : f.toLocal (f.turnPoint s p) = (f.toLocal p).turn s := by
  obtain ⟨⟨h1, h2, h3, h4, h5⟩, h6⟩ := hf
  unfold Frame.turnPoint
  generalize (f.toLocal p).turn s = v
  simp only [Frame.toWorld, Frame.toLocal, Vec.add, Vec.smul, Vec.sub, Vec.dot] at *
  ext
  · linear_combination v.x * h1 + v.y * h3 + v.z * h4
  · linear_combination v.x * h3 + v.y * h2 + v.z * h5
  · linear_combination v.x * h4 + v.y * h5 + v.z * h6

theorem toLocalDir_turned {f : Frame} (hf : f.Cube) (s : Turn) (k : ℚ) (p : Vec) :
    f.toLocalDir (Vec.smul k (f.turnDir s p)) = Vec.smul k ((f.toLocalDir p).turn s) := by
  obtain ⟨⟨h1, h2, h3, h4, h5⟩, h6⟩ := hf
  unfold Frame.turnDir
  generalize (f.toLocalDir p).turn s = v
  simp only [Frame.toLocalDir, Vec.add, Vec.smul, Vec.dot] at *
  ext
  · linear_combination k * (v.x * h1 + v.y * h3 + v.z * h4)
  · linear_combination k * (v.x * h3 + v.y * h2 + v.z * h5)
  · linear_combination k * (v.x * h4 + v.y * h5 + v.z * h6)

theorem edge_turned {f : Frame} (hf : f.Cube) (s : Turn) (e : Edge) :
    Edge.toLocal f (f.turnEdge s e) = (Edge.toLocal f e).turn s := by
  simp only [Edge.toLocal, Frame.turnEdge, Edge.turn, toLocal_turned hf]
  by_cases h : e.geom = .line
  · simp only [h, if_true]
  · simp only [h, if_false, toLocalDir_turned hf]

theorem wire_turned {f : Frame} (hf : f.Cube) (s : Turn) (w : List Edge) :
    (w.map (f.turnEdge s)).map (Edge.toLocal f) = (w.map (Edge.toLocal f)).map (Edge.turn s) := by
  simp only [List.map_map]
  exact List.map_congr_left fun e _ => edge_turned hf s e

@[simp] theorem turn_startPoint (s : Turn) (e : Edge) : edgeStartPoint (e.turn s) = (edgeStartPoint e).turn s := by
  unfold edgeStartPoint
  change (if e.reversed then _ else _) = _
  split <;> rfl

@[simp] theorem turn_endPoint (s : Turn) (e : Edge) : edgeEndPoint (e.turn s) = (edgeEndPoint e).turn s := by
  unfold edgeEndPoint
  change (if e.reversed then _ else _) = _
  split <;> rfl

theorem up_turn (dz : ℚ) (s : Turn) (e : Edge) : (e.turn s).up dz = (e.up dz).turn s := rfl

theorem map_up_turn (dz : ℚ) (s : Turn) (w : List Edge) :
    (w.map (Edge.turn s)).map (Edge.up dz) = (w.map (Edge.up dz)).map (Edge.turn s) := by
  simp only [List.map_map]
  exact List.map_congr_left fun e _ => up_turn dz s e

/-! ### Routing -/

theorem routeStart_turn (s : Turn) (e : Edge) (p : Option ℚ) : routeStart (e.turn s) p = (routeStart e p).turn s := by
  cases p with
  | none => exact turn_startPoint s e
  | some p => rfl

theorem routeEnd_turn (s : Turn) (e : Edge) (p : Option ℚ) : routeEnd (e.turn s) p = (routeEnd e p).turn s := by
  cases p with
  | none => exact turn_endPoint s e
  | some p => rfl

theorem cutsThroughPoints_turn (s : Turn) (f : Option PyNum) (pos : AddrVec) (vs : List Vec) :
    cutsThroughPoints f (pos.turn s) (vs.map (Vec.turn s)) = (cutsThroughPoints f pos vs).map (Motion.turn s) := by
  induction vs generalizing pos with
  | nil => rfl
  | cons v vs ih =>
    simp only [List.map_cons, cutsThroughPoints, fromVec_turn, cutVec_turn, ih]

theorem isArcClockwise2_turn (s : Turn) (n : Vec) (r : Bool) :
    isArcClockwise2 (Vec.smul s.det (n.turn s)) r = (isArcClockwise2 n r).map (fun b => if s.det < 0 then !b else b) := by
  have hz : (Vec.smul s.det (n.turn s)).z = s.det * n.z := rfl
  have hd := turn_det s
  unfold isArcClockwise2
  rw [hz]
  rcases mul_self_eq_one_iff.mp hd with h | h
  · have h0 : ¬ (1 : ℚ) < 0 := by norm_num
    simp only [h, one_mul, h0, if_false]
    cases hb : (if n.z = 0 then .error .runtimeError else if r then .ok (decide (0 < n.z)) else .ok (decide (n.z < 0)) : Except Err Bool) <;> rfl
  · have h0 : (-1 : ℚ) < 0 := by norm_num
    simp only [h, h0, if_true, neg_mul, one_mul, neg_eq_zero]
    by_cases hn : n.z = 0
    · simp only [hn, if_true]; rfl
    · simp only [hn, if_false]
      have e1 : decide (0 < -n.z) = !decide (0 < n.z) := by
        rw [← decide_not, decide_eq_decide]
        constructor
        · intro h; linarith
        · intro h; rcases lt_or_gt_of_ne hn with h' | h' <;> linarith
      have e2 : decide (-n.z < 0) = !decide (n.z < 0) := by
        rw [← decide_not, decide_eq_decide]
        constructor
        · intro h; linarith
        · intro h; rcases lt_or_gt_of_ne hn with h' | h' <;> linarith
      cases r
      · simp only [e2, Bool.false_eq_true, if_false, Except.map]
      · simp only [e1, if_true, Except.map]

theorem routeArc_turn {veq : Vec → Vec → Bool} {s : Turn} (hv : ∀ a b, veq (a.turn s) (b.turn s) = veq a b) (e : Edge)
    (hg : e.geom ≠ .line) (p q : Option ℚ) (f : Option PyNum) :
    routeArc veq (e.turn s) p q f = (routeArc veq e p q f).map (List.map (Motion.turn s)) := by
  have h1 : edgeStartParam (e.turn s) = edgeStartParam e := rfl
  have h2 : edgeEndParam (e.turn s) = edgeEndParam e := rfl
  have h3 : (e.turn s).normal = Vec.smul s.det (e.normal.turn s) := by simp only [Edge.turn, hg, if_false]
  have h4 : (e.turn s).reversed = e.reversed := rfl
  have h5 : (e.turn s).closed = e.closed := rfl
  have h6 : ∀ u, (e.turn s).posParam u = (e.posParam u).turn s := fun _ => rfl
  have h7 : (e.turn s).center = e.center.turn s := rfl
  unfold routeArc
  simp only [h1, h2, h3, h4, h5, h6, h7, routeStart_turn, routeEnd_turn, hv, isArcClockwise2_turn]
  cases isArcClockwise2 e.normal e.reversed with
  | error x => rfl
  | ok b =>
    have hk : (if (if s.det < 0 then !b else b) = true then MKind.cw else .ccw) = s.kind (if b = true then .cw else .ccw) := by
      by_cases hd : s.det < 0 <;> cases b <;> simp [Turn.kind, hd]
    simp only [Except.map, hk, fromVec_turn]
    cases e.closed with
    | true => rfl
    | false =>
      simp only [Bool.false_eq_true, if_false]
      split
      · simp only [cutVec_turn, List.map_cons, List.map_nil]
      · rfl

theorem interpolate_turn (s : Turn) (e : Edge) (n : ℕ) :
    interpolateEdgeToVectors (e.turn s) n = (interpolateEdgeToVectors e n).map (Vec.turn s) := by
  unfold interpolateEdgeToVectors
  rw [List.map_map]
  rfl

/-- Commands and end point, turned. -/
def turnPair (s : Turn) (x : List Motion × Vec) : List Motion × Vec := (x.1.map (Motion.turn s), x.2.turn s)

theorem routeEdge_turn {veq : Vec → Vec → Bool} {s : Turn} (hv : ∀ a b, veq (a.turn s) (b.turn s) = veq a b) (e : Edge) (n : ℕ)
    (p q : Option ℚ) (f : Option PyNum) : routeEdge veq (e.turn s) n p q f = (routeEdge veq e n p q f).map (turnPair s) := by
  have hg : (e.turn s).geom = e.geom := rfl
  unfold routeEdge
  simp only [hg, routeStart_turn, routeEnd_turn, fromVec_turn, cutVec_turn, interpolate_turn, cutsThroughPoints_turn]
  cases hgeom : e.geom <;> simp only [Except.map, turnPair, List.map_cons, List.map_nil] <;>
    rw [routeArc_turn hv e (by rw [hgeom]; decide)] <;> cases routeArc veq e p q f <;> rfl

theorem routeEdges_turn {veq : Vec → Vec → Bool} {s : Turn} (hv : ∀ a b, veq (a.turn s) (b.turn s) = veq a b) (j : Job) (fin : Vec)
    (es : List Edge) : routeEdges veq (j.turn s) (fin.turn s) (es.map (Edge.turn s)) = (routeEdges veq j fin es).map (turnPair s) := by
  induction es generalizing fin with
  | nil => rfl
  | cons e es ih =>
    simp only [List.map_cons, routeEdges, routeEdge_turn hv, Job.turn_fields]
    cases routeEdge veq e j.precision none none (some j.feed) with
    | error x => rfl
    | ok a =>
      simp only [Except.map, turnPair, ih]
      cases routeEdges veq j a.2 es with
      | error x => rfl
      | ok b => simp only [List.map_append]

theorem shiftEdges_turn {veq : Vec → Vec → Bool} {s : Turn} (hv : ∀ a b, veq (a.turn s) (b.turn s) = veq a b) (es : List Edge)
    (h : WireHit) : shiftEdges veq (es.map (Edge.turn s)) (h.turn s) = (shiftEdges veq es h).map (List.map (Edge.turn s)) := by
  unfold shiftEdges
  cases h with
  | vertex d v =>
    simp only [WireHit.turn]
    rw [findIdx?_side (Edge.turn s) es _ (fun e' => veq (edgeStartPoint e') v) (fun e => by rw [turn_startPoint, hv])]
    cases es.findIdx? (fun e' => veq (edgeStartPoint e') v) with
    | none => rfl
    | some i => simp only [Except.map, List.map_append, List.map_drop, List.map_take]
  | edge d e p =>
    simp only [WireHit.turn]
    rw [findIdx?_side (Edge.turn s) es _ (fun e' => decide (e'.id = e.id)) (fun _ => rfl)]
    cases es.findIdx? (fun e' => decide (e'.id = e.id)) with
    | none => rfl
    | some i => simp only [Except.map, List.map_append, List.map_drop, List.map_take]

theorem wireLink_turn (s : Turn) (stepover : Option ℚ) (h : Option WireHit) :
    wireLink stepover (h.map (WireHit.turn s)) = (wireLink stepover h).map (WireHit.turn s) := by
  cases stepover with
  | none => rfl
  | some o =>
    cases h with
    | none => rfl
    | some h =>
      have hd : (h.turn s).dist = h.dist := by cases h <;> rfl
      simp only [wireLink, Option.map, hd]
      split <;> rfl

theorem hit_param_turn (s : Turn) (h : WireHit) : (h.turn s).param = h.param := by cases h <;> rfl

theorem enterWire_turn {veq : Vec → Vec → Bool} {s : Turn} (hv : ∀ a b, veq (a.turn s) (b.turn s) = veq a b) (j : Job)
    (stepover : Option ℚ) (hit : Option WireHit) (pos : AddrVec) (es : List Edge) :
    enterWire veq (j.turn s) stepover (hit.map (WireHit.turn s)) (pos.turn s) (es.map (Edge.turn s)) =
      (enterWire veq j stepover hit pos es).map (fun x => (x.1.map (Edge.turn s), x.2.map (Motion.turn s))) := by
  unfold enterWire
  rw [wireLink_turn]
  cases wireLink stepover hit with
  | none =>
    cases es with
    | nil => rfl
    | cons e es => simp only [Option.map, List.map_cons, Except.map, turn_startPoint, Job.turn_fields, rapidTo_turn]
  | some h =>
    simp only [Option.map, shiftEdges_turn hv]
    cases shiftEdges veq es h with
    | error x => rfl
    | ok es' =>
      cases es' with
      | nil => rfl
      | cons e es' =>
        simp only [Except.map, List.map_cons, List.map_nil, hit_param_turn, Job.turn_fields]
        cases h.param with
        | none => simp only [turn_startPoint, fromVec_turn, cutVec_turn]
        | some p =>
          have hp : (e.turn s).posParam p = (e.posParam p).turn s := rfl
          simp only [hp, turn_startPoint]
          split <;> simp only [fromVec_turn, cutVec_turn]

theorem bind_param_turn (s : Turn) (hit : Option WireHit) : (hit.map (WireHit.turn s)).bind WireHit.param = hit.bind WireHit.param := by
  cases hit with
  | none => rfl
  | some h => exact hit_param_turn s h

theorem routeWire_turn {veq : Vec → Vec → Bool} {s : Turn} (hv : ∀ a b, veq (a.turn s) (b.turn s) = veq a b) (j : Job)
    (stepover : Option ℚ) (hit : Option WireHit) (pos : AddrVec) (es : List Edge) :
    routeWire veq (j.turn s) stepover (hit.map (WireHit.turn s)) (pos.turn s) (es.map (Edge.turn s)) =
      (routeWire veq j stepover hit pos es).map (turnPair s) := by
  unfold routeWire
  rw [enterWire_turn hv, bind_param_turn]
  generalize hit.bind WireHit.param = param
  cases enterWire veq j stepover hit pos es with
  | error x => rfl
  | ok a =>
    obtain ⟨es', approach⟩ := a
    cases es' with
    | nil => rfl
    | cons e es' =>
      simp only [Except.map, List.map_cons, routeEdge_turn hv, Job.turn_fields]
      cases routeEdge veq e j.precision param none (some j.feed) with
      | error x => rfl
      | ok b =>
        obtain ⟨first, fin⟩ := b
        simp only [Except.map, turnPair, routeEdges_turn hv]
        cases routeEdges veq j fin es' with
        | error x => rfl
        | ok c =>
          obtain ⟨rest, fin⟩ := c
          cases param with
          | none => simp only [List.map_append]
          | some p =>
            simp only
            by_cases hp : p = 0
            · simp only [hp, if_true, List.map_append]
            · simp only [hp, if_false]
              cases routeEdge veq e j.precision none (some p) (some j.feed) with
              | error x => rfl
              | ok d => simp only [List.map_append]

theorem routeWires_turn {cad : Cad} {s : Turn} (h : CadTurn s cad) (j : Job) (ws : List (List Edge)) (stepover : Option ℚ) :
    routeWires cad.veq cad.search (j.turn s) (ws.map (List.map (Edge.turn s))) stepover =
      (routeWires cad.veq cad.search j ws stepover).map (List.map (Motion.turn s)) := by
  have key : ∀ (acc : List Motion) (pwe : Option Vec) (pos : AddrVec),
      routeWiresFrom cad.veq cad.search (j.turn s) stepover (acc.map (Motion.turn s)) (pwe.map (Vec.turn s)) (pos.turn s)
        (ws.map (List.map (Edge.turn s))) =
      (routeWiresFrom cad.veq cad.search j stepover acc pwe pos ws).map (List.map (Motion.turn s)) := by
    induction ws with
    | nil => intro acc pwe pos; rfl
    | cons w ws ih =>
      intro acc pwe pos
      cases w with
      | nil => rfl
      | cons e es =>
        have hb : (pwe.map (Vec.turn s)).bind (cad.search · ((e :: es).map (Edge.turn s))) =
            (pwe.bind (cad.search · (e :: es))).map (WireHit.turn s) := by
          cases pwe with
          | none => rfl
          | some v => exact h.search v (e :: es)
        have hr := routeWire_turn h.veq j stepover (pwe.bind (cad.search · (e :: es))) pos (e :: es)
        rw [← hb] at hr
        simp only [List.map_cons] at hr ⊢
        simp only [routeWiresFrom, hr]
        cases routeWire cad.veq j stepover (pwe.bind (cad.search · (e :: es))) pos (e :: es) with
        | error x => rfl
        | ok a =>
          have := ih (acc ++ a.1) (some a.2) (lastFin pos a.1)
          simp only [List.map_append, Option.map, ← lastFin_turn] at this
          simp only [Except.map, turnPair]
          exact this
  have := key [] none {}
  simpa [routeWires] using this

/-! ### Offsets, layers and tabs -/

theorem mapMap_filter_turn {s : Turn} (p : List Edge → Bool) (hp : ∀ w, p (w.map (Edge.turn s)) = p w) (ws : List (List Edge)) :
    (ws.map (List.map (Edge.turn s))).filter p = (ws.filter p).map (List.map (Edge.turn s)) := by
  rw [List.filter_map]
  congr 2
  funext w
  exact hp w

theorem offsetWire_turn {cad : Cad} {s : Turn} (h : CadTurn s cad) (w : List Edge) (o : ℚ) :
    offsetWire cad (w.map (Edge.turn s)) o = (offsetWire cad w o).map (List.map (List.map (Edge.turn s))) := by
  have ht : tryOffset cad (w.map (Edge.turn s)) o = (tryOffset cad w o).map (List.map (List.map (Edge.turn s))) := by
    unfold tryOffset
    simp only [h.offset2D]
    cases cad.offset2D w o with
    | ok ws => rfl
    | error x =>
      cases x <;> simp only [Except.map]
      cases cad.offset2D w (o + 1 / 1000000) with
      | ok ws => rfl
      | error y => cases y <;> rfl
  have hval : ∀ v, offsetValid cad (v.map (Edge.turn s)) = offsetValid cad v := by
    intro v
    simp only [offsetValid, h.area]
  have hc : ∀ (src : List Edge) (ts : List (List Edge)),
      circleBugWorkaround cad (src.map (Edge.turn s)) (ts.map (List.map (Edge.turn s))) =
        (circleBugWorkaround cad src ts).map (List.map (Edge.turn s)) := by
    intro src ts
    match src with
    | [] => rfl
    | [e] =>
      have hv : cad.veq (e.turn s).startPoint (e.turn s).endPoint = cad.veq e.startPoint e.endPoint := h.veq _ _
      simp only [circleBugWorkaround, List.map_cons, List.map_nil, hv]
      split
      · rw [List.map_map, List.map_map]
        exact List.map_congr_left fun t _ => h.relocate [e] t
      · rfl
    | _ :: _ :: _ => rfl
  unfold offsetWire
  rw [ht, bind_map_side, map_bind_side]
  congr 1
  funext ws
  have hl : ((ws.map (List.map (Edge.turn s))).getLast?.getD (w.map (Edge.turn s))) = (ws.getLast?.getD w).map (Edge.turn s) := by
    rw [List.getLast?_map]
    cases ws.getLast? <;> rfl
  rw [hl, mapMap_filter_turn _ hval, hc]
  rfl

theorem leftBelow_turn {cad : Cad} {s : Turn} {top : Frame} (h : CutTurn s top cad) (w : List Edge) :
    leftBelow cad top (w.map (Edge.turn s)) = leftBelow cad top w := by
  rw [Bool.eq_iff_iff, leftBelow_iff, leftBelow_iff]
  exact h w

theorem stepLayers_turn {cad : Cad} {s : Turn} {top : Frame} (hc : CadTurn s cad) (h : CutTurn s top cad) (base : List Edge) (d : ℚ)
    (n i : ℕ) : stepLayers cad top (base.map (Edge.turn s)) d n i =
      (stepLayers cad top base d n i).map (List.map (List.map (Edge.turn s))) := by
  induction n generalizing i with
  | zero => rfl
  | succ n ih =>
    simp only [stepLayers, map_up_turn, hc.zmin, leftBelow_turn h, ih]
    split
    · rfl
    · split
      · rw [bind_map_side, map_bind_side]
        rfl
      · rfl

theorem profileLayers_turn {cad : Cad} {s : Turn} {top : Frame} {stepdown : Option ℚ} (hc : CadTurn s cad)
    (h : stepdown = none ∨ stepdown = some 0 ∨ CutTurn s top cad) (base : List Edge) :
    profileLayers cad top (base.map (Edge.turn s)) stepdown =
      (profileLayers cad top base stepdown).map (List.map (List.map (Edge.turn s))) := by
  rcases h with rfl | rfl | h
  · rfl
  · rfl
  · cases stepdown with
    | none => rfl
    | some d =>
      simp only [profileLayers]
      split
      · rfl
      · rw [stepLayers_turn hc h, bind_map_side, map_bind_side]
        simp only [Except.map, List.map_reverse, List.map_cons]

theorem transitions_turn (s : Turn) (t : Tabs) (l : ℚ) (w : List Edge) : t.transitions l (w.map (Edge.turn s)) = t.transitions l w := by
  cases t with
  | none => simp only [Tabs.transitions, List.map_map]; rfl
  | edge t =>
    simp only [Tabs.transitions, mapE_map]
    rfl
  | wire t =>
    simp only [Tabs.transitions, List.map_map]
    rfl

theorem sliceEdge_turn (s : Turn) (e : Edge) (a b : ℚ) : sliceEdge (e.turn s) a b = (sliceEdge e a b).turn s := rfl

theorem projectEdge_turn (s : Turn) (z : ℚ) (e : Edge) (a b : ℚ) : projectEdge z (e.turn s) a b = (projectEdge z e a b).turn s := rfl

theorem makeLine_turn (s : Turn) (p q : Vec) : makeLine (p.turn s) (q.turn s) = (makeLine p q).map (Edge.turn s) := by
  by_cases h : p = q
  · simp only [makeLine, h, if_true]; rfl
  · have h' : p.turn s ≠ q.turn s := fun e => h (vec_turn_inj s e)
    simp only [makeLine, h, h', if_false, Except.map, Edge.turn]
    have hs : ∀ u : ℚ, (p.turn s).add (Vec.smul u ((q.turn s).sub (p.turn s))) = (p.add (Vec.smul u (q.sub p))).turn s := by
      intro u
      simp only [Vec.sub, Vec.turn, Vec.add, Vec.smul]; ext <;> ring
    have hz : (q.turn s).z = q.z ∧ (p.turn s).z = p.z := ⟨rfl, rfl⟩
    simp only [hs, hz, if_true]

theorem tabSegments_turn (s : Turn) (z : ℚ) (e : Edge) (prev : Option Edge) (ts : List (ℚ × Transition)) :
    tabSegments z (e.turn s) (prev.map (Edge.turn s)) ts = (tabSegments z e prev ts).map (List.map (Edge.turn s)) := by
  induction ts generalizing prev with
  | nil => cases prev <;> rfl
  | cons t1 ts ih =>
    cases ts with
    | nil => cases prev <;> rfl
    | cons t2 ts =>
      have ho : ∀ a b, edgeOrientedParam (e.turn s) a b = edgeOrientedParam e a b := fun _ _ => rfl
      have hp : ∀ a b, (if t1.2 = .tab then projectEdge z (e.turn s) a b else sliceEdge (e.turn s) a b) =
          (if t1.2 = .tab then projectEdge z e a b else sliceEdge e a b).turn s := by
        intro a b
        split <;> rfl
      simp only [tabSegments, ho]
      obtain ⟨a, b, c⟩ := edgeOrientedParam e t1.1 t2.1
      simp only [hp]
      generalize (if t1.2 = .tab then projectEdge z e a b else sliceEdge e a b) = piece
      have h1 := ih (some piece)
      simp only [Option.map] at h1
      rw [h1]
      cases prev with
      | none =>
        simp only [Option.map, ok_bind, List.nil_append, bind_map_side, map_bind_side]
        rfl
      | some p =>
        simp only [Option.map, turn_endPoint, turn_startPoint, makeLine_turn, bind_map_side, map_bind_side]
        cases makeLine (edgeEndPoint p) (edgeStartPoint piece) with
        | error x => rfl
        | ok c =>
          simp only [ok_bind]
          cases tabSegments z e (some piece) (t2 :: ts) <;> rfl

theorem tabEdge_turn (s : Turn) (z : ℚ) (e : Edge) (ts : List (ℚ × Transition)) :
    tabEdge z (e.turn s) ts = (tabEdge z e ts).map (List.map (Edge.turn s)) := by
  unfold tabEdge
  split
  · rfl
  · exact tabSegments_turn s z e none ts

theorem tabEdges_turn (s : Turn) (z : ℚ) (es : List Edge) (tss : List (List (ℚ × Transition))) :
    tabEdges z (es.map (Edge.turn s)) tss = (tabEdges z es tss).map (List.map (Edge.turn s)) := by
  induction es generalizing tss with
  | nil => cases tss <;> rfl
  | cons e es ih =>
    cases tss with
    | nil => rfl
    | cons ts tss =>
      simp only [List.map_cons, tabEdges, tabEdge_turn, ih, bind_map_side, map_bind_side]
      cases tabEdge z e ts with
      | error x => rfl
      | ok a =>
        simp only [ok_bind]
        cases tabEdges z es tss with
        | error x => rfl
        | ok b => simp only [ok_bind, Except.map, List.map_append]

theorem applyTabs_turn {cad : Cad} {s : Turn} (h : CadTurn s cad) (z : ℚ) (t : Tabs) (w : List Edge) :
    applyTabs cad z t (w.map (Edge.turn s)) = (applyTabs cad z t w).map (List.map (Edge.turn s)) := by
  unfold applyTabs
  simp only [h.zmin, h.wireLength, transitions_turn, tabEdges_turn]
  split
  · rfl
  · simp only [bind_map_side, map_bind_side, h.assemble]
    cases t.transitions (cad.wireLength w) w with
    | error x => rfl
    | ok tss =>
      simp only [ok_bind]
      cases tabEdges z w tss with
      | error x => rfl
      | ok es =>
        simp only [ok_bind]
        cases cad.assemble es <;> rfl

theorem profile_turn {cad : Cad} {s : Turn} {j : Job} {stepdown : Option ℚ} (hf : j.top.Cube) (hc : CadTurn s cad)
    (h : stepdown = none ∨ stepdown = some 0 ∨ CutTurn s j.top cad) (w : List Edge) (offset : ℚ) (tabs : Option Tabs) :
    profile cad (j.turn s) (w.map (j.top.turnEdge s)) offset stepdown tabs =
      (profile cad j w offset stepdown tabs).map (List.map (Motion.turn s)) := by
  have hfeat : ∀ b, profileFeature cad j.top stepdown tabs (b.map (Edge.turn s)) =
      (profileFeature cad j.top stepdown tabs b).map (List.map (List.map (Edge.turn s))) := by
    intro b
    simp only [profileFeature, profileLayers_turn hc h, hc.zmin, bind_map_side, map_bind_side]
    congr 1
    funext ls
    cases tabs with
    | none => rfl
    | some t => exact mapE_side (applyTabs_turn hc _ t) ls
  have hw : profileWires cad (j.turn s) (w.map (j.top.turnEdge s)) offset stepdown tabs =
      (profileWires cad j w offset stepdown tabs).map (List.map (List.map (Edge.turn s))) := by
    simp only [profileWires, Job.turn_fields]
    cases j.toolRadius with
    | none => rfl
    | some r =>
      simp only [wire_turned hf, offsetWire_turn hc, bind_map_side, map_bind_side]
      congr 1
      funext base
      rw [mapE_side hfeat, bind_map_side]
      simp only [Except.map, List.map_flatten]
  unfold profile
  rw [hw, bind_map_side, map_bind_side]
  congr 1
  funext ws
  exact routeWires_turn hc j ws none

theorem profiles_turn {cad : Cad} {s : Turn} {j : Job} {stepdown : Option ℚ} (hf : j.top.Cube) (hc : CadTurn s cad)
    (h : stepdown = none ∨ stepdown = some 0 ∨ CutTurn s j.top cad) (ws : List (List Edge)) (offset : ℚ) (tabs : Option Tabs) :
    profiles cad (j.turn s) offset stepdown tabs (ws.map (List.map (j.top.turnEdge s))) =
      (profiles cad j offset stepdown tabs ws).map (List.map (Motion.turn s)) := by
  simp only [profiles]
  rw [mapE_side (profile_turn hf hc h · offset tabs), bind_map_side, map_bind_side]
  simp only [Except.map, List.map_flatten]

theorem profilesOpt_turn {cad : Cad} {s : Turn} {j : Job} {stepdown : Option ℚ} (hf : j.top.Cube) (hc : CadTurn s cad)
    (h : stepdown = none ∨ stepdown = some 0 ∨ CutTurn s j.top cad) (ws : List (List Edge)) (offset : Option ℚ)
    (tabs : Option Tabs) : profilesOpt cad (j.turn s) offset stepdown tabs (ws.map (List.map (j.top.turnEdge s))) =
      (profilesOpt cad j offset stepdown tabs ws).map (List.map (Motion.turn s)) := by
  cases offset with
  | none => rfl
  | some o => exact profiles_turn hf hc h ws o tabs

theorem extractWires_turned (f : Frame) (s : Turn) (shapes : List Shape) :
    extractWires (shapes.map (f.turnShape s)) =
      (extractWires shapes).map (fun x => (x.1.map (List.map (f.turnEdge s)), x.2.map (List.map (f.turnEdge s)))) := by
  induction shapes with
  | nil => rfl
  | cons s ss ih =>
    cases s with
    | other => rfl
    | wire w =>
      simp only [List.map_cons, Frame.turnShape, extractWires, ih]
      cases extractWires ss <;> rfl
    | face o is =>
      simp only [List.map_cons, Frame.turnShape, extractWires, ih]
      cases extractWires ss with
      | error e => rfl
      | ok x => simp only [Except.map, ok_bind, List.map_cons, List.map_append]

/-- C136, for profiles with any offsets and tabs, made in one pass, or if the top plane cuts the same passes away before and after
turning the part (so it is on planes level with the world's XY plane, where that depends on heights only).  Missing: that it is so
on all other planes. -/
theorem C136_profile_partial {cad : Cad} {s : Turn} {f : Frame} {stepdown : Option ℚ} (hf : f.Cube) (hc : CadTurn s cad)
    (h : stepdown = none ∨ stepdown = some 0 ∨ CutTurn s f cad) (shapes : List Shape) (outerOffset innerOffset : Option ℚ)
    (tabs : Option Tabs) (tool : Option Tool) :
    TurnWork s f (profileRequest cad shapes outerOffset innerOffset stepdown tabs tool)
      (profileRequest cad (shapes.map (f.turnShape s)) outerOffset innerOffset stepdown tabs tool) where
  name := rfl
  tool := rfl
  pre := by
    intro j _
    have hpre : ∀ (ss : List Shape) (i : Job), (profileRequest cad ss outerOffset innerOffset stepdown tabs tool).pre i =
        if i.toolDiameter = none then .error .valueError
        else if outerOffset = none ∧ innerOffset = none then .error .valueError
        else (extractWires ss >>= fun _ => .ok ()) := fun _ _ => rfl
    rw [hpre, hpre, extractWires_turned, bind_map_side]
    rfl
  gen := by
    rintro j rfl
    rw [profileRequest_gen, profileRequest_gen, extractWires_turned, bind_map_side, map_bind_side]
    congr 1
    funext x
    simp only [profilesOpt_turn hf hc h, bind_map_side, map_bind_side]
    simp only [Except.map, List.map_append]

/-- C136, for wire profiles. -/
theorem C136_wire_profile_partial {cad : Cad} {s : Turn} {f : Frame} {stepdown : Option ℚ} (hf : f.Cube) (hc : CadTurn s cad)
    (h : stepdown = none ∨ stepdown = some 0 ∨ CutTurn s f cad) (wires : List (List Edge)) (offset : ℚ)
    (tabs : Option Tabs) (tool : Option Tool) :
    TurnWork s f (wireProfileRequest cad wires offset stepdown tabs tool)
      (wireProfileRequest cad (wires.map (List.map (f.turnEdge s))) offset stepdown tabs tool) where
  name := rfl
  tool := rfl
  pre := fun _ _ => rfl
  gen := by
    rintro j rfl
    exact profiles_turn hf hc h wires offset tabs

end CQ
