import Verif.Props.Shift

/-! # C123 for profiles -/

namespace CQ

/-! ### Edges -/

theorem toLocal_slide {f : Frame} (hf : f.Square) (s : Pt) (p : Vec) : f.toLocal ((f.slide s).point p) = (f.toLocal p).side s := by
  obtain ⟨h1, h2, h3, h4, h5⟩ := hf
  simp only [Frame.slide, slide_translation]
  simp only [Frame.along, Frame.toLocal, Vec.add, Vec.smul, Vec.sub, Vec.dot, Vec.side] at *
  ext
  · linear_combination s.x * h1 + s.y * h3
  · linear_combination s.x * h3 + s.y * h2
  · linear_combination s.x * h4 + s.y * h5

theorem edge_slide {f : Frame} (hf : f.Square) (s : Pt) (e : Edge) :
    Edge.toLocal f ((f.slide s).edge e) = (Edge.toLocal f e).side s := by
  have hd : ∀ d : Vec, (f.slide s).dir d = d := by
    intro d
    simp [Frame.slide, Rigid.dir, Rigid.translation, Vec.smul, Vec.add]
  simp only [Edge.toLocal, Rigid.edge, Edge.side, toLocal_slide hf, hd]

theorem wire_slide {f : Frame} (hf : f.Square) (s : Pt) (w : List Edge) :
    (w.map (f.slide s).edge).map (Edge.toLocal f) = (w.map (Edge.toLocal f)).map (Edge.side s) := by
  simp only [List.map_map]
  exact List.map_congr_left fun e _ => edge_slide hf s e

@[simp] theorem side_startPoint (s : Pt) (e : Edge) : edgeStartPoint (e.side s) = (edgeStartPoint e).side s := by
  unfold edgeStartPoint
  change (if e.reversed then _ else _) = _
  split <;> rfl

@[simp] theorem side_endPoint (s : Pt) (e : Edge) : edgeEndPoint (e.side s) = (edgeEndPoint e).side s := by
  unfold edgeEndPoint
  change (if e.reversed then _ else _) = _
  split <;> rfl

theorem up_side (dz : ℚ) (s : Pt) (e : Edge) : (e.side s).up dz = (e.up dz).side s := rfl

theorem map_up_side (dz : ℚ) (s : Pt) (w : List Edge) :
    (w.map (Edge.side s)).map (Edge.up dz) = (w.map (Edge.up dz)).map (Edge.side s) := by
  simp only [List.map_map]
  exact List.map_congr_left fun e _ => up_side dz s e

/-! ### Routing -/

theorem routeStart_side (s : Pt) (e : Edge) (p : Option ℚ) : routeStart (e.side s) p = (routeStart e p).side s := by
  cases p with
  | none => exact side_startPoint s e
  | some p => rfl

theorem routeEnd_side (s : Pt) (e : Edge) (p : Option ℚ) : routeEnd (e.side s) p = (routeEnd e p).side s := by
  cases p with
  | none => exact side_endPoint s e
  | some p => rfl

theorem cutsThroughPoints_side (s : Pt) (f : Option PyNum) (pos : AddrVec) (vs : List Vec) :
    cutsThroughPoints f (pos.side s) (vs.map (Vec.side s)) = (cutsThroughPoints f pos vs).map (Motion.side s) := by
  induction vs generalizing pos with
  | nil => rfl
  | cons v vs ih =>
    simp only [List.map_cons, cutsThroughPoints, fromVec_side, cutAbs_side, ih]

theorem routeArc_side {veq : Vec → Vec → Bool} {s : Pt} (hv : ∀ a b, veq (a.side s) (b.side s) = veq a b) (e : Edge)
    (p q : Option ℚ) (f : Option PyNum) :
    routeArc veq (e.side s) p q f = (routeArc veq e p q f).map (List.map (Motion.side s)) := by
  have h1 : edgeStartParam (e.side s) = edgeStartParam e := rfl
  have h2 : edgeEndParam (e.side s) = edgeEndParam e := rfl
  have h3 : (e.side s).normal = e.normal := rfl
  have h4 : (e.side s).reversed = e.reversed := rfl
  have h5 : (e.side s).closed = e.closed := rfl
  have h6 : ∀ u, (e.side s).posParam u = (e.posParam u).side s := fun _ => rfl
  have h7 : (e.side s).center = e.center.side s := rfl
  unfold routeArc
  simp only [h1, h2, h3, h4, h5, h6, h7, routeStart_side, routeEnd_side, hv]
  cases isArcClockwise2 e.normal e.reversed with
  | error x => rfl
  | ok b =>
    simp only
    cases e.closed with
    | true => rfl
    | false =>
      simp only [Bool.false_eq_true, if_false]
      split
      · simp only [fromVec_side, cutAbs_side, Except.map, List.map_cons, List.map_nil]
      · rfl

theorem interpolate_side (s : Pt) (e : Edge) (n : ℕ) :
    interpolateEdgeToVectors (e.side s) n = (interpolateEdgeToVectors e n).map (Vec.side s) := by
  unfold interpolateEdgeToVectors
  rw [List.map_map]
  rfl

/-- Commands and end point, moved. -/
def sidePair (s : Pt) (x : List Motion × Vec) : List Motion × Vec := (x.1.map (Motion.side s), x.2.side s)

theorem routeEdge_side {veq : Vec → Vec → Bool} {s : Pt} (hv : ∀ a b, veq (a.side s) (b.side s) = veq a b) (e : Edge) (n : ℕ)
    (p q : Option ℚ) (f : Option PyNum) : routeEdge veq (e.side s) n p q f = (routeEdge veq e n p q f).map (sidePair s) := by
  have hg : (e.side s).geom = e.geom := rfl
  unfold routeEdge
  simp only [hg, routeStart_side, routeEnd_side, fromVec_side, cutAbs_side, routeArc_side hv, interpolate_side, cutsThroughPoints_side]
  cases e.geom <;> simp only [Except.map, sidePair, List.map_cons, List.map_nil] <;> cases routeArc veq e p q f <;> rfl

theorem routeEdges_side {veq : Vec → Vec → Bool} {s : Pt} (hv : ∀ a b, veq (a.side s) (b.side s) = veq a b) (j : Job) (fin : Vec)
    (es : List Edge) : routeEdges veq (j.side s) (fin.side s) (es.map (Edge.side s)) = (routeEdges veq j fin es).map (sidePair s) := by
  induction es generalizing fin with
  | nil => rfl
  | cons e es ih =>
    simp only [List.map_cons, routeEdges, routeEdge_side hv, Job.side_fields]
    cases routeEdge veq e j.precision none none (some j.feed) with
    | error x => rfl
    | ok a =>
      simp only [Except.map, sidePair, ih]
      cases routeEdges veq j a.2 es with
      | error x => rfl
      | ok b => simp only [List.map_append]

theorem findIdx?_side {α β : Type} (σ : α → β) (l : List α) (p : β → Bool) (q : α → Bool) (h : ∀ a, p (σ a) = q a) :
    (l.map σ).findIdx? p = l.findIdx? q := by
  rw [List.findIdx?_map]
  congr 1
  funext a
  exact h a

theorem shiftEdges_side {veq : Vec → Vec → Bool} {s : Pt} (hv : ∀ a b, veq (a.side s) (b.side s) = veq a b) (es : List Edge)
    (h : WireHit) : shiftEdges veq (es.map (Edge.side s)) (h.side s) = (shiftEdges veq es h).map (List.map (Edge.side s)) := by
  unfold shiftEdges
  cases h with
  | vertex d v =>
    simp only [WireHit.side]
    rw [findIdx?_side (Edge.side s) es _ (fun e' => veq (edgeStartPoint e') v) (fun e => by rw [side_startPoint, hv])]
    cases es.findIdx? (fun e' => veq (edgeStartPoint e') v) with
    | none => rfl
    | some i => simp only [Except.map, List.map_append, List.map_drop, List.map_take]
  | edge d e p =>
    simp only [WireHit.side]
    rw [findIdx?_side (Edge.side s) es _ (fun e' => decide (e'.id = e.id)) (fun _ => rfl)]
    cases es.findIdx? (fun e' => decide (e'.id = e.id)) with
    | none => rfl
    | some i => simp only [Except.map, List.map_append, List.map_drop, List.map_take]

theorem wireLink_side (s : Pt) (stepover : Option ℚ) (h : Option WireHit) :
    wireLink stepover (h.map (WireHit.side s)) = (wireLink stepover h).map (WireHit.side s) := by
  cases stepover with
  | none => rfl
  | some o =>
    cases h with
    | none => rfl
    | some h =>
      have hd : (h.side s).dist = h.dist := by cases h <;> rfl
      simp only [wireLink, Option.map, hd]
      split <;> rfl

theorem hit_param_side (s : Pt) (h : WireHit) : (h.side s).param = h.param := by cases h <;> rfl

theorem enterWire_side {veq : Vec → Vec → Bool} {s : Pt} (hv : ∀ a b, veq (a.side s) (b.side s) = veq a b) (j : Job)
    (stepover : Option ℚ) (hit : Option WireHit) (pos : AddrVec) (es : List Edge) :
    enterWire veq (j.side s) stepover (hit.map (WireHit.side s)) (pos.side s) (es.map (Edge.side s)) =
      (enterWire veq j stepover hit pos es).map (fun x => (x.1.map (Edge.side s), x.2.map (Motion.side s))) := by
  unfold enterWire
  rw [wireLink_side]
  cases wireLink stepover hit with
  | none =>
    cases es with
    | nil => rfl
    | cons e es => simp only [Option.map, List.map_cons, Except.map, side_startPoint, Job.side_fields, rapidTo_side]
  | some h =>
    simp only [Option.map, shiftEdges_side hv]
    cases shiftEdges veq es h with
    | error x => rfl
    | ok es' =>
      cases es' with
      | nil => rfl
      | cons e es' =>
        simp only [Except.map, List.map_cons, List.map_nil, hit_param_side, Job.side_fields]
        cases h.param with
        | none => simp only [side_startPoint, fromVec_side, cutAbs_side]
        | some p =>
          have hp : (e.side s).posParam p = (e.posParam p).side s := rfl
          simp only [hp, side_startPoint]
          split <;> simp only [fromVec_side, cutAbs_side]

theorem bind_param_side (s : Pt) (hit : Option WireHit) : (hit.map (WireHit.side s)).bind WireHit.param = hit.bind WireHit.param := by
  cases hit with
  | none => rfl
  | some h => exact hit_param_side s h

theorem routeWire_side {veq : Vec → Vec → Bool} {s : Pt} (hv : ∀ a b, veq (a.side s) (b.side s) = veq a b) (j : Job)
    (stepover : Option ℚ) (hit : Option WireHit) (pos : AddrVec) (es : List Edge) :
    routeWire veq (j.side s) stepover (hit.map (WireHit.side s)) (pos.side s) (es.map (Edge.side s)) =
      (routeWire veq j stepover hit pos es).map (sidePair s) := by
  unfold routeWire
  rw [enterWire_side hv, bind_param_side]
  generalize hit.bind WireHit.param = param
  cases enterWire veq j stepover hit pos es with
  | error x => rfl
  | ok a =>
    obtain ⟨es', approach⟩ := a
    cases es' with
    | nil => rfl
    | cons e es' =>
      simp only [Except.map, List.map_cons, routeEdge_side hv, Job.side_fields]
      cases routeEdge veq e j.precision param none (some j.feed) with
      | error x => rfl
      | ok b =>
        obtain ⟨first, fin⟩ := b
        simp only [Except.map, sidePair, routeEdges_side hv]
        cases routeEdges veq j fin es' with
        | error x => rfl
        | ok c =>
          obtain ⟨rest, fin⟩ := c
          cases param with
          | none => simp only [List.map_append]
          | some p =>
            simp only
            by_cases hp : p = 0
            · simp only [hp, if_true, List.map_append]
            · simp only [hp, if_false]
              cases routeEdge veq e j.precision none (some p) (some j.feed) with
              | error x => rfl
              | ok d => simp only [List.map_append]

theorem routeWires_side {cad : Cad} {s : Pt} (h : CadSide s cad) (j : Job) (ws : List (List Edge)) (stepover : Option ℚ) :
    routeWires cad.veq cad.search (j.side s) (ws.map (List.map (Edge.side s))) stepover =
      (routeWires cad.veq cad.search j ws stepover).map (List.map (Motion.side s)) := by
  have key : ∀ (acc : List Motion) (pwe : Option Vec) (pos : AddrVec),
      routeWiresFrom cad.veq cad.search (j.side s) stepover (acc.map (Motion.side s)) (pwe.map (Vec.side s)) (pos.side s)
        (ws.map (List.map (Edge.side s))) =
      (routeWiresFrom cad.veq cad.search j stepover acc pwe pos ws).map (List.map (Motion.side s)) := by
    induction ws with
    | nil => intro acc pwe pos; rfl
    | cons w ws ih =>
      intro acc pwe pos
      cases w with
      | nil => rfl
      | cons e es =>
        have hb : (pwe.map (Vec.side s)).bind (cad.search · ((e :: es).map (Edge.side s))) =
            (pwe.bind (cad.search · (e :: es))).map (WireHit.side s) := by
          cases pwe with
          | none => rfl
          | some v => exact h.search v (e :: es)
        have hr := routeWire_side h.veq j stepover (pwe.bind (cad.search · (e :: es))) pos (e :: es)
        rw [← hb] at hr
        simp only [List.map_cons] at hr ⊢
        simp only [routeWiresFrom, hr]
        cases routeWire cad.veq j stepover (pwe.bind (cad.search · (e :: es))) pos (e :: es) with
        | error x => rfl
        | ok a =>
          have := ih (acc ++ a.1) (some a.2) (lastFin pos a.1)
          simp only [List.map_append, Option.map, ← lastFin_side] at this
          simp only [Except.map, sidePair]
          exact this
  have := key [] none {}
  simpa [routeWires] using this

/-! ### Offsets, layers and tabs -/

theorem mapMap_filter {s : Pt} (p : List Edge → Bool) (hp : ∀ w, p (w.map (Edge.side s)) = p w) (ws : List (List Edge)) :
    (ws.map (List.map (Edge.side s))).filter p = (ws.filter p).map (List.map (Edge.side s)) := by
  rw [List.filter_map]
  congr 2
  funext w
  exact hp w

theorem offsetWire_side {cad : Cad} {s : Pt} (h : CadSide s cad) (w : List Edge) (o : ℚ) :
    offsetWire cad (w.map (Edge.side s)) o = (offsetWire cad w o).map (List.map (List.map (Edge.side s))) := by
  have ht : tryOffset cad (w.map (Edge.side s)) o = (tryOffset cad w o).map (List.map (List.map (Edge.side s))) := by
    unfold tryOffset
    simp only [h.offset2D]
    cases cad.offset2D w o with
    | ok ws => rfl
    | error x =>
      cases x <;> simp only [Except.map]
      cases cad.offset2D w (o + 1 / 1000000) with
      | ok ws => rfl
      | error y => cases y <;> rfl
  have hval : ∀ v, offsetValid cad (v.map (Edge.side s)) = offsetValid cad v := by
    intro v
    simp only [offsetValid, h.area]
  have hc : ∀ (src : List Edge) (ts : List (List Edge)),
      circleBugWorkaround cad (src.map (Edge.side s)) (ts.map (List.map (Edge.side s))) =
        (circleBugWorkaround cad src ts).map (List.map (Edge.side s)) := by
    intro src ts
    match src with
    | [] => rfl
    | [e] =>
      have hv : cad.veq (e.side s).startPoint (e.side s).endPoint = cad.veq e.startPoint e.endPoint := h.veq _ _
      simp only [circleBugWorkaround, List.map_cons, List.map_nil, hv]
      split
      · rw [List.map_map, List.map_map]
        exact List.map_congr_left fun t _ => h.relocate [e] t
      · rfl
    | _ :: _ :: _ => rfl
  unfold offsetWire
  rw [ht, bind_map_side, map_bind_side]
  congr 1
  funext ws
  have hl : ((ws.map (List.map (Edge.side s))).getLast?.getD (w.map (Edge.side s))) = (ws.getLast?.getD w).map (Edge.side s) := by
    rw [List.getLast?_map]
    cases ws.getLast? <;> rfl
  rw [hl, mapMap_filter _ hval, hc]
  rfl

theorem leftBelow_side {cad : Cad} {s : Pt} {top : Frame} (h : CutSide s top cad) (w : List Edge) :
    leftBelow cad top (w.map (Edge.side s)) = leftBelow cad top w := by
  rw [Bool.eq_iff_iff, leftBelow_iff, leftBelow_iff]
  exact h w

theorem stepLayers_side {cad : Cad} {s : Pt} {top : Frame} (hc : CadSide s cad) (h : CutSide s top cad) (base : List Edge) (d : ℚ)
    (n i : ℕ) : stepLayers cad top (base.map (Edge.side s)) d n i =
      (stepLayers cad top base d n i).map (List.map (List.map (Edge.side s))) := by
  induction n generalizing i with
  | zero => rfl
  | succ n ih =>
    simp only [stepLayers, map_up_side, hc.zmin, leftBelow_side h, ih]
    split
    · rfl
    · split
      · rw [bind_map_side, map_bind_side]
        rfl
      · rfl

theorem profileLayers_side {cad : Cad} {s : Pt} {top : Frame} {stepdown : Option ℚ} (hc : CadSide s cad)
    (h : stepdown = none ∨ stepdown = some 0 ∨ CutSide s top cad) (base : List Edge) :
    profileLayers cad top (base.map (Edge.side s)) stepdown =
      (profileLayers cad top base stepdown).map (List.map (List.map (Edge.side s))) := by
  rcases h with rfl | rfl | h
  · rfl
  · rfl
  · cases stepdown with
    | none => rfl
    | some d =>
      simp only [profileLayers]
      split
      · rfl
      · rw [stepLayers_side hc h, bind_map_side, map_bind_side]
        simp only [Except.map, List.map_reverse, List.map_cons]

theorem transitions_side (s : Pt) (t : Tabs) (l : ℚ) (w : List Edge) : t.transitions l (w.map (Edge.side s)) = t.transitions l w := by
  cases t with
  | none => simp only [Tabs.transitions, List.map_map]; rfl
  | edge t =>
    simp only [Tabs.transitions, mapE_map]
    rfl
  | wire t =>
    simp only [Tabs.transitions, List.map_map]
    rfl

theorem sliceEdge_side (s : Pt) (e : Edge) (a b : ℚ) : sliceEdge (e.side s) a b = (sliceEdge e a b).side s := rfl

theorem projectEdge_side (s : Pt) (z : ℚ) (e : Edge) (a b : ℚ) : projectEdge z (e.side s) a b = (projectEdge z e a b).side s := rfl

theorem makeLine_side (s : Pt) (p q : Vec) : makeLine (p.side s) (q.side s) = (makeLine p q).map (Edge.side s) := by
  by_cases h : p = q
  · simp only [makeLine, h, if_true]; rfl
  · have h' : p.side s ≠ q.side s := fun e => h (vec_side_inj s e)
    simp only [makeLine, h, h', if_false, Except.map, Edge.side]
    have hs : (q.side s).sub (p.side s) = q.sub p := by
      simp only [Vec.sub, Vec.side]; ext <;> ring
    have ha : ∀ v : Vec, (p.side s).add v = (p.add v).side s := by
      intro v
      simp only [Vec.add, Vec.side]; ext <;> ring
    have hz : (q.side s).z = q.z ∧ (p.side s).z = p.z := ⟨rfl, rfl⟩
    simp only [hs, ha, hz]

theorem tabSegments_side (s : Pt) (z : ℚ) (e : Edge) (prev : Option Edge) (ts : List (ℚ × Transition)) :
    tabSegments z (e.side s) (prev.map (Edge.side s)) ts = (tabSegments z e prev ts).map (List.map (Edge.side s)) := by
  induction ts generalizing prev with
  | nil => cases prev <;> rfl
  | cons t1 ts ih =>
    cases ts with
    | nil => cases prev <;> rfl
    | cons t2 ts =>
      have ho : ∀ a b, edgeOrientedParam (e.side s) a b = edgeOrientedParam e a b := fun _ _ => rfl
      have hp : ∀ a b, (if t1.2 = .tab then projectEdge z (e.side s) a b else sliceEdge (e.side s) a b) =
          (if t1.2 = .tab then projectEdge z e a b else sliceEdge e a b).side s := by
        intro a b
        split <;> rfl
      simp only [tabSegments, ho]
      obtain ⟨a, b, c⟩ := edgeOrientedParam e t1.1 t2.1
      simp only [hp]
      generalize (if t1.2 = .tab then projectEdge z e a b else sliceEdge e a b) = piece
      have h1 := ih (some piece)
      simp only [Option.map] at h1
      rw [h1]
      cases prev with
      | none =>
        simp only [Option.map, ok_bind, List.nil_append, bind_map_side, map_bind_side]
        rfl
      | some p =>
        simp only [Option.map, side_endPoint, side_startPoint, makeLine_side, bind_map_side, map_bind_side]
        cases makeLine (edgeEndPoint p) (edgeStartPoint piece) with
        | error x => rfl
        | ok c =>
          simp only [ok_bind]
          cases tabSegments z e (some piece) (t2 :: ts) <;> rfl

theorem tabEdge_side (s : Pt) (z : ℚ) (e : Edge) (ts : List (ℚ × Transition)) :
    tabEdge z (e.side s) ts = (tabEdge z e ts).map (List.map (Edge.side s)) := by
  unfold tabEdge
  split
  · rfl
  · exact tabSegments_side s z e none ts

theorem tabEdges_side (s : Pt) (z : ℚ) (es : List Edge) (tss : List (List (ℚ × Transition))) :
    tabEdges z (es.map (Edge.side s)) tss = (tabEdges z es tss).map (List.map (Edge.side s)) := by
  induction es generalizing tss with
  | nil => cases tss <;> rfl
  | cons e es ih =>
    cases tss with
    | nil => rfl
    | cons ts tss =>
      simp only [List.map_cons, tabEdges, tabEdge_side, ih, bind_map_side, map_bind_side]
      cases tabEdge z e ts with
      | error x => rfl
      | ok a =>
        simp only [ok_bind]
        cases tabEdges z es tss with
        | error x => rfl
        | ok b => simp only [ok_bind, Except.map, List.map_append]

theorem applyTabs_side {cad : Cad} {s : Pt} (h : CadSide s cad) (z : ℚ) (t : Tabs) (w : List Edge) :
    applyTabs cad z t (w.map (Edge.side s)) = (applyTabs cad z t w).map (List.map (Edge.side s)) := by
  unfold applyTabs
  simp only [h.zmin, h.wireLength, transitions_side, tabEdges_side]
  split
  · rfl
  · simp only [bind_map_side, map_bind_side, h.assemble]
    cases t.transitions (cad.wireLength w) w with
    | error x => rfl
    | ok tss =>
      simp only [ok_bind]
      cases tabEdges z w tss with
      | error x => rfl
      | ok es =>
        simp only [ok_bind]
        cases cad.assemble es <;> rfl

theorem profile_side {cad : Cad} {s : Pt} {j : Job} {stepdown : Option ℚ} (hf : j.top.Square) (hc : CadSide s cad)
    (h : stepdown = none ∨ stepdown = some 0 ∨ CutSide s j.top cad) (w : List Edge) (offset : ℚ) (tabs : Option Tabs) :
    profile cad (j.side s) (w.map (j.top.slide s).edge) offset stepdown tabs =
      (profile cad j w offset stepdown tabs).map (List.map (Motion.side s)) := by
  have hfeat : ∀ b, profileFeature cad j.top stepdown tabs (b.map (Edge.side s)) =
      (profileFeature cad j.top stepdown tabs b).map (List.map (List.map (Edge.side s))) := by
    intro b
    simp only [profileFeature, profileLayers_side hc h, hc.zmin, bind_map_side, map_bind_side]
    congr 1
    funext ls
    cases tabs with
    | none => rfl
    | some t => exact mapE_side (applyTabs_side hc _ t) ls
  have hw : profileWires cad (j.side s) (w.map (j.top.slide s).edge) offset stepdown tabs =
      (profileWires cad j w offset stepdown tabs).map (List.map (List.map (Edge.side s))) := by
    simp only [profileWires, Job.side_fields]
    cases j.toolRadius with
    | none => rfl
    | some r =>
      simp only [wire_slide hf, offsetWire_side hc, bind_map_side, map_bind_side]
      congr 1
      funext base
      rw [mapE_side hfeat, bind_map_side]
      simp only [Except.map, List.map_flatten]
  unfold profile
  rw [hw, bind_map_side, map_bind_side]
  congr 1
  funext ws
  exact routeWires_side hc j ws none

theorem profiles_side {cad : Cad} {s : Pt} {j : Job} {stepdown : Option ℚ} (hf : j.top.Square) (hc : CadSide s cad)
    (h : stepdown = none ∨ stepdown = some 0 ∨ CutSide s j.top cad) (ws : List (List Edge)) (offset : ℚ) (tabs : Option Tabs) :
    profiles cad (j.side s) offset stepdown tabs (ws.map (List.map (j.top.slide s).edge)) =
      (profiles cad j offset stepdown tabs ws).map (List.map (Motion.side s)) := by
  simp only [profiles]
  rw [mapE_side (profile_side hf hc h · offset tabs), bind_map_side, map_bind_side]
  simp only [Except.map, List.map_flatten]

theorem profilesOpt_side {cad : Cad} {s : Pt} {j : Job} {stepdown : Option ℚ} (hf : j.top.Square) (hc : CadSide s cad)
    (h : stepdown = none ∨ stepdown = some 0 ∨ CutSide s j.top cad) (ws : List (List Edge)) (offset : Option ℚ)
    (tabs : Option Tabs) : profilesOpt cad (j.side s) offset stepdown tabs (ws.map (List.map (j.top.slide s).edge)) =
      (profilesOpt cad j offset stepdown tabs ws).map (List.map (Motion.side s)) := by
  cases offset with
  | none => rfl
  | some o => exact profiles_side hf hc h ws o tabs

/-- C123, for profiles with any offsets and tabs, made in one pass, or if the top plane cuts the same passes away before and after
moving the part (so it is on planes level with the world's XY plane, where that depends on heights only).  Missing: that it is so
on all other planes. -/
theorem C123_profile_partial {cad : Cad} {s : Pt} {f : Frame} {stepdown : Option ℚ} (hf : f.Square) (hc : CadSide s cad)
    (h : stepdown = none ∨ stepdown = some 0 ∨ CutSide s f cad) (shapes : List Shape) (outerOffset innerOffset : Option ℚ)
    (tabs : Option Tabs) (tool : Option Tool) :
    SideWork s f (profileRequest cad shapes outerOffset innerOffset stepdown tabs tool)
      (profileRequest cad (shapes.map (f.slide s).shape) outerOffset innerOffset stepdown tabs tool) where
  name := rfl
  tool := rfl
  pre := by
    intro j _
    have hpre : ∀ (ss : List Shape) (i : Job), (profileRequest cad ss outerOffset innerOffset stepdown tabs tool).pre i =
        if i.toolDiameter = none then .error .valueError
        else if outerOffset = none ∧ innerOffset = none then .error .valueError
        else (extractWires ss >>= fun _ => .ok ()) := fun _ _ => rfl
    rw [hpre, hpre, extractWires_moved, bind_map_side]
    rfl
  gen := by
    rintro j rfl
    rw [profileRequest_gen, profileRequest_gen, extractWires_moved, bind_map_side, map_bind_side]
    congr 1
    funext x
    simp only [profilesOpt_side hf hc h, bind_map_side, map_bind_side]
    simp only [Except.map, List.map_append]

/-- C123, for wire profiles. -/
theorem C123_wire_profile_partial {cad : Cad} {s : Pt} {f : Frame} {stepdown : Option ℚ} (hf : f.Square) (hc : CadSide s cad)
    (h : stepdown = none ∨ stepdown = some 0 ∨ CutSide s f cad) (wires : List (List Edge)) (offset : ℚ)
    (tabs : Option Tabs) (tool : Option Tool) :
    SideWork s f (wireProfileRequest cad wires offset stepdown tabs tool)
      (wireProfileRequest cad (wires.map (List.map (f.slide s).edge)) offset stepdown tabs tool) where
  name := rfl
  tool := rfl
  pre := fun _ _ => rfl
  gen := by
    rintro j rfl
    exact profiles_side hf hc h wires offset tabs

end CQ
