import Verif.Props.Units
import Verif.Props.ShiftProfile

/-! # C134 for profiles -/

namespace CQ

/-! ### Edges -/

theorem toLocal_conv (κ : Units) (f : Frame) (p : Vec) : (f.conv κ).toLocal (p.conv κ) = (f.toLocal p).conv κ := by
  simp only [Frame.conv, Frame.toLocal, Vec.sub, Vec.dot, Vec.conv]
  ext <;> ring

theorem edge_conv (κ : Units) (f : Frame) (e : Edge) : Edge.toLocal (f.conv κ) (e.conv κ) = (Edge.toLocal f e).conv κ := by
  simp only [Edge.toLocal, Edge.conv, toLocal_conv]
  rfl

theorem wire_conv (κ : Units) (f : Frame) (w : List Edge) :
    (w.map (Edge.conv κ)).map (Edge.toLocal (f.conv κ)) = (w.map (Edge.toLocal f)).map (Edge.conv κ) := by
  simp only [List.map_map]
  exact List.map_congr_left fun e _ => edge_conv κ f e

@[simp] theorem conv_startPoint (κ : Units) (e : Edge) : edgeStartPoint (e.conv κ) = (edgeStartPoint e).conv κ := by
  unfold edgeStartPoint
  change (if e.reversed then _ else _) = _
  split <;> rfl

@[simp] theorem conv_endPoint (κ : Units) (e : Edge) : edgeEndPoint (e.conv κ) = (edgeEndPoint e).conv κ := by
  unfold edgeEndPoint
  change (if e.reversed then _ else _) = _
  split <;> rfl

theorem vec_up_conv (κ : Units) (dz : ℚ) (v : Vec) : (v.conv κ).up (κ.c * dz) = (v.up dz).conv κ := by
  simp only [Vec.up, Vec.conv, mul_add]

theorem up_conv (dz : ℚ) (κ : Units) (e : Edge) : (e.conv κ).up (κ.c * dz) = (e.up dz).conv κ := by
  simp only [Edge.up, Edge.conv, vec_up_conv]
  rfl

theorem map_up_conv (dz : ℚ) (κ : Units) (w : List Edge) :
    (w.map (Edge.conv κ)).map (Edge.up (κ.c * dz)) = (w.map (Edge.up dz)).map (Edge.conv κ) := by
  simp only [List.map_map]
  exact List.map_congr_left fun e _ => up_conv dz κ e

theorem paramUnit_pos (κ : Units) (e : Edge) : 0 < e.paramUnit κ := by
  unfold Edge.paramUnit
  split
  · exact κ.pos
  · norm_num

/-! ### Routing -/

theorem posParam_conv (κ : Units) (e : Edge) (p : ℚ) : (e.conv κ).posParam (e.paramUnit κ * p) = (e.posParam p).conv κ := by
  simp only [Edge.conv]
  rw [mul_div_cancel_left₀ _ (paramUnit_pos κ e).ne']

theorem routeStart_conv (κ : Units) (e : Edge) (p : Option ℚ) :
    routeStart (e.conv κ) (p.map (e.paramUnit κ * ·)) = (routeStart e p).conv κ := by
  cases p with
  | none => exact conv_startPoint κ e
  | some p => exact posParam_conv κ e p

theorem routeEnd_conv (κ : Units) (e : Edge) (p : Option ℚ) :
    routeEnd (e.conv κ) (p.map (e.paramUnit κ * ·)) = (routeEnd e p).conv κ := by
  cases p with
  | none => exact conv_endPoint κ e
  | some p => exact posParam_conv κ e p

theorem routeArc_conv {veq : Vec → Vec → Bool} {κ : Units} (hv : ∀ a b, veq (a.conv κ) (b.conv κ) = veq a b) (e : Edge)
    (p q : Option ℚ) (f : Option PyNum) :
    routeArc veq (e.conv κ) (p.map (e.paramUnit κ * ·)) (q.map (e.paramUnit κ * ·)) (f.map κ.feed) =
      (routeArc veq e p q f).map (List.map (Motion.conv κ)) := by
  have h1 : (p.map (e.paramUnit κ * ·)).getD (edgeStartParam (e.conv κ)) = e.paramUnit κ * p.getD (edgeStartParam e) := by
    cases p with
    | some p => rfl
    | none =>
      simp only [Option.map, Option.getD, edgeStartParam, Edge.conv, mul_ite]
      rfl
  have h2 : (q.map (e.paramUnit κ * ·)).getD (edgeEndParam (e.conv κ)) = e.paramUnit κ * q.getD (edgeEndParam e) := by
    cases q with
    | some q => rfl
    | none =>
      simp only [Option.map, Option.getD, edgeEndParam, Edge.conv, mul_ite]
      rfl
  have h3 : (e.conv κ).normal = e.normal := rfl
  have h4 : (e.conv κ).reversed = e.reversed := rfl
  have h5 : (e.conv κ).closed = e.closed := rfl
  have h7 : (e.conv κ).center = e.center.conv κ := rfl
  have hmid : ∀ i n a b : ℚ, (e.conv κ).posParam (e.paramUnit κ * a + i * ((e.paramUnit κ * b - e.paramUnit κ * a) / n)) =
      (e.posParam (a + i * ((b - a) / n))).conv κ := by
    intro i n a b
    rw [← posParam_conv]
    congr 1
    ring
  unfold routeArc
  simp only [h1, h2, h3, h4, h5, h7, routeStart_conv, routeEnd_conv, hv]
  cases isArcClockwise2 e.normal e.reversed with
  | error x => rfl
  | ok b =>
    simp only
    cases e.closed with
    | true => simp only [if_true, hmid, posParam_conv, fromVec_conv, Except.map, List.map_cons, List.map_nil, Motion.conv]
    | false =>
      simp only [Bool.false_eq_true, if_false]
      split
      · simp only [fromVec_conv, cutAbs_conv, Except.map, List.map_cons, List.map_nil]
      · simp only [hmid, fromVec_conv, Except.map, List.map_cons, List.map_nil, Motion.conv]

/-- Commands and end point in the new units. -/
def convPair (κ : Units) (x : List Motion × Vec) : List Motion × Vec := (x.1.map (Motion.conv κ), x.2.conv κ)

theorem routeEdge_conv {veq : Vec → Vec → Bool} {κ : Units} (hv : ∀ a b, veq (a.conv κ) (b.conv κ) = veq a b) {e : Edge}
    (he : e.Plain) (n n' : ℕ) (p q : Option ℚ) (f : Option PyNum) :
    routeEdge veq (e.conv κ) n' (p.map (e.paramUnit κ * ·)) (q.map (e.paramUnit κ * ·)) (f.map κ.feed) =
      (routeEdge veq e n p q f).map (convPair κ) := by
  have hg : (e.conv κ).geom = e.geom := rfl
  obtain ⟨h1, h2, h3⟩ := he
  unfold routeEdge
  simp only [hg, routeStart_conv, routeEnd_conv, fromVec_conv, cutAbs_conv, routeArc_conv hv]
  cases hgeom : e.geom with
  | line => rfl
  | arc => cases routeArc veq e p q f <;> rfl
  | circle => cases routeArc veq e p q f <;> rfl
  | bspline => exact absurd hgeom h1
  | spline => exact absurd hgeom h2
  | offset => exact absurd hgeom h3
  | other => rfl

theorem routeEdges_conv {veq : Vec → Vec → Bool} {κ : Units} (hv : ∀ a b, veq (a.conv κ) (b.conv κ) = veq a b) (j : Job) (fin : Vec)
    {es : List Edge} (he : PlainWire es) :
    routeEdges veq (j.conv κ) (fin.conv κ) (es.map (Edge.conv κ)) = (routeEdges veq j fin es).map (convPair κ) := by
  induction es generalizing fin with
  | nil => rfl
  | cons e es ih =>
    have h0 := routeEdge_conv hv (he e (by simp)) j.precision κ.precision none none (some j.feed)
    simp only [Option.map] at h0
    simp only [List.map_cons, routeEdges, Job.conv_fields, h0]
    cases routeEdge veq e j.precision none none (some j.feed) with
    | error x => rfl
    | ok a =>
      simp only [Except.map, convPair, ih _ (fun e h => he e (by simp [h]))]
      cases routeEdges veq j a.2 es with
      | error x => rfl
      | ok b => simp only [List.map_append]

theorem enterWire_conv {veq : Vec → Vec → Bool} {κ : Units} (j : Job) (hit : Option WireHit) (pos : AddrVec) (es : List Edge) :
    enterWire veq (j.conv κ) none (hit.map (WireHit.conv κ)) (pos.conv κ) (es.map (Edge.conv κ)) =
      (enterWire veq j none hit pos es).map (fun x => (x.1.map (Edge.conv κ), x.2.map (Motion.conv κ))) := by
  cases es with
  | nil => rfl
  | cons e es => simp only [enterWire, wireLink, List.map_cons, Except.map, conv_startPoint, Job.conv_fields, rapidTo_conv]

theorem bind_param_conv {κ : Units} {e0 : Edge} {hit : Option WireHit}
    (h : ∀ d e p, hit = some (.edge d e p) → (e.geom = .line ↔ e0.geom = .line)) :
    (hit.map (WireHit.conv κ)).bind WireHit.param = (hit.bind WireHit.param).map (e0.paramUnit κ * ·) := by
  cases hit with
  | none => rfl
  | some hit =>
    cases hit with
    | vertex d v => rfl
    | edge d e p =>
      have hu : e.paramUnit κ = e0.paramUnit κ := by
        unfold Edge.paramUnit
        simp only [h d e p rfl]
      simp only [Option.map, Option.bind, WireHit.conv, WireHit.param, hu]

theorem enterWire_none {veq : Vec → Vec → Bool} {j : Job} {hit : Option WireHit} {pos : AddrVec} {e : Edge} {es : List Edge} :
    enterWire veq j none hit pos (e :: es) =
      .ok (e :: es, rapidTo pos (edgeStartPoint e) j.rapidHeight (some j.opSafeHeight) (some j.plungeFeed)) := rfl

theorem routeWire_conv {veq : Vec → Vec → Bool} {κ : Units} (hv : ∀ a b, veq (a.conv κ) (b.conv κ) = veq a b) (j : Job)
    (hit : Option WireHit) (pos : AddrVec) {e : Edge} {es : List Edge} (he : PlainWire (e :: es))
    (hh : ∀ d e' p, hit = some (.edge d e' p) → (e'.geom = .line ↔ e.geom = .line)) :
    routeWire veq (j.conv κ) none (hit.map (WireHit.conv κ)) (pos.conv κ) ((e :: es).map (Edge.conv κ)) =
      (routeWire veq j none hit pos (e :: es)).map (convPair κ) := by
  have hen := enterWire_conv (veq := veq) (κ := κ) j hit pos (e :: es)
  have hp := bind_param_conv (κ := κ) hh
  have h0 := fun p q => routeEdge_conv hv (he e (by simp)) j.precision κ.precision p q (some j.feed)
  have hs := fun fin => routeEdges_conv hv j fin (es := es) (fun e h => he e (by simp [h]))
  unfold routeWire
  rw [hen, hp, enterWire_none]
  generalize hit.bind WireHit.param = param
  have h1 := h0 param none
  simp only [Option.map_none, Option.map_some] at h1
  simp only [Except.map, List.map_cons, Job.conv_fields, h1]
  cases routeEdge veq e j.precision param none (some j.feed) with
  | error x => rfl
  | ok b =>
    obtain ⟨first, fin⟩ := b
    simp only [Except.map, convPair, hs]
    cases routeEdges veq j fin es with
    | error x => rfl
    | ok c =>
      obtain ⟨rest, fin⟩ := c
      cases param with
      | none => simp only [Option.map, List.map_append]
      | some p =>
        have h2 := h0 none (some p)
        simp only [Option.map_none, Option.map_some] at h2
        simp only [Option.map_some, mul_eq_zero, (paramUnit_pos κ e).ne', false_or, h2]
        by_cases hp : p = 0
        · simp only [hp, if_true, List.map_append]
        · simp only [hp, if_false]
          cases routeEdge veq e j.precision none (some p) (some j.feed) with
          | error x => rfl
          | ok d => simp only [Except.map, convPair, List.map_append]

theorem routeWires_conv {cad : Cad} {κ : Units} (h : CadUnits κ cad) (hh : HitsAlike cad) (j : Job) (ws : List (List Edge))
    (hp : ∀ w ∈ ws, PlainWire w) :
    routeWires cad.veq cad.search (j.conv κ) (ws.map (List.map (Edge.conv κ))) none =
      (routeWires cad.veq cad.search j ws none).map (List.map (Motion.conv κ)) := by
  have key : ∀ (acc : List Motion) (pwe : Option Vec) (pos : AddrVec),
      routeWiresFrom cad.veq cad.search (j.conv κ) none (acc.map (Motion.conv κ)) (pwe.map (Vec.conv κ)) (pos.conv κ)
        (ws.map (List.map (Edge.conv κ))) =
      (routeWiresFrom cad.veq cad.search j none acc pwe pos ws).map (List.map (Motion.conv κ)) := by
    induction ws with
    | nil => intro acc pwe pos; rfl
    | cons w ws ih =>
      intro acc pwe pos
      cases w with
      | nil => rfl
      | cons e es =>
        have hb : (pwe.map (Vec.conv κ)).bind (cad.search · ((e :: es).map (Edge.conv κ))) =
            (pwe.bind (cad.search · (e :: es))).map (WireHit.conv κ) := by
          cases pwe with
          | none => rfl
          | some v => exact h.search v (e :: es)
        have hal : ∀ d e' p, pwe.bind (cad.search · (e :: es)) = some (.edge d e' p) → (e'.geom = .line ↔ e.geom = .line) := by
          intro d e' p hs
          cases pwe with
          | none => cases hs
          | some v => exact hh v e es d e' p hs
        have hr := routeWire_conv h.veq j (pwe.bind (cad.search · (e :: es))) pos (hp (e :: es) (by simp)) hal
        rw [← hb] at hr
        simp only [List.map_cons] at hr ⊢
        simp only [routeWiresFrom, hr]
        cases routeWire cad.veq j none (pwe.bind (cad.search · (e :: es))) pos (e :: es) with
        | error x => rfl
        | ok a =>
          have := ih (fun w hw => hp w (by simp [hw])) (acc ++ a.1) (some a.2) (lastFin pos a.1)
          simp only [List.map_append, Option.map, ← lastFin_conv] at this
          simp only [Except.map, convPair]
          exact this
  have := key [] none {}
  simpa [routeWires] using this

/-! ### Offsets and layers -/

theorem offsetWire_conv {cad : Cad} {κ : Units} (h : CadUnits κ cad) {w : List Edge} {o : ℚ} {stepdown : Option ℚ}
    (ht : ToleranceFree κ cad w o stepdown) :
    offsetWire cad (w.map (Edge.conv κ)) (κ.c * o) = (offsetWire cad w o).map (List.map (List.map (Edge.conv κ))) := by
  have ht1 : ∀ (w : List Edge) (o : ℚ), cad.offset2D w o ≠ .error .valueError → tryOffset cad w o = cad.offset2D w o := by
    intro w o hne
    unfold tryOffset
    cases hx : cad.offset2D w o with
    | ok ws => rfl
    | error x => cases x <;> first | rfl | exact absurd hx hne
  have hne : cad.offset2D (w.map (Edge.conv κ)) (κ.c * o) ≠ .error .valueError := by
    rw [h.offset2D]
    intro hx
    apply ht.first
    cases hy : cad.offset2D w o with
    | ok ws => rw [hy] at hx; cases hx
    | error x => rw [hy] at hx; simpa [Except.map] using hx
  unfold offsetWire
  rw [ht1 _ _ hne, ht1 _ _ ht.first, h.offset2D]
  cases hws : cad.offset2D w o with
  | error x => rfl
  | ok ws =>
    have hval : ∀ v ∈ ws, offsetValid cad (v.map (Edge.conv κ)) = offsetValid cad v := by
      intro v hv
      simp only [offsetValid, h.area]
      cases ha : cad.area v with
      | error x => rfl
      | ok a =>
        simp only [Except.map]
        rw [decide_eq_decide]
        exact (ht.area ws hws v hv a ha).symm
    have hc : ∀ (src : List Edge) (ts : List (List Edge)),
        circleBugWorkaround cad (src.map (Edge.conv κ)) (ts.map (List.map (Edge.conv κ))) =
          (circleBugWorkaround cad src ts).map (List.map (Edge.conv κ)) := by
      intro src ts
      match src with
      | [] => rfl
      | [e] =>
        have hv : cad.veq (e.conv κ).startPoint (e.conv κ).endPoint = cad.veq e.startPoint e.endPoint := h.veq _ _
        simp only [circleBugWorkaround, List.map_cons, List.map_nil, hv]
        split
        · rw [List.map_map, List.map_map]
          exact List.map_congr_left fun t _ => h.relocate [e] t
        · rfl
      | _ :: _ :: _ => rfl
    simp only [Except.map, ok_bind]
    have hl : ((ws.map (List.map (Edge.conv κ))).getLast?.getD (w.map (Edge.conv κ))) = (ws.getLast?.getD w).map (Edge.conv κ) := by
      rw [List.getLast?_map]
      cases ws.getLast? <;> rfl
    have hf : (ws.map (List.map (Edge.conv κ))).filter (offsetValid cad) = (ws.filter (offsetValid cad)).map (List.map (Edge.conv κ)) := by
      rw [List.filter_map]
      congr 1
      exact List.filter_congr hval
    rw [hl, hf, hc]

/-- The wires `offset_wire` gives are wires of the kernel, perhaps relocated. -/
theorem offsetWire_from {cad : Cad} {w : List Edge} {o : ℚ} {bs : List (List Edge)} (hne : cad.offset2D w o ≠ .error .valueError)
    (h : offsetWire cad w o = .ok bs) :
    ∃ ws, cad.offset2D w o = .ok ws ∧ ∀ b ∈ bs, ∃ v ∈ ws, b = v ∨ ∃ u, b = cad.relocate u v := by
  unfold offsetWire tryOffset at h
  cases hx : cad.offset2D w o with
  | error x => cases x <;> simp only [hx, error_bind] at h <;> first | cases h | exact absurd hx hne
  | ok ws =>
    simp only [hx, ok_bind] at h
    injection h with h
    refine ⟨ws, rfl, fun b hb => ?_⟩
    rw [← h] at hb
    unfold circleBugWorkaround at hb
    split at hb
    · split at hb
      · obtain ⟨v, hv, rfl⟩ := List.mem_map.mp hb
        exact ⟨v, (List.mem_filter.mp hv).1, .inr ⟨_, rfl⟩⟩
      · exact ⟨b, (List.mem_filter.mp hb).1, .inl rfl⟩
    · exact ⟨b, (List.mem_filter.mp hb).1, .inl rfl⟩

theorem leftBelow_conv {cad : Cad} {κ : Units} {top : Frame} (h : CutUnits κ top cad) (w : List Edge) :
    leftBelow cad (top.conv κ) (w.map (Edge.conv κ)) = leftBelow cad top w := by
  rw [Bool.eq_iff_iff, leftBelow_iff, leftBelow_iff]
  exact h w

theorem stepLayers_conv {cad : Cad} {κ : Units} {top : Frame} (hc : CadUnits κ cad) (h : CutUnits κ top cad) {base : List Edge}
    {d : ℚ} (ht : ∀ i : ℕ, (-1 / 1000 ≤ cad.zmin (base.map (Edge.up (d * (i + 1)))) ↔
      -1 / 1000 ≤ κ.c * cad.zmin (base.map (Edge.up (d * (i + 1)))))) (n i : ℕ) :
    stepLayers cad (top.conv κ) (base.map (Edge.conv κ)) (κ.c * d) n i =
      (stepLayers cad top base d n i).map (List.map (List.map (Edge.conv κ))) := by
  induction n generalizing i with
  | zero => rfl
  | succ n ih =>
    simp only [stepLayers, mul_assoc, map_up_conv, hc.zmin, leftBelow_conv h, ih, ← ht i]
    split
    · rfl
    · split
      · rw [bind_map_side, map_bind_side]
        rfl
      · rfl

theorem profileLayers_conv {cad : Cad} {κ : Units} {top : Frame} {stepdown : Option ℚ} (hc : CadUnits κ cad)
    (h : stepdown = none ∨ stepdown = some 0 ∨ CutUnits κ top cad) {base : List Edge}
    (ht : ∀ d, stepdown = some d → ∀ i : ℕ, (-1 / 1000 ≤ cad.zmin (base.map (Edge.up (d * (i + 1)))) ↔
      -1 / 1000 ≤ κ.c * cad.zmin (base.map (Edge.up (d * (i + 1)))))) :
    profileLayers cad (top.conv κ) (base.map (Edge.conv κ)) (stepdown.map (κ.c * ·)) =
      (profileLayers cad top base stepdown).map (List.map (List.map (Edge.conv κ))) := by
  rcases h with rfl | rfl | h
  · rfl
  · simp only [Option.map, mul_zero]; rfl
  · cases stepdown with
    | none => rfl
    | some d =>
      simp only [Option.map, profileLayers, mul_eq_zero, κ.pos.ne', false_or]
      split
      · rfl
      · rw [stepLayers_conv hc h (ht d rfl), bind_map_side, map_bind_side]
        simp only [Except.map, List.map_reverse, List.map_cons]

/-! ### Tabs -/

theorem edgeDs_conv (κ : Units) (t : EdgeTabs) (e : Edge) :
    EdgeTabs.edgeDs { t with spacing := κ.c * t.spacing, width := κ.c * t.width, height := κ.c * t.height } (e.conv κ) =
      t.edgeDs e := by
  have hg : (e.conv κ).geom = e.geom := rfl
  have hl : (e.conv κ).length = κ.c * e.length := rfl
  have hne := κ.pos.ne'
  have hh : 1 / (κ.c * e.length) * (κ.c * t.width / 2) = 1 / e.length * (t.width / 2) := by
    by_cases he : e.length = 0
    · simp [he]
    · field_simp
  simp only [EdgeTabs.edgeDs, hg, hl, mul_eq_zero, hne, false_or, mul_div_mul_left _ _ hne, hh]

theorem tabDs_conv (κ : Units) (t : WireTabs) (l : ℚ) :
    WireTabs.tabDs { t with width := κ.c * t.width, height := κ.c * t.height } (κ.c * l) = t.tabDs l := by
  have hne := κ.pos.ne'
  by_cases hl : l = 0
  · simp [WireTabs.tabDs, hl]
  · have hh : 1 / (κ.c * l) * (κ.c * t.width / 2) = 1 / l * (t.width / 2) := by field_simp
    simp only [WireTabs.tabDs, mul_eq_zero, hne, false_or, hh]

theorem edgeRangesFrom_conv (κ : Units) (l p : ℚ) (ls : List ℚ) :
    edgeRangesFrom (κ.c * l) p (ls.map (κ.c * ·)) = edgeRangesFrom l p ls := by
  induction ls generalizing p with
  | nil => rfl
  | cons a ls ih => simp only [List.map_cons, edgeRangesFrom, mul_div_mul_left _ _ κ.pos.ne', ih]

theorem edgeRanges_conv (κ : Units) (ls : List ℚ) : edgeRanges (ls.map (κ.c * ·)) = edgeRanges ls := by
  have hs : (ls.map (κ.c * ·)).sum = κ.c * ls.sum := by
    induction ls with
    | nil => simp
    | cons a ls ih => simp only [List.map_cons, List.sum_cons, ih, mul_add]
  simp only [edgeRanges, hs, edgeRangesFrom_conv, mul_eq_zero, κ.pos.ne', false_or, ne_eq, List.map_eq_nil_iff]

theorem transitions_conv (κ : Units) (t : Tabs) (l : ℚ) (w : List Edge) :
    (t.conv κ).transitions (κ.c * l) (w.map (Edge.conv κ)) = t.transitions l w := by
  cases t with
  | none => simp only [Tabs.conv, Tabs.transitions, List.map_map]; rfl
  | edge t =>
    simp only [Tabs.conv, Tabs.transitions, mapE_map]
    congr 1
    congr 1
    funext e
    exact edgeDs_conv κ t e
  | wire t =>
    have hl : (w.map (Edge.conv κ)).map Edge.length = (w.map Edge.length).map (κ.c * ·) := by
      simp only [List.map_map]; rfl
    simp only [Tabs.conv, Tabs.transitions, tabDs_conv, hl, edgeRanges_conv]

theorem height_conv (κ : Units) (t : Tabs) : (t.conv κ).height = κ.c * t.height := by
  cases t <;> simp [Tabs.conv, Tabs.height]

theorem sliceEdge_conv (κ : Units) (e : Edge) (a b : ℚ) : sliceEdge (e.conv κ) a b = (sliceEdge e a b).conv κ := by
  simp only [sliceEdge, Edge.conv, mul_assoc]
  rfl

theorem projectEdge_conv (κ : Units) (z : ℚ) (e : Edge) (a b : ℚ) :
    projectEdge (κ.c * z) (e.conv κ) a b = (projectEdge z e a b).conv κ := by
  simp only [projectEdge, sliceEdge, Edge.conv, mul_assoc]
  rfl

theorem makeLine_conv (κ : Units) (p q : Vec) : makeLine (p.conv κ) (q.conv κ) = (makeLine p q).map (Edge.conv κ) := by
  by_cases h : p = q
  · simp only [makeLine, h, if_true]; rfl
  · have h' : p.conv κ ≠ q.conv κ := fun e => h (vec_conv_inj κ e)
    have hz : |(q.conv κ).z - (p.conv κ).z| = κ.c * |q.z - p.z| := by
      simp only [Vec.conv, ← mul_sub, abs_mul, abs_of_pos κ.pos]
    have hs : ∀ u : ℚ, (p.conv κ).add (Vec.smul u ((q.conv κ).sub (p.conv κ))) = (p.add (Vec.smul u (q.sub p))).conv κ := by
      intro u
      simp only [Vec.sub, Vec.conv, Vec.add, Vec.smul]; ext <;> ring
    simp only [makeLine, h, h', if_false, Except.map, hz, hs, Edge.conv, Edge.paramUnit, if_true]
    congr 2
    · funext u
      rw [div_div]
    · funext u
      ring

theorem tabSegments_conv (κ : Units) (z : ℚ) (e : Edge) (prev : Option Edge) (ts : List (ℚ × Transition)) :
    tabSegments (κ.c * z) (e.conv κ) (prev.map (Edge.conv κ)) ts = (tabSegments z e prev ts).map (List.map (Edge.conv κ)) := by
  induction ts generalizing prev with
  | nil => cases prev <;> rfl
  | cons t1 ts ih =>
    cases ts with
    | nil => cases prev <;> rfl
    | cons t2 ts =>
      have ho : ∀ a b, edgeOrientedParam (e.conv κ) a b = edgeOrientedParam e a b := fun _ _ => rfl
      have hp : ∀ a b, (if t1.2 = .tab then projectEdge (κ.c * z) (e.conv κ) a b else sliceEdge (e.conv κ) a b) =
          (if t1.2 = .tab then projectEdge z e a b else sliceEdge e a b).conv κ := by
        intro a b
        split
        · exact projectEdge_conv κ z e a b
        · exact sliceEdge_conv κ e a b
      simp only [tabSegments, ho]
      obtain ⟨a, b, c⟩ := edgeOrientedParam e t1.1 t2.1
      simp only [hp]
      generalize (if t1.2 = .tab then projectEdge z e a b else sliceEdge e a b) = piece
      have h1 := ih (some piece)
      simp only [Option.map] at h1
      rw [h1]
      cases prev with
      | none =>
        simp only [Option.map, ok_bind, List.nil_append, bind_map_side, map_bind_side]
        rfl
      | some p =>
        simp only [Option.map, conv_endPoint, conv_startPoint, makeLine_conv, bind_map_side, map_bind_side]
        cases makeLine (edgeEndPoint p) (edgeStartPoint piece) with
        | error x => rfl
        | ok c =>
          simp only [ok_bind]
          cases tabSegments z e (some piece) (t2 :: ts) <;> rfl

theorem tabEdge_conv (κ : Units) (z : ℚ) (e : Edge) (ts : List (ℚ × Transition)) :
    tabEdge (κ.c * z) (e.conv κ) ts = (tabEdge z e ts).map (List.map (Edge.conv κ)) := by
  unfold tabEdge
  split
  · rfl
  · exact tabSegments_conv κ z e none ts

theorem tabEdges_conv (κ : Units) (z : ℚ) (es : List Edge) (tss : List (List (ℚ × Transition))) :
    tabEdges (κ.c * z) (es.map (Edge.conv κ)) tss = (tabEdges z es tss).map (List.map (Edge.conv κ)) := by
  induction es generalizing tss with
  | nil => cases tss <;> rfl
  | cons e es ih =>
    cases tss with
    | nil => rfl
    | cons ts tss =>
      simp only [List.map_cons, tabEdges, tabEdge_conv, ih, bind_map_side, map_bind_side]
      cases tabEdge z e ts with
      | error x => rfl
      | ok a =>
        simp only [ok_bind]
        cases tabEdges z es tss with
        | error x => rfl
        | ok b => simp only [ok_bind, Except.map, List.map_append]

theorem applyTabs_conv {cad : Cad} {κ : Units} (h : CadUnits κ cad) (z : ℚ) (t : Tabs) (w : List Edge) :
    applyTabs cad (κ.c * z) (t.conv κ) (w.map (Edge.conv κ)) = (applyTabs cad z t w).map (List.map (Edge.conv κ)) := by
  unfold applyTabs
  simp only [h.zmin, h.wireLength, transitions_conv, tabEdges_conv, mul_le_mul_iff_right₀ κ.pos]
  split
  · rfl
  · simp only [bind_map_side, map_bind_side, h.assemble]
    cases t.transitions (cad.wireLength w) w with
    | error x => rfl
    | ok tss =>
      simp only [ok_bind]
      cases tabEdges z w tss with
      | error x => rfl
      | ok es =>
        simp only [ok_bind]
        cases cad.assemble es <;> rfl

/-! ### No splines -/

theorem plain_up {w : List Edge} (h : PlainWire w) (dz : ℚ) : PlainWire (w.map (Edge.up dz)) := by
  intro e he
  obtain ⟨a, ha, rfl⟩ := List.mem_map.mp he
  exact h a ha

theorem stepLayers_plain {cad : Cad} {top : Frame} {base : List Edge} (hb : PlainWire base) {d : ℚ} {n i : ℕ}
    {ls : List (List Edge)} (h : stepLayers cad top base d n i = .ok ls) : ∀ l ∈ ls, PlainWire l := by
  induction n generalizing i ls with
  | zero => cases h
  | succ n ih =>
    simp only [stepLayers] at h
    split at h
    · cases h; intro l hl; cases hl
    · split at h
      · obtain ⟨rest, h1, h2⟩ := bind_ok.mp h
        injection h2 with h2
        subst h2
        intro l hl
        rcases List.mem_cons.mp hl with rfl | hl
        · exact plain_up hb _
        · exact ih h1 l hl
      · cases h; intro l hl; cases hl

theorem profileLayers_plain {cad : Cad} {top : Frame} {base : List Edge} (hb : PlainWire base) {stepdown : Option ℚ}
    {ls : List (List Edge)} (h : profileLayers cad top base stepdown = .ok ls) : ∀ l ∈ ls, PlainWire l := by
  have h1 : ∀ l ∈ [base], PlainWire l := by
    intro l hl
    rw [List.mem_singleton.mp hl]
    exact hb
  cases stepdown with
  | none => cases h; exact h1
  | some d =>
    simp only [profileLayers] at h
    split at h
    · cases h; exact h1
    · obtain ⟨rest, h2, h3⟩ := bind_ok.mp h
      injection h3 with h3
      subst h3
      intro l hl
      rcases List.mem_cons.mp (List.mem_reverse.mp hl) with rfl | hl
      · exact hb
      · exact stepLayers_plain hb h2 l hl

theorem tabSegments_plain {z : ℚ} {e : Edge} (he : e.Plain) {prev : Option Edge} {ts : List (ℚ × Transition)} {es : List Edge}
    (h : tabSegments z e prev ts = .ok es) : PlainWire es := by
  induction ts generalizing prev es with
  | nil => cases prev <;> cases h <;> intro x hx <;> cases hx
  | cons t1 ts ih =>
    cases ts with
    | nil => cases prev <;> cases h <;> intro x hx <;> cases hx
    | cons t2 ts =>
      have hp : (if t1.2 = Transition.tab then projectEdge z e (edgeOrientedParam e t1.1 t2.1).1 (edgeOrientedParam e t1.1 t2.1).2.1
          else sliceEdge e (edgeOrientedParam e t1.1 t2.1).1 (edgeOrientedParam e t1.1 t2.1).2.1).Plain := by
        split <;> exact he
      simp only [tabSegments] at h
      generalize (if t1.2 = Transition.tab then projectEdge z e (edgeOrientedParam e t1.1 t2.1).1 (edgeOrientedParam e t1.1 t2.1).2.1
        else sliceEdge e (edgeOrientedParam e t1.1 t2.1).1 (edgeOrientedParam e t1.1 t2.1).2.1) = piece at h hp
      cases prev with
      | none =>
        simp only [ok_bind] at h
        obtain ⟨rest, hr, h⟩ := bind_ok.mp h
        injection h with h
        subst h
        intro x hx
        rcases List.mem_cons.mp hx with rfl | hx
        · exact hp
        · exact ih hr x hx
      | some p =>
        obtain ⟨l, hl, h⟩ := bind_ok.mp h
        simp only [ok_bind] at h
        obtain ⟨rest, hr, h⟩ := bind_ok.mp h
        injection h with h
        subst h
        intro x hx
        simp only [List.cons_append, List.nil_append, List.mem_cons] at hx
        rcases hx with rfl | rfl | hx
        · unfold makeLine at hl
          split at hl
          · cases hl
          · injection hl with hl
            subst hl
            exact ⟨by simp, by simp, by simp⟩
        · exact hp
        · exact ih hr x hx

theorem tabEdges_plain {z : ℚ} {es : List Edge} (he : PlainWire es) {tss : List (List (ℚ × Transition))} {ns : List Edge}
    (h : tabEdges z es tss = .ok ns) : PlainWire ns := by
  induction es generalizing tss ns with
  | nil => cases tss <;> cases h <;> intro x hx <;> cases hx
  | cons e es ih =>
    cases tss with
    | nil => cases h; intro x hx; cases hx
    | cons ts tss =>
      simp only [tabEdges] at h
      obtain ⟨ps, h1, h⟩ := bind_ok.mp h
      obtain ⟨rest, h2, h⟩ := bind_ok.mp h
      injection h with h
      subst h
      intro x hx
      rcases List.mem_append.mp hx with hx | hx
      · unfold tabEdge at h1
        split at h1
        · cases h1
          rw [List.mem_singleton.mp hx]
          exact he e (by simp)
        · exact tabSegments_plain (he e (by simp)) h1 x hx
      · exact ih (fun e h => he e (by simp [h])) h2 x hx

theorem applyTabs_plain {cad : Cad} (hk : KeepsPlain cad) {z : ℚ} {t : Tabs} {w v : List Edge} (hw : PlainWire w)
    (h : applyTabs cad z t w = .ok v) : PlainWire v := by
  unfold applyTabs at h
  split at h
  · cases h; exact hw
  · obtain ⟨tss, h1, h⟩ := bind_ok.mp h
    obtain ⟨ns, h2, h⟩ := bind_ok.mp h
    split at h
    · rename_i v' hv
      cases h
      exact hk.assemble _ _ (tabEdges_plain hw h2) hv
    · cases h; exact hw

theorem profileFeature_plain {cad : Cad} (hk : KeepsPlain cad) {top : Frame} {stepdown : Option ℚ} {tabs : Option Tabs}
    {base : List Edge} (hb : PlainWire base) {ls : List (List Edge)} (h : profileFeature cad top stepdown tabs base = .ok ls) :
    ∀ l ∈ ls, PlainWire l := by
  unfold profileFeature at h
  obtain ⟨ks, h1, h⟩ := bind_ok.mp h
  have hks := profileLayers_plain hb h1
  cases tabs with
  | none => cases h; exact hks
  | some t =>
    intro l hl
    obtain ⟨k, hk1, hk2⟩ := mapE_mem h hl
    exact applyTabs_plain hk (hks k hk1) hk2

/-! ### Profiles -/

theorem mapE_conv_mem {α β γ δ : Type} {f : β → Except Err δ} {f' : α → Except Err γ} {σ : α → β} {τ : γ → δ} {l : List α}
    (h : ∀ a ∈ l, f (σ a) = (f' a).map τ) : mapE f (l.map σ) = (mapE f' l).map (List.map τ) := by
  induction l with
  | nil => rfl
  | cons a l ih =>
    simp only [List.map_cons, mapE, h a (by simp), ih (fun b hb => h b (by simp [hb]))]
    cases f' a with
    | error e => rfl
    | ok b => cases mapE f' l <;> rfl

theorem profile_conv {cad : Cad} {κ : Units} {j : Job} {stepdown : Option ℚ} (hc : CadUnits κ cad) (hk : KeepsPlain cad)
    (hh : HitsAlike cad) (h : stepdown = none ∨ stepdown = some 0 ∨ CutUnits κ j.top cad) {w : List Edge} (hw : PlainWire w)
    {offset : ℚ} (ht : ∀ r, j.toolRadius = some r → ToleranceFree κ cad (w.map (Edge.toLocal j.top)) (offset * r) stepdown)
    (tabs : Option Tabs) :
    profile cad (j.conv κ) (w.map (Edge.conv κ)) offset (stepdown.map (κ.c * ·)) (tabs.map (Tabs.conv κ)) =
      (profile cad j w offset stepdown tabs).map (List.map (Motion.conv κ)) := by
  have hl : PlainWire (w.map (Edge.toLocal j.top)) := by
    intro e he
    obtain ⟨a, ha, rfl⟩ := List.mem_map.mp he
    exact hw a ha
  unfold profile
  have hr := toolRadius_conv κ j
  have key : profileWires cad (j.conv κ) (w.map (Edge.conv κ)) offset (stepdown.map (κ.c * ·)) (tabs.map (Tabs.conv κ)) =
        (profileWires cad j w offset stepdown tabs).map (List.map (List.map (Edge.conv κ))) ∧
      ∀ ws, profileWires cad j w offset stepdown tabs = .ok ws → ∀ v ∈ ws, PlainWire v := by
    unfold profileWires
    rw [hr]
    cases hrad : j.toolRadius with
    | none => exact ⟨rfl, fun ws h => by cases h⟩
    | some r =>
      have ht := ht r hrad
      simp only [Option.map_some, (Job.conv_fields κ j).1, wire_conv]
      have ho : offset * (κ.c * r) = κ.c * (offset * r) := by ring
      rw [ho, offsetWire_conv hc ht]
      cases hb : offsetWire cad (w.map (Edge.toLocal j.top)) (offset * r) with
      | error x => exact ⟨rfl, fun ws h => by cases h⟩
      | ok bs =>
        obtain ⟨os, hos, hfrom⟩ := offsetWire_from ht.first hb
        have hplain : ∀ b ∈ bs, PlainWire b := by
          intro b hb
          obtain ⟨v, hv, rfl | ⟨u, rfl⟩⟩ := hfrom b hb
          · exact hk.offset2D _ _ _ hl hos _ hv
          · exact hk.relocate _ _ (hk.offset2D _ _ _ hl hos _ hv)
        have hfeat : ∀ b ∈ bs, profileFeature cad (j.top.conv κ) (stepdown.map (κ.c * ·)) (tabs.map (Tabs.conv κ)) (b.map (Edge.conv κ)) =
            (profileFeature cad j.top stepdown tabs b).map (List.map (List.map (Edge.conv κ))) := by
          intro b hb
          obtain ⟨v, hv, hvb⟩ := hfrom b hb
          have hthin := ht.thin os hos v hv b hvb
          simp only [profileFeature, profileLayers_conv hc h hthin, hc.zmin, bind_map_side, map_bind_side]
          congr 1
          funext ls
          cases tabs with
          | none => rfl
          | some t =>
            simp only [Option.map_some, height_conv, ← mul_add]
            exact mapE_side (applyTabs_conv hc _ t) ls
        simp only [Except.map, ok_bind]
        constructor
        · rw [mapE_conv_mem hfeat]
          cases mapE (profileFeature cad j.top stepdown tabs) bs with
          | error x => rfl
          | ok ls =>
            simp only [Except.map, ok_bind, List.map_flatten]
        · intro ws h
          obtain ⟨ls, h1, h2⟩ := bind_ok.mp h
          injection h2 with h2
          subst h2
          intro v hv
          obtain ⟨l, hl1, hl2⟩ := List.mem_flatten.mp hv
          obtain ⟨b, hb1, hb2⟩ := mapE_mem h1 hl1
          exact profileFeature_plain hk (hplain b hb1) hb2 v hl2
  rw [key.1]
  cases hws : profileWires cad j w offset stepdown tabs with
  | error x => rfl
  | ok ws => exact routeWires_conv hc hh j ws (key.2 ws hws)

theorem profiles_conv {cad : Cad} {κ : Units} {j : Job} {stepdown : Option ℚ} (hc : CadUnits κ cad) (hk : KeepsPlain cad)
    (hh : HitsAlike cad) (h : stepdown = none ∨ stepdown = some 0 ∨ CutUnits κ j.top cad) {ws : List (List Edge)}
    (hw : ∀ w ∈ ws, PlainWire w) {offset : ℚ} (ht : ∀ w ∈ ws, ∀ r, j.toolRadius = some r →
      ToleranceFree κ cad (w.map (Edge.toLocal j.top)) (offset * r) stepdown) (tabs : Option Tabs) :
    profiles cad (j.conv κ) offset (stepdown.map (κ.c * ·)) (tabs.map (Tabs.conv κ)) (ws.map (List.map (Edge.conv κ))) =
      (profiles cad j offset stepdown tabs ws).map (List.map (Motion.conv κ)) := by
  simp only [profiles]
  rw [mapE_conv_mem (fun w hm => profile_conv hc hk hh h (hw w hm) (ht w hm) tabs), bind_map_side, map_bind_side]
  simp only [Except.map, List.map_flatten]

/-- C134, for wire profiles (as far as it holds, see `C134_violated_small`, `C134_violated_pass`, `C134_violated_spline`): wires of
lines and arcs for which the tolerances of the code do not matter. -/
theorem C134_wire_profile_partial {cad : Cad} {κ : Units} (hc : CadUnits κ cad) (hk : KeepsPlain cad) (hh : HitsAlike cad) (j : Job)
    {wires : List (List Edge)} (hw : ∀ w ∈ wires, PlainWire w) {offset : ℚ} {stepdown : Option ℚ} {tool : Option Tool}
    (h : stepdown = none ∨ stepdown = some 0 ∨ CutUnits κ (j.updateTool tool).2.top cad)
    (ht : ∀ w ∈ wires, ∀ r, (j.updateTool tool).2.toolRadius = some r →
      ToleranceFree κ cad (w.map (Edge.toLocal (j.updateTool tool).2.top)) (offset * r) stepdown) (tabs : Option Tabs) :
    UnitWork κ j (wireProfileRequest cad wires offset stepdown tabs tool)
      (wireProfileRequest cad (wires.map (List.map (Edge.conv κ))) offset (stepdown.map (κ.c * ·)) (tabs.map (Tabs.conv κ))
        (tool.map (Tool.conv κ))) where
  name := rfl
  tool := rfl
  pre := rfl
  gen := profiles_conv hc hk hh h hw ht tabs

theorem extractWires_conv (κ : Units) (ss : List Shape) :
    extractWires (ss.map (Shape.conv κ)) = (extractWires ss).map (fun x => (x.1.map (List.map (Edge.conv κ)), x.2.map (List.map (Edge.conv κ)))) := by
  induction ss with
  | nil => rfl
  | cons s ss ih =>
    cases s with
    | other => rfl
    | wire w =>
      simp only [List.map_cons, Shape.conv, extractWires, ih]
      cases extractWires ss <;> rfl
    | face o is =>
      simp only [List.map_cons, Shape.conv, extractWires, ih]
      cases extractWires ss with
      | error x => rfl
      | ok x => simp only [Except.map, ok_bind, List.map_cons, List.map_append]

/-- The wires of shapes. -/
theorem extractWires_mem {ss : List Shape} {x : List (List Edge) × List (List Edge)} (h : extractWires ss = .ok x) :
    (∀ w ∈ x.1, w ∈ outersOf ss) ∧ ∀ w ∈ x.2, w ∈ innersOf ss := by
  induction ss generalizing x with
  | nil => cases h; exact ⟨by simp, by simp⟩
  | cons s ss ih =>
    cases s with
    | other => cases h
    | wire w =>
      simp only [extractWires] at h
      obtain ⟨y, h1, h2⟩ := bind_ok.mp h
      injection h2 with h2
      subst h2
      obtain ⟨a, b⟩ := ih h1
      simp only [outersOf, innersOf, List.flatMap_cons, List.mem_append, List.mem_cons] at *
      exact ⟨fun v hv => hv.elim (fun e => .inl (.inl e)) (fun e => .inr (a v e)), fun v hv => .inr (b v hv)⟩
    | face o is =>
      simp only [extractWires] at h
      obtain ⟨y, h1, h2⟩ := bind_ok.mp h
      injection h2 with h2
      subst h2
      obtain ⟨a, b⟩ := ih h1
      simp only [outersOf, innersOf, List.flatMap_cons, List.mem_append, List.mem_cons] at *
      exact ⟨fun v hv => hv.elim (fun e => .inl (.inl e)) (fun e => .inr (a v e)),
        fun v hv => hv.elim (fun e => .inl e) (fun e => .inr (b v e))⟩

theorem profilesOpt_conv {cad : Cad} {κ : Units} {j : Job} {stepdown : Option ℚ} (hc : CadUnits κ cad) (hk : KeepsPlain cad)
    (hh : HitsAlike cad) (h : stepdown = none ∨ stepdown = some 0 ∨ CutUnits κ j.top cad) {ws : List (List Edge)}
    (hw : ∀ w ∈ ws, PlainWire w) {offset : Option ℚ} (ht : ∀ w ∈ ws, ∀ o, offset = some o → ∀ r, j.toolRadius = some r →
      ToleranceFree κ cad (w.map (Edge.toLocal j.top)) (o * r) stepdown) (tabs : Option Tabs) :
    profilesOpt cad (j.conv κ) offset (stepdown.map (κ.c * ·)) (tabs.map (Tabs.conv κ)) (ws.map (List.map (Edge.conv κ))) =
      (profilesOpt cad j offset stepdown tabs ws).map (List.map (Motion.conv κ)) := by
  cases offset with
  | none => rfl
  | some o => exact profiles_conv hc hk hh h hw (fun w hm => ht w hm o rfl) tabs

/-- C134, for profiles: shapes of lines and arcs for which the tolerances of the code do not matter. -/
theorem C134_profile_partial {cad : Cad} {κ : Units} (hc : CadUnits κ cad) (hk : KeepsPlain cad) (hh : HitsAlike cad) (j : Job)
    {shapes : List Shape} (hw : ∀ w ∈ outersOf shapes ++ innersOf shapes, PlainWire w) {outerOffset innerOffset : Option ℚ}
    {stepdown : Option ℚ} {tool : Option Tool}
    (h : stepdown = none ∨ stepdown = some 0 ∨ CutUnits κ (j.updateTool tool).2.top cad)
    (hto : ∀ w ∈ outersOf shapes, ∀ o, outerOffset = some o → ∀ r, (j.updateTool tool).2.toolRadius = some r →
      ToleranceFree κ cad (w.map (Edge.toLocal (j.updateTool tool).2.top)) (o * r) stepdown)
    (hti : ∀ w ∈ innersOf shapes, ∀ o, innerOffset = some o → ∀ r, (j.updateTool tool).2.toolRadius = some r →
      ToleranceFree κ cad (w.map (Edge.toLocal (j.updateTool tool).2.top)) (o * r) stepdown) (tabs : Option Tabs) :
    UnitWork κ j (profileRequest cad shapes outerOffset innerOffset stepdown tabs tool)
      (profileRequest cad (shapes.map (Shape.conv κ)) outerOffset innerOffset (stepdown.map (κ.c * ·)) (tabs.map (Tabs.conv κ))
        (tool.map (Tool.conv κ))) where
  name := rfl
  tool := rfl
  pre := by
    have hpre : ∀ (ss : List Shape) (d : Option ℚ) (ts : Option Tabs) (tl : Option Tool) (i : Job),
        (profileRequest cad ss outerOffset innerOffset d ts tl).pre i =
        if i.toolDiameter = none then .error .valueError
        else if outerOffset = none ∧ innerOffset = none then .error .valueError
        else (extractWires ss >>= fun _ => .ok ()) := fun _ _ _ _ _ => rfl
    rw [hpre, hpre, extractWires_conv, bind_map_side]
    simp only [Job.conv_fields, Option.map_eq_none_iff]
  gen := by
    change (profileRequest cad _ outerOffset innerOffset _ _ _).gen ((j.updateTool tool).2.conv κ) =
      ((profileRequest cad shapes outerOffset innerOffset stepdown tabs tool).gen (j.updateTool tool).2).map _
    generalize (j.updateTool tool).2 = i at *
    rw [profileRequest_gen, profileRequest_gen, extractWires_conv, bind_map_side, map_bind_side]
    cases hx : extractWires shapes with
    | error x => rfl
    | ok x =>
      obtain ⟨m1, m2⟩ := extractWires_mem hx
      simp only [ok_bind]
      rw [profilesOpt_conv hc hk hh h (fun w hm => hw w (by simp [m2 w hm])) (fun w hm => hti w (m2 w hm)) tabs,
        profilesOpt_conv hc hk hh h (fun w hm => hw w (by simp [m1 w hm])) (fun w hm => hto w (m1 w hm)) tabs]
      cases profilesOpt cad i innerOffset stepdown tabs x.2 with
      | error x => rfl
      | ok a =>
        simp only [Except.map, ok_bind]
        cases profilesOpt cad i outerOffset stepdown tabs x.1 with
        | error x => rfl
        | ok b => simp only [ok_bind, List.map_append]

end CQ
