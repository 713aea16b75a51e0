import Verif.Spec.ProfileStep
import Verif.Props.SurfaceStep
import Verif.Props.ProfileRun

/-! # C122: a profile takes at most a stepdown at once -/

namespace CQ

/-! ### The same moves, higher up -/

/-- `c'` is the move `c`, higher by `d`. -/
def UpMove (d : ℚ) (c c' : Motion) : Prop :=
  c'.kind = c.kind ∧ c'.kind.mot ≠ .rapid ∧ c'.center.x = c.center.x ∧ c'.center.y = c.center.y ∧ ∃ a b : Vec,
    c.start = .fromVec a ∧ c.fin = .fromVec b ∧ c'.start = .fromVec (a.up d) ∧ c'.fin = .fromVec (b.up d)

theorem edgeStart_up (d : ℚ) (e : Edge) : edgeStartPoint (e.up d) = (edgeStartPoint e).up d := by
  unfold edgeStartPoint Edge.up; dsimp only; split <;> rfl

theorem edgeEnd_up (d : ℚ) (e : Edge) : edgeEndPoint (e.up d) = (edgeEndPoint e).up d := by
  unfold edgeEndPoint Edge.up; dsimp only; split <;> rfl

theorem cutsThrough_up (feed : Option PyNum) (d : ℚ) : ∀ (vs : List Vec) (a : Vec),
    List.Forall₂ (UpMove d) (cutsThroughPoints feed (.fromVec a) vs) (cutsThroughPoints feed (.fromVec (a.up d)) (vs.map (Vec.up d)))
  | [], _ => .nil
  | v :: vs, a => .cons ⟨rfl, by simp [cutAbs, MKind.mot], rfl, rfl, a, v, rfl, rfl, rfl, rfl⟩ (cutsThrough_up feed d vs v)

theorem routeArc_up {veq : Vec → Vec → Bool} {e : Edge} {feed : Option PyNum} {d : ℚ}
    (hv : veq ((edgeStartPoint e).up d) ((edgeEndPoint e).up d) = veq (edgeStartPoint e) (edgeEndPoint e))
    {cs : List Motion} (h : routeArc veq e none none feed = .ok cs) :
    ∃ cs', routeArc veq (e.up d) none none feed = .ok cs' ∧ List.Forall₂ (UpMove d) cs cs' := by
  have hs : routeStart (e.up d) none = (routeStart e none).up d := edgeStart_up d e
  have he : routeEnd (e.up d) none = (routeEnd e none).up d := edgeEnd_up d e
  have hv' : veq ((routeStart e none).up d) ((routeEnd e none).up d) = veq (routeStart e none) (routeEnd e none) := hv
  unfold routeArc at h ⊢
  have hc : isArcClockwise2 (e.up d).normal (e.up d).reversed = isArcClockwise2 e.normal e.reversed := rfl
  have hcl : (e.up d).closed = e.closed := rfl
  simp only [hs, he, hc, hcl] at h ⊢
  cases hcw : isArcClockwise2 e.normal e.reversed with
  | error x => rw [hcw] at h; cases h
  | ok b =>
    rw [hcw] at h
    simp only at h ⊢
    have hk : (if b = true then MKind.cw else MKind.ccw).mot ≠ .rapid := by cases b <;> simp [MKind.mot]
    by_cases hclosed : e.closed = true
    · rw [if_pos hclosed] at h ⊢
      cases h
      exact ⟨_, rfl, .cons ⟨rfl, hk, rfl, rfl, _, _, rfl, rfl, rfl, rfl⟩ (.cons ⟨rfl, hk, rfl, rfl, _, _, rfl, rfl, rfl, rfl⟩ .nil)⟩
    · rw [if_neg hclosed] at h ⊢
      by_cases hve : veq (routeStart e none) (routeEnd e none) = true
      · rw [if_pos hve] at h
        rw [if_pos (hv'.trans hve)]
        cases h
        exact ⟨_, rfl, .cons ⟨rfl, by simp [cutAbs, MKind.mot], rfl, rfl, _, _, rfl, rfl, rfl, rfl⟩ .nil⟩
      · rw [if_neg hve] at h
        rw [if_neg (fun h => hve (hv'.symm.trans h))]
        cases h
        exact ⟨_, rfl, .cons ⟨rfl, hk, rfl, rfl, _, _, rfl, rfl, rfl, rfl⟩ .nil⟩

theorem routeEdge_up {veq : Vec → Vec → Bool} {e : Edge} {prec : ℕ} {feed : Option PyNum} {d : ℚ}
    (hv : (e.geom = .arc ∨ e.geom = .circle) →
      veq ((edgeStartPoint e).up d) ((edgeEndPoint e).up d) = veq (edgeStartPoint e) (edgeEndPoint e))
    {cs : List Motion} {v : Vec} (h : routeEdge veq e prec none none feed = .ok (cs, v)) :
    ∃ cs', routeEdge veq (e.up d) prec none none feed = .ok (cs', v.up d) ∧ List.Forall₂ (UpMove d) cs cs' := by
  have hspace : interpolateEdgeToVectors (e.up d) prec = (interpolateEdgeToVectors e prec).map (Vec.up d) := by
    unfold interpolateEdgeToVectors
    rw [List.map_map]
    rfl
  unfold routeEdge at h ⊢
  have hg : (e.up d).geom = e.geom := rfl
  rw [hg]
  simp only [routeStart, routeEnd, edgeStart_up, edgeEnd_up, hspace] at h ⊢
  cases hgeom : e.geom <;> rw [hgeom] at h <;> simp only at h ⊢
  · cases h
    exact ⟨_, rfl, .cons ⟨rfl, by simp [cutAbs, MKind.mot], rfl, rfl, _, _, rfl, rfl, rfl, rfl⟩ .nil⟩
  · cases ha : routeArc veq e none none feed with
    | error x => rw [ha] at h; cases h
    | ok ds =>
      rw [ha] at h
      cases h
      obtain ⟨cs', h1, h2⟩ := routeArc_up (hv (.inl hgeom)) ha
      exact ⟨cs', by rw [h1], h2⟩
  · cases ha : routeArc veq e none none feed with
    | error x => rw [ha] at h; cases h
    | ok ds =>
      rw [ha] at h
      cases h
      obtain ⟨cs', h1, h2⟩ := routeArc_up (hv (.inr hgeom)) ha
      exact ⟨cs', by rw [h1], h2⟩
  · cases h; exact ⟨_, rfl, cutsThrough_up _ _ _ _⟩
  · cases h; exact ⟨_, rfl, cutsThrough_up _ _ _ _⟩
  · cases h; exact ⟨_, rfl, cutsThrough_up _ _ _ _⟩
  · cases h

theorem routeEdges_up {cad : Cad} {j : Job} {d : ℚ} : ∀ {w : List Edge} {fin : Vec} {cs : List Motion} {v : Vec}, SteadyEnds cad w →
    routeEdges cad.veq j fin w = .ok (cs, v) →
    ∃ cs', routeEdges cad.veq j (fin.up d) (w.map (Edge.up d)) = .ok (cs', v.up d) ∧ List.Forall₂ (UpMove d) cs cs' := by
  intro w
  induction w with
  | nil => intro fin cs v _ h; cases h; exact ⟨[], rfl, .nil⟩
  | cons e es ih =>
    intro fin cs v hs h
    unfold routeEdges at h
    cases h1 : routeEdge cad.veq e j.precision none none (some j.feed) with
    | error x => rw [h1] at h; cases h
    | ok r =>
      obtain ⟨a, b⟩ := r
      rw [h1] at h
      simp only at h
      cases h2 : routeEdges cad.veq j b es with
      | error x => rw [h2] at h; cases h
      | ok r =>
        obtain ⟨a', b'⟩ := r
        rw [h2] at h
        cases h
        obtain ⟨c1, k1, k2⟩ := routeEdge_up (d := d) (fun hg => hs e (by simp) hg d) h1
        obtain ⟨c2, k3, k4⟩ := ih (fun e he => hs e (by simp [he])) h2
        refine ⟨c1 ++ c2, ?_, List.rel_append k2 k4⟩
        simp only [List.map_cons, routeEdges, k1, k3]

/-- The cuts along a wire begin where it begins. -/
theorem routeEdges_begin {veq : Vec → Vec → Bool} {j : Job} {e : Edge} {es : List Edge} {fin v : Vec} {cs : List Motion} (he : EdgeOK e)
    (h : routeEdges veq j fin (e :: es) = .ok (cs, v)) : ∃ c ∈ cs, c.start = .fromVec (edgeStartPoint e) := by
  have h0 := he.param0
  have h1' := he.param1
  have hst : e.posParam (edgeStartParam e) = edgeStartPoint e := by
    unfold edgeStartParam edgeStartPoint
    split <;> assumption
  have harc : ∀ {ds}, routeArc veq e none none (some j.feed) = .ok ds → ∃ c ∈ ds, c.start = .fromVec (edgeStartPoint e) := by
    intro ds hd
    unfold routeArc at hd
    simp only at hd
    cases hcw : isArcClockwise2 e.normal e.reversed with
    | error x => rw [hcw] at hd; cases hd
    | ok b =>
      rw [hcw] at hd
      simp only at hd
      split at hd
      · cases hd
        refine ⟨_, List.mem_cons_self, ?_⟩
        change AddrVec.fromVec (e.posParam (edgeStartParam e)) = _
        rw [hst]
      · split at hd <;> cases hd <;> exact ⟨_, List.mem_cons_self, rfl⟩
  have hint : ∃ x xs, interpolateEdgeToVectors e j.precision = x :: xs := by
    have hn : (interpolateEdgeToVectors e j.precision).length ≠ 0 := by
      unfold interpolateEdgeToVectors interpolationSpace linspace edgeInterpolationCount
      simp only [List.length_map]
      split <;> simp
    cases hi : interpolateEdgeToVectors e j.precision with
    | nil => rw [hi] at hn; exact absurd rfl hn
    | cons x xs => exact ⟨x, xs, rfl⟩
  unfold routeEdges at h
  cases h1 : routeEdge veq e j.precision none none (some j.feed) with
  | error x => rw [h1] at h; cases h
  | ok r =>
    obtain ⟨a, b⟩ := r
    rw [h1] at h
    simp only at h
    cases h2 : routeEdges veq j b es with
    | error x => rw [h2] at h; cases h
    | ok r =>
      rw [h2] at h
      cases h
      have key : ∃ c ∈ a, c.start = .fromVec (edgeStartPoint e) := by
        unfold routeEdge at h1
        simp only at h1
        obtain ⟨x, xs, hx⟩ := hint
        cases hgeom : e.geom <;> rw [hgeom] at h1 <;> simp only at h1
        · cases h1; exact ⟨_, List.mem_cons_self, rfl⟩
        · cases ha : routeArc veq e none none (some j.feed) with
          | error x => rw [ha] at h1; cases h1
          | ok ds => rw [ha] at h1; cases h1; exact harc ha
        · cases ha : routeArc veq e none none (some j.feed) with
          | error x => rw [ha] at h1; cases h1
          | ok ds => rw [ha] at h1; cases h1; exact harc ha
        · cases h1; rw [hx]; exact ⟨_, List.mem_cons_self, rfl⟩
        · cases h1; rw [hx]; exact ⟨_, List.mem_cons_self, rfl⟩
        · cases h1; rw [hx]; exact ⟨_, List.mem_cons_self, rfl⟩
        · cases h1
      obtain ⟨c, hc, hs⟩ := key
      exact ⟨c, by simp [hc], hs⟩

/-! ### The moves for a wire -/

/-- An approach to the start of the wire, and the cuts along its edges. -/
def WireBlock (cad : Cad) (j : Job) (w : List Edge) (b : List Motion) : Prop :=
  ∃ e es pos ds v v0, w = e :: es ∧
    b = rapidTo pos (edgeStartPoint e) j.rapidHeight (some j.opSafeHeight) (some j.plungeFeed) ++ ds ∧
    routeEdges cad.veq j v0 w = .ok (ds, v)

theorem routeEdges_fin {veq : Vec → Vec → Bool} {j : Job} {e : Edge} {es : List Edge} (v v' : Vec) :
    routeEdges veq j v (e :: es) = routeEdges veq j v' (e :: es) := by
  simp only [routeEdges]

theorem routeWires_blocks {cad : Cad} {j : Job} {ws : List (List Edge)} {cs : List Motion} (hne : ∀ w ∈ ws, w ≠ [])
    (h : routeWires cad.veq (fun _ _ => none) j ws = .ok cs) :
    ∃ bs, cs = List.flatten bs ∧ List.Forall₂ (WireBlock cad j) ws bs := by
  have key : ∀ (ws : List (List Edge)) (acc : List Motion) (pwe : Option Vec) (pos : AddrVec) (cs : List Motion), (∀ w ∈ ws, w ≠ []) →
      routeWiresFrom cad.veq (fun _ _ => none) j none acc pwe pos ws = .ok cs →
      ∃ bs, cs = acc ++ List.flatten bs ∧ List.Forall₂ (WireBlock cad j) ws bs := by
    intro ws
    induction ws with
    | nil => intro acc pwe pos cs _ h; cases h; exact ⟨[], by simp, .nil⟩
    | cons w ws ih =>
      intro acc pwe pos cs hne h
      cases w with
      | nil => exact absurd rfl (hne [] (by simp))
      | cons e es =>
        simp only [routeWiresFrom] at h
        have hp : (pwe.bind fun _ : Vec => (none : Option WireHit)) = none := by cases pwe <;> rfl
        rw [hp] at h
        cases h1 : routeWire cad.veq j none none pos (e :: es) with
        | error x => rw [h1] at h; cases h
        | ok r =>
          obtain ⟨ds, fin⟩ := r
          rw [h1] at h
          obtain ⟨bs, rfl, hbs⟩ := ih _ _ _ _ (fun w hw => hne w (by simp [hw])) h
          refine ⟨ds :: bs, by simp, .cons ?_ hbs⟩
          unfold routeWire enterWire wireLink at h1
          simp only [Option.bind_none] at h1
          cases h2 : routeEdge cad.veq e j.precision none none (some j.feed) with
          | error x => rw [h2] at h1; cases h1
          | ok r =>
            obtain ⟨a, b⟩ := r
            rw [h2] at h1
            simp only at h1
            cases h3 : routeEdges cad.veq j b es with
            | error x => rw [h3] at h1; cases h1
            | ok r =>
              obtain ⟨a', b'⟩ := r
              rw [h3] at h1
              cases h1
              exact ⟨e, es, pos, a ++ a', fin, b, rfl, by simp, by simp only [routeEdges, h2, h3]⟩
  obtain ⟨bs, h1, h2⟩ := key ws [] none _ cs hne h
  exact ⟨bs, by simpa using h1, h2⟩

/-! ### The passes -/

theorem stepLayers_list {cad : Cad} {top : Frame} (hk : KeepsBelow cad top) {base : List Edge} {s : ℚ} :
    ∀ {rounds i : ℕ} {ls : List (List Edge)}, stepLayers cad top base s rounds i = .ok ls → ∃ m : ℕ,
      ls = (List.range' (i + 1) m).map (fun k : ℕ => base.map (Edge.up (s * k))) ∧
      -1 / 1000 ≤ cad.zmin (base.map (Edge.up (s * (i + m + 1 : ℕ)))) := by
  intro rounds
  induction rounds with
  | zero => intro i ls h; cases h
  | succ r ih =>
    intro i ls h
    simp only [stepLayers] at h
    split at h
    · rename_i hz
      cases h
      exact ⟨0, rfl, by push_cast; simpa using hz⟩
    · rename_i hz
      obtain ⟨e, he1, he2⟩ := hk _ (not_le.mp hz)
      have hl : leftBelow cad top (base.map (Edge.up (s * (i + 1)))) = true := by
        unfold leftBelow
        rw [decide_eq_true_eq]
        exact List.ne_nil_of_mem (List.mem_filter.mpr ⟨he1, by simpa using he2⟩)
      rw [if_pos hl] at h
      obtain ⟨rest, h1, h⟩ := bind_ok.mp h
      cases h
      obtain ⟨m, rfl, h2⟩ := ih h1
      refine ⟨m + 1, ?_, ?_⟩
      · rw [List.range'_succ, List.map_cons]
        push_cast
        rfl
      · rw [show i + (m + 1) + 1 = i + 1 + m + 1 by omega]
        exact h2

/-! ### The order of the moves -/

theorem stepOK_mono {top s : ℚ} {pre pre' : List Motion} {c : Motion} (hsub : pre ⊆ pre') (h : StepOK top s pre c) : StepOK top s pre' c := by
  obtain ⟨b, hb, h⟩ := h
  refine ⟨b, hb, ?_⟩
  rcases h with h | ⟨h1, c', hc', h2⟩ | ⟨a, ha, c', hc', h2⟩
  · exact .inl h
  · exact .inr (.inl ⟨h1, c', hsub hc', h2⟩)
  · exact .inr (.inr ⟨a, ha, c', hsub hc', h2⟩)

theorem stepsDown_flatten {top s : ℚ} {css : List (List Motion)} (h : ∀ cs ∈ css, StepsDown top s cs) : StepsDown top s css.flatten := by
  intro pre c post e hk
  obtain ⟨A, l, B, u, v, rfl, rfl, rfl⟩ := flatten_at e
  exact stepOK_mono (List.subset_append_right _ _) (h (u ++ c :: v) (by simp) u c v rfl hk)

theorem stepsDown_append {top s : ℚ} {a b : List Motion} (ha : StepsDown top s a) (hb : StepsDown top s b) : StepsDown top s (a ++ b) := by
  have := stepsDown_flatten (top := top) (s := s) (css := [a, b]) (by simpa using ⟨ha, hb⟩)
  simpa using this

/-- The move goes from one point to another, both at heights satisfying `P`. -/
def GoesAt (P : ℚ → Prop) (c : Motion) : Prop := ∃ a b : Vec, c.start = .fromVec a ∧ c.fin = .fromVec b ∧ P a.z ∧ P b.z

theorem routeEdge_goes {P : ℚ → Prop} {veq : Vec → Vec → Bool} {e : Edge} {prec : ℕ} {feed : Option PyNum} {cs : List Motion} {v : Vec}
    (hP : EdgeAt P e) (h : routeEdge veq e prec none none feed = .ok (cs, v)) : ∀ c ∈ cs, GoesAt P c := by
  have hpts : ∀ (vs : List Vec) (a : Vec), P a.z → (∀ v ∈ vs, P v.z) → ∀ c ∈ cutsThroughPoints feed (.fromVec a) vs, GoesAt P c := by
    intro vs
    induction vs with
    | nil => simp [cutsThroughPoints]
    | cons v vs ih =>
      intro a ha hv c hc
      rcases List.mem_cons.mp hc with rfl | hc
      · exact ⟨a, v, rfl, rfl, ha, hv v (by simp)⟩
      · exact ih v (hv v (by simp)) (fun w hw => hv w (by simp [hw])) c hc
  have hint : ∀ v ∈ interpolateEdgeToVectors e prec, P v.z := by
    intro v hv
    obtain ⟨d, -, rfl⟩ := List.mem_map.mp hv
    exact hP.len d
  have hs := edgeAt_start hP
  have he := edgeAt_end hP
  have harc : ∀ {ds}, routeArc veq e none none feed = .ok ds → ∀ c ∈ ds, GoesAt P c := by
    intro ds hd
    unfold routeArc at hd
    simp only at hd
    cases hcw : isArcClockwise2 e.normal e.reversed with
    | error x => rw [hcw] at hd; cases hd
    | ok b =>
      rw [hcw] at hd
      simp only at hd
      split at hd
      · cases hd
        intro c hc
        simp only [List.mem_cons, List.not_mem_nil, or_false] at hc
        rcases hc with rfl | rfl
        · exact ⟨_, _, rfl, rfl, hP.param _, hP.param _⟩
        · exact ⟨_, _, rfl, rfl, hP.param _, he⟩
      · split at hd <;> cases hd <;> intro c hc <;> rw [List.mem_singleton] at hc <;> subst hc
        · exact ⟨_, _, rfl, rfl, hs, he⟩
        · exact ⟨_, _, rfl, rfl, hs, he⟩
  unfold routeEdge at h
  simp only at h
  cases hg : e.geom <;> rw [hg] at h <;> simp only at h
  · cases h
    intro c hc
    rw [List.mem_singleton] at hc
    subst hc
    exact ⟨_, _, rfl, rfl, hs, he⟩
  · cases ha : routeArc veq e none none feed with
    | error x => rw [ha] at h; cases h
    | ok ds => rw [ha] at h; cases h; exact harc ha
  · cases ha : routeArc veq e none none feed with
    | error x => rw [ha] at h; cases h
    | ok ds => rw [ha] at h; cases h; exact harc ha
  · cases h; exact hpts _ _ hs hint
  · cases h; exact hpts _ _ hs hint
  · cases h; exact hpts _ _ hs hint
  · cases h

theorem routeEdges_go {P : ℚ → Prop} {veq : Vec → Vec → Bool} {j : Job} {es : List Edge} (hP : ∀ e ∈ es, EdgeAt P e)
    {fin v : Vec} {cs : List Motion} (h : routeEdges veq j fin es = .ok (cs, v)) : ∀ c ∈ cs, GoesAt P c := by
  induction es generalizing fin cs v with
  | nil => cases h; simp
  | cons e es ih =>
    unfold routeEdges at h
    cases h1 : routeEdge veq e j.precision none none (some j.feed) with
    | error x => rw [h1] at h; cases h
    | ok r =>
      obtain ⟨a, b⟩ := r
      rw [h1] at h
      simp only at h
      cases h2 : routeEdges veq j b es with
      | error x => rw [h2] at h; cases h
      | ok r =>
        rw [h2] at h
        cases h
        intro c hc
        rcases List.mem_append.mp hc with hc | hc
        · exact routeEdge_goes (hP e (by simp)) h1 c hc
        · exact ih (fun e he => hP e (by simp [he])) h2 c hc

theorem plunge_down {start : AddrVec} {v : Vec} {rh sh : ℚ} {pf : Option PyNum} {c : Motion} (hc : c ∈ rapidTo start v rh (some sh) pf)
    (hk : c.kind.mot ≠ .rapid) : c.fin = .fromVec v ∧ StraightDown c := by
  obtain ⟨h1, -, h2, h3⟩ := rapidTo_feeds start v rh sh pf c hc hk
  refine ⟨h3, ?_, ?_⟩
  · rw [h1.1]; rfl
  · unfold Lateral
    rw [h2, h3]
    simp

/-- A pass that stays near the surface. -/
theorem block_first {cad : Cad} {j : Job} {w : List Edge} {b : List Motion} {top s : ℚ}
    (hz : ∀ e ∈ w, EdgeAt (fun z => top ≤ z + s) e) (h : WireBlock cad j w b) : ∀ c ∈ b, c.kind.mot ≠ .rapid → StepOK top s [] c := by
  obtain ⟨e, es, pos, ds, v, v0, rfl, rfl, hr⟩ := h
  intro c hc hk
  rcases List.mem_append.mp hc with hc | hc
  · obtain ⟨h1, h2⟩ := plunge_down hc hk
    exact ⟨_, h1, .inl ⟨edgeAt_start (hz e (by simp)), .inl h2⟩⟩
  · obtain ⟨a, b, h1, h2, h3, h4⟩ := routeEdges_go hz hr c hc
    exact ⟨b, h2, .inl ⟨h4, .inr ⟨a, h1, h3⟩⟩⟩

theorem up_up (d s : ℚ) (v : Vec) : (v.up d).up s = v.up (d + s) := by
  simp only [Vec.up, add_assoc]

theorem map_up_up (d s : ℚ) (w : List Edge) : (w.map (Edge.up d)).map (Edge.up s) = w.map (Edge.up (d + s)) := by
  rw [List.map_map]
  refine List.map_congr_left (fun e _ => ?_)
  simp only [Function.comp, Edge.up, up_up]

theorem steady_up {cad : Cad} {w : List Edge} (h : SteadyEnds cad w) (d : ℚ) : SteadyEnds cad (w.map (Edge.up d)) := by
  intro e he hg dz
  obtain ⟨x, hx, rfl⟩ := List.mem_map.mp he
  rw [edgeStart_up, edgeEnd_up, up_up, up_up, h x hx hg, h x hx hg]

/-- A pass below another one. -/
theorem block_next {cad : Cad} {j : Job} {w : List Edge} (hok : WireOK w) (hs : SteadyEnds cad w) {s top : ℚ}
    {b b' : List Motion} (h' : WireBlock cad j (w.map (Edge.up s)) b') (h : WireBlock cad j w b) :
    ∀ c ∈ b, c.kind.mot ≠ .rapid → StepOK top s b' c := by
  obtain ⟨e, es, pos, ds, v, v0, rfl, rfl, hr⟩ := h
  obtain ⟨e', es', pos', ds', v', v0', hw', rfl, hr'⟩ := h'
  rw [List.map_cons] at hw' hr'
  cases hw'
  obtain ⟨ds2, hr2, hup⟩ := routeEdges_up (d := s) hs hr
  rw [List.map_cons, routeEdges_fin _ v0', hr'] at hr2
  cases hr2
  intro c hc hk
  rcases List.mem_append.mp hc with hc | hc
  · obtain ⟨h1, h2⟩ := plunge_down hc hk
    obtain ⟨c', hc', hst⟩ := routeEdges_begin (edgeOK_up (hok.edgeOK e (by simp)) s) hr'
    obtain ⟨c0, -, h0⟩ := forall2_right hup hc'
    refine ⟨_, h1, .inr (.inl ⟨h2, c', List.mem_append_right _ hc', h0.2.1, _, hst, ?_⟩)⟩
    rw [edgeStart_up]
    exact ⟨rfl, rfl, le_rfl⟩
  · obtain ⟨c', hc', k1, k2, k3, k4, a, b, ha, hb, ha', hb'⟩ := forall2_left hup hc
    exact ⟨b, hb, .inr (.inr ⟨a, ha, c', List.mem_append_right _ hc', k1, k3, k4, _, _, ha', hb', ⟨rfl, rfl, le_rfl⟩, ⟨rfl, rfl, le_rfl⟩⟩)⟩

theorem blocks_below {cad : Cad} {j : Job} {base : List Edge} (hok : WireOK base) (hs : SteadyEnds cad base) {s top : ℚ} (m : ℕ) :
    ∀ {b' : List Motion} {bs : List (List Motion)}, WireBlock cad j (base.map (Edge.up (s * m))) b' →
      List.Forall₂ (WireBlock cad j) ((List.range m).reverse.map (fun k : ℕ => base.map (Edge.up (s * k)))) bs →
      ∀ pre c post, bs.flatten = pre ++ c :: post → c.kind.mot ≠ .rapid → StepOK top s (b' ++ pre) c := by
  induction m with
  | zero =>
    intro b' bs _ h pre c post he
    cases h
    simp at he
  | succ m ih =>
    intro b' bs h' h pre c post he hk
    rw [List.range_succ, List.reverse_append, List.reverse_singleton, List.singleton_append, List.map_cons] at h
    cases h with
    | cons h1 h2 =>
      rename_i b bs
      rw [List.flatten_cons] at he
      rcases List.append_eq_append_iff.mp he with ⟨u, hu1, hu2⟩ | ⟨u, hu1, hu2⟩
      · have := ih h1 h2 u c post hu2 hk
        rw [hu1]
        exact stepOK_mono (List.subset_append_right _ _) this
      · cases u with
        | nil =>
          simp only [List.append_nil] at hu1
          simp only [List.nil_append] at hu2
          have := ih h1 h2 [] c post hu2.symm hk
          rw [← hu1]
          exact stepOK_mono (by simp) this
        | cons x u =>
          simp only [List.cons_append, List.cons.injEq] at hu2
          obtain ⟨rfl, -⟩ := hu2
          have hup : base.map (Edge.up (s * (m + 1 : ℕ))) = (base.map (Edge.up (s * m))).map (Edge.up s) := by
            rw [map_up_up]; push_cast; ring_nf
          rw [hup] at h'
          exact stepOK_mono (List.subset_append_left _ _) (block_next (wireOK_up hok _) (steady_up hs _) h' h1 c (by rw [hu1]; simp) hk)

/-- C122 (as far as it holds, see `C122_violated`), for one profile. -/
theorem C122_moves_partial {cad : Cad} (hb : BoxMoves cad) {j : Job} (hk : KeepsBelow cad j.top) {wire : List Edge} {offset s : ℚ}
    {cs : List Motion} (hs : 0 < s) (h : profile cad j wire offset (some s) none = .ok cs) (hw : PlainContours cad j offset wire)
    (hends : ∀ r bases, j.toolRadius = some r → offsetWire cad (wire.map (Edge.toLocal j.top)) (offset * r) = .ok bases →
      ∀ b ∈ bases, SteadyEnds cad b) : StepsDown (-1 / 1000) s cs := by
  obtain ⟨ws, h1, h⟩ := bind_ok.mp h
  unfold profileWires at h1
  cases hr : j.toolRadius with
  | none => rw [hr] at h1; cases h1
  | some r =>
  rw [hr] at h1
  obtain ⟨bases, ho, h1⟩ := bind_ok.mp h1
  obtain ⟨lss, h2, h1⟩ := bind_ok.mp h1
  cases h1
  have hlay : List.Forall₂ (fun base layers => base ∈ bases ∧ ∃ m : ℕ,
      layers = (List.range (m + 1)).reverse.map (fun k : ℕ => base.map (Edge.up (s * k))) ∧
      -1 / 1000 ≤ cad.zmin (base.map (Edge.up (s * (m + 1 : ℕ))))) bases lss := by
    refine forall₂_imp_mem (mapE_ok.mp h2) ?_
    intro base hbase layers hf
    obtain ⟨ls, hl, hf⟩ := bind_ok.mp hf
    cases hf
    simp only [profileLayers, hs.ne', if_false] at hl
    obtain ⟨ls', hl', hl⟩ := bind_ok.mp hl
    cases hl
    obtain ⟨m, rfl, hm⟩ := stepLayers_list hk hl'
    refine ⟨hbase, m, ?_, by simpa using hm⟩
    rw [List.range_eq_range', List.range'_succ, List.map_reverse, List.map_cons]
    simp [map_up_zero]
  have hall : ∀ w ∈ lss.flatten, w ≠ [] ∧ NearestIsVertex cad w := by
    intro w hwm
    obtain ⟨l, hl, hwl⟩ := List.mem_flatten.mp hwm
    obtain ⟨base, -, hbase, m, rfl, -⟩ := forall2_right hlay hl
    obtain ⟨k, -, rfl⟩ := List.mem_map.mp hwl
    have hp := hw r bases hr ho base hbase
    exact ⟨by simpa using hp.ok.nonempty, hp.vertex _⟩
  rw [routeWires_vertex (fun w hw => (hall w hw).2)] at h
  obtain ⟨bs, rfl, hbs⟩ := routeWires_blocks (fun w hw => (hall w hw).1) h
  obtain ⟨bss, rfl, hbss⟩ := forall₂_flatten_left hbs
  rw [List.flatten_flatten]
  refine stepsDown_flatten ?_
  intro x hx
  obtain ⟨bs, hbsm, rfl⟩ := List.mem_map.mp hx
  obtain ⟨layers, hlm, hblocks⟩ := forall2_right hbss hbsm
  obtain ⟨base, -, hbase, m, rfl, hz⟩ := forall2_right hlay hlm
  have hp := hw r bases hr ho base hbase
  rw [zmin_up hb hp.ok.nonempty] at hz
  push_cast at hz
  rw [List.range_succ, List.reverse_append, List.reverse_singleton, List.singleton_append, List.map_cons] at hblocks
  cases hblocks with
  | cons g1 g2 =>
    rename_i b bs
    intro pre c post he hk'
    rw [List.flatten_cons] at he
    have hfirst : ∀ c ∈ b, c.kind.mot ≠ .rapid → StepOK (-1 / 1000) s [] c := by
      refine block_first ?_ g1
      intro e hem
      obtain ⟨x, hx, rfl⟩ := List.mem_map.mp hem
      have hl := hp.level x hx
      have hsm : s * ((m : ℚ) + 1) = s * m + s := by ring
      rw [hsm] at hz
      have key : ∀ z, z = cad.zmin base → -1 / 1000 ≤ z + s * m + s := by rintro z rfl; linarith
      exact ⟨key _ hl.start, key _ hl.fin, fun p => key _ (hl.param p), fun d => key _ (hl.len d)⟩
    rcases List.append_eq_append_iff.mp he with ⟨u, hu1, hu2⟩ | ⟨u, hu1, hu2⟩
    · rw [hu1]
      exact blocks_below hp.ok (hends r bases hr ho base hbase) m g1 g2 u c post hu2 hk'
    · cases u with
      | nil =>
        simp only [List.append_nil] at hu1
        simp only [List.nil_append] at hu2
        have := blocks_below (top := -1 / 1000) hp.ok (hends r bases hr ho base hbase) m g1 g2 [] c post hu2.symm hk'
        rw [← hu1]
        simpa using this
      | cons x u =>
        simp only [List.cons_append, List.cons.injEq] at hu2
        obtain ⟨rfl, -⟩ := hu2
        exact stepOK_mono (by simp) (hfirst c (by rw [hu1]; simp) hk')

/-! ### On the machine -/

theorem runsDown_follows {e : Event} {c : Motion} (hf : FollowsMove e c) {b : Vec} (hb : c.fin = .fromVec b) (hd : StraightDown c) :
    RunsDown b.rounded e := by
  obtain ⟨⟨tgt, ctr, hact, hx, hy, hz, -, -⟩, hst⟩ := hf
  obtain ⟨hk, hl⟩ := hd
  rw [hb] at hx hy hz
  have sx : c.start.x = some b.x := by
    by_contra hne
    exact hl (.inl (by rw [hb]; exact hne))
  have sy : c.start.y = some b.y := by
    by_contra hne
    exact hl (.inr (by rw [hb]; exact hne))
  refine ⟨⟨ctr, ?_⟩, hst.1 _ sx, hst.2.1 _ sy⟩
  rw [hact, hk]
  congr 1
  ext1
  · exact hx.1 _ rfl
  · exact hy.1 _ rfl
  · exact hz.1 _ rfl

theorem moves_follows {e : Event} {c : Motion} (hf : FollowsMove e c) {a b : Vec} (ha : c.start = .fromVec a) (hb : c.fin = .fromVec b) :
    MovesFrom c.kind.mot a.rounded b.rounded (centreOff c).x (centreOff c).y e := by
  obtain ⟨⟨tgt, ctr, hact, hx, hy, hz, hctr, -⟩, hst⟩ := hf
  rw [hb] at hx hy hz
  rw [ha] at hst
  refine ⟨pos_of_agrees_vec hst, ctr, ?_, by rw [hctr], by rw [hctr]⟩
  rw [hact]
  congr 1
  ext1
  · exact hx.1 _ rfl
  · exact hy.1 _ rfl
  · exact hz.1 _ rfl

/-- The machine that follows the moves steps down as they do. -/
theorem feedsDown_follows {top s : ℚ} {part : List Event} {cs : List Motion} (ht : StepsDown top s cs)
    (hf : List.Forall₂ FollowsMove (part.filter isMove) cs) : FeedsDown top (s + 1 / 1000) part := by
  intro pre e post he hfeed
  have hmove : isMove e = true := by
    unfold isFeedMove at hfeed
    unfold isMove
    split at hfeed
    · rfl
    · cases hfeed
  rw [he, List.filter_append, List.filter_cons_of_pos hmove] at hf
  obtain ⟨pre', c, post', rfl, hpre, hec⟩ := forall₂_split_left hf
  have hk : c.kind.mot ≠ .rapid := by
    intro hk
    obtain ⟨tgt, ctr, hact, -⟩ := hec.1
    unfold isFeedMove at hfeed
    rw [hact, hk] at hfeed
    cases hfeed
  have hfm : ∀ {e' : Event} {c' : Motion}, FollowsMove e' c' → c'.kind.mot ≠ .rapid → isFeedMove e' = true := by
    intro e' c' h hk
    obtain ⟨tgt, ctr, hact, -⟩ := h.1
    unfold isFeedMove
    rw [hact]
    simpa using hk
  have hrz : ∀ a : Vec, top ≤ a.z + s → top ≤ a.rounded.z + (s + 1 / 1000) := by
    intro a h
    have ra := abs_le.mp (abs_rnd3 a.z)
    simp only [Vec.rounded]
    linarith
  obtain ⟨b, hb, h⟩ := ht pre' c post' rfl hk
  have hact : ∃ ctr, e.act = .move c.kind.mot b.rounded.pos ctr ∧ ctr = centreOff c := by
    obtain ⟨⟨tgt, ctr, hact, hx, hy, hz, hctr, -⟩, -⟩ := hec
    rw [hb] at hx hy hz
    refine ⟨ctr, ?_, hctr⟩
    rw [hact]
    congr 1
    ext1
    · exact hx.1 _ rfl
    · exact hy.1 _ rfl
    · exact hz.1 _ rfl
  obtain ⟨ctr, hact, hctr⟩ := hact
  refine ⟨_, ctr, b.rounded, hact, ?_⟩
  rcases h with ⟨h1, h2⟩ | ⟨h1, c', hc', hk', a', ha', ho⟩ | ⟨a, ha, c', hc', hkind, hcx, hcy, a', b', ha', hb', h1, h2⟩
  · left
    refine ⟨hrz b h1, ?_⟩
    rcases h2 with h2 | ⟨a, ha, h2⟩
    · exact .inl (runsDown_follows hec hb h2)
    · exact .inr ⟨a.rounded, (moves_follows hec ha hb).1, hrz a h2⟩
  · right; left
    obtain ⟨e', he', hf'⟩ := forall2_right hpre hc'
    refine ⟨runsDown_follows hec hb h1, e', (List.mem_filter.mp he').1, hfm hf' hk', a'.rounded, ?_, overBy_rounded ho⟩
    obtain ⟨-, hst⟩ := hf'
    rw [ha'] at hst
    exact pos_of_agrees_vec hst
  · right; right
    obtain ⟨e', he', hf'⟩ := forall2_right hpre hc'
    refine ⟨a.rounded, (moves_follows hec ha hb).1, e', (List.mem_filter.mp he').1, a'.rounded, b'.rounded, ?_, overBy_rounded h1, overBy_rounded h2⟩
    have hm := moves_follows hf' ha' hb'
    rw [hkind] at hm
    have hcc : (centreOff c').x = (centreOff c).x ∧ (centreOff c').y = (centreOff c).y := by
      unfold centreOff
      rw [hkind, ha', ha, hcx, hcy]
      split
      · exact ⟨by simp only [AddrVec.fromVec, h1.1], by simp only [AddrVec.fromVec, h1.2.1]⟩
      · exact ⟨rfl, rfl⟩
    rw [hctr, ← hcc.1, ← hcc.2]
    exact hm

theorem profiles_step {cad : Cad} (hb : BoxMoves cad) {j : Job} (hk : KeepsBelow cad j.top) {wires : List (List Edge)} {offset s : ℚ}
    {cs : List Motion} (hs : 0 < s) (hsafe : 0 ≤ j.opSafeHeight) (h : profiles cad j offset (some s) none wires = .ok cs)
    (hw : ∀ w ∈ wires, PlainContours cad j offset w ∧ SteadyContours cad j offset w) :
    (∀ p, Tracks p cs) ∧ StepsDown (-1 / 1000) s cs := by
  refine ⟨(profiles_cut hb hk (by rintro _ ⟨⟩; exact hs.le) hsafe h (fun w hwm => (hw w hwm).1)).1, ?_⟩
  obtain ⟨css, hm, h⟩ := bind_ok.mp h
  cases h
  refine stepsDown_flatten ?_
  intro b hbm
  obtain ⟨w, hwm, hp⟩ := mapE_mem hm hbm
  exact C122_moves_partial hb hk hs hp (hw w hwm).1 (hw w hwm).2

/-- C122 for `wire_profile` (as far as it holds, see `C122_violated`).  In the program of any job with a wire profile with stepdown `s` (and
without tabs) in it, the machine never takes more than `s` (and a thousandth for the rounding of the coordinates) at once in that
operation, counted from a thousandth below the surface. -/
theorem C122_wire_profile_partial {cad : Cad} (hb : BoxMoves cad) {wires : List (List Edge)} {offset s : ℚ} {tool : Option Tool}
    {j0 j1 j2 jf : Job} {before after : List Request} (m : Machine) (h0 : InitOK j0) (hn : ∀ v, j0.toolNumber = some v → NumOK v)
    (hok : ChainOK j0 (before ++ wireProfileRequest cad wires offset (some s) none tool :: after))
    (h1 : j0.chain before = .ok j1) (h2 : (j1.call (wireProfileRequest cad wires offset (some s) none tool)).2 = .ok j2)
    (h3 : j2.chain after = .ok jf) (hend : m.ended = false) (htool : ∀ n, j0.toolNumber = some n → m.tool = some n.value)
    (hk : KeepsBelow cad j0.top) (hs : 0 < s) (hsafe : 0 ≤ j0.opSafeHeight) {j : Job} (hj : (j1.updateTool tool).2 = j)
    (hw : ∀ w ∈ wires, PlainContours cad j offset w ∧ SteadyContours cad j offset w) :
    ∃ t m' pre part post cs, jf.toGcode = .ok t ∧ runText m t = some (m', pre ++ part ++ post) ∧
      profiles cad j offset (some s) none wires = .ok cs ∧ (part.filter isMove).length = cs.length ∧
      FeedsDown (-1 / 1000) (s + 1 / 1000) part := by
  obtain ⟨t, m', pre, part, post, cs, ht, hrun, hgen, hperf, hfol, hpart⟩ := C94_followed m h0 hn hok h1 h2 h3 hend htool
  subst hj
  have hbase : SameBase j0 (j1.updateTool tool).2 := updateTool_base (chain_base (show SameBase j0 j0 from rfl) h1) _
  have htop : j0.top = (j1.updateTool tool).2.top := by rw [hbase]
  have hsafe' : j0.opSafeHeight = (j1.updateTool tool).2.opSafeHeight := by rw [hbase]
  obtain ⟨htr, hst⟩ := profiles_step hb (htop ▸ hk) hs (hsafe' ▸ hsafe) hgen hw
  exact ⟨t, m', pre, part, post, cs, ht, hrun, hgen, hperf.length_eq, feedsDown_follows hst (hfol (htr _))⟩

/-- C122 for `profile` (as far as it holds, see above). -/
theorem C122_profile_partial {cad : Cad} (hb : BoxMoves cad) {shapes : List Shape} {outerOffset innerOffset : Option ℚ} {s : ℚ}
    {tool : Option Tool} {j0 j1 j2 jf : Job} {before after : List Request} (m : Machine) (h0 : InitOK j0)
    (hn : ∀ v, j0.toolNumber = some v → NumOK v)
    (hok : ChainOK j0 (before ++ profileRequest cad shapes outerOffset innerOffset (some s) none tool :: after))
    (h1 : j0.chain before = .ok j1)
    (h2 : (j1.call (profileRequest cad shapes outerOffset innerOffset (some s) none tool)).2 = .ok j2)
    (h3 : j2.chain after = .ok jf) (hend : m.ended = false) (htool : ∀ n, j0.toolNumber = some n → m.tool = some n.value)
    (hk : KeepsBelow cad j0.top) (hs : 0 < s) (hsafe : 0 ≤ j0.opSafeHeight) {j : Job} (hj : (j1.updateTool tool).2 = j)
    (hwo : ∀ o, outerOffset = some o → ∀ w ∈ outerWires shapes, PlainContours cad j o w ∧ SteadyContours cad j o w)
    (hwi : ∀ o, innerOffset = some o → ∀ w ∈ innerWires shapes, PlainContours cad j o w ∧ SteadyContours cad j o w) :
    ∃ t m' pre part post cs, jf.toGcode = .ok t ∧ runText m t = some (m', pre ++ part ++ post) ∧
      (profileRequest cad shapes outerOffset innerOffset (some s) none tool).gen j = .ok cs ∧
      (part.filter isMove).length = cs.length ∧ FeedsDown (-1 / 1000) (s + 1 / 1000) part := by
  obtain ⟨t, m', pre, part, post, cs, ht, hrun, hgen, hperf, hfol, hpart⟩ := C94_followed m h0 hn hok h1 h2 h3 hend htool
  subst hj
  have hbase : SameBase j0 (j1.updateTool tool).2 := updateTool_base (chain_base (show SameBase j0 j0 from rfl) h1) _
  have htop : j0.top = (j1.updateTool tool).2.top := by rw [hbase]
  have hsafe' : j0.opSafeHeight = (j1.updateTool tool).2.opSafeHeight := by rw [hbase]
  refine ⟨t, m', pre, part, post, cs, ht, hrun, hgen, hperf.length_eq, ?_⟩
  change (do
    let (outers, inners) ← extractWires shapes
    let a ← profilesOpt cad (j1.updateTool tool).2 innerOffset (some s) none inners
    let b ← profilesOpt cad (j1.updateTool tool).2 outerOffset (some s) none outers
    Except.ok (a ++ b)) = .ok cs at hgen
  obtain ⟨⟨os, is⟩, hx, hgen⟩ := bind_ok.mp hgen
  obtain ⟨a, ha, hgen⟩ := bind_ok.mp hgen
  obtain ⟨b, hb', hgen⟩ := bind_ok.mp hgen
  cases hgen
  have hsh : Shape.other ∉ shapes := by
    intro ho
    rw [(extractWires_eq shapes).1 ho] at hx
    cases hx
  rw [(extractWires_eq shapes).2 hsh] at hx
  cases hx
  have key : ∀ {o : Option ℚ} {ws : List (List Edge)} {cs : List Motion},
      profilesOpt cad (j1.updateTool tool).2 o (some s) none ws = .ok cs →
      (∀ o', o = some o' → ∀ w ∈ ws, PlainContours cad (j1.updateTool tool).2 o' w ∧ SteadyContours cad (j1.updateTool tool).2 o' w) →
      (∀ p, Tracks p cs) ∧ StepsDown (-1 / 1000) s cs := by
    intro o ws cs h hw
    cases o with
    | none => cases h; exact ⟨fun _ => trivial, by intro pre c post he; simp at he⟩
    | some o => exact profiles_step hb (htop ▸ hk) hs (hsafe' ▸ hsafe) h (hw o rfl)
  obtain ⟨t1, k1⟩ := key ha hwi
  obtain ⟨t2, k2⟩ := key hb' hwo
  exact feedsDown_follows (stepsDown_append k1 k2) (hfol (tracks_append.mpr ⟨t1 _, t2 _⟩))

/-! ### Where it fails -/

/-- A job whose surface is at world height -3. -/
def lowJob : Job := Job.init lowTop (.int 500) (toolDiameter := some 2)

/-- A square at world height -9, that is, 6 below the surface of `lowJob`. -/
def lowSquare : List Edge := innerSquare.map (Edge.up (-8))

/-- The first feed move of the program goes straight down to depth 4. -/
def deepFirst (evs : List Event) : Bool :=
  match evs.find? isFeedMove with
  | some e => match e.act with
      | .move _ tgt _ => decide (tgt.z = some (-4))
      | _ => false
  | none => false

theorem deepFirst_not {evs : List Event} (h : deepFirst evs = true) {s : ℚ} (hs : s < 3) : ¬ FeedsDown (-1 / 1000) s evs := by
  intro hd
  unfold deepFirst at h
  cases hf : evs.find? isFeedMove with
  | none => rw [hf] at h; cases h
  | some e =>
    rw [hf] at h
    obtain ⟨hfeed, pre, post, rfl, hpre⟩ := List.find?_eq_some_iff_append.mp hf
    simp only at h
    obtain ⟨k, ctr, b, hact, h'⟩ := hd pre e post rfl hfeed
    rw [hact] at h
    simp only [decide_eq_true_eq] at h
    have hbz : b.z = -4 := by
      have : some b.z = some (-4) := h
      exact Option.some.inj this
    have hno : ∀ e' ∈ pre, isFeedMove e' = true → False := by
      intro e' he' ht
      have := hpre e' he'
      rw [ht] at this
      cases this
    rcases h' with ⟨h1, -⟩ | ⟨-, e', he', ht, -⟩ | ⟨a, -, e', he', a', b', hm, -⟩
    · rw [hbz] at h1; linarith
    · exact hno e' he' ht
    · obtain ⟨-, ctr', hact', -⟩ := hm
      refine hno e' he' ?_
      unfold isFeedMove at hfeed ⊢
      rw [hact] at hfeed
      rw [hact']
      exact hfeed

/-- C122 is false: with the surface at world height -3 and a stepdown of 1 the passes nearest to the surface are left out (see
`C46_violated`), and the tool begins with a cut of 4. -/
theorem C122_violated : ∃ j2 t m' evs, BoxMoves flatCad ∧
    (lowJob.call (wireProfileRequest flatCad [lowSquare] 1 (some 1) none none)).2 = .ok j2 ∧ j2.toGcode = .ok t ∧
    runText {} t = some (m', evs) ∧ ∀ s < 3, ¬ FeedsDown (-1 / 1000) s evs := by
  have hw : (match (wireProfileRequest flatCad [lowSquare] 1 (some 1) none none).gen lowJob with
      | .ok cs => cs.all goodMove && deepFirst ((lowJob.addOperation "Wire Profile".toList (cs.map .motion)).intended {}).2
      | .error _ => false) = true := by decide +kernel
  obtain ⟨cs, hg, hr, hc⟩ := call_good (j := lowJob) (r := wireProfileRequest flatCad [lowSquare] 1 (some 1) none none)
    (by decide +kernel) rfl (by unfold SafeName; decide) (by
      cases hg : (wireProfileRequest flatCad [lowSquare] 1 (some 1) none none).gen lowJob with
      | error e => rw [hg] at hw; cases hw
      | ok cs => rw [hg] at hw; exact (Bool.and_eq_true _ _ ▸ hw).1)
  rw [hg] at hw
  have hd := (Bool.and_eq_true _ _ ▸ hw).2
  have h0 : InitOK lowJob := ⟨rfl, by unfold SafeName; decide, numOK_int _, by rintro v ⟨⟩⟩
  obtain ⟨t, ht, hrun⟩ := run_job {} _ (inv_reach (inv_init h0 (by rintro v ⟨⟩)) (.result _ .init hr hc)).ok rfl
  exact ⟨_, t, _, _, flatCad_boxMoves, hc, ht, hrun, fun s hs => deepFirst_not hd hs⟩

/-! ### An example of the conditions -/

theorem roundSlot_steady : SteadyEnds flatCad roundSlot := by
  simp only [SteadyEnds, roundSlot, outline, List.map_cons, List.map_nil, List.mem_cons, List.not_mem_nil, or_false]
  rintro e (rfl | rfl | rfl | rfl) hg dz
  · change exactEq ⟨0, 0, -1 + dz⟩ ⟨2, 0, -1 + dz⟩ = exactEq ⟨0, 0, -1⟩ ⟨2, 0, -1⟩
    simp [exactEq]
  all_goals simp [lineEdge] at hg

/-- The hypotheses of `C122_wire_profile_partial`: the slot with the round end, in two passes. -/
example : ∃ j2 t m' pre part post, (twoJob.call (wireProfileRequest flatCad [roundSlot] 1 (some (3 / 5)) none none)).2 = .ok j2 ∧
    j2.toGcode = .ok t ∧ runText {} t = some (m', pre ++ part ++ post) ∧ part.filter isMove ≠ [] ∧
    FeedsDown (-1 / 1000) (3 / 5 + 1 / 1000) part := by
  obtain ⟨cs, hg, hr, hc⟩ := call_good (j := twoJob) (r := wireProfileRequest flatCad [roundSlot] 1 (some (3 / 5)) none none)
    (by decide +kernel) rfl (by unfold SafeName; decide) (by decide +kernel)
  have hne : cs ≠ [] := by
    rintro rfl
    have : (match (wireProfileRequest flatCad [roundSlot] 1 (some (3 / 5)) none none).gen twoJob with
      | .ok cs => decide (cs ≠ []) | .error _ => false) = true := by decide +kernel
    rw [hg] at this
    simp at this
  obtain ⟨t, m', pre, part, post, ds, a1, a2, a3, a4, a5⟩ := C122_wire_profile_partial (cad := flatCad) flatCad_boxMoves
    (wires := [roundSlot]) (offset := 1) (s := 3 / 5) (tool := none) (before := []) (after := []) {} twoJob_ok (by rintro v ⟨⟩)
    (show ChainOK twoJob [_] from ⟨hr, fun _ _ => trivial⟩) rfl hc rfl rfl (by rintro n ⟨⟩) flatCad_keepsBelow
    (by norm_num) (by decide +kernel) rfl (by
      have hcont : ∀ r bases, (twoJob.updateTool none).2.toolRadius = some r →
          offsetWire flatCad (roundSlot.map (Edge.toLocal (twoJob.updateTool none).2.top)) (1 * r) = .ok bases → bases = [roundSlot] := by
        intro r bases h1 h2
        rw [show (twoJob.updateTool none).2.toolRadius = some 1 from by decide +kernel] at h1
        cases h1
        have h2' : offsetWire flatCad (roundSlot.map (Edge.toLocal twoJob.top)) (1 * 1) = .ok bases := h2
        rw [roundSlot_offset] at h2'
        cases h2'
        rfl
      intro w hw
      cases List.mem_singleton.mp hw
      constructor
      · intro r bases h1 h2 b hb
        cases hcont r bases h1 h2
        cases List.mem_singleton.mp hb
        exact roundSlot_plain
      · intro r bases h1 h2 b hb
        cases hcont r bases h1 h2
        cases List.mem_singleton.mp hb
        exact roundSlot_steady)
  refine ⟨_, t, m', pre, part, post, hc, a1, a2, ?_, a5⟩
  have hg' : profiles flatCad twoJob 1 (some (3 / 5)) none [roundSlot] = .ok cs := hg
  have a3' : profiles flatCad twoJob 1 (some (3 / 5)) none [roundSlot] = .ok ds := a3
  rw [hg'] at a3'
  cases a3'
  intro h
  rw [h] at a4
  exact hne (List.length_eq_zero_iff.mp a4.symm)

end CQ
