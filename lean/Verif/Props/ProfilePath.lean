import Verif.Props.Profile
import Verif.Model.Pocket

/-! # C25, C46, C75, C76: the moves of a profile -/

namespace CQ

theorem forall₂_append_left {α β : Type} {R : α → β → Prop} {a1 a2 : List α} {b : List β}
    (h : List.Forall₂ R (a1 ++ a2) b) : ∃ b1 b2, List.Forall₂ R a1 b1 ∧ List.Forall₂ R a2 b2 ∧ b = b1 ++ b2 := by
  induction a1 generalizing b with
  | nil => exact ⟨[], b, .nil, h, rfl⟩
  | cons x xs ih =>
    cases h with
    | cons h1 h2 =>
      obtain ⟨b1, b2, g1, g2, rfl⟩ := ih h2
      exact ⟨_ :: b1, b2, .cons h1 g1, g2, rfl⟩

theorem endsAt_vec {P : ℚ → Prop} {c : Motion} {v : Vec} (h : c.fin = .fromVec v) (hv : P v.z) : EndsAt P c :=
  ⟨v.z, by rw [h]; rfl, hv⟩

theorem edgeAt_start {P : ℚ → Prop} {e : Edge} (h : EdgeAt P e) : P (edgeStartPoint e).z := by
  unfold edgeStartPoint; split <;> [exact h.fin; exact h.start]

theorem edgeAt_end {P : ℚ → Prop} {e : Edge} (h : EdgeAt P e) : P (edgeEndPoint e).z := by
  unfold edgeEndPoint; split <;> [exact h.start; exact h.fin]

theorem edgeAt_routeEnd {P : ℚ → Prop} {e : Edge} (h : EdgeAt P e) (ep : Option ℚ) : P (routeEnd e ep).z := by
  cases ep <;> [exact edgeAt_end h; exact h.param _]

theorem routeEdge_ends {P : ℚ → Prop} {veq : Vec → Vec → Bool} {e : Edge} {prec : ℕ} {sp ep : Option ℚ}
    {feed : Option PyNum} {cs : List Motion} {v : Vec} (hP : EdgeAt P e)
    (h : routeEdge veq e prec sp ep feed = .ok (cs, v)) : ∀ c ∈ cs, EndsAt P c := by
  have hpts : ∀ (pos : AddrVec) (vs : List Vec), (∀ v ∈ vs, P v.z) → ∀ c ∈ cutsThroughPoints feed pos vs, EndsAt P c := by
    intro pos vs
    induction vs generalizing pos with
    | nil => simp [cutsThroughPoints]
    | cons v vs ih =>
      intro hv c hc
      rcases List.mem_cons.mp hc with rfl | hc
      · exact endsAt_vec rfl (hv v (by simp))
      · exact ih _ (fun w hw => hv w (by simp [hw])) c hc
  have hint : ∀ v ∈ interpolateEdgeToVectors e prec, P v.z := by
    intro v hv
    obtain ⟨d, -, rfl⟩ := List.mem_map.mp hv
    exact hP.len d
  have hend := edgeAt_routeEnd hP ep
  have harc : ∀ {ds}, routeArc veq e sp ep feed = .ok ds → ∀ c ∈ ds, EndsAt P c := by
    intro ds hd
    unfold routeArc at hd
    simp only at hd
    cases hcw : isArcClockwise2 e.normal e.reversed with
    | error x => rw [hcw] at hd; cases hd
    | ok b =>
      rw [hcw] at hd
      simp only at hd
      split at hd
      · cases hd
        intro c hc
        simp only [List.mem_cons, List.not_mem_nil, or_false] at hc
        rcases hc with rfl | rfl
        · exact endsAt_vec rfl (hP.param _)
        · exact endsAt_vec rfl hend
      · split at hd <;> cases hd <;> intro c hc <;> rw [List.mem_singleton] at hc <;> subst hc
        · exact endsAt_vec rfl hend
        · exact endsAt_vec rfl hend
  unfold routeEdge at h
  simp only at h
  cases hg : e.geom <;> rw [hg] at h <;> simp only at h
  · cases h
    intro c hc
    rw [List.mem_singleton] at hc
    subst hc
    exact endsAt_vec rfl hend
  · cases ha : routeArc veq e sp ep feed with
    | error x => rw [ha] at h; cases h
    | ok ds => rw [ha] at h; cases h; exact harc ha
  · cases ha : routeArc veq e sp ep feed with
    | error x => rw [ha] at h; cases h
    | ok ds => rw [ha] at h; cases h; exact harc ha
  · cases h; exact hpts _ _ hint
  · cases h; exact hpts _ _ hint
  · cases h; exact hpts _ _ hint
  · cases h

theorem routeEdges_ends {P : ℚ → Prop} {veq : Vec → Vec → Bool} {j : Job} {es : List Edge} (hP : ∀ e ∈ es, EdgeAt P e)
    {fin v : Vec} {cs : List Motion} (h : routeEdges veq j fin es = .ok (cs, v)) : ∀ c ∈ cs, EndsAt P c := by
  induction es generalizing fin cs v with
  | nil => cases h; simp
  | cons e es ih =>
    unfold routeEdges at h
    cases h1 : routeEdge veq e j.precision none none (some j.feed) with
    | error x => rw [h1] at h; cases h
    | ok r =>
      obtain ⟨a, b⟩ := r
      rw [h1] at h
      simp only at h
      cases h2 : routeEdges veq j b es with
      | error x => rw [h2] at h; cases h
      | ok r =>
        obtain ⟨a', b'⟩ := r
        rw [h2] at h
        cases h
        intro c hc
        rcases List.mem_append.mp hc with hc | hc
        · exact routeEdge_ends (hP e (by simp)) h1 c hc
        · exact ih (fun e he => hP e (by simp [he])) h2 c hc

theorem enterWire_ends {P : ℚ → Prop} {veq : Vec → Vec → Bool} {j : Job} {stepover : Option ℚ} {hit : Option WireHit}
    {pos : AddrVec} {edges es : List Edge} {app : List Motion} (hP : ∀ e ∈ edges, EdgeAt P e)
    (he : enterWire veq j stepover hit pos edges = .ok (es, app)) :
    (∀ e ∈ es, EdgeAt P e) ∧ ∀ c ∈ app, c.kind.mot ≠ .rapid → EndsAt P c := by
  unfold enterWire at he
  cases hl : wireLink stepover hit with
  | some hh =>
    rw [hl] at he
    simp only at he
    cases hs : shiftEdges veq edges hh with
    | error x => rw [hs] at he; cases he
    | ok es' =>
      have hes : ∀ e ∈ es', EdgeAt P e := by
        unfold shiftEdges at hs
        simp only at hs
        split at hs
        · cases hs
        · cases hs
          intro e he
          rcases List.mem_append.mp he with he | he
          · exact hP e (List.mem_of_mem_drop he)
          · exact hP e (List.mem_of_mem_take he)
      rw [hs] at he
      cases es' with
      | nil => cases he
      | cons e es' =>
        cases he
        refine ⟨hes, ?_⟩
        intro c hc _
        rw [List.mem_singleton] at hc
        subst hc
        refine endsAt_vec rfl ?_
        have h0 := hes e (by simp)
        split
        · exact edgeAt_start h0
        · split
          · exact edgeAt_start h0
          · exact h0.param _
  | none =>
    rw [hl] at he
    cases edges with
    | nil => cases he
    | cons e es' =>
      cases he
      refine ⟨hP, ?_⟩
      intro c hc hk
      refine ⟨(edgeStartPoint e).z, ?_, edgeAt_start (hP e (by simp))⟩
      rw [(rapidTo_feeds _ _ _ _ _ c hc hk).2.2.2]

theorem routeWire_ends {P : ℚ → Prop} {veq : Vec → Vec → Bool} {j : Job} {stepover : Option ℚ} {hit : Option WireHit}
    {pos : AddrVec} {edges : List Edge} {cs : List Motion} {v : Vec} (hP : ∀ e ∈ edges, EdgeAt P e)
    (h : routeWire veq j stepover hit pos edges = .ok (cs, v)) : ∀ c ∈ cs, c.kind.mot ≠ .rapid → EndsAt P c := by
  unfold routeWire at h
  cases he : enterWire veq j stepover hit pos edges with
  | error x => rw [he] at h; cases h
  | ok r =>
    obtain ⟨es, app⟩ := r
    obtain ⟨hes, happ⟩ := enterWire_ends hP he
    rw [he] at h
    cases es with
    | nil => cases h
    | cons e es =>
      simp only at h
      cases h1 : routeEdge veq e j.precision (hit.bind WireHit.param) none (some j.feed) with
      | error x => rw [h1] at h; cases h
      | ok r =>
        obtain ⟨a, b⟩ := r
        rw [h1] at h
        simp only at h
        cases h2 : routeEdges veq j b es with
        | error x => rw [h2] at h; cases h
        | ok r =>
          obtain ⟨a', b'⟩ := r
          rw [h2] at h
          simp only at h
          have hbase : ∀ c ∈ app ++ a ++ a', c.kind.mot ≠ .rapid → EndsAt P c := by
            intro c hc hk
            rcases List.mem_append.mp hc with hc | hc
            · rcases List.mem_append.mp hc with hc | hc
              · exact happ c hc hk
              · exact routeEdge_ends (hes e (by simp)) h1 c hc
            · exact routeEdges_ends (fun e he => hes e (by simp [he])) h2 c hc
          cases hp : hit.bind WireHit.param with
          | none => rw [hp] at h; cases h; exact hbase
          | some p =>
            rw [hp] at h
            simp only at h
            split at h
            · cases h; exact hbase
            · cases h3 : routeEdge veq e j.precision none (some p) (some j.feed) with
              | error x => rw [h3] at h; cases h
              | ok r =>
                obtain ⟨a'', b''⟩ := r
                rw [h3] at h
                cases h
                intro c hc hk
                rcases List.mem_append.mp hc with hc | hc
                · exact hbase c hc hk
                · exact routeEdge_ends (hes e (by simp)) h3 c hc

/-- Feed moves along wires end at heights of the wires. -/
theorem routeWires_ends {P : ℚ → Prop} {veq : Vec → Vec → Bool} {search : Vec → List Edge → Option WireHit} {j : Job}
    {wires : List (List Edge)} {stepover : Option ℚ} {prev : Option AddrVec} {cs : List Motion}
    (hP : ∀ w ∈ wires, ∀ e ∈ w, EdgeAt P e) (h : routeWires veq search j wires stepover prev = .ok cs) :
    ∀ c ∈ cs, c.kind.mot ≠ .rapid → EndsAt P c := by
  have key : ∀ (ws : List (List Edge)) (acc : List Motion) (pwe : Option Vec) (pos : AddrVec) (cs : List Motion),
      (∀ w ∈ ws, ∀ e ∈ w, EdgeAt P e) → (∀ c ∈ acc, c.kind.mot ≠ .rapid → EndsAt P c) →
      routeWiresFrom veq search j stepover acc pwe pos ws = .ok cs → ∀ c ∈ cs, c.kind.mot ≠ .rapid → EndsAt P c := by
    intro ws
    induction ws with
    | nil => intro acc pwe pos cs _ ha h; cases h; exact ha
    | cons w ws ih =>
      intro acc pwe pos cs hw ha h
      cases w with
      | nil => cases h; simp
      | cons e es =>
        simp only [routeWiresFrom] at h
        cases h1 : routeWire veq j stepover (pwe.bind (search · (e :: es))) pos (e :: es) with
        | error x => rw [h1] at h; cases h
        | ok r =>
          obtain ⟨ds, fin⟩ := r
          rw [h1] at h
          refine ih _ _ _ _ (fun w hw' => hw w (by simp [hw'])) ?_ h
          intro c hc hk
          rcases List.mem_append.mp hc with hc | hc
          · exact ha c hc hk
          · exact routeWire_ends (hw _ (by simp)) h1 c hc hk
  exact key wires [] none (prev.getD {}) cs hP (by simp) h

/-! ### C25 -/

/-- C25 for one profile.  Every rapid of a profile keeps above the safe height, whatever the CAD kernel answers. -/
theorem C25_profile {cad : Cad} {j : Job} {wire : List Edge} {offset : ℚ} {stepdown : Option ℚ} {tabs : Option Tabs}
    {cs : List Motion} (h : profile cad j wire offset stepdown tabs = .ok cs) (hh : j.opSafeHeight ≤ j.rapidHeight) :
    ∀ c ∈ cs, SafeRapid j.rapidHeight j.opSafeHeight c := by
  obtain ⟨ws, -, h⟩ := bind_ok.mp h
  exact C25_wire_rapids_safe h hh

theorem profiles_rapids {cad : Cad} {j : Job} {wires : List (List Edge)} {offset : ℚ} {stepdown : Option ℚ}
    {tabs : Option Tabs} {cs : List Motion} (h : profiles cad j offset stepdown tabs wires = .ok cs)
    (hh : j.opSafeHeight ≤ j.rapidHeight) : ∀ c ∈ cs, SafeRapid j.rapidHeight j.opSafeHeight c := by
  obtain ⟨bs, h1, h⟩ := bind_ok.mp h
  cases h
  intro c hc
  obtain ⟨b, hb, hc⟩ := List.mem_flatten.mp hc
  obtain ⟨w, -, hw⟩ := mapE_mem h1 hb
  exact C25_profile hw hh c hc

/-- C25 for `Job.profile`. -/
theorem C25_profile_call {cad : Cad} {j : Job} {shapes : List Shape} {outerOffset innerOffset stepdown : Option ℚ}
    {tabs : Option Tabs} {tool : Option Tool} {cs : List Motion}
    (h : (profileRequest cad shapes outerOffset innerOffset stepdown tabs tool).gen j = .ok cs)
    (hh : j.opSafeHeight ≤ j.rapidHeight) : ∀ c ∈ cs, SafeRapid j.rapidHeight j.opSafeHeight c := by
  obtain ⟨⟨os, is⟩, -, h⟩ := bind_ok.mp h
  obtain ⟨a, h1, h⟩ := bind_ok.mp h
  obtain ⟨b, h2, h⟩ := bind_ok.mp h
  cases h
  have key : ∀ {o : Option ℚ} {ws : List (List Edge)} {cs : List Motion}, profilesOpt cad j o stepdown tabs ws = .ok cs →
      ∀ c ∈ cs, SafeRapid j.rapidHeight j.opSafeHeight c := by
    intro o ws cs h
    cases o with
    | none => cases h; simp
    | some o => exact profiles_rapids h hh
  intro c hc
  rcases List.mem_append.mp hc with hc | hc
  · exact key h1 c hc
  · exact key h2 c hc

/-- C25 for `Job.wire_profile`. -/
theorem C25_wire_profile_call {cad : Cad} {j : Job} {wires : List (List Edge)} {offset : ℚ} {stepdown : Option ℚ}
    {tabs : Option Tabs} {tool : Option Tool} {cs : List Motion}
    (h : (wireProfileRequest cad wires offset stepdown tabs tool).gen j = .ok cs)
    (hh : j.opSafeHeight ≤ j.rapidHeight) : ∀ c ∈ cs, SafeRapid j.rapidHeight j.opSafeHeight c := profiles_rapids h hh

/-! ### C46: the cuts -/

theorem routeWires_vertex {veq : Vec → Vec → Bool} {search : Vec → List Edge → Option WireHit} {j : Job}
    {ws : List (List Edge)} (h : ∀ w ∈ ws, ∀ v h, search v w = some h → ∃ d q, h = .vertex d q) (prev : Option AddrVec) :
    routeWires veq search j ws none prev = routeWires veq (fun _ _ => none) j ws none prev := by
  have hw : ∀ (hit : Option WireHit) (pos : AddrVec) (w : List Edge), (∀ h, hit = some h → ∃ d q, h = .vertex d q) →
      routeWire veq j none hit pos w = routeWire veq j none none pos w := by
    intro hit pos w hv
    cases hit with
    | none => rfl
    | some h => obtain ⟨d, q, rfl⟩ := hv h rfl; rfl
  have key : ∀ (ws : List (List Edge)) (acc : List Motion) (pwe : Option Vec) (pos : AddrVec),
      (∀ w ∈ ws, ∀ v h, search v w = some h → ∃ d q, h = .vertex d q) →
      routeWiresFrom veq search j none acc pwe pos ws = routeWiresFrom veq (fun _ _ => none) j none acc pwe pos ws := by
    intro ws
    induction ws with
    | nil => intros; rfl
    | cons w ws ih =>
      intro acc pwe pos hv
      cases w with
      | nil => rfl
      | cons e es =>
        simp only [routeWiresFrom]
        rw [hw (pwe.bind (search · (e :: es))) pos _ (by
          intro h hh
          cases pwe with
          | none => cases hh
          | some v => exact hv _ (by simp) v h hh)]
        have : (pwe.bind fun _ : Vec => (none : Option WireHit)) = none := by cases pwe <;> rfl
        rw [this]
        cases routeWire veq j none none pos (e :: es) with
        | error x => rfl
        | ok r => exact ih _ _ _ (fun w hw' => hv w (by simp [hw']))
  exact key ws [] none _ h

/-- Wires are cut whole, one after the other. -/
theorem routeWires_whole {veq : Vec → Vec → Bool} {search : Vec → List Edge → Option WireHit} {j : Job}
    {ws : List (List Edge)} (hv : ∀ w ∈ ws, ∀ v h, search v w = some h → ∃ d q, h = .vertex d q)
    (hok : ∀ w ∈ ws, WireOK w) :
    ∃ bs, routeWires veq search j ws none none = .ok (List.flatten bs) ∧
      List.Forall₂ (WholeWire veq j.feed none) ws bs := by
  rw [routeWires_vertex hv]
  obtain ⟨bs, h1, h2⟩ := C30_wires_cut_partial veq (fun _ _ => none) j ws none none hok
    (by intro w _ v h hh; cases hh) (by intro w _ v h hh; cases hh)
  refine ⟨bs, h1, h2.imp ?_⟩
  rintro w b (h | ⟨l, e, r, p, c, s, f, ps, la, -, -, -, hs, -⟩)
  · exact h
  · cases hs

theorem stepLayers_mem {cad : Cad} {top : Frame} {base : List Edge} {s : ℚ} {rounds i : ℕ} {ls : List (List Edge)}
    (h : stepLayers cad top base s rounds i = .ok ls) : ∀ w ∈ ls, ∃ k : ℕ, i < k ∧ k < i + rounds ∧
      w = base.map (Edge.up (s * k)) ∧ cad.zmin w < -1 / 1000 := by
  induction rounds generalizing i ls with
  | zero => cases h
  | succ r ih =>
    simp only [stepLayers] at h
    split at h
    · cases h; simp
    · rename_i hz
      split at h
      · obtain ⟨rest, h1, h⟩ := bind_ok.mp h
        cases h
        intro w hw
        rcases List.mem_cons.mp hw with rfl | hw
        · have hr : r ≠ 0 := by rintro rfl; cases h1
          exact ⟨i + 1, by omega, by omega, by push_cast; rfl, not_le.mp hz⟩
        · obtain ⟨k, k1, k2, k3, k4⟩ := ih h1 w hw
          exact ⟨k, by omega, by omega, k3, k4⟩
      · cases h; simp

/-- Every pass is the base wire, or a raised copy of it that reaches below the surface. -/
theorem profileLayers_mem {cad : Cad} {top : Frame} {base : List Edge} {stepdown : Option ℚ} {ls : List (List Edge)}
    (h : profileLayers cad top base stepdown = .ok ls) : ∀ w ∈ ls, w = base ∨ ∃ s, stepdown = some s ∧ ∃ k : ℕ,
      1 ≤ k ∧ k ≤ 100 ∧ w = base.map (Edge.up (s * k)) ∧ cad.zmin w < -1 / 1000 := by
  cases stepdown with
  | none => cases h; simp
  | some s =>
    simp only [profileLayers] at h
    split at h
    · cases h; simp
    · obtain ⟨ls', h1, h⟩ := bind_ok.mp h
      cases h
      intro w hw
      rw [List.mem_reverse] at hw
      rcases List.mem_cons.mp hw with rfl | hw
      · exact Or.inl rfl
      · obtain ⟨k, k1, k2, k3, k4⟩ := stepLayers_mem h1 w hw
        right
        exact ⟨s, rfl, k, k1, by omega, k3, k4⟩

/-- C46 (as far as it holds: the kernel's bounding boxes move with the wires, the top plane cuts no pass away, and the
nearest points between passes are vertices).  The moves of a profile without tabs: for each base wire its passes in order,
each pass cut whole, with an approach before it. -/
theorem C46_cut_partial {cad : Cad} {j : Job} {wire : List Edge} {offset s r : ℚ} {bases : List (List Edge)}
    (hb : BoxMoves cad) (hk : KeepsBelow cad j.top) (hr : j.toolRadius = some r)
    (ho : offsetWire cad (wire.map (Edge.toLocal j.top)) (offset * r) = .ok bases) (hs : 0 < s)
    (hw : ∀ b ∈ bases, WireOK b ∧ -1 / 1000 ≤ cad.zmin b + 101 * s)
    (hv : ∀ b ∈ bases, ∀ dz, NearestIsVertex cad (b.map (Edge.up dz))) :
    ∃ blocks : List (List (List Motion)), profile cad j wire offset (some s) none = .ok blocks.flatten.flatten ∧
      List.Forall₂ (fun base block => ∃ layers, Passes cad s base layers ∧
        List.Forall₂ (WholeWire cad.veq j.feed none) layers block) bases blocks := by
  have hup0 : ∀ b : List Edge, b.map (Edge.up 0) = b := by
    intro b
    rw [show Edge.up 0 = id from by funext e; simp [Edge.up, Vec.up], List.map_id]
  -- the layers
  have hl : ∃ lss, mapE (profileFeature cad j.top (some s) none) bases = .ok lss ∧ List.Forall₂ (Passes cad s) bases lss ∧
      ∀ ls ∈ lss, ∀ w ∈ ls, WireOK w ∧ NearestIsVertex cad w := by
    clear ho
    induction bases with
    | nil => exact ⟨[], rfl, .nil, by simp⟩
    | cons b bs ih =>
      obtain ⟨lss, h1, h2, h3⟩ := ih (fun x hx => hw x (by simp [hx])) (fun x hx => hv x (by simp [hx]))
      obtain ⟨hwb, hzb⟩ := hw b (by simp)
      obtain ⟨ls, h4, h5⟩ := (C46_passes_partial hb hk hwb.nonempty hs).2 hzb
      refine ⟨ls :: lss, ?_, .cons h5 h2, ?_⟩
      · unfold mapE
        rw [show profileFeature cad j.top (some s) none b = .ok ls from by simp only [profileFeature, h4]; rfl, ok_bind, h1]
        rfl
      · intro l hl w hwl
        rcases List.mem_cons.mp hl with rfl | hl
        · rcases profileLayers_mem h4 w hwl with rfl | ⟨s', -, k, -, -, rfl, -⟩
          · exact ⟨hwb, by simpa [hup0] using hv _ (by simp) 0⟩
          · exact ⟨wireOK_up hwb _, hv _ (by simp) _⟩
        · exact h3 l hl w hwl
  obtain ⟨lss, h1, h2, h3⟩ := hl
  obtain ⟨bs, h4, h5⟩ := routeWires_whole (veq := cad.veq) (search := cad.search) (j := j) (ws := lss.flatten)
    (by
      intro w hw
      obtain ⟨l, hl, hw⟩ := List.mem_flatten.mp hw
      exact (h3 l hl w hw).2)
    (by
      intro w hw
      obtain ⟨l, hl, hw⟩ := List.mem_flatten.mp hw
      exact (h3 l hl w hw).1)
  have hsplit : ∀ {lss : List (List (List Edge))} {bs : List (List Motion)},
      List.Forall₂ (WholeWire cad.veq j.feed none) lss.flatten bs →
      ∃ blocks : List (List (List Motion)), bs = blocks.flatten ∧
        List.Forall₂ (List.Forall₂ (WholeWire cad.veq j.feed none)) lss blocks := by
    intro lss
    induction lss with
    | nil => intro bs h; cases h; exact ⟨[], rfl, .nil⟩
    | cons l ls ih =>
      intro bs h
      rw [List.flatten_cons] at h
      obtain ⟨l1, l2, g1, g2, rfl⟩ := forall₂_append_left h
      obtain ⟨blocks, rfl, g3⟩ := ih g2
      exact ⟨l1 :: blocks, by simp, .cons g1 g3⟩
  obtain ⟨blocks, rfl, h6⟩ := hsplit h5
  refine ⟨blocks, ?_, ?_⟩
  · simp only [profile, profileWires, hr, ho, ok_bind, h1]
    exact h4
  · clear h1 h3 h4 h5 ho hw hv
    induction h2 generalizing blocks with
    | nil => cases h6; exact .nil
    | cons p ps ih =>
      cases h6 with
      | cons q qs => exact .cons ⟨_, p, q⟩ (ih _ qs)

/-! ### C75: the offset -/

/-- C75 (as far as it holds, see `C75_violated`).  If the kernel's relocation of circles changes nothing, a successful
profile is that of the offset contours of the wire in job coordinates, at `offset` times the tool radius – or the kernel
could not offset the wire, and there are no moves. -/
theorem C75_offset_partial {cad : Cad} (hrel : ∀ v w, cad.relocate v w = w) {j : Job} {wire : List Edge} {offset : ℚ}
    {stepdown : Option ℚ} {tabs : Option Tabs} {cs : List Motion} (h : profile cad j wire offset stepdown tabs = .ok cs) :
    ∃ r, j.toolRadius = some r ∧
      ((∃ curves features, OffsetCurves cad (wire.map (Edge.toLocal j.top)) (offset * r) curves ∧
        List.Forall₂ (fun c f => profileFeature cad j.top stepdown tabs c = .ok f) curves features ∧
        routeWires cad.veq cad.search j features.flatten none none = .ok cs) ∨
      (cad.offset2D (wire.map (Edge.toLocal j.top)) (offset * r) = .error .valueError ∧
        cad.offset2D (wire.map (Edge.toLocal j.top)) (offset * r + 1 / 1000000) = .error .valueError ∧ cs = [])) := by
  obtain ⟨ws, h1, h⟩ := bind_ok.mp h
  unfold profileWires at h1
  cases hr : j.toolRadius with
  | none => rw [hr] at h1; cases h1
  | some r =>
    rw [hr] at h1
    obtain ⟨base, h2, h1⟩ := bind_ok.mp h1
    obtain ⟨ls, h3, h1⟩ := bind_ok.mp h1
    cases h1
    refine ⟨r, rfl, ?_⟩
    obtain ⟨found, h4, h2⟩ := bind_ok.mp h2
    have hbase : base = found.filter (offsetValid cad) := by
      cases h2
      unfold circleBugWorkaround
      have : ∀ v ws, List.map (cad.relocate v) ws = ws := by
        intro v ws
        rw [show cad.relocate v = id from funext (hrel v), List.map_id]
      split
      · split
        · exact this _ _
        · rfl
      · rfl
    have hcurves : ∀ c ∈ found, c ∈ base ↔ ∃ a, cad.area c = .ok a ∧ 1 / 10 < a := by
      intro c hc
      rw [hbase, List.mem_filter]
      simp only [hc, true_and, offsetValid]
      cases cad.area c with
      | error e => simp
      | ok a => simp
    have hsub : base.Sublist found := by rw [hbase]; exact List.filter_sublist
    unfold tryOffset at h4
    cases ho : cad.offset2D (wire.map (Edge.toLocal j.top)) (offset * r) with
    | ok f =>
      rw [ho] at h4
      cases h4
      exact Or.inl ⟨base, ls, ⟨found, Or.inl ho, hsub, hcurves⟩, mapE_ok.mp h3, h⟩
    | error e =>
      rw [ho] at h4
      by_cases he : e = .valueError
      · subst he
        simp only at h4
        cases ho2 : cad.offset2D (wire.map (Edge.toLocal j.top)) (offset * r + 1 / 1000000) with
        | ok f =>
          rw [ho2] at h4
          cases h4
          exact Or.inl ⟨base, ls, ⟨found, Or.inr ⟨ho, ho2⟩, hsub, hcurves⟩, mapE_ok.mp h3, h⟩
        | error e2 =>
          rw [ho2] at h4
          by_cases he2 : e2 = .valueError
          · subst he2
            simp only at h4
            cases h4
            right
            refine ⟨rfl, rfl, ?_⟩
            rw [hbase] at h3
            cases h3
            cases h
            rfl
          · exfalso
            cases e2 <;> first | exact he2 rfl | cases h4
      · exfalso
        cases e <;> first | exact he rfl | cases h4

/-- C75, one pass without tabs: each of the offset contours is cut whole, in order. -/
theorem C75_cut_partial {cad : Cad} {j : Job} {curves : List (List Edge)} (hw : ∀ c ∈ curves, WireOK c)
    (hv : ∀ c ∈ curves, NearestIsVertex cad c) {features : List (List (List Edge))} {cs : List Motion}
    (hf : List.Forall₂ (fun c f => profileFeature cad j.top none none c = .ok f) curves features)
    (h : routeWires cad.veq cad.search j features.flatten none none = .ok cs) :
    ∃ blocks, cs = List.flatten blocks ∧ List.Forall₂ (WholeWire cad.veq j.feed none) curves blocks := by
  have : features.flatten = curves := by
    clear h hw hv
    induction hf with
    | nil => rfl
    | cons h1 _ ih => cases h1; simp [ih]
  rw [this] at h
  obtain ⟨bs, h1, h2⟩ := routeWires_whole (veq := cad.veq) (search := cad.search) (j := j) hv hw
  rw [h1] at h
  cases h
  exact ⟨bs, rfl, h2⟩

/-- A job with a tool of diameter 4. -/
def millJob : Job := Job.init Frame.xy (.int 500) (toolDiameter := some 4)

/-- A kernel that cannot offset a wire inwards by 10 or more. -/
def smallCad : Cad := { flatCad with offset2D := fun w d => if d ≤ -9 then .error .valueError else .ok [w] }

/-- C75 is false: a profile whose wire cannot be offset succeeds, and cuts nothing. -/
theorem C75_violated : ∃ j' : Job,
    (millJob.call (profileRequest smallCad [.face outerSquare [innerSquare]] none (some (-5)) none none none)).2 = .ok j' ∧
    j'.operations.length = 1 ∧ ∀ o ∈ j'.operations, o.name = "Profile".toList ∧ o.commands = [] := by
  have hm : (match (millJob.call (profileRequest smallCad [.face outerSquare [innerSquare]] none (some (-5)) none none
      none)).2 with
      | .ok j' => decide (j'.operations.length = 1) && j'.operations.all (fun o => decide (o.name = "Profile".toList ∧ o.commands = []))
      | .error _ => false) = true := by decide +kernel
  cases h : (millJob.call (profileRequest smallCad [.face outerSquare [innerSquare]] none (some (-5)) none none none)).2 with
  | error e => rw [h] at hm; cases hm
  | ok j' =>
    rw [h] at hm
    simp only [Bool.and_eq_true, decide_eq_true_eq, List.all_eq_true] at hm
    exact ⟨j', rfl, hm⟩

/-! ### C76: tools that bring their diameter -/

/-- C76 (as far as it holds: for calls without a check before the tool update – all but `Job.profile`).  A tool with a
non-zero diameter is used at that diameter, whatever diameter – if any – the job had before: the moves of the new
operation are those for a job with this diameter. -/
theorem C76_partial {j j' : Job} {r : Request} {tool : Tool} {d : ℚ} (hr : r.tool = some tool)
    (hp : ∀ j, r.pre j = .ok ()) (hd : tool.toolDiameter = some d) (hd0 : d ≠ 0) (h : (j.call r).2 = .ok j') :
    ∃ j1 cs, j1.toolRadius = some (d / 2) ∧ j1 = (j.updateTool (some tool)).2 ∧ r.gen j1 = .ok cs ∧
      j'.operations = j1.operations ++ [⟨j1.name, r.opName, cs.map Command.motion⟩] ∧
      j'.toolRadius = some (d / 2) := by
  simp only [Job.call, hp, hr] at h
  cases hg : r.gen (j.updateTool (some tool)).2 with
  | error e => rw [hg] at h; cases h
  | ok cs =>
    rw [hg] at h
    cases h
    have hrad : (j.updateTool (some tool)).2.toolRadius = some (d / 2) := by
      have : (j.updateTool (some tool)).2.toolDiameter = some d := by
        unfold Job.updateTool
        simp only [hd]
        split_ifs <;> rfl
      simp only [Job.toolRadius, this, hd0, if_false]
    exact ⟨_, cs, hrad, rfl, hg, rfl, hrad⟩

/-- `wire_profile` and `pocket` are such calls. -/
example (cad : Cad) (wires : List (List Edge)) (offset : ℚ) (stepdown : Option ℚ) (tabs : Option Tabs) (tool : Tool)
    (eng : Clipper) (veq : Vec → Vec → Bool) (fuel : ℕ) (op avoid : List CqFace) (a : PocketArgs) (j : Job) :
    (wireProfileRequest cad wires offset stepdown tabs (some tool)).pre j = .ok () ∧
      (pocketRequest eng veq fuel op avoid a (some tool)).pre j = .ok () := ⟨rfl, rfl⟩

/-- C76 is false for `Job.profile`: on a job without diameter, a tool with a diameter is refused. -/
theorem C76_violated (cad : Cad) (j : Job) (h : j.toolDiameter = none) (shapes : List Shape)
    (outerOffset innerOffset stepdown : Option ℚ) (tabs : Option Tabs) (tool : Option Tool) :
    j.call (profileRequest cad shapes outerOffset innerOffset stepdown tabs tool) = (j, .error .valueError) := by
  simp [Job.call, profileRequest, h]

/-! ### C77: heights -/

theorem edgeAt_up {z dz : ℚ} {e : Edge} (h : EdgeAt (· = z) e) : EdgeAt (· = z + dz) (e.up dz) where
  start := by simp only [Edge.up, Vec.up, h.start]
  fin := by simp only [Edge.up, Vec.up, h.fin]
  param p := by simp only [Edge.up, Vec.up, h.param p]
  len d := by simp only [Edge.up, Vec.up, h.len d]

theorem edgeAt_mono {P Q : ℚ → Prop} (h : ∀ z, P z → Q z) {e : Edge} (he : EdgeAt P e) : EdgeAt Q e :=
  ⟨h _ he.start, h _ he.fin, fun p => h _ (he.param p), fun d => h _ (he.len d)⟩

/-- C77.  The feed moves of a profile without tabs of horizontal contours at height `z` end at height `z`, or – with a
stepdown `s` – at `z + k s`, and then more than 0.001 below the surface.  No other property of the kernel is needed. -/
theorem C77_heights {cad : Cad} (hb : BoxMoves cad) {j : Job} {wire : List Edge} {offset r z : ℚ} {stepdown : Option ℚ}
    {bases : List (List Edge)} {cs : List Motion} (hr : j.toolRadius = some r)
    (ho : offsetWire cad (wire.map (Edge.toLocal j.top)) (offset * r) = .ok bases)
    (hz : ∀ b ∈ bases, b ≠ [] ∧ cad.zmin b = z ∧ ∀ e ∈ b, EdgeAt (· = z) e)
    (h : profile cad j wire offset stepdown none = .ok cs) :
    ∀ c ∈ cs, c.kind.mot ≠ .rapid → EndsAt (fun h => h = z ∨ h < -1 / 1000 ∧ ∃ s, stepdown = some s ∧ ∃ k : ℕ,
      1 ≤ k ∧ k ≤ 100 ∧ h = z + k * s) c := by
  obtain ⟨ws, h1, h⟩ := bind_ok.mp h
  simp only [profileWires, hr, ho, ok_bind] at h1
  obtain ⟨lss, h2, h1⟩ := bind_ok.mp h1
  cases h1
  refine routeWires_ends ?_ h
  intro w hw e he
  obtain ⟨ls, hls, hw⟩ := List.mem_flatten.mp hw
  obtain ⟨b, hbm, hf⟩ := mapE_mem h2 hls
  obtain ⟨hne, hzb, hze⟩ := hz b hbm
  obtain ⟨ls', hl, hf⟩ := bind_ok.mp hf
  cases hf
  rcases profileLayers_mem hl w hw with rfl | ⟨s, hs, k, k1, k2, rfl, k4⟩
  · exact edgeAt_mono (fun _ h => Or.inl h) (hze e he)
  · obtain ⟨e0, he0, rfl⟩ := List.mem_map.mp he
    rw [zmin_up hb hne, hzb] at k4
    refine edgeAt_mono ?_ (edgeAt_up (hze e0 he0))
    rintro _ rfl
    exact Or.inr ⟨k4, s, hs, k, k1, k2, by ring⟩

theorem wireOK_toLocal {w : List Edge} (h : WireOK w) : WireOK (w.map (Edge.toLocal Frame.xy)) where
  nonempty := by simpa using h.nonempty
  edgeOK := by
    intro e he
    obtain ⟨x, hx, rfl⟩ := List.mem_map.mp he
    have := h.edgeOK x hx
    exact ⟨by simp only [Edge.toLocal, this.param0], by simp only [Edge.toLocal, this.param1],
      by simp only [Edge.toLocal, this.len0], by simp only [Edge.toLocal, this.len1]⟩
  routable := by
    intro e he
    obtain ⟨x, hx, rfl⟩ := List.mem_map.mp he
    have := h.routable x hx
    refine ⟨this.1, fun hc => ?_⟩
    have := this.2 hc
    simpa [Edge.toLocal, Frame.toLocalDir, Frame.xy, Vec.dot] using this
  distinct := by
    rw [List.pairwise_map]
    exact h.distinct

/-- A square at depth 3. -/
def deepSquare : List Edge := (innerSquare.map (Edge.up (-2))).map (Edge.toLocal millJob.top)

/-- A square at depth 3 with stepdown 1 meets the hypotheses of `C46_cut_partial`, `C75_offset_partial` and
`C77_heights`; the profile consists of three passes, 22 moves in all. -/
example : ∃ cs, millJob.toolRadius = some 2 ∧ (∀ v w, flatCad.relocate v w = w) ∧
    offsetWire flatCad deepSquare (1 * 2) = .ok [deepSquare] ∧ WireOK deepSquare ∧
    -1 / 1000 ≤ flatCad.zmin deepSquare + 101 * 1 ∧ (∀ dz, NearestIsVertex flatCad (deepSquare.map (Edge.up dz))) ∧
    flatCad.zmin deepSquare = -3 ∧ (∀ e ∈ deepSquare, EdgeAt (· = -3) e) ∧
    profile flatCad millJob (innerSquare.map (Edge.up (-2))) 1 (some 1) none = .ok cs ∧ cs.length = 22 := by
  have hm : (match profile flatCad millJob (innerSquare.map (Edge.up (-2))) 1 (some 1) none with
      | .ok cs => decide (cs.length = 22) | .error _ => false) = true := by decide +kernel
  cases h : profile flatCad millJob (innerSquare.map (Edge.up (-2))) 1 (some 1) none with
  | error e => rw [h] at hm; cases hm
  | ok cs =>
    rw [h] at hm
    refine ⟨cs, by decide +kernel, fun _ _ => rfl, ?_, ?_, by decide +kernel, fun _ _ _ h => (by cases h), by decide +kernel, ?_,
      rfl, by simpa using hm⟩
    · have hval : offsetValid flatCad deepSquare = true := by decide +kernel
      change Except.ok (circleBugWorkaround flatCad deepSquare ([deepSquare].filter (offsetValid flatCad))) = _
      rw [show [deepSquare].filter (offsetValid flatCad) = [deepSquare] from by simp [hval]]
      rfl
    · exact wireOK_toLocal (wireOK_up innerSquare_ok _)
    · simp only [deepSquare, innerSquare, outline, List.map_cons, List.map_nil, List.mem_cons, List.not_mem_nil, or_false]
      rintro e (rfl | rfl | rfl | rfl) <;> constructor <;>
        simp [Edge.toLocal, Edge.up, Vec.up, lineEdge, millJob, Job.init, Frame.xy, Frame.toLocal, Vec.sub, Vec.dot] <;> norm_num

/-- C48: a face with a hole: 16 moves, the hole first. -/
example : ∃ j', (millJob.call (profileRequest flatCad [.face outerSquare [innerSquare]] (some 1) (some (-1)) none none
    none)).2 = .ok j' ∧ j'.operations.length = 1 ∧ j'.operations.all (fun o => o.commands.length = 16) := by
  have hm : (match (millJob.call (profileRequest flatCad [.face outerSquare [innerSquare]] (some 1) (some (-1)) none none
      none)).2 with
      | .ok j' => decide (j'.operations.length = 1) && j'.operations.all (fun o => o.commands.length = 16)
      | .error _ => false) = true := by decide +kernel
  cases h : (millJob.call (profileRequest flatCad [.face outerSquare [innerSquare]] (some 1) (some (-1)) none none
      none)).2 with
  | error e => rw [h] at hm; cases hm
  | ok j' =>
    rw [h] at hm
    simp only [Bool.and_eq_true, decide_eq_true_eq] at hm
    exact ⟨j', rfl, hm⟩

/-- C48: two wires in one call of `wire_profile`, with stepdown: one operation of 37 moves. -/
example : ∃ j', (millJob.call (wireProfileRequest flatCad [innerSquare.map (Edge.up (-2)), outerSquare.map (Edge.up (-1))] 1 (some 1)
    none none)).2 = .ok j' ∧ j'.operations.length = 1 ∧ j'.operations.all (fun o => o.commands.length = 37) := by
  have hm : (match (millJob.call (wireProfileRequest flatCad [innerSquare.map (Edge.up (-2)), outerSquare.map (Edge.up (-1))] 1
      (some 1) none none)).2 with
      | .ok j' => decide (j'.operations.length = 1) && j'.operations.all (fun o => o.commands.length = 37)
      | .error _ => false) = true := by decide +kernel
  cases h : (millJob.call (wireProfileRequest flatCad [innerSquare.map (Edge.up (-2)), outerSquare.map (Edge.up (-1))] 1 (some 1)
      none none)).2 with
  | error e => rw [h] at hm; cases hm
  | ok j' =>
    rw [h] at hm
    simp only [Bool.and_eq_true, decide_eq_true_eq] at hm
    exact ⟨j', rfl, hm⟩

end CQ
