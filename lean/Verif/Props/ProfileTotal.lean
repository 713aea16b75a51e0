import Verif.Spec.ProfileTotal
import Verif.Props.Profile
import Verif.Props.ProfilePath
import Verif.Props.TabTotal
import Verif.Props.Placement

/-! # C114: a profile that can be made is made -/

namespace CQ

theorem routeEdge_total (veq : Vec → Vec → Bool) {e : Edge} (hr : Routable e) (prec : ℕ) (sp ep : Option ℚ)
    (feed : Option PyNum) : ∃ r, routeEdge veq e prec sp ep feed = .ok r := by
  have harc : e.circular → ∃ cs, routeArc veq e sp ep feed = .ok cs := by
    intro hc
    have hz := hr.2 hc
    unfold routeArc
    have : ∃ b, isArcClockwise2 e.normal e.reversed = .ok b := by
      unfold isArcClockwise2
      rcases lt_trichotomy e.normal.z 0 with h | h | h
      · simp [h, h.ne, not_lt.mpr h.le]
      · exact absurd h hz
      · simp [h, h.ne', not_lt.mpr h.le]
    obtain ⟨b, hb⟩ := this
    simp only [hb]
    split
    · exact ⟨_, rfl⟩
    · split <;> exact ⟨_, rfl⟩
  unfold routeEdge
  cases hg : e.geom with
  | line => exact ⟨_, rfl⟩
  | arc => obtain ⟨cs, h⟩ := harc (Or.inl hg); exact ⟨(cs, routeEnd e ep), by simp only [h]⟩
  | circle => obtain ⟨cs, h⟩ := harc (Or.inr hg); exact ⟨(cs, routeEnd e ep), by simp only [h]⟩
  | bspline => exact ⟨_, rfl⟩
  | spline => exact ⟨_, rfl⟩
  | offset => exact ⟨_, rfl⟩
  | other => exact absurd hg hr.1

theorem routeEdges_total (veq : Vec → Vec → Bool) (j : Job) (es : List Edge) : ∀ fin,
    ((∀ e ∈ es, Routable e) → ∃ r, routeEdges veq j fin es = .ok r) ∧
      (¬ (∀ e ∈ es, Routable e) → routeEdges veq j fin es = .error .runtimeError) := by
  induction es with
  | nil => intro fin; exact ⟨fun _ => ⟨_, rfl⟩, fun h => absurd (by simp) h⟩
  | cons e es ih =>
    intro fin
    constructor
    · intro h
      obtain ⟨⟨cs, v⟩, h1⟩ := routeEdge_total veq (h e (by simp)) j.precision none none (some j.feed)
      obtain ⟨⟨ds, v'⟩, h2⟩ := (ih v).1 (fun x hx => h x (by simp [hx]))
      exact ⟨(cs ++ ds, v'), by simp only [routeEdges, h1, h2]⟩
    · intro h
      by_cases he : Routable e
      · obtain ⟨⟨cs, v⟩, h1⟩ := routeEdge_total veq he j.precision none none (some j.feed)
        have h2 := (ih v).2 (fun hall => h (by
          intro x hx
          rcases List.mem_cons.mp hx with rfl | hx
          · exact he
          · exact hall x hx))
        simp only [routeEdges, h1, h2]
      · simp only [routeEdges, C29_unsupported veq e j.precision none none (some j.feed) he]

theorem routeWire_total (veq : Vec → Vec → Bool) (j : Job) (hit : Option WireHit) (pos : AddrVec) {es : List Edge}
    (hne : es ≠ []) : ((∀ e ∈ es, Routable e) → ∃ r, routeWire veq j none hit pos es = .ok r) ∧
      (¬ (∀ e ∈ es, Routable e) → routeWire veq j none hit pos es = .error .runtimeError) := by
  obtain ⟨e, es, rfl⟩ := List.exists_cons_of_ne_nil hne
  have hent : enterWire veq j none hit pos (e :: es) = .ok (e :: es, rapidTo pos (edgeStartPoint e) j.rapidHeight
      (some j.opSafeHeight) (some j.plungeFeed)) := rfl
  constructor
  · intro h
    obtain ⟨⟨cs, v⟩, h1⟩ := routeEdge_total veq (h e (by simp)) j.precision (hit.bind WireHit.param) none (some j.feed)
    obtain ⟨⟨ds, v'⟩, h2⟩ := (routeEdges_total veq j es v).1 (fun x hx => h x (by simp [hx]))
    simp only [routeWire, hent, h1, h2]
    cases hp : hit.bind WireHit.param with
    | none => exact ⟨_, rfl⟩
    | some p =>
      simp only
      split
      · exact ⟨_, rfl⟩
      · obtain ⟨⟨cs', w⟩, h3⟩ := routeEdge_total veq (h e (by simp)) j.precision none (some p) (some j.feed)
        simp only [h3]
        exact ⟨_, rfl⟩
  · intro h
    by_cases he : Routable e
    · obtain ⟨⟨cs, v⟩, h1⟩ := routeEdge_total veq he j.precision (hit.bind WireHit.param) none (some j.feed)
      have h2 := (routeEdges_total veq j es v).2 (fun hall => h (by
        intro x hx
        rcases List.mem_cons.mp hx with rfl | hx
        · exact he
        · exact hall x hx))
      simp only [routeWire, hent, h1, h2]
    · simp only [routeWire, hent, C29_unsupported veq e j.precision _ none (some j.feed) he]

theorem routeWires_total (veq : Vec → Vec → Bool) (search : Vec → List Edge → Option WireHit) (j : Job)
    {ws : List (List Edge)} (hne : ∀ w ∈ ws, w ≠ []) :
    ((∀ w ∈ ws, RoutableWire w) → ∃ cs, routeWires veq search j ws = .ok cs) ∧
      (¬ (∀ w ∈ ws, RoutableWire w) → routeWires veq search j ws = .error .runtimeError) := by
  have key : ∀ (ws : List (List Edge)) (acc : List Motion) (pwe : Option Vec) (pos : AddrVec), (∀ w ∈ ws, w ≠ []) →
      ((∀ w ∈ ws, RoutableWire w) → ∃ cs, routeWiresFrom veq search j none acc pwe pos ws = .ok cs) ∧
      (¬ (∀ w ∈ ws, RoutableWire w) → routeWiresFrom veq search j none acc pwe pos ws = .error .runtimeError) := by
    intro ws
    induction ws with
    | nil => intro acc pwe pos _; exact ⟨fun _ => ⟨acc, by unfold routeWiresFrom; rfl⟩, fun h => absurd (by simp) h⟩
    | cons w ws ih =>
      intro acc pwe pos hne
      obtain ⟨e, es, rfl⟩ := List.exists_cons_of_ne_nil (hne w (by simp))
      constructor
      · intro h
        obtain ⟨⟨cs, v⟩, h1⟩ := (routeWire_total veq j (pwe.bind (search · (e :: es))) pos (hne (e :: es) (by simp))).1
          (h (e :: es) (by simp))
        simp only [routeWiresFrom, h1]
        exact (ih _ _ _ (fun x hx => hne x (by simp [hx]))).1 (fun x hx => h x (by simp [hx]))
      · intro h
        by_cases hw : RoutableWire (e :: es)
        · obtain ⟨⟨cs, v⟩, h1⟩ := (routeWire_total veq j (pwe.bind (search · (e :: es))) pos (hne _ (by simp))).1 hw
          simp only [routeWiresFrom, h1]
          refine (ih _ _ _ (fun x hx => hne x (by simp [hx]))).2 (fun hall => h ?_)
          intro x hx
          rcases List.mem_cons.mp hx with rfl | hx
          · exact hw
          · exact hall x hx
        · simp only [routeWiresFrom, (routeWire_total veq j (pwe.bind (search · (e :: es))) pos (hne _ (by simp))).2 hw]
  exact key ws [] none _ hne

/-! ### Passes -/

theorem up_routable {e : Edge} (dz : ℚ) : Routable (e.up dz) ↔ Routable e := Iff.rfl

theorem stepLayers_total {cad : Cad} {top : Frame} (hb : BoxMoves cad) (hk : KeepsBelow cad top) {base : List Edge}
    (hne : base ≠ []) (s : ℚ) (rounds : ℕ) : ∀ i,
    ((∃ k : ℕ, i + 1 ≤ k ∧ k ≤ i + rounds ∧ -1 / 1000 ≤ cad.zmin base + k * s) →
      ∃ ls, stepLayers cad top base s rounds i = .ok ls ∧ ∀ w ∈ ls, ∃ dz, w = base.map (Edge.up dz)) ∧
    ((∀ k : ℕ, i + 1 ≤ k → k ≤ i + rounds → cad.zmin base + k * s < -1 / 1000) →
      stepLayers cad top base s rounds i = .error .runtimeError) := by
  induction rounds with
  | zero => intro i; exact ⟨fun ⟨k, h1, h2, _⟩ => by omega, fun _ => rfl⟩
  | succ r ih =>
    intro i
    have hz : cad.zmin (base.map (Edge.up (s * (i + 1)))) = cad.zmin base + (i + 1 : ℕ) * s := by
      rw [zmin_up hb hne]; push_cast; ring
    by_cases hc : -1 / 1000 ≤ cad.zmin base + (i + 1 : ℕ) * s
    · constructor
      · intro _
        exact ⟨[], by simp only [stepLayers, hz, if_pos hc], by simp⟩
      · intro h
        exact absurd (h (i + 1) le_rfl (by omega)) (not_lt.mpr hc)
    · have hl : leftBelow cad top (base.map (Edge.up (s * (i + 1)))) = true :=
        leftBelow_iff.mpr (hk _ (by rw [hz]; exact not_le.mp hc))
      have hstep : stepLayers cad top base s (r + 1) i =
          (do
            let rest ← stepLayers cad top base s r (i + 1)
            .ok (base.map (Edge.up (s * (i + 1))) :: rest)) := by
        simp only [stepLayers, hz, if_neg hc, hl, if_true]
      constructor
      · rintro ⟨k, h1, h2, h3⟩
        have hki : k ≠ i + 1 := by rintro rfl; exact hc h3
        obtain ⟨ls, h4, h5⟩ := (ih (i + 1)).1 ⟨k, by omega, by omega, h3⟩
        refine ⟨_, by rw [hstep, h4]; rfl, ?_⟩
        intro w hw
        rcases List.mem_cons.mp hw with rfl | hw
        · exact ⟨_, rfl⟩
        · exact h5 w hw
      · intro h
        rw [hstep, (ih (i + 1)).2 (fun k h1 h2 => h k (by omega) (by omega))]
        rfl

theorem up_zero (w : List Edge) : w.map (Edge.up 0) = w := by
  have : ∀ e : Edge, e.up 0 = e := by
    intro e
    have hv : ∀ v : Vec, v.up 0 = v := fun v => by simp [Vec.up]
    unfold Edge.up
    simp only [hv]
  rw [show Edge.up 0 = id from funext this, List.map_id]

theorem profileLayers_total {cad : Cad} {top : Frame} (hb : BoxMoves cad) (hk : KeepsBelow cad top) {base : List Edge}
    (hne : base ≠ []) (stepdown : Option ℚ) :
    (StepsOut cad stepdown base → ∃ ls, profileLayers cad top base stepdown = .ok ls ∧ base ∈ ls ∧
      ∀ w ∈ ls, ∃ dz, w = base.map (Edge.up dz)) ∧
    (¬ StepsOut cad stepdown base → profileLayers cad top base stepdown = .error .runtimeError) := by
  have h0 : ∃ dz, base = base.map (Edge.up dz) := ⟨0, (up_zero base).symm⟩
  cases stepdown with
  | none =>
    refine ⟨fun _ => ⟨[base], rfl, by simp, by simpa using h0⟩, fun h => absurd ?_ h⟩
    intro s hs; cases hs
  | some s =>
    by_cases hs : s = 0
    · refine ⟨fun _ => ⟨[base], by simp [profileLayers, hs], by simp, by simpa using h0⟩, fun h => absurd ?_ h⟩
      intro s' hs' hn; cases hs'; exact absurd hs hn
    · constructor
      · intro h
        obtain ⟨k, h1, h2, h3⟩ := h s rfl hs
        obtain ⟨ls, h4, h5⟩ := (stepLayers_total hb hk hne s 101 0).1 ⟨k, by omega, by omega, h3⟩
        refine ⟨(base :: ls).reverse, by simp only [profileLayers, if_neg hs, h4]; rfl, by simp, ?_⟩
        intro w hw
        rcases List.mem_cons.mp (List.mem_reverse.mp hw) with rfl | hw
        · exact h0
        · exact h5 w hw
      · intro h
        have : ∀ k : ℕ, 0 + 1 ≤ k → k ≤ 0 + 101 → cad.zmin base + k * s < -1 / 1000 := by
          intro k h1 h2
          by_contra hcon
          refine h ?_
          intro s' hs' _
          cases hs'
          exact ⟨k, by omega, by omega, not_lt.mp hcon⟩
        simp only [profileLayers, if_neg hs, (stepLayers_total hb hk hne s 101 0).2 this]
        rfl

/-! ### Offsets -/

theorem offsetWire_contours {cad : Cad} (hrel : ∀ v w, cad.relocate v w = w) {w : List Edge} {d : ℚ} :
    (∃ cs, Contours cad w d cs ∧ offsetWire cad w d = .ok cs) ∨ ∃ x, KernelFails cad w d x ∧ offsetWire cad w d = .error x := by
  have hcirc : ∀ a ws, circleBugWorkaround cad a ws = ws := by
    intro a ws
    have : ∀ v, List.map (cad.relocate v) ws = ws := by
      intro v
      rw [show cad.relocate v = id from funext (hrel v), List.map_id]
    unfold circleBugWorkaround
    split
    · split
      · exact this _
      · rfl
    · rfl
  have hvalid : ∀ found : List (List Edge), ∀ c ∈ found,
      c ∈ found.filter (offsetValid cad) ↔ ∃ a, cad.area c = .ok a ∧ 1 / 10 < a := by
    intro found c hc
    simp only [List.mem_filter, hc, true_and, offsetValid]
    cases cad.area c with
    | ok a => simp
    | error x => simp
  have hgood : ∀ found d', (d' = d ∨ cad.offset2D w d = .error .valueError ∧ d' = d + 1 / 1000000) →
      cad.offset2D w d' = .ok found → tryOffset cad w d = .ok found →
      ∃ cs, Contours cad w d cs ∧ offsetWire cad w d = .ok cs := by
    intro found d' hd h1 h2
    refine ⟨found.filter (offsetValid cad), Or.inl ⟨found, ?_, List.filter_sublist, hvalid found⟩, ?_⟩
    · rcases hd with rfl | ⟨h3, rfl⟩
      · exact Or.inl h1
      · exact Or.inr ⟨h3, h1⟩
    · simp only [offsetWire, h2, ok_bind, hcirc]
  have hbad : ∀ x, KernelFails cad w d x → tryOffset cad w d = .error x →
      ∃ x, KernelFails cad w d x ∧ offsetWire cad w d = .error x := by
    intro x h1 h2
    exact ⟨x, h1, by simp only [offsetWire, h2]; rfl⟩
  cases h1 : cad.offset2D w d with
  | ok found => exact Or.inl (hgood found d (Or.inl rfl) h1 (by simp only [tryOffset, h1]))
  | error x =>
    by_cases hx : x = .valueError
    · subst hx
      cases h2 : cad.offset2D w (d + 1 / 1000000) with
      | ok found => exact Or.inl (hgood found _ (Or.inr ⟨h1, rfl⟩) h2 (by simp only [tryOffset, h1, h2]))
      | error y =>
        by_cases hy : y = .valueError
        · subst hy
          refine Or.inl ⟨[], Or.inr ⟨h1, h2, rfl⟩, ?_⟩
          have : tryOffset cad w d = .ok [] := by simp only [tryOffset, h1, h2]
          simp only [offsetWire, this, ok_bind, hcirc]
          rfl
        · refine Or.inr (hbad y ⟨hy, Or.inr ⟨h1, h2⟩⟩ ?_)
          simp only [tryOffset, h1, h2]
          cases y <;> first | rfl | exact absurd rfl hy
    · refine Or.inr (hbad x ⟨hx, Or.inl h1⟩ ?_)
      simp only [tryOffset, h1]
      cases x <;> first | rfl | exact absurd rfl hx

theorem contours_nonempty {cad : Cad} (hne : NoEmptyWires cad) {w : List Edge} {d : ℚ} {cs : List (List Edge)}
    (h : Contours cad w d cs) : ∀ c ∈ cs, c ≠ [] := by
  intro c hc
  rcases h with ⟨found, h1, h2, -⟩ | ⟨-, -, rfl⟩
  · rcases h1 with h1 | ⟨-, h1⟩
    · exact hne _ _ _ h1 c (h2.subset hc)
    · exact hne _ _ _ h1 c (h2.subset hc)
  · cases hc

/-- What one profile does: it is made if the kernel finds contours that step out of the material and can be followed;
otherwise it fails with the kernel's exception, or `RuntimeError`. -/
theorem profile_total {cad : Cad} {j : Job} (hrel : ∀ v w, cad.relocate v w = w) (hne : NoEmptyWires cad) (hb : BoxMoves cad)
    (hk : KeepsBelow cad j.top) {r : ℚ} (hr : j.toolRadius = some r) (wire : List Edge) (offset : ℚ) (stepdown : Option ℚ) :
    (∃ cs, Contours cad (wire.map (Edge.toLocal j.top)) (offset * r) cs ∧
      (((∀ c ∈ cs, StepsOut cad stepdown c ∧ RoutableWire c) ∧ ∃ ms, profile cad j wire offset stepdown none = .ok ms) ∨
        (¬ (∀ c ∈ cs, StepsOut cad stepdown c ∧ RoutableWire c) ∧
          profile cad j wire offset stepdown none = .error .runtimeError))) ∨
    ∃ x, KernelFails cad (wire.map (Edge.toLocal j.top)) (offset * r) x ∧
      profile cad j wire offset stepdown none = .error x := by
  rcases offsetWire_contours hrel (w := wire.map (Edge.toLocal j.top)) (d := offset * r) with ⟨cs, h1, h2⟩ | ⟨x, h1, h2⟩
  · left
    refine ⟨cs, h1, ?_⟩
    have hcne := contours_nonempty hne h1
    have hfeat : ∀ c, profileFeature cad j.top stepdown none c = profileLayers cad j.top c stepdown := by
      intro c
      unfold profileFeature
      cases profileLayers cad j.top c stepdown <;> rfl
    have hprof : profile cad j wire offset stepdown none = (do
        let ls ← mapE (fun c => profileLayers cad j.top c stepdown) cs
        routeWires cad.veq cad.search j ls.flatten) := by
      simp only [profile, profileWires, hr, h2, ok_bind]
      rw [show profileFeature cad j.top stepdown none = fun c => profileLayers cad j.top c stepdown from funext hfeat]
      cases mapE (fun c => profileLayers cad j.top c stepdown) cs <;> rfl
    by_cases hs : ∀ c ∈ cs, StepsOut cad stepdown c
    · have hl : ∀ c ∈ cs, _ := fun c hc => (profileLayers_total hb hk (hcne c hc) stepdown).1 (hs c hc)
      obtain ⟨ls, hls⟩ := mapE_total (f := fun c => profileLayers cad j.top c stepdown) (as := cs)
        (fun c hc => ⟨_, (hl c hc).choose_spec.1⟩)
      have hall := mapE_ok.mp hls
      have hlay : ∀ w ∈ ls.flatten, ∃ c ∈ cs, ∃ dz, w = c.map (Edge.up dz) := by
        intro w hw
        obtain ⟨l, hl1, hl2⟩ := List.mem_flatten.mp hw
        obtain ⟨c, hc, hcl⟩ := forall₂_mem_right hall hl1
        obtain ⟨l', h3, -, h4⟩ := hl c hc
        simp only [h3] at hcl
        cases hcl
        obtain ⟨dz, hdz⟩ := h4 w hl2
        exact ⟨c, hc, dz, hdz⟩
      have hbase : ∀ c ∈ cs, c ∈ ls.flatten := by
        intro c hc
        obtain ⟨l, hl1, hl2⟩ := forall₂_mem_left hall hc
        obtain ⟨l', h3, h4, -⟩ := hl c hc
        simp only [h3] at hl2
        cases hl2
        exact List.mem_flatten.mpr ⟨_, hl1, h4⟩
      have hnel : ∀ w ∈ ls.flatten, w ≠ [] := by
        intro w hw
        obtain ⟨c, hc, dz, rfl⟩ := hlay w hw
        simpa using hcne c hc
      have hroute := routeWires_total cad.veq cad.search j hnel
      by_cases hrt : ∀ c ∈ cs, RoutableWire c
      · left
        refine ⟨fun c hc => ⟨hs c hc, hrt c hc⟩, ?_⟩
        obtain ⟨ms, hms⟩ := hroute.1 (by
          intro w hw
          obtain ⟨c, hc, dz, rfl⟩ := hlay w hw
          intro e he
          obtain ⟨e', he', rfl⟩ := List.mem_map.mp he
          exact (up_routable dz).mpr (hrt c hc e' he'))
        exact ⟨ms, by rw [hprof, hls, ok_bind, hms]⟩
      · right
        refine ⟨fun h => hrt (fun c hc => (h c hc).2), ?_⟩
        rw [hprof, hls, ok_bind]
        exact hroute.2 (fun h => hrt (fun c hc => h c (hbase c hc)))
    · right
      refine ⟨fun h => hs (fun c hc => (h c hc).1), ?_⟩
      have herr : ∀ cs : List (List Edge), (∀ c ∈ cs, c ≠ []) → ¬ (∀ c ∈ cs, StepsOut cad stepdown c) →
          mapE (fun c => profileLayers cad j.top c stepdown) cs = .error .runtimeError := by
        intro cs
        induction cs with
        | nil => intro _ h; exact absurd (by simp) h
        | cons c cs ih =>
          intro hn h
          by_cases hc : StepsOut cad stepdown c
          · obtain ⟨l, h3, -⟩ := (profileLayers_total hb hk (hn c (by simp)) stepdown).1 hc
            have h4 := ih (fun x hx => hn x (by simp [hx])) (fun hall => h (by
              intro x hx
              rcases List.mem_cons.mp hx with rfl | hx
              · exact hc
              · exact hall x hx))
            simp only [mapE, h3, ok_bind, h4]
            rfl
          · simp only [mapE, (profileLayers_total hb hk (hn c (by simp)) stepdown).2 hc]
            rfl
      rw [hprof, herr cs hcne hs]
      rfl
  · right
    refine ⟨x, h1, ?_⟩
    simp only [profile, profileWires, hr, h2]
    rfl

theorem contours_mem {cad : Cad} {w : List Edge} {d : ℚ} {cs cs' : List (List Edge)} (h : Contours cad w d cs)
    (h' : Contours cad w d cs') : ∀ c ∈ cs, c ∈ cs' := by
  intro c hc
  rcases h with ⟨found, h1, h2, h3⟩ | ⟨-, -, rfl⟩
  · rcases h' with ⟨found', h1', -, h3'⟩ | ⟨k1, k2, -⟩
    · have : found = found' := by
        rcases h1 with h1 | ⟨h0, h1⟩ <;> rcases h1' with h1' | ⟨h0', h1'⟩
        · rw [h1] at h1'; cases h1'; rfl
        · rw [h1] at h0'; cases h0'
        · rw [h1'] at h0; cases h0
        · rw [h1] at h1'; cases h1'; rfl
      subst this
      have hf := h2.subset hc
      exact (h3' c hf).mpr ((h3 c hf).mp hc)
    · exfalso
      rcases h1 with h1 | ⟨h0, h1⟩
      · rw [k1] at h1; cases h1
      · rw [k2] at h1; cases h1
  · cases hc

theorem contours_or_fails {cad : Cad} {w : List Edge} {d : ℚ} {cs : List (List Edge)} {x : Err} (h : Contours cad w d cs)
    (hf : KernelFails cad w d x) : False := by
  obtain ⟨hx, hf⟩ := hf
  rcases h with ⟨found, h1 | ⟨h0, h1⟩, -⟩ | ⟨h1, h2, -⟩ <;> rcases hf with hf | ⟨hf0, hf⟩ <;>
    simp_all

theorem radius_cases (j : Job) : (j.toolDiameter = none ∨ j.toolDiameter = some 0) ∧ j.toolRadius = none ∨
    ∃ d, j.toolDiameter = some d ∧ d ≠ 0 ∧ j.toolRadius = some (d / 2) := by
  unfold Job.toolRadius
  cases hd : j.toolDiameter with
  | none => exact Or.inl ⟨Or.inl rfl, rfl⟩
  | some d =>
    by_cases h0 : d = 0
    · subst h0; exact Or.inl ⟨Or.inr rfl, by simp⟩
    · exact Or.inr ⟨d, rfl, h0, by simp [h0]⟩

/-- C114.  **Exactly** the profiles whose contours can be cut are made: a profile without tabs gives moves if and only if the
job has a tool diameter (other than zero), the kernel offsets the wire (or finds nothing), and every contour steps out of the material in
at most 101 stepdowns and has edges the machine can follow only. -/
theorem C114_made {cad : Cad} {j : Job} (hrel : ∀ v w, cad.relocate v w = w) (hne : NoEmptyWires cad) (hb : BoxMoves cad)
    (hk : KeepsBelow cad j.top) (wire : List Edge) (offset : ℚ) (stepdown : Option ℚ) :
    (∃ ms, profile cad j wire offset stepdown none = .ok ms) ↔ Makeable cad j offset stepdown wire := by
  rcases radius_cases j with ⟨hd, hr⟩ | ⟨d, hd, hd0, hr⟩
  · constructor
    · rintro ⟨ms, h⟩
      simp only [profile, profileWires, hr] at h
      cases h
    · rintro ⟨d, cs, h, h0, -⟩
      rcases hd with hd | hd <;> rw [hd] at h <;> cases h
      exact absurd rfl h0
  · rcases profile_total hrel hne hb hk hr wire offset stepdown with ⟨cs, h1, ⟨h2, h3⟩ | ⟨h2, h3⟩⟩ | ⟨x, h1, h2⟩
    · exact ⟨fun _ => ⟨d, cs, hd, hd0, h1, h2⟩, fun _ => h3⟩
    · constructor
      · rintro ⟨ms, h⟩; rw [h3] at h; cases h
      · rintro ⟨d', cs', hd', -, h1', h2'⟩
        rw [hd] at hd'; cases hd'
        exact absurd (fun c hc => h2' c (contours_mem h1 h1' c hc)) h2
    · constructor
      · rintro ⟨ms, h⟩; rw [h2] at h; cases h
      · rintro ⟨d', cs', hd', -, h1', -⟩
        rw [hd] at hd'; cases hd'
        exact (contours_or_fails h1' h1).elim

/-- C114: and the exception of a profile that is not made tells why. -/
theorem C114_refused {cad : Cad} {j : Job} (hrel : ∀ v w, cad.relocate v w = w) (hne : NoEmptyWires cad) (hb : BoxMoves cad)
    (hk : KeepsBelow cad j.top) (wire : List Edge) (offset : ℚ) (stepdown : Option ℚ) (x : Err) :
    profile cad j wire offset stepdown none = .error x ↔ CannotMake cad j offset stepdown wire x := by
  rcases radius_cases j with ⟨hd, hr⟩ | ⟨d, hd, hd0, hr⟩
  · have h : profile cad j wire offset stepdown none = .error .typeError := by
      simp only [profile, profileWires, hr]
      rfl
    rw [h]
    constructor
    · rintro h; cases h; exact Or.inl ⟨hd, rfl⟩
    · rintro (⟨-, rfl⟩ | ⟨d, h, h0, -⟩)
      · rfl
      · rcases hd with hd | hd <;> rw [hd] at h <;> cases h
        exact absurd rfl h0
  · rcases profile_total hrel hne hb hk hr wire offset stepdown with ⟨cs, h1, ⟨h2, ms, h3⟩ | ⟨h2, h3⟩⟩ | ⟨y, h1, h2⟩
    · rw [h3]
      constructor
      · intro h; cases h
      · rintro (⟨h, -⟩ | ⟨d', hd', h0, h | ⟨-, cs', h1', c, hc, hbad⟩⟩)
        · rcases h with h | h <;> rw [hd] at h <;> cases h
          exact absurd rfl hd0
        · rw [hd] at hd'; cases hd'
          exact (contours_or_fails h1 h).elim
        · rw [hd] at hd'; cases hd'
          obtain ⟨k1, k2⟩ := h2 c (contours_mem h1' h1 c hc)
          rcases hbad with hb | hb
          · exact absurd k1 hb
          · exact absurd k2 hb
    · rw [h3]
      constructor
      · intro h
        cases h
        refine Or.inr ⟨d, hd, hd0, Or.inr ⟨rfl, cs, h1, ?_⟩⟩
        by_contra hcon
        push Not at hcon
        exact h2 hcon
      · rintro (⟨h, -⟩ | ⟨d', hd', h0, h | ⟨rfl, -⟩⟩)
        · rcases h with h | h <;> rw [hd] at h <;> cases h
          exact absurd rfl hd0
        · rw [hd] at hd'; cases hd'
          exact (contours_or_fails h1 h).elim
        · rfl
    · rw [h2]
      constructor
      · intro h
        cases h
        exact Or.inr ⟨d, hd, hd0, Or.inl h1⟩
      · rintro (⟨h, -⟩ | ⟨d', hd', h0, h | ⟨-, cs', h1', -⟩⟩)
        · rcases h with h | h <;> rw [hd] at h <;> cases h
          exact absurd rfl hd0
        · rw [hd] at hd'; cases hd'
          obtain ⟨hx, h⟩ := h
          obtain ⟨hy, h1⟩ := h1
          rcases h with h | ⟨h0, h⟩ <;> rcases h1 with h1 | ⟨h1', h1⟩ <;> simp_all
        · rw [hd] at hd'; cases hd'
          exact (contours_or_fails h1' h1).elim

theorem profiles_total {cad : Cad} {j : Job} {P : List Edge → Prop} {o : ℚ} {stepdown : Option ℚ} {tabs : Option Tabs}
    (h : ∀ w, (∃ ms, profile cad j w o stepdown tabs = .ok ms) ↔ P w) (ws : List (List Edge)) :
    (∃ ms, profiles cad j o stepdown tabs ws = .ok ms) ↔ ∀ w ∈ ws, P w := by
  constructor
  · rintro ⟨ms, hm⟩
    obtain ⟨bs, h1, -⟩ := bind_ok.mp hm
    intro w hw
    obtain ⟨b, -, hb⟩ := mapE_mem' h1 hw
    exact (h w).mp ⟨b, hb⟩
  · intro hall
    obtain ⟨bs, hb⟩ := mapE_total (f := fun w => profile cad j w o stepdown tabs) (as := ws)
      (fun w hw => (h w).mpr (hall w hw))
    exact ⟨bs.flatten, by simp only [profiles, hb]; rfl⟩

theorem profilesOpt_total {cad : Cad} {j : Job} {P : ℚ → List Edge → Prop} {stepdown : Option ℚ} {tabs : Option Tabs}
    (h : ∀ o w, (∃ ms, profile cad j w o stepdown tabs = .ok ms) ↔ P o w) (offset : Option ℚ) (ws : List (List Edge)) :
    (∃ ms, profilesOpt cad j offset stepdown tabs ws = .ok ms) ↔ ∀ o, offset = some o → ∀ w ∈ ws, P o w := by
  cases offset with
  | none => exact ⟨fun _ o ho => (by cases ho), fun _ => ⟨[], rfl⟩⟩
  | some o =>
    rw [show profilesOpt cad j (some o) stepdown tabs ws = profiles cad j o stepdown tabs ws from rfl,
      profiles_total (h o) ws]
    exact ⟨fun h o' ho' => by cases ho'; exact h, fun h => h o rfl⟩

/-- C114 for `Job.profile`: the call succeeds **if and only if** the job had a tool diameter, an offset is given, all shapes
are wires or faces, and all the profiles can be made by the job with the new tool. -/
theorem C114_profile {cad : Cad} {j : Job} (hrel : ∀ v w, cad.relocate v w = w) (hne : NoEmptyWires cad) (hb : BoxMoves cad)
    (hk : KeepsBelow cad j.top) (shapes : List Shape) (outerOffset innerOffset stepdown : Option ℚ) (tool : Option Tool) :
    (∃ j', (j.call (profileRequest cad shapes outerOffset innerOffset stepdown none tool)).2 = .ok j') ↔
      j.toolDiameter ≠ none ∧ ¬ (outerOffset = none ∧ innerOffset = none) ∧ Shape.other ∉ shapes ∧
      (∀ o, innerOffset = some o → ∀ w ∈ innerWires shapes, Makeable cad (j.updateTool tool).2 o stepdown w) ∧
      (∀ o, outerOffset = some o → ∀ w ∈ outerWires shapes, Makeable cad (j.updateTool tool).2 o stepdown w) := by
  have hk' : KeepsBelow cad (j.updateTool tool).2.top := by
    rw [(updateTool_frame j (Rigid.translation ⟨0, 0, 0⟩) tool).2]; exact hk
  have hm := fun o w => C114_made (j := (j.updateTool tool).2) hrel hne hb hk' w o stepdown
  rcases C48_refused cad j shapes outerOffset innerOffset stepdown none tool with ⟨-, hr, hw⟩ | ⟨hp, h1, h2, h3⟩
  · rw [hr]
    constructor
    · rintro ⟨j', h⟩; cases h
    · rintro ⟨k1, k2, k3, -⟩
      rcases hw with h | h | h
      · exact absurd h k1
      · exact absurd h k2
      · exact absurd h k3
  · have hgen : (profileRequest cad shapes outerOffset innerOffset stepdown none tool).gen (j.updateTool tool).2 = (do
        let a ← profilesOpt cad (j.updateTool tool).2 innerOffset stepdown none (innerWires shapes)
        let b ← profilesOpt cad (j.updateTool tool).2 outerOffset stepdown none (outerWires shapes)
        .ok (a ++ b)) := by
      simp only [profileRequest, (extractWires_eq shapes).2 h3]; rfl
    have htool : (profileRequest cad shapes outerOffset innerOffset stepdown none tool).tool = tool := rfl
    have hcall : (∃ j', (j.call (profileRequest cad shapes outerOffset innerOffset stepdown none tool)).2 = .ok j') ↔
        (∃ ms, profilesOpt cad (j.updateTool tool).2 innerOffset stepdown none (innerWires shapes) = .ok ms) ∧
        (∃ ms, profilesOpt cad (j.updateTool tool).2 outerOffset stepdown none (outerWires shapes) = .ok ms) := by
      simp only [Job.call, hp, htool, hgen]
      cases profilesOpt cad (j.updateTool tool).2 innerOffset stepdown none (innerWires shapes) with
      | error x => exact ⟨fun ⟨j', h⟩ => (by cases h), fun ⟨⟨ms, h⟩, _⟩ => (by cases h)⟩
      | ok a =>
        cases profilesOpt cad (j.updateTool tool).2 outerOffset stepdown none (outerWires shapes) with
        | error x => exact ⟨fun ⟨j', h⟩ => (by cases h), fun ⟨_, ms, h⟩ => (by cases h)⟩
        | ok b => exact ⟨fun _ => ⟨⟨a, rfl⟩, b, rfl⟩, fun _ => ⟨_, rfl⟩⟩
    rw [hcall, profilesOpt_total hm, profilesOpt_total hm]
    exact ⟨fun ⟨a, b⟩ => ⟨h1, h2, h3, a, b⟩, fun ⟨_, _, _, a, b⟩ => ⟨a, b⟩⟩

/-- C114 for `Job.wire_profile`. -/
theorem C114_wire_profile {cad : Cad} {j : Job} (hrel : ∀ v w, cad.relocate v w = w) (hne : NoEmptyWires cad)
    (hb : BoxMoves cad) (hk : KeepsBelow cad j.top) (wires : List (List Edge)) (offset : ℚ) (stepdown : Option ℚ)
    (tool : Option Tool) :
    (∃ j', (j.call (wireProfileRequest cad wires offset stepdown none tool)).2 = .ok j') ↔
      ∀ w ∈ wires, Makeable cad (j.updateTool tool).2 offset stepdown w := by
  have hk' : KeepsBelow cad (j.updateTool tool).2.top := by
    rw [(updateTool_frame j (Rigid.translation ⟨0, 0, 0⟩) tool).2]; exact hk
  have hm := fun w => C114_made (j := (j.updateTool tool).2) hrel hne hb hk' w offset stepdown
  rw [← profiles_total hm]
  have hpre : (wireProfileRequest cad wires offset stepdown none tool).pre j = .ok () := rfl
  have htool : (wireProfileRequest cad wires offset stepdown none tool).tool = tool := rfl
  have hgen : (wireProfileRequest cad wires offset stepdown none tool).gen (j.updateTool tool).2 =
      profiles cad (j.updateTool tool).2 offset stepdown none wires := rfl
  simp only [Job.call, hpre, htool, hgen]
  cases profiles cad (j.updateTool tool).2 offset stepdown none wires with
  | error x => exact ⟨fun ⟨j', h⟩ => (by cases h), fun ⟨ms, h⟩ => (by cases h)⟩
  | ok a => exact ⟨fun _ => ⟨a, rfl⟩, fun _ => ⟨_, rfl⟩⟩

/-! ### Instances -/

/-- `flatCad`, where a wire without edges has no offset. -/
def solidCad : Cad := { flatCad with offset2D := fun w _ => .ok (match w with | [] => [] | e :: es => [e :: es]) }

theorem solidCad_wires : NoEmptyWires solidCad := by
  intro w d found h c hc
  cases w with
  | nil => cases h; cases hc
  | cons e es => cases h; rw [List.mem_singleton] at hc; subst hc; simp

theorem solidCad_contour {w : List Edge} (hw : w ≠ []) (d : ℚ) : Contours solidCad w d [w] := by
  obtain ⟨e, es, rfl⟩ := List.exists_cons_of_ne_nil hw
  refine Or.inl ⟨[e :: es], Or.inl rfl, List.Sublist.refl _, fun c hc => ?_⟩
  simp only [hc, true_iff]
  exact ⟨1, rfl, by norm_num⟩

theorem deepSquare_ne : deepSquare ≠ [] := by simp [deepSquare, innerSquare, outline]

theorem deepSquare_zmin : solidCad.zmin deepSquare = -3 := by decide +kernel

/-- The hypotheses of C114 hold for `solidCad`.  A square at depth 3 is made with stepdown 1; it is refused with
`RuntimeError` with stepdown -1, and with stepdown 1/50 (more than 101 steps). -/
example : (∀ v w, solidCad.relocate v w = w) ∧ NoEmptyWires solidCad ∧ BoxMoves solidCad ∧ KeepsBelow solidCad millJob.top ∧
    Makeable solidCad millJob 1 (some 1) (innerSquare.map (Edge.up (-2))) ∧
    CannotMake solidCad millJob 1 (some (-1)) (innerSquare.map (Edge.up (-2))) .runtimeError ∧
    CannotMake solidCad millJob 1 (some (1 / 50)) (innerSquare.map (Edge.up (-2))) .runtimeError := by
  have hd : millJob.toolDiameter = some 4 := by decide +kernel
  have hcon := solidCad_contour deepSquare_ne (1 * (4 / 2))
  have hz := deepSquare_zmin
  refine ⟨fun _ _ => rfl, solidCad_wires, flatCad_boxMoves, flatCad_keepsBelow,
    ⟨4, [deepSquare], hd, by norm_num, hcon, ?_⟩, ?_, ?_⟩
  · intro c hc
    rw [List.mem_singleton] at hc
    subst hc
    refine ⟨?_, (wireOK_toLocal (wireOK_up innerSquare_ok _)).routable⟩
    intro s hs _
    cases hs
    exact ⟨3, by norm_num, by norm_num, by rw [hz]; norm_num⟩
  · refine Or.inr ⟨4, hd, by norm_num, Or.inr ⟨rfl, [deepSquare], hcon, deepSquare, by simp, Or.inl fun h => ?_⟩⟩
    obtain ⟨k, h1, -, h2⟩ := h (-1) rfl (by norm_num)
    rw [hz] at h2
    have : (1 : ℚ) ≤ k := by exact_mod_cast h1
    linarith
  · refine Or.inr ⟨4, hd, by norm_num, Or.inr ⟨rfl, [deepSquare], hcon, deepSquare, by simp, Or.inl fun h => ?_⟩⟩
    obtain ⟨k, -, h1, h2⟩ := h (1 / 50) rfl (by norm_num)
    rw [hz] at h2
    have : (k : ℚ) ≤ 101 := by exact_mod_cast h1
    linarith

end CQ
