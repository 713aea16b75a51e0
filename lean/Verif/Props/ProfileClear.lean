import Verif.Spec.ProfileClear
import Verif.Props.ProfileTotal
import Verif.Props.Gouge
import Verif.Props.WireVectors
import Verif.Props.Circle
import Mathlib.Tactic.Linarith
import Mathlib.Tactic.Positivity

/-! # C115: a profile keeps the tool off the part -/

namespace CQ

/-! ### Distances -/

theorem segment_near {a b p : Pt} {τ : ℚ} (h : OnSegment a b p) (hd : sqDist a b ≤ (2 * τ) ^ 2) :
    ∃ q, (q = a ∨ q = b) ∧ sqDist p q ≤ τ ^ 2 := by
  obtain ⟨t, h0, h1, rfl⟩ := h
  have ht : t ≤ 1 / 2 ∨ 1 / 2 ≤ t := le_total _ _
  have hn : 0 ≤ sqDist a b := by unfold sqDist; nlinarith [mul_self_nonneg (a.x - b.x), mul_self_nonneg (a.y - b.y)]
  rcases ht with ht | ht
  · refine ⟨a, Or.inl rfl, ?_⟩
    have e : sqDist (a.lerp b t) a = t * t * sqDist a b := by unfold sqDist Pt.lerp; ring
    rw [e]
    have : t * t ≤ 1 / 4 := by nlinarith
    nlinarith
  · refine ⟨b, Or.inr rfl, ?_⟩
    have e : sqDist (a.lerp b t) b = (1 - t) * (1 - t) * sqDist a b := by unfold sqDist Pt.lerp; ring
    rw [e]
    have : (1 - t) * (1 - t) ≤ 1 / 4 := by nlinarith
    nlinarith

theorem away_near {part : Pt → Prop} {d s τ : ℚ} {p p0 : Pt} (h : Away part d p0) (hp : sqDist p p0 ≤ τ ^ 2) (hs : 0 ≤ s)
    (hτ : 0 ≤ τ) (hd : s + τ ≤ |d|) : Away part s p := by
  intro q hq
  by_contra hlt
  rw [not_le] at hlt
  have h1 := sqDist_triangle_lt hτ hs (by rwa [sqDist_comm]) hlt
  have h2 := h q hq
  have h3 : (τ + s) ^ 2 ≤ d ^ 2 := by
    rw [← sq_abs d]
    exact pow_le_pow_left₀ (by linarith) (by linarith) 2
  linarith

/-! ### Moves along an edge -/

theorem atXY_unique {v : AddrVec} {a b : Pt} (h : v.AtXY a) (h' : v.AtXY b) : a = b := by
  obtain ⟨h1, h2⟩ := h
  obtain ⟨h3, h4⟩ := h'
  rw [h1] at h3
  rw [h2] at h4
  cases a; cases b
  simp_all

theorem atXY_fromVec (v : Vec) : (AddrVec.fromVec v).AtXY v.xy := ⟨rfl, rfl⟩

theorem leftOf_self (c a : Pt) : leftOf c a a = 0 := by unfold leftOf; ring

theorem between_left (c a b : Pt) : PassesBetween c a b a := by
  unfold PassesBetween
  split
  · rename_i h; exact ⟨(leftOf_self c a).ge, h⟩
  · rw [leftOf_self]; exact fun h => lt_irrefl _ h.2

theorem between_right (c a b : Pt) : PassesBetween c a b b := by
  unfold PassesBetween
  split
  · rename_i h; exact ⟨h, (leftOf_self c b).ge⟩
  · rw [leftOf_self]; exact fun h => lt_irrefl _ h.1

/-- An edge passes over its ends. -/
theorem covers_ends {e : Edge} (h : EdgeOK e) (hr : Routable e) (ht : TrueShape e) :
    e.covers (e.travel 0).xy ∧ e.covers (e.travel 1).xy := by
  have harc : e.circular → e.covers (e.travel 0).xy ∧ e.covers (e.travel 1).xy := by
    intro hc
    have h1 := ht.round hc e.toParam
    rw [pos_toParam h] at h1
    cases hcl : e.closed with
    | true => exact ⟨Or.inr (Or.inl ⟨hc, hcl, rfl⟩), Or.inr (Or.inl ⟨hc, hcl, h1⟩)⟩
    | false =>
      refine ⟨Or.inr (Or.inr (Or.inl ⟨hc, hcl, rfl, ?_⟩)), Or.inr (Or.inr (Or.inl ⟨hc, hcl, h1, ?_⟩))⟩
      · split
        · exact between_left _ _ _
        · exact between_right _ _ _
      · split
        · exact between_right _ _ _
        · exact between_left _ _ _
  have hfree : e.free → e.covers (e.travel 0).xy ∧ e.covers (e.travel 1).xy := fun hf =>
    ⟨Or.inr (Or.inr (Or.inr ⟨hf, 0, le_refl _, zero_le_one, rfl⟩)),
      Or.inr (Or.inr (Or.inr ⟨hf, 1, zero_le_one, le_refl _, rfl⟩))⟩
  cases hg : e.geom with
  | line =>
    refine ⟨Or.inl ⟨hg, 0, le_refl _, zero_le_one, ?_⟩, Or.inl ⟨hg, 1, zero_le_one, le_refl _, ?_⟩⟩ <;>
      simp [Pt.lerp]
  | arc => exact harc (Or.inl hg)
  | circle => exact harc (Or.inr hg)
  | bspline => exact hfree (Or.inl hg)
  | spline => exact hfree (Or.inr (Or.inl hg))
  | offset => exact hfree (Or.inr (Or.inr hg))
  | other => exact absurd hg hr.1

/-- The point is within `τ` of a point of the edge. -/
def NearEdge (τ : ℚ) (e : Edge) (p : Pt) : Prop := ∃ q, e.covers q ∧ sqDist p q ≤ τ ^ 2

theorem near_self {τ : ℚ} {e : Edge} {p : Pt} (h : e.covers p) : NearEdge τ e p :=
  ⟨p, h, by have : sqDist p p = 0 := by unfold sqDist; ring
            rw [this]; positivity⟩

theorem straight_sweeps {feed : PyNum} {a b : Vec} {c : Motion} (h : StraightMove feed a b c) {p : Pt} (hp : Sweeps c p) :
    OnSegment a.xy b.xy p := by
  obtain ⟨h1, h2, h3, -⟩ := h
  obtain ⟨x, y, hx, hy, hm⟩ := hp
  rw [h2] at hx
  rw [h3] at hy
  rw [h1] at hm
  rw [atXY_unique (atXY_fromVec a) hx, atXY_unique (atXY_fromVec b) hy]
  exact hm

theorem arc_sweeps {feed : PyNum} {e : Edge} {u v : ℚ} {c : Motion} (h : ArcMove feed e u v c) {p : Pt} (hp : Sweeps c p) :
    OnArc (e.travelKind = .ccw) e.center.xy (e.posParam u).xy (e.posParam v).xy p := by
  obtain ⟨h1, h2, h3, -, h4, -⟩ := h
  obtain ⟨x, y, hx, hy, hm⟩ := hp
  rw [h2] at hx
  rw [h3] at hy
  rw [h1, h4] at hm
  rw [atXY_unique (atXY_fromVec _) hx, atXY_unique (atXY_fromVec _) hy]
  unfold Edge.travelKind at hm ⊢
  split
  · rename_i hk
    rw [if_pos hk] at hm
    obtain ⟨z, hz, hm⟩ := hm
    rw [atXY_unique (atXY_fromVec _) hz]
    simpa using hm
  · rename_i hk
    rw [if_neg hk] at hm
    obtain ⟨z, hz, hm⟩ := hm
    rw [atXY_unique (atXY_fromVec _) hz]
    simpa using hm

/-- The moves for an interpolated curve. -/
theorem interpolated_steps (e : Edge) (prec : ℕ) (feed : PyNum) {c : Motion}
    (hc : c ∈ cutsThroughPoints (some feed) (AddrVec.fromVec (e.travel 0)) (interpolateEdgeToVectors e prec)) :
    ∃ s t, 0 ≤ s ∧ s ≤ 1 ∧ 0 ≤ t ∧ t ≤ 1 ∧ StraightMove feed (e.travel s) (e.travel t) c ∧
      (s = t ∨ t - s = 1 / ((edgeInterpolationCount e prec : ℚ) - 1)) := by
  obtain ⟨k, hk⟩ := List.getElem?_of_mem hc
  obtain ⟨v, w, h3, h4, rfl⟩ := cutsThroughPoints_get hk
  have h2 := count_ge e prec
  rw [interpolate_eq] at h3 h4
  generalize edgeInterpolationCount e prec = n at *
  have hn : (0 : ℚ) < (n : ℚ) - 1 := by
    have : (2 : ℚ) ≤ n := by exact_mod_cast h2
    linarith
  have hfrac : ∀ i : ℕ, i < n → 0 ≤ (i : ℚ) / ((n : ℚ) - 1) ∧ (i : ℚ) / ((n : ℚ) - 1) ≤ 1 := by
    intro i hi
    refine ⟨by positivity, (div_le_one hn).mpr ?_⟩
    have : ((i + 1 : ℕ) : ℚ) ≤ n := by exact_mod_cast hi
    push_cast at this
    linarith
  simp only [List.getElem?_map, Option.map_eq_some_iff] at h4
  obtain ⟨i, hi, rfl⟩ := h4
  have hkn : k < n := by simpa using (List.getElem?_eq_some_iff.mp hi).1
  rw [List.getElem?_range hkn] at hi
  cases hi
  obtain ⟨w0, w1⟩ := hfrac k hkn
  cases k with
  | zero =>
    simp only [List.getElem?_cons_zero, Option.some.injEq] at h3
    subst h3
    refine ⟨0, _, le_refl _, zero_le_one, w0, w1, ⟨rfl, rfl, rfl, rfl⟩, Or.inl (by simp)⟩
  | succ k =>
    simp only [List.getElem?_cons_succ, List.getElem?_map, Option.map_eq_some_iff] at h3
    obtain ⟨i, hi, rfl⟩ := h3
    rw [List.getElem?_range (by omega)] at hi
    cases hi
    obtain ⟨v0, v1⟩ := hfrac k (by omega)
    refine ⟨_, _, v0, v1, w0, w1, ⟨rfl, rfl, rfl, rfl⟩, Or.inr ?_⟩
    push_cast
    rw [← sub_div]
    congr 1
    ring

theorem straight_located {feed : PyNum} {a b : Vec} {c : Motion} (h : StraightMove feed a b c) : Located c :=
  ⟨⟨_, by rw [h.2.1]; exact atXY_fromVec a⟩, ⟨_, by rw [h.2.2.1]; exact atXY_fromVec b⟩, fun hk => by rw [h.1] at hk; cases hk⟩

theorem arc_located {feed : PyNum} {e : Edge} {u v : ℚ} {c : Motion} (h : ArcMove feed e u v c) : Located c :=
  ⟨⟨_, by rw [h.2.1]; exact atXY_fromVec _⟩, ⟨_, by rw [h.2.2.1]; exact atXY_fromVec _⟩,
    fun _ => ⟨_, by rw [h.2.2.2.2.1]; exact atXY_fromVec _⟩⟩

/-- The moves along an edge say where they start and end. -/
theorem routeEdge_located {veq : Vec → Vec → Bool} {prec : ℕ} {e : Edge} (h : EdgeOK e) (hr : Routable e) {feed : PyNum}
    {cs : List Motion} {v : Vec} (hc : routeEdge veq e prec none none (some feed) = .ok (cs, v)) : ∀ c ∈ cs, Located c := by
  obtain ⟨ds, h1, h2⟩ := routeEdge_along (veq := veq) h hr prec none none feed (fun _ => ⟨rfl, rfl⟩)
  rw [h1] at hc
  cases hc
  intro x hx
  rcases h2 with ⟨-, c, rfl, hs⟩ | ⟨-, -, a, b, rfl, ha, hb⟩ | ⟨-, -, ⟨-, c, rfl, hs⟩ | ⟨-, c, rfl, hs⟩⟩ | ⟨-, -, -, n, -, -, hs⟩
  · rw [List.mem_singleton] at hx
    subst hx
    exact straight_located hs
  · simp only [List.mem_cons, List.not_mem_nil, or_false] at hx
    rcases hx with rfl | rfl
    · exact arc_located ha
    · exact arc_located hb
  · rw [List.mem_singleton] at hx
    subst hx
    exact straight_located hs
  · rw [List.mem_singleton] at hx
    subst hx
    exact arc_located hs
  · obtain ⟨k, hk⟩ := List.getElem?_of_mem hx
    exact straight_located (hs k x hk)

/-- Every point a move along the edge passes over is within the tolerance of a point of the edge. -/
theorem routeEdge_near {cad : Cad} {prec : ℕ} {τ : ℚ} (hτ : Tolerance cad prec τ) {e : Edge} (h : EdgeOK e) (hr : Routable e)
    (ht : TrueShape e) {feed : PyNum} {cs : List Motion} {v : Vec}
    (hc : routeEdge cad.veq e prec none none (some feed) = .ok (cs, v)) :
    ∀ c ∈ cs, ∀ p, Sweeps c p → NearEdge τ e p := by
  have hp : (0 : ℚ) < 10 ^ prec := by positivity
  obtain ⟨ds, h1, h2⟩ := routeEdge_along (veq := cad.veq) h hr prec none none feed (fun _ => ⟨rfl, rfl⟩)
  rw [h1] at hc
  cases hc
  obtain ⟨c0, c1⟩ := covers_ends h hr ht
  simp only [Option.getD_none] at h2
  rcases h2 with ⟨hg, c, rfl, hs⟩ | ⟨hc, hcl, a, b, rfl, ha, hb⟩ | ⟨hc, hcl, ⟨hv, c, rfl, hs⟩ | ⟨-, c, rfl, hs⟩⟩ | ⟨hfr, -⟩
  · intro x hx p hp'
    rw [List.mem_singleton] at hx
    subst hx
    rw [pos_fromParam h, pos_toParam h] at hs
    exact near_self (Or.inl ⟨hg, straight_sweeps hs hp'⟩)
  · intro x hx p hp'
    refine near_self (Or.inr (Or.inl ⟨hc, hcl, ?_⟩))
    simp only [List.mem_cons, List.not_mem_nil, or_false] at hx
    rcases hx with rfl | rfl
    · rw [(arc_sweeps ha hp').1]; exact ht.round hc _
    · rw [(arc_sweeps hb hp').1]; exact ht.round hc _
  · intro x hx p hp'
    rw [List.mem_singleton] at hx
    subst hx
    have hd := hτ.same _ _ hv
    rw [pos_fromParam h, pos_toParam h] at hs hd
    obtain ⟨q, rfl | rfl, hq⟩ := segment_near (straight_sweeps hs hp') hd
    · exact ⟨_, c0, hq⟩
    · exact ⟨_, c1, hq⟩
  · intro x hx p hp'
    rw [List.mem_singleton] at hx
    subst hx
    have := arc_sweeps hs hp'
    rw [pos_fromParam h, pos_toParam h] at this
    exact near_self (Or.inr (Or.inr (Or.inl ⟨hc, hcl, this⟩)))
  · have hds : cs = cutsThroughPoints (some feed) (AddrVec.fromVec (e.travel 0)) (interpolateEdgeToVectors e prec) := by
      unfold routeEdge at h1
      rw [routeStart_eq h] at h1
      simp only [Option.getD_none, pos_fromParam h] at h1
      rcases hfr with hg | hg | hg <;> rw [hg] at h1 <;> simp only [Except.ok.injEq, Prod.mk.injEq] at h1 <;> exact h1.1.symm
    intro x hx p hp'
    rw [hds] at hx
    obtain ⟨s, t, s0, s1, t0, t1, hs, hst⟩ := interpolated_steps e prec feed hx
    obtain ⟨hl, hrec⟩ := ht.rectified hfr
    have hd : sqDist (e.travel s).xy (e.travel t).xy ≤ (2 * τ) ^ 2 := by
      refine le_trans (hrec s t s0 s1 t0 t1) ?_
      have hsp := count_spacing e prec hl
      have hτ2 : 3 / 10 ^ prec ≤ 2 * τ := by
        have := hτ.unit
        have e1 : (3 : ℚ) / (2 * 10 ^ prec) = 3 / 10 ^ prec / 2 := by field_simp
        rw [e1] at this
        linarith
      have hτ0 : 0 ≤ 2 * τ := le_trans (by positivity) hτ2
      rcases hst with rfl | hst
      · rw [sub_self, mul_zero]; simpa using pow_nonneg hτ0 2
      · have e2 : e.length * (s - t) = -(e.length / ((edgeInterpolationCount e prec : ℚ) - 1)) := by
          rw [show s - t = -(t - s) by ring, hst]; ring
        rw [e2, neg_sq]
        have hn : (0 : ℚ) < (edgeInterpolationCount e prec : ℚ) - 1 := by
          have : (2 : ℚ) ≤ edgeInterpolationCount e prec := by exact_mod_cast count_ge e prec
          linarith
        exact pow_le_pow_left₀ (by positivity) (by linarith) 2
    obtain ⟨q, hq, hqd⟩ := segment_near (straight_sweeps hs hp') hd
    rcases hq with rfl | rfl
    · exact ⟨_, Or.inr (Or.inr (Or.inr ⟨hfr, s, s0, s1, rfl⟩)), hqd⟩
    · exact ⟨_, Or.inr (Or.inr (Or.inr ⟨hfr, t, t0, t1, rfl⟩)), hqd⟩

/-! ### Moves along wires -/

theorem routeEdges_visits {Q : Motion → Prop} {veq : Vec → Vec → Bool} {j : Job} {es : List Edge} {fin v : Vec} {cs : List Motion}
    (he : ∀ e ∈ es, ∀ cs v, routeEdge veq e j.precision none none (some j.feed) = .ok (cs, v) → ∀ c ∈ cs, Q c)
    (h : routeEdges veq j fin es = .ok (cs, v)) : ∀ c ∈ cs, Q c := by
  induction es generalizing fin cs v with
  | nil => cases h; simp
  | cons e es ih =>
    simp only [routeEdges] at h
    cases h1 : routeEdge veq e j.precision none none (some j.feed) with
    | error x => rw [h1] at h; cases h
    | ok r =>
      obtain ⟨a, b⟩ := r
      rw [h1] at h
      simp only at h
      cases h2 : routeEdges veq j b es with
      | error x => rw [h2] at h; cases h
      | ok r =>
        obtain ⟨a', b'⟩ := r
        rw [h2] at h
        cases h
        intro c hc
        rcases List.mem_append.mp hc with hc | hc
        · exact he e (by simp) _ _ h1 c hc
        · exact ih (fun x hx => he x (by simp [hx])) h2 c hc

/-- A fact about the plunge at the start of a wire and about the moves along each edge holds for all feed moves. -/
theorem routeWires_visits {Q : Motion → Prop} {veq : Vec → Vec → Bool} {j : Job} {ws : List (List Edge)} {prev : Option AddrVec}
    {cs : List Motion}
    (hs : ∀ e es, (e :: es) ∈ ws → ∀ c : Motion, c.kind = .plungeCut → c.start.AtXY (edgeStartPoint e).xy →
      c.fin.AtXY (edgeStartPoint e).xy → Q c)
    (he : ∀ w ∈ ws, ∀ e ∈ w, ∀ cs v, routeEdge veq e j.precision none none (some j.feed) = .ok (cs, v) → ∀ c ∈ cs, Q c)
    (h : routeWires veq (fun _ _ => none) j ws none prev = .ok cs) : ∀ c ∈ cs, c.kind.mot ≠ .rapid → Q c := by
  have key : ∀ (us : List (List Edge)) (acc : List Motion) (pwe : Option Vec) (pos : AddrVec) (cs : List Motion),
      (∀ w ∈ us, w ∈ ws) → (∀ c ∈ acc, c.kind.mot ≠ .rapid → Q c) →
      routeWiresFrom veq (fun _ _ => none) j none acc pwe pos us = .ok cs →
      ∀ c ∈ cs, c.kind.mot ≠ .rapid → Q c := by
    intro us
    induction us with
    | nil => intro acc pwe pos cs _ ha h; cases h; exact ha
    | cons w us ih =>
      intro acc pwe pos cs hsub ha h
      cases w with
      | nil => cases h; simp
      | cons e es =>
        have hn : (pwe.bind fun _ : Vec => (none : Option WireHit)) = none := by cases pwe <;> rfl
        simp only [routeWiresFrom, hn] at h
        have hen : enterWire veq j none none pos (e :: es) = .ok (e :: es,
          rapidTo pos (edgeStartPoint e) j.rapidHeight (some j.opSafeHeight) (some j.plungeFeed)) := rfl
        simp only [routeWire, hen, Option.bind_none] at h
        have hmem := hsub (e :: es) List.mem_cons_self
        cases h1 : routeEdge veq e j.precision none none (some j.feed) with
        | error x => rw [h1] at h; cases h
        | ok r =>
          obtain ⟨a, b⟩ := r
          rw [h1] at h
          simp only at h
          cases h2 : routeEdges veq j b es with
          | error x => rw [h2] at h; cases h
          | ok r =>
            obtain ⟨a', b'⟩ := r
            rw [h2] at h
            simp only at h
            refine ih _ _ _ _ (fun w hw => hsub w (List.mem_cons_of_mem _ hw)) ?_ h
            intro c hc hk
            rcases List.mem_append.mp hc with hc | hc
            · exact ha c hc hk
            · rcases List.mem_append.mp hc with hc | hc
              · rcases List.mem_append.mp hc with hc | hc
                · obtain ⟨g1, -, g2, g3⟩ := rapidTo_feeds _ _ _ _ _ c hc hk
                  exact hs e es hmem c g1.1 (by rw [g2]; exact ⟨rfl, rfl⟩) (by rw [g3]; exact ⟨rfl, rfl⟩)
                · exact he _ hmem e List.mem_cons_self _ _ h1 c hc
              · exact routeEdges_visits (fun x hx => he _ hmem x (List.mem_cons_of_mem _ hx)) h2 c hc
  exact key ws [] none _ cs (fun _ h => h) (by simp) h

/-- The feed moves along sound wires stay within the tolerance of the wires. -/
theorem routeWires_near {cad : Cad} {j : Job} {τ : ℚ} (hτ : Tolerance cad j.precision τ) {ws : List (List Edge)}
    (hw : ∀ w ∈ ws, ∀ e ∈ w, EdgeOK e ∧ Routable e ∧ TrueShape e) (hv : ∀ w ∈ ws, NearestIsVertex cad w) {cs : List Motion}
    (h : routeWires cad.veq cad.search j ws none none = .ok cs) :
    ∀ c ∈ cs, c.kind.mot ≠ .rapid → Located c ∧ ∀ p, Sweeps c p → ∃ w ∈ ws, ∃ e ∈ w, NearEdge τ e p := by
  rw [routeWires_vertex hv] at h
  refine routeWires_visits (Q := fun c => Located c ∧ ∀ p, Sweeps c p → ∃ w ∈ ws, ∃ e ∈ w, NearEdge τ e p) ?_ ?_ h
  · intro e es hm c hk ha hb
    refine ⟨⟨⟨_, ha⟩, ⟨_, hb⟩, fun hk' => by rw [hk] at hk'; cases hk'⟩, fun p hp => ?_⟩
    obtain ⟨hok', hrt, hts⟩ := hw _ hm e List.mem_cons_self
    refine ⟨_, hm, e, List.mem_cons_self, near_self ?_⟩
    obtain ⟨x, y, hx, hy, hs⟩ := hp
    rw [hk, atXY_unique hx ha, atXY_unique hy hb] at hs
    obtain ⟨t, -, -, rfl⟩ := hs
    rw [edgeStartPoint_eq hok']
    have : ∀ q : Pt, q.lerp q t = q := fun q => by simp [Pt.lerp]
    rw [this]
    exact (covers_ends hok' hrt hts).1
  · intro w hm e he ds v hr c hc
    obtain ⟨hok, hrt, hts⟩ := hw _ hm e he
    refine ⟨routeEdge_located hok hrt hr c hc, fun p hp => ?_⟩
    exact ⟨w, hm, e, he, routeEdge_near hτ hok hrt hts hr c hc p hp⟩

theorem near_up {τ : ℚ} {e : Edge} {p : Pt} (dz : ℚ) : NearEdge τ (e.up dz) p ↔ NearEdge τ e p := Iff.rfl

theorem trueShape_up {e : Edge} (dz : ℚ) (h : TrueShape e) : TrueShape (e.up dz) := ⟨h.round, h.rectified⟩

/-! ### The claims -/

/-- C115 for one profile (as far as it holds: the kernel's relocation of circles changes nothing, and its searches between passes find
vertices; profiles without tabs).  When the kernel's contours are as far from the part as asked for, every feed move says where it goes, and every point it passes over is
`offset` tool radii away from the part, up to the tolerance. -/
theorem C115_profile_partial {cad : Cad} {j : Job} {wire : List Edge} {offset : ℚ} {stepdown : Option ℚ} {cs : List Motion}
    {part : Pt → Prop} {τ s r : ℚ} (hrel : ∀ v w, cad.relocate v w = w) (hτ : Tolerance cad j.precision τ)
    (hr : j.toolRadius = some r)
    (hsound : OffsetsSound cad (wire.map (Edge.toLocal j.top)) (offset * r))
    (haway : OffsetsAway cad part (wire.map (Edge.toLocal j.top)) (offset * r))
    (hs : 0 ≤ s) (hsr : s + τ + 1 / 1000000 ≤ |offset * r|)
    (h : profile cad j wire offset stepdown none = .ok cs) :
    ∀ c ∈ cs, c.kind.mot ≠ .rapid → Located c ∧ ∀ p, Sweeps c p → Away part s p := by
  have hτ0 : 0 ≤ τ := le_trans (by positivity) hτ.unit
  obtain ⟨r', hr', hcase⟩ := C75_offset_partial hrel h
  rw [hr] at hr'
  cases hr'
  rcases hcase with ⟨curves, features, ⟨found, hfound, hsub, -⟩, hfeat, hroute⟩ | ⟨-, -, rfl⟩
  · obtain ⟨d', hd', hf⟩ : ∃ d', (d' = offset * r ∨ d' = offset * r + 1 / 1000000) ∧
        cad.offset2D (wire.map (Edge.toLocal j.top)) d' = .ok found := by
      rcases hfound with h1 | ⟨-, h1⟩
      · exact ⟨_, Or.inl rfl, h1⟩
      · exact ⟨_, Or.inr rfl, h1⟩
    have hd : s + τ ≤ |d'| := by
      rcases hd' with rfl | rfl
      · linarith
      · have := abs_sub_abs_le_abs_sub (offset * r) (-(1 / 1000000))
        rw [abs_neg, abs_of_nonneg (by norm_num : (0 : ℚ) ≤ 1 / 1000000), sub_neg_eq_add] at this
        linarith
    have hmem : ∀ w ∈ features.flatten, ∃ c ∈ found, ∃ dz, w = c.map (Edge.up dz) := by
      intro w hw
      obtain ⟨l, hl, hwl⟩ := List.mem_flatten.mp hw
      obtain ⟨c, hc, hfc⟩ := forall₂_mem_right hfeat hl
      refine ⟨c, hsub.subset hc, ?_⟩
      obtain ⟨ls, h1, h2⟩ := bind_ok.mp hfc
      cases h2
      rcases profileLayers_mem h1 w hwl with rfl | ⟨s, -, k, -, -, rfl, -⟩
      · exact ⟨0, (up_zero _).symm⟩
      · exact ⟨_, rfl⟩
    intro c hc hk
    obtain ⟨hloc, hnear⟩ := routeWires_near hτ (ws := features.flatten) (by
      intro w hw
      obtain ⟨c, hc, dz, rfl⟩ := hmem w hw
      obtain ⟨h1, h2, -⟩ := hsound d' hd' found hf c hc
      intro e he
      refine ⟨(wireOK_up h1 dz).edgeOK e he, (wireOK_up h1 dz).routable e he, ?_⟩
      obtain ⟨e', he', rfl⟩ := List.mem_map.mp he
      exact trueShape_up dz (h2 e' he')) (by
      intro w hw
      obtain ⟨c, hc, dz, rfl⟩ := hmem w hw
      exact (hsound d' hd' found hf c hc).2.2 dz) hroute c hc hk
    refine ⟨hloc, fun p hp => ?_⟩
    obtain ⟨w, hw, e, he, hne⟩ := hnear p hp
    obtain ⟨c', hc', dz, rfl⟩ := hmem w hw
    obtain ⟨e', he', rfl⟩ := List.mem_map.mp he
    obtain ⟨q, hq, hqd⟩ := (near_up dz).mp hne
    exact away_near (haway d' hd' found hf c' hc' e' he' q hq) hqd hs hτ0 hd
  · simp

theorem profiles_away {cad : Cad} {j : Job} {wires : List (List Edge)} {offset : ℚ} {stepdown : Option ℚ} {cs : List Motion}
    {part : Pt → Prop} {τ s r : ℚ} (hrel : ∀ v w, cad.relocate v w = w) (hτ : Tolerance cad j.precision τ)
    (hr : j.toolRadius = some r)
    (hw : ∀ w ∈ wires, OffsetsSound cad (w.map (Edge.toLocal j.top)) (offset * r) ∧
      OffsetsAway cad part (w.map (Edge.toLocal j.top)) (offset * r))
    (hs : 0 ≤ s) (hsr : s + τ + 1 / 1000000 ≤ |offset * r|) (h : profiles cad j offset stepdown none wires = .ok cs) :
    ∀ c ∈ cs, c.kind.mot ≠ .rapid → Located c ∧ ∀ p, Sweeps c p → Away part s p := by
  obtain ⟨bs, h1, h⟩ := bind_ok.mp h
  cases h
  intro c hc
  obtain ⟨b, hb, hc⟩ := List.mem_flatten.mp hc
  obtain ⟨w, hwm, hw'⟩ := mapE_mem h1 hb
  exact C115_profile_partial hrel hτ hr (hw w hwm).1 (hw w hwm).2 hs hsr hw' c hc

/-- C115 for `Job.wire_profile`. -/
theorem C115_wire_profile_partial {cad : Cad} {j : Job} {wires : List (List Edge)} {offset : ℚ} {stepdown : Option ℚ}
    {tool : Option Tool} {cs : List Motion} {part : Pt → Prop} {τ s r : ℚ} (hrel : ∀ v w, cad.relocate v w = w)
    (hτ : Tolerance cad j.precision τ) (hr : j.toolRadius = some r)
    (hw : ∀ w ∈ wires, OffsetsSound cad (w.map (Edge.toLocal j.top)) (offset * r) ∧
      OffsetsAway cad part (w.map (Edge.toLocal j.top)) (offset * r))
    (hs : 0 ≤ s) (hsr : s + τ + 1 / 1000000 ≤ |offset * r|)
    (h : (wireProfileRequest cad wires offset stepdown none tool).gen j = .ok cs) :
    ∀ c ∈ cs, c.kind.mot ≠ .rapid → Located c ∧ ∀ p, Sweeps c p → Away part s p := profiles_away hrel hτ hr hw hs hsr h

/-- C115 for `Job.profile`: outer wires at the outer offset, inner wires at the inner offset. -/
theorem C115_partial {cad : Cad} {j : Job} {shapes : List Shape} {outers inners : List (List Edge)}
    {outerOffset innerOffset stepdown : Option ℚ} {tool : Option Tool} {cs : List Motion} {part : Pt → Prop} {τ s r : ℚ}
    (hrel : ∀ v w, cad.relocate v w = w) (hτ : Tolerance cad j.precision τ) (hr : j.toolRadius = some r)
    (hx : extractWires shapes = .ok (outers, inners))
    (hw : ∀ w o, (w ∈ outers ∧ outerOffset = some o) ∨ (w ∈ inners ∧ innerOffset = some o) →
      OffsetsSound cad (w.map (Edge.toLocal j.top)) (o * r) ∧ OffsetsAway cad part (w.map (Edge.toLocal j.top)) (o * r))
    (hs : 0 ≤ s) (hsr : ∀ o, outerOffset = some o ∨ innerOffset = some o → s + τ + 1 / 1000000 ≤ |o * r|)
    (h : (profileRequest cad shapes outerOffset innerOffset stepdown none tool).gen j = .ok cs) :
    ∀ c ∈ cs, c.kind.mot ≠ .rapid → Located c ∧ ∀ p, Sweeps c p → Away part s p := by
  obtain ⟨⟨os, is⟩, h0, h⟩ := bind_ok.mp h
  rw [hx] at h0
  cases h0
  obtain ⟨a, h1, h⟩ := bind_ok.mp h
  obtain ⟨b, h2, h⟩ := bind_ok.mp h
  cases h
  intro c hc
  rcases List.mem_append.mp hc with hc | hc
  · cases hi : innerOffset with
    | none => rw [hi] at h1; cases h1; cases hc
    | some o =>
      rw [hi] at h1
      exact profiles_away hrel hτ hr (fun w hwm => hw w o (Or.inr ⟨hwm, hi⟩)) hs (hsr o (Or.inr hi)) h1 c hc
  · cases hi : outerOffset with
    | none => rw [hi] at h2; cases h2; cases hc
    | some o =>
      rw [hi] at h2
      exact profiles_away hrel hτ hr (fun w hwm => hw w o (Or.inl ⟨hwm, hi⟩)) hs (hsr o (Or.inl hi)) h2 c hc

/-! ### A disc -/

theorem discAt_round (x r p : ℚ) : sqDist ⟨x, 0⟩ (discAt x r p).xy = r * r := by
  unfold discAt
  split
  · have h : (2 - p) ^ 2 + p ^ 2 ≠ 0 := by nlinarith [sq_nonneg (2 - p), sq_nonneg p, sq_nonneg (1 - p)]
    simp only [sqDist, Vec.xy]
    field_simp
    ring
  · have h : (4 - p) ^ 2 + (p - 2) ^ 2 ≠ 0 := by nlinarith [sq_nonneg (4 - p), sq_nonneg (p - 2), sq_nonneg (3 - p)]
    simp only [sqDist, Vec.xy]
    field_simp
    ring

theorem disc_round (id : ℕ) (x r : ℚ) : TrueShape (disc id x r) where
  round := fun _ p => (discAt_round x r p).trans (discAt_round x r (4 * 0)).symm
  rectified := by rintro (h | h | h) <;> cases h

theorem disc_ok (id : ℕ) (x r : ℚ) : WireOK [disc id x r] where
  nonempty := by simp
  edgeOK := by
    intro e he
    rw [List.mem_singleton] at he
    subst he
    constructor <;> norm_num [disc, discAt]
  routable := by
    intro e he
    rw [List.mem_singleton] at he
    subst he
    exact ⟨by simp [disc], fun _ => by norm_num [disc]⟩
  distinct := by simp

theorem disc_covers {id : ℕ} {x r : ℚ} {p : Pt} (h : (disc id x r).covers p) : sqDist ⟨x, 0⟩ p = r * r := by
  rcases h with ⟨h, -⟩ | ⟨-, -, h⟩ | ⟨-, h, -⟩ | ⟨h | h | h, -⟩
  · cases h
  · exact h.trans (discAt_round x r (4 * 0))
  · cases h
  all_goals cases h

/-- All points within `r` of `(x, 0)`. -/
def discPart (x r : ℚ) (q : Pt) : Prop := sqDist ⟨x, 0⟩ q ≤ r ^ 2

theorem disc_away {id : ℕ} {x r d : ℚ} (hr : 0 ≤ r) (hd : 0 ≤ d) {p : Pt} (h : (disc id x (r + d)).covers p) :
    Away (discPart x r) d p := by
  intro q hq
  by_contra hlt
  rw [not_le, sqDist_comm] at hlt
  have h1 := sqDist_triangle_lt hr hd hq hlt
  rw [disc_covers h] at h1
  nlinarith

/-- A kernel that offsets circles correctly. -/
def roundCad : Cad := { flatCad with offset2D := fun w o => .ok (discRight w o) }

theorem roundCad_disc (x r d : ℚ) : roundCad.offset2D [disc 0 x r] d = .ok [[disc 1 x (r + d)]] := by
  change Except.ok [[disc 1 x (x + r - x + d)]] = _
  rw [show x + r - x + d = r + d by ring]

theorem disc_local (x r : ℚ) : [disc 0 x r].map (Edge.toLocal twoJob.top) = [disc 0 x r] := by
  have h : ∀ v, twoJob.top.toLocal v = v := fun v => by
    simp [twoJob, Job.init, Frame.xy, Frame.toLocal, Vec.sub, Vec.dot]
  have h' : ∀ v, twoJob.top.toLocalDir v = v := fun v => by
    simp [twoJob, Job.init, Frame.xy, Frame.toLocalDir, Vec.dot]
  simp only [List.map_cons, List.map_nil, Edge.toLocal, h, h']

/-- The disc of radius 5 around `(1, 0)` is milled with a tool of radius 1: all hypotheses hold, and no feed move gets nearer to the disc
than 199/200. -/
example : (∀ v w, roundCad.relocate v w = w) ∧ Tolerance roundCad twoJob.precision (3 / 2000) ∧ twoJob.toolRadius = some 1 ∧
    OffsetsSound roundCad ([disc 0 1 5].map (Edge.toLocal twoJob.top)) (1 * 1) ∧
    OffsetsAway roundCad (discPart 1 5) ([disc 0 1 5].map (Edge.toLocal twoJob.top)) (1 * 1) ∧
    (0 : ℚ) ≤ 199 / 200 ∧ (199 / 200 + 3 / 2000 + 1 / 1000000 : ℚ) ≤ |1 * 1| ∧
    ∃ cs, profile roundCad twoJob [disc 0 1 5] 1 none none = .ok cs ∧ ∃ c ∈ cs, c.kind.mot ≠ .rapid := by
  rw [disc_local]
  refine ⟨fun _ _ => rfl, ⟨?_, ?_⟩, by decide +kernel, ?_, ?_, by norm_num, by norm_num, ?_⟩
  · rw [show twoJob.precision = 3 from rfl]; norm_num
  · intro a b h
    rw [show a = b from of_decide_eq_true h]
    norm_num [sqDist]
  · intro d hd found hf c hc
    rw [roundCad_disc] at hf
    cases hf
    rw [List.mem_singleton] at hc
    subst hc
    refine ⟨disc_ok _ _ _, ?_, by intro dz v h hh; cases hh⟩
    intro e he
    rw [List.mem_singleton] at he
    subst he
    exact disc_round _ _ _
  · intro d hd found hf c hc e he p hp
    rw [roundCad_disc] at hf
    cases hf
    rw [List.mem_singleton] at hc
    subst hc
    rw [List.mem_singleton] at he
    subst he
    exact disc_away (by norm_num) (by rcases hd with rfl | rfl <;> norm_num) hp
  · have hm : (match profile roundCad twoJob [disc 0 1 5] 1 none none with
      | .ok cs => cs.any (fun c => decide (c.kind.mot ≠ .rapid)) | .error _ => false) = true := by decide +kernel
    cases h : profile roundCad twoJob [disc 0 1 5] 1 none none with
    | error e => rw [h] at hm; cases hm
    | ok cs =>
      rw [h] at hm
      obtain ⟨c, hc, hk⟩ := List.any_eq_true.mp hm
      exact ⟨cs, rfl, c, hc, by simpa using hk⟩

/-- A feed move ends at `(-4, 0)`. -/
def cutsIn (e : Event) : Bool :=
  match e.act with
  | .move k tgt _ => decide (k ≠ .rapid) && decide (tgt.x = some (-4)) && decide (tgt.y = some 0)
  | _ => false

/-- C115 is false for kernels with the fault of circles (see C110): the right contours are one tool radius away from the disc, but the
machine cuts right into its edge, with the middle of the tool. -/
theorem C115_violated : Relocates discCad discLoc ∧ CircleFault discCad discLoc discRight ∧
    (∀ c ∈ discRight [disc 0 1 5] 1, ∀ e ∈ c, ∀ p, e.covers p → Away (discPart 1 5) 1 p) ∧ discPart 1 5 ⟨-4, 0⟩ ∧
    ∃ j2 t m' evs, (twoJob.call (wireProfileRequest discCad [[disc 0 1 5]] 1 none none none)).2 = .ok j2 ∧ j2.toGcode = .ok t ∧
      runText {} t = some (m', evs) ∧ ∃ e ∈ evs, ∃ k tgt ctr, e.act = .move k tgt ctr ∧ k ≠ .rapid ∧ tgt.x = some (-4) ∧ tgt.y = some 0 := by
  refine ⟨disc_relocates, disc_fault, ?_, by norm_num [discPart, sqDist], ?_⟩
  · intro c hc e he p hp
    rw [show discRight [disc 0 1 5] 1 = [[disc 1 1 (5 + 1)]] from by norm_num [discRight, disc], List.mem_singleton] at hc
    subst hc
    rw [List.mem_singleton] at he
    subst he
    exact disc_away (by norm_num) (by norm_num) hp
  · obtain ⟨j2, t, m', evs, h1, h2, h3, e, he, hb⟩ := run_witness (j := twoJob)
      (r := wireProfileRequest discCad [[disc 0 1 5]] 1 none none none) (bad := cutsIn) twoJob_ok (by rintro v ⟨⟩) rfl rfl
      (by unfold SafeName; decide) (by decide +kernel)
    refine ⟨j2, t, m', evs, h1, h2, h3, e, he, ?_⟩
    unfold cutsIn at hb
    split at hb
    · rename_i k tgt ctr ha
      simp only [Bool.and_eq_true, decide_eq_true_eq] at hb
      exact ⟨k, tgt, ctr, ha, hb.1.1, hb.1.2, hb.2⟩
    · cases hb

end CQ
