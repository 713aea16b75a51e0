import Verif.Spec.EdgePath
import Verif.Model.WireRouter
import Verif.Proofs.Routers

/-! # Lemmas about edges and the wire router -/

namespace CQ

theorem edgeStartPoint_eq {e : Edge} (h : EdgeOK e) : edgeStartPoint e = e.travel 0 := by
  unfold edgeStartPoint Edge.travel
  cases e.reversed <;> simp [h.len0, h.len1]

theorem edgeEndPoint_eq {e : Edge} (h : EdgeOK e) : edgeEndPoint e = e.travel 1 := by
  unfold edgeEndPoint Edge.travel
  cases e.reversed <;> simp [h.len0, h.len1]

theorem edgeStartParam_eq (e : Edge) : edgeStartParam e = e.fromParam := by
  unfold edgeStartParam Edge.fromParam; cases e.reversed <;> rfl

theorem edgeEndParam_eq (e : Edge) : edgeEndParam e = e.toParam := by
  unfold edgeEndParam Edge.toParam; cases e.reversed <;> rfl

theorem pos_fromParam {e : Edge} (h : EdgeOK e) : e.posParam e.fromParam = e.travel 0 := by
  unfold Edge.fromParam Edge.travel
  cases e.reversed <;> simp [h.len0, h.len1, h.param0, h.param1]

theorem pos_toParam {e : Edge} (h : EdgeOK e) : e.posParam e.toParam = e.travel 1 := by
  unfold Edge.toParam Edge.travel
  cases e.reversed <;> simp [h.len0, h.len1, h.param0, h.param1]

theorem count_ge (e : Edge) (p : ℕ) : 2 ≤ edgeInterpolationCount e p := by
  unfold edgeInterpolationCount
  have := le_max_right (pyInt (e.length * 10 ^ p)) 2
  omega

theorem interpolate_eq (e : Edge) (p : ℕ) : interpolateEdgeToVectors e p =
    (List.range (edgeInterpolationCount e p)).map
      (fun i : ℕ => e.travel ((i : ℚ) / ((edgeInterpolationCount e p : ℚ) - 1))) := by
  have h2 := count_ge e p
  unfold interpolateEdgeToVectors interpolationSpace Edge.travel linspace
  generalize edgeInterpolationCount e p = n at *
  have h3 : (n : ℚ) - 1 ≠ 0 := by
    have : (2 : ℚ) ≤ n := by exact_mod_cast h2
    intro h; linarith
  cases e.reversed <;> simp only [Bool.false_eq_true, if_false, if_true, List.map_map] <;>
    (apply List.map_congr_left; intro i _; simp only [Function.comp]; congr 1; field_simp; try ring)

theorem cutsThroughPoints_length (feed : Option PyNum) (pos : AddrVec) (vs : List Vec) :
    (cutsThroughPoints feed pos vs).length = vs.length := by
  induction vs generalizing pos with
  | nil => rfl
  | cons v vs ih => simp [cutsThroughPoints, ih]

theorem cutsThroughPoints_get {feed : Option PyNum} {a : Vec} {vs : List Vec} {k : ℕ} {c : Motion}
    (h : (cutsThroughPoints feed (.fromVec a) vs)[k]? = some c) :
    ∃ v w, (a :: vs)[k]? = some v ∧ vs[k]? = some w ∧ c = cutAbs (.fromVec w) (some (.fromVec v)) feed := by
  induction vs generalizing a k with
  | nil => simp [cutsThroughPoints] at h
  | cons v vs ih =>
    cases k with
    | zero => simp [cutsThroughPoints] at h; exact ⟨a, v, rfl, rfl, h.symm⟩
    | succ k =>
      simp only [cutsThroughPoints, List.getElem?_cons_succ] at h
      obtain ⟨x, y, h1, h2, h3⟩ := ih h
      exact ⟨x, y, h1, h2, h3⟩

theorem travelKind_eq {e : Edge} (h : e.normal.z ≠ 0) :
    ∃ b, isArcClockwise2 e.normal e.reversed = .ok b ∧ (if b then MKind.cw else MKind.ccw) = e.travelKind := by
  unfold isArcClockwise2 Edge.travelKind
  rw [if_neg h]
  rcases lt_or_gt_of_ne h with h | h
  · cases e.reversed
    · exact ⟨true, by simp [h], by simp [h]⟩
    · exact ⟨false, by simp [h.le], by simp [h]⟩
  · have h' : ¬ e.normal.z < 0 := not_lt.mpr h.le
    cases e.reversed
    · exact ⟨false, by simp [h.le], by simp [h']⟩
    · exact ⟨true, by simp [h], by simp [h']⟩

theorem routeStart_eq {e : Edge} (h : EdgeOK e) (sp : Option ℚ) :
    routeStart e sp = e.posParam (sp.getD e.fromParam) := by
  cases sp with
  | none => exact (edgeStartPoint_eq h).trans (pos_fromParam h).symm
  | some p => rfl

theorem routeEnd_eq {e : Edge} (h : EdgeOK e) (ep : Option ℚ) :
    routeEnd e ep = e.posParam (ep.getD e.toParam) := by
  cases ep with
  | none => exact (edgeEndPoint_eq h).trans (pos_toParam h).symm
  | some p => rfl

theorem routeArc_along {veq : Vec → Vec → Bool} {e : Edge} (h : EdgeOK e) (hr : Routable e) (hc : e.circular)
    (sp ep : Option ℚ) (feed : PyNum) :
    ∃ cs, routeArc veq e sp ep (some feed) = .ok cs ∧
      MovesAlong veq feed e (sp.getD e.fromParam) (ep.getD e.toParam) cs := by
  obtain ⟨b, hb, hk⟩ := travelKind_eq (hr.2 hc)
  unfold routeArc
  simp only [routeStart_eq h, routeEnd_eq h, edgeStartParam_eq, edgeEndParam_eq, hb]
  generalize sp.getD e.fromParam = p
  generalize ep.getD e.toParam = r
  have e1 : p + 2 * ((r - p) / 4) = (p + r) / 2 := by ring
  have e2 : p + 1 * ((r - p) / 4) = (p + (p + r) / 2) / 2 := by ring
  have e3 : p + 3 * ((r - p) / 4) = ((p + r) / 2 + r) / 2 := by ring
  have e4 : p + 1 * ((r - p) / 2) = (p + r) / 2 := by ring
  simp only [e1, e2, e3, e4]
  cases hcl : e.closed with
  | true =>
    exact ⟨_, rfl, Or.inr (Or.inl ⟨hc, hcl, _, _, rfl, ⟨hk, rfl, rfl, rfl, rfl, rfl⟩, hk, rfl, rfl, rfl, rfl, rfl⟩)⟩
  | false =>
    cases hv : veq (e.posParam p) (e.posParam r) with
    | true =>
      exact ⟨_, rfl, Or.inr (Or.inr (Or.inl ⟨hc, hcl, Or.inl ⟨hv, _, rfl, rfl, rfl, rfl, rfl⟩⟩))⟩
    | false =>
      exact ⟨_, rfl, Or.inr (Or.inr (Or.inl ⟨hc, hcl, Or.inr ⟨hv, _, rfl, hk, rfl, rfl, rfl, rfl, rfl⟩⟩))⟩

theorem interpolated_along {veq : Vec → Vec → Bool} {e : Edge} (h : EdgeOK e) (hfr : e.free) (prec : ℕ) (feed : PyNum) :
    MovesAlong veq feed e e.fromParam e.toParam (cutsThroughPoints (some feed)
      (AddrVec.fromVec (e.posParam e.fromParam)) (interpolateEdgeToVectors e prec)) := by
  refine Or.inr (Or.inr (Or.inr ⟨hfr, rfl, rfl, edgeInterpolationCount e prec, count_ge e prec, ?_, ?_⟩))
  · rw [cutsThroughPoints_length, interpolate_eq]; simp
  · intro k c hk
    obtain ⟨v, w, h3, h4, rfl⟩ := cutsThroughPoints_get hk
    rw [interpolate_eq] at h3 h4
    have hw : w = e.travel ((k : ℚ) / ((edgeInterpolationCount e prec : ℚ) - 1)) := by
      simp only [List.getElem?_map, Option.map_eq_some_iff] at h4
      obtain ⟨i, hi, rfl⟩ := h4
      rw [List.getElem?_range (by simpa using (List.getElem?_eq_some_iff.mp hi).1)] at hi
      cases hi; rfl
    have hv : v = if k = 0 then e.travel 0 else e.travel ((k - 1 : ℚ) / ((edgeInterpolationCount e prec : ℚ) - 1)) := by
      cases k with
      | zero => simp at h3; rw [← h3]; simpa using pos_fromParam h
      | succ k =>
        simp only [List.getElem?_cons_succ, List.getElem?_map, Option.map_eq_some_iff] at h3
        obtain ⟨i, hi, rfl⟩ := h3
        rw [List.getElem?_range (by simpa using (List.getElem?_eq_some_iff.mp hi).1)] at hi
        cases hi
        simp
    rw [hv, hw]
    exact ⟨rfl, rfl, rfl, rfl⟩

/-- `route_edge`, for whole or (except for interpolated curves) partial edges. -/
theorem routeEdge_along {veq : Vec → Vec → Bool} {e : Edge} (h : EdgeOK e) (hr : Routable e) (prec : ℕ)
    (sp ep : Option ℚ) (feed : PyNum) (hf : e.free → sp = none ∧ ep = none) :
    ∃ cs, routeEdge veq e prec sp ep (some feed) = .ok (cs, e.posParam (ep.getD e.toParam)) ∧
      MovesAlong veq feed e (sp.getD e.fromParam) (ep.getD e.toParam) cs := by
  have harc : e.circular → ∃ cs, (match routeArc veq e sp ep (some feed) with
      | .error x => .error x
      | .ok cs => .ok (cs, e.posParam (ep.getD e.toParam)) : Except Err (List Motion × Vec)) =
        .ok (cs, e.posParam (ep.getD e.toParam)) ∧
      MovesAlong veq feed e (sp.getD e.fromParam) (ep.getD e.toParam) cs := by
    intro hc
    obtain ⟨cs, h1, h2⟩ := routeArc_along (veq := veq) h hr hc sp ep feed
    exact ⟨cs, by rw [h1], h2⟩
  have hfree : e.free → MovesAlong veq feed e (sp.getD e.fromParam) (ep.getD e.toParam)
      (cutsThroughPoints (some feed) (AddrVec.fromVec (e.posParam (sp.getD e.fromParam)))
        (interpolateEdgeToVectors e prec)) := by
    intro hfr
    obtain ⟨rfl, rfl⟩ := hf hfr
    exact interpolated_along h hfr prec feed
  unfold routeEdge
  simp only [routeStart_eq h, routeEnd_eq h]
  cases hg : e.geom with
  | line => exact ⟨_, rfl, Or.inl ⟨hg, _, rfl, rfl, rfl, rfl, rfl⟩⟩
  | arc => exact harc (Or.inl hg)
  | circle => exact harc (Or.inr hg)
  | bspline => exact ⟨_, rfl, hfree (Or.inl hg)⟩
  | spline => exact ⟨_, rfl, hfree (Or.inr (Or.inl hg))⟩
  | offset => exact ⟨_, rfl, hfree (Or.inr (Or.inr hg))⟩
  | other => exact absurd hg hr.1

/-! ### Connectedness of the moves along one edge -/

theorem connected_of_get {pts : ℕ → AddrVec} {cs : List Motion}
    (h : ∀ (k : ℕ) (c : Motion), cs[k]? = some c → c.start = pts k ∧ c.fin = pts (k + 1)) :
    Connected (pts 0) cs ∧ finalPos (pts 0) cs = pts cs.length := by
  induction cs generalizing pts with
  | nil => exact ⟨trivial, rfl⟩
  | cons c cs ih =>
    have h0 := h 0 c rfl
    have h1 := ih (pts := fun k => pts (k + 1)) (fun k d hd => h (k + 1) d (by simpa using hd))
    refine ⟨⟨h0.1, ?_⟩, ?_⟩
    · rw [h0.2]; exact h1.1
    · simp only [finalPos, h0.2, h1.2, List.length_cons]

/-- The moves along an edge are connected feed moves from one end to the other. -/
theorem moves_facts {veq : Vec → Vec → Bool} {feed : PyNum} {e : Edge} (h : EdgeOK e) {p r : ℚ} {cs : List Motion}
    (hm : MovesAlong veq feed e p r cs) :
    Connected (.fromVec (e.posParam p)) cs ∧ (∀ x, finalPos x cs = .fromVec (e.posParam r)) ∧ cs ≠ [] ∧
      ∀ c ∈ cs, c.kind.mot ≠ .rapid ∧ c.kind ≠ .plungeCut ∧ c.feed = some feed := by
  have hstr : ∀ {a b c}, StraightMove feed a b c → c.kind.mot ≠ .rapid ∧ c.kind ≠ .plungeCut ∧ c.feed = some feed := by
    rintro a b c ⟨h1, -, -, h2⟩
    exact ⟨by rw [h1]; decide, by rw [h1]; decide, h2⟩
  have harc : ∀ {p r c}, ArcMove feed e p r c → c.kind.mot ≠ .rapid ∧ c.kind ≠ .plungeCut ∧ c.feed = some feed := by
    rintro p r c ⟨h1, -, -, h2, -⟩
    rw [h1]
    unfold Edge.travelKind
    split <;> exact ⟨by decide, by decide, h2⟩
  rcases hm with ⟨-, c, rfl, hs⟩ | ⟨-, -, c1, c2, rfl, h1, h2⟩ | ⟨-, -, ⟨-, c, rfl, hs⟩ | ⟨-, c, rfl, hs⟩⟩ |
    ⟨-, rfl, rfl, n, hn, hlen, hk⟩
  · exact ⟨⟨hs.2.1, trivial⟩, fun x => hs.2.2.1, by simp, by simpa using hstr hs⟩
  · refine ⟨⟨h1.2.1, by rw [h1.2.2.1]; exact ⟨h2.2.1, trivial⟩⟩, fun x => h2.2.2.1, by simp, ?_⟩
    intro c hc
    simp only [List.mem_cons, List.not_mem_nil, or_false] at hc
    rcases hc with rfl | rfl
    · exact harc h1
    · exact harc h2
  · exact ⟨⟨hs.2.1, trivial⟩, fun x => hs.2.2.1, by simp, by simpa using hstr hs⟩
  · exact ⟨⟨hs.2.1, trivial⟩, fun x => hs.2.2.1, by simp, by simpa using harc hs⟩
  · have key := connected_of_get (cs := cs)
      (pts := fun k => .fromVec (if k = 0 then e.travel 0 else e.travel ((k - 1 : ℚ) / (n - 1 : ℚ)))) (by
        intro k c hc
        have := hk k c hc
        refine ⟨this.2.1, ?_⟩
        rw [this.2.2.1]
        simp)
    have hne : cs ≠ [] := by intro h; rw [h] at hlen; simp at hlen; omega
    refine ⟨by simpa [pos_fromParam h] using key.1, ?_, hne, ?_⟩
    · intro x
      have h2 := key.2
      have hn' : (n : ℚ) - 1 ≠ 0 := by
        have : (2 : ℚ) ≤ n := by exact_mod_cast hn
        intro h; linarith
      rw [hlen] at h2
      simp only [show n ≠ 0 by omega, if_false, div_self hn'] at h2
      rw [pos_toParam h, ← h2]
      cases cs with
      | nil => exact absurd rfl hne
      | cons c cs => rfl
    · intro c hc
      obtain ⟨k, hk'⟩ := List.getElem?_of_mem hc
      exact hstr (hk k c hk')

/-! ### Lists of edges -/

theorem routeEdges_along {veq : Vec → Vec → Bool} {j : Job} {es : List Edge} (h : ∀ e ∈ es, EdgeOK e)
    (hr : ∀ e ∈ es, Routable e) (fin : Vec) :
    ∃ parts, routeEdges veq j fin es = .ok (List.flatten parts, (es.getLast?.map (·.travel 1)).getD fin) ∧
      List.Forall₂ (MovesAlongEdge veq j.feed) es parts := by
  induction es generalizing fin with
  | nil => exact ⟨[], rfl, .nil⟩
  | cons e es ih =>
    obtain ⟨cs, h1, h2⟩ := routeEdge_along (veq := veq) (h e (by simp)) (hr e (by simp)) j.precision none none j.feed
      (fun _ => ⟨rfl, rfl⟩)
    obtain ⟨parts, h3, h4⟩ := ih (fun x hx => h x (by simp [hx])) (fun x hx => hr x (by simp [hx]))
      (e.posParam (Option.getD none e.toParam))
    refine ⟨cs :: parts, ?_, .cons h2 h4⟩
    simp only [routeEdges, h1, h3]
    cases es with
    | nil => simp [pos_toParam (h e (by simp))]
    | cons e' es =>
      rw [List.getLast?_cons_cons, List.getLast?_eq_some_getLast (by simp : e' :: es ≠ [])]
      rfl

theorem rapidTo_approach (pos : AddrVec) (v : Vec) (rh : ℚ) (sh : Option ℚ) (pf : Option PyNum) :
    IsApproach (rapidTo pos v rh sh pf) := by
  intro c hc
  cases sh with
  | some sh =>
    obtain ⟨up, side, down, feed, h, rfl, hs, rfl, hf⟩ := rapidTo_pieces pos v rh sh pf
    rw [h] at hc
    simp only [List.mem_append, List.mem_singleton] at hc
    rcases hc with ((rfl | hc) | rfl) | hc
    · exact Or.inl rfl
    · rcases hs with ⟨-, -, rfl⟩ | ⟨-, rfl⟩
      · simp at hc
      · rw [List.mem_singleton] at hc; subst hc; exact Or.inl rfl
    · exact Or.inl rfl
    · rcases hf with ⟨-, rfl⟩ | ⟨-, rfl⟩
      · rw [List.mem_singleton] at hc; subst hc
        exact Or.inr ⟨rfl, by simp [Lateral, AddrVec.fromVec]⟩
      · simp at hc
  | none =>
    obtain ⟨up, side, h, rfl, hs⟩ := rapidTo_pieces_none pos v rh pf
    rw [h] at hc
    simp only [List.cons_append, List.mem_append, List.mem_cons, List.not_mem_nil, or_false] at hc
    rcases hc with rfl | hc | rfl
    · exact Or.inl rfl
    · rcases hs with ⟨-, -, rfl⟩ | ⟨-, rfl⟩
      · simp at hc
      · simp only [List.mem_cons, List.not_mem_nil, or_false, false_or] at hc
        subst hc; exact Or.inl rfl
    · exact Or.inr ⟨rfl, by simp [Lateral, AddrVec.fromVec]⟩

theorem wireOK_rotate {edges : List Edge} {k : ℕ} : ∀ e ∈ rotateEdges k edges, e ∈ edges := by
  intro e he
  rcases List.mem_append.mp he with he | he
  · exact List.mem_of_mem_drop he
  · exact List.mem_of_mem_take he

/-- Entry at the start of an edge: the search gave no edge parameter. -/
theorem routeWire_whole {veq : Vec → Vec → Bool} {j : Job} {stepover : Option ℚ} {hit : Option WireHit} {pos : AddrVec}
    {edges : List Edge} (h : WireOK edges) (hp : hit.bind WireHit.param = none)
    (hv : ∀ hh, wireLink stepover hit = some hh → ∃ e ∈ edges, ∃ d v, hh = .vertex d v ∧ veq (edgeStartPoint e) v = true) :
    ∃ k a entry parts e, edges[k]? = some a ∧
      routeWire veq j stepover hit pos edges = .ok (entry ++ List.flatten parts, e.travel 1) ∧
      List.Forall₂ (MovesAlongEdge veq j.feed) (rotateEdges k edges) parts ∧
      (rotateEdges k edges).getLast? = some e ∧
      ((wireLink stepover hit = none ∧ k = 0 ∧
          entry = rapidTo pos (a.travel 0) j.rapidHeight (some j.opSafeHeight) (some j.plungeFeed)) ∨
        ∃ d v, wireLink stepover hit = some (.vertex d v) ∧ veq (a.travel 0) v = true ∧
          entry = [cutAbs (.fromVec (a.travel 0)) (some pos) (some j.feed)]) := by
  have core : ∀ (k : ℕ) (a : Edge) (entry : List Motion), edges[k]? = some a →
      enterWire veq j stepover hit pos edges = .ok (rotateEdges k edges, entry) →
      ∃ parts fin, routeWire veq j stepover hit pos edges = .ok (entry ++ List.flatten parts, fin) ∧
        List.Forall₂ (MovesAlongEdge veq j.feed) (rotateEdges k edges) parts ∧
        ∃ e, (rotateEdges k edges).getLast? = some e ∧ fin = e.travel 1 := by
    intro k a entry hk he
    have hk' := (List.getElem?_eq_some_iff.mp hk).1
    obtain ⟨es, hes⟩ : ∃ es, rotateEdges k edges = a :: es := by
      unfold rotateEdges
      rw [List.drop_eq_getElem_cons hk', (List.getElem?_eq_some_iff.mp hk).2]
      exact ⟨_, rfl⟩
    have hall := wireOK_rotate (edges := edges) (k := k)
    rw [hes] at hall
    obtain ⟨cs, h1, h2⟩ := routeEdge_along (veq := veq) (h.edgeOK a (hall a (by simp))) (h.routable a (hall a (by simp)))
      j.precision none none j.feed (fun _ => ⟨rfl, rfl⟩)
    obtain ⟨parts, h3, h4⟩ := routeEdges_along (veq := veq) (j := j) (es := es)
      (fun x hx => h.edgeOK x (hall x (by simp [hx]))) (fun x hx => h.routable x (hall x (by simp [hx])))
      (a.posParam (Option.getD none a.toParam))
    refine ⟨cs :: parts, (es.getLast?.map (·.travel 1)).getD (a.posParam (Option.getD none a.toParam)), ?_, ?_, ?_⟩
    · unfold routeWire
      rw [he, hes]
      simp only [hp, h1, h3]
      rw [List.flatten_cons, List.append_assoc]
    · rw [hes]; exact .cons h2 h4
    · rw [hes]
      cases es with
      | nil => exact ⟨a, rfl, by simp [pos_toParam (h.edgeOK a (hall a (by simp)))]⟩
      | cons b es =>
        refine ⟨(b :: es).getLast (by simp), ?_, ?_⟩
        · rw [List.getLast?_cons_cons]; exact List.getLast?_eq_some_getLast _
        · rw [List.getLast?_eq_some_getLast (by simp : b :: es ≠ [])]; rfl
  cases hl : wireLink stepover hit with
  | none =>
    obtain ⟨a, es, rfl⟩ := List.exists_cons_of_ne_nil h.nonempty
    obtain ⟨parts, fin, h1, h2, e, h3, rfl⟩ := core 0 a
      (rapidTo pos (edgeStartPoint a) j.rapidHeight (some j.opSafeHeight) (some j.plungeFeed)) rfl (by
        unfold enterWire; rw [hl]; simp [rotateEdges])
    refine ⟨0, a, _, parts, e, rfl, h1, h2, h3, Or.inl ⟨rfl, rfl, ?_⟩⟩
    rw [edgeStartPoint_eq (h.edgeOK a (by simp))]
  | some hh =>
    obtain ⟨e0, he0, d, v, rfl, hveq⟩ := hv hh hl
    obtain ⟨k, hk⟩ : ∃ k, edges.findIdx? (fun e' => veq (edgeStartPoint e') v) = some k := by
      cases hf : edges.findIdx? (fun e' => veq (edgeStartPoint e') v) with
      | some k => exact ⟨k, rfl⟩
      | none =>
        rw [List.findIdx?_eq_none_iff] at hf
        exact absurd hveq (by simp [hf e0 he0])
    obtain ⟨hk', hkv, -⟩ := List.findIdx?_eq_some_iff_getElem.mp hk
    have ha : edges[k]? = some edges[k] := List.getElem?_eq_getElem hk'
    obtain ⟨es, hes⟩ : ∃ es, rotateEdges k edges = edges[k] :: es := by
      unfold rotateEdges
      rw [List.drop_eq_getElem_cons hk']
      exact ⟨_, rfl⟩
    have hst := edgeStartPoint_eq (h.edgeOK edges[k] (List.getElem_mem hk'))
    obtain ⟨parts, fin, h1, h2, e, h3, rfl⟩ := core k edges[k] [cutAbs (.fromVec (edges[k].travel 0)) (some pos) (some j.feed)] ha (by
        unfold enterWire shiftEdges
        rw [hl]
        simp only [hk]
        have : edges.drop k ++ edges.take k = edges[k] :: es := hes
        rw [this, hes]
        simp only [WireHit.param, hst])
    refine ⟨k, _, _, parts, e, ha, h1, h2, h3, Or.inr ⟨d, v, rfl, ?_, rfl⟩⟩
    rw [← hst]; exact hkv

/-- Entry inside an edge. -/
theorem routeWire_split {veq : Vec → Vec → Bool} {j : Job} {stepover : Option ℚ} {pos : AddrVec}
    {edges : List Edge} (h : WireOK edges) {d p : ℚ} {e : Edge} (he : e ∈ edges) (hp : p ≠ 0) (hn : ¬ e.free)
    (hl : wireLink stepover (some (.edge d e p)) = some (.edge d e p)) :
    ∃ l r first parts last, edges = l ++ e :: r ∧
      routeWire veq j stepover (some (.edge d e p)) pos edges =
        .ok (cutAbs (.fromVec (e.posParam p)) (some pos) (some j.feed) :: (first ++ List.flatten parts ++ last),
          e.posParam p) ∧
      MovesAlong veq j.feed e p e.toParam first ∧ List.Forall₂ (MovesAlongEdge veq j.feed) (r ++ l) parts ∧
      MovesAlong veq j.feed e e.fromParam p last := by
  obtain ⟨l, r, rfl⟩ := List.append_of_mem he
  have hidx : (l ++ e :: r).findIdx? (fun e' => decide (e'.id = e.id)) = some l.length := by
    rw [List.findIdx?_eq_some_iff_getElem]
    refine ⟨by simp, by simp, ?_⟩
    intro i hi
    have hd := h.distinct
    rw [List.pairwise_append] at hd
    have := hd.2.2 l[i] (List.getElem_mem hi) e (by simp)
    rw [List.getElem_append_left hi]
    simp [this]
  have hrl : ∀ x ∈ r ++ l, x ∈ l ++ e :: r := by
    intro x hx
    simp only [List.mem_append, List.mem_cons] at hx ⊢
    tauto
  obtain ⟨cs1, h1, h2⟩ := routeEdge_along (veq := veq) (h.edgeOK e he) (h.routable e he) j.precision (some p) none j.feed
    (fun x => absurd x hn)
  obtain ⟨parts, h3, h4⟩ := routeEdges_along (veq := veq) (j := j) (es := r ++ l)
    (fun x hx => h.edgeOK x (hrl x hx)) (fun x hx => h.routable x (hrl x hx)) (e.posParam (Option.getD none e.toParam))
  obtain ⟨cs2, h5, h6⟩ := routeEdge_along (veq := veq) (h.edgeOK e he) (h.routable e he) j.precision none (some p) j.feed
    (fun x => absurd x hn)
  refine ⟨l, r, cs1, parts, cs2, rfl, ?_, h2, h4, h6⟩
  unfold routeWire enterWire shiftEdges
  rw [hl]
  simp only [hidx, List.drop_left, List.take_left, List.cons_append, WireHit.param, Option.bind_some, if_neg hp, h1, h3, h5]
  simp

/-! ### Sequences of edges -/

theorem parts_connected {veq : Vec → Vec → Bool} {feed : PyNum} {es : List Edge} {parts : List (List Motion)}
    (h : ∀ e ∈ es, EdgeOK e) (hm : List.Forall₂ (MovesAlongEdge veq feed) es parts) (hc : Chained es) (a : Edge)
    (ha : es.head? = some a) : Connected (.fromVec (a.travel 0)) (List.flatten parts) := by
  induction hm generalizing a with
  | nil => simp at ha
  | @cons e part es parts h1 h2 ih =>
    simp only [List.head?_cons, Option.some.injEq] at ha
    subst ha
    have hf := moves_facts (h e (by simp)) h1
    rw [pos_fromParam (h e (by simp))] at hf
    rw [List.flatten_cons, connected_append]
    refine ⟨hf.1, ?_⟩
    rw [hf.2.1, pos_toParam (h e (by simp))]
    cases es with
    | nil => cases h2; trivial
    | cons b es =>
      rw [hc.1]
      exact ih (fun x hx => h x (by simp [hx])) hc.2 b rfl

theorem finalPos_nonempty {cs : List Motion} (h : cs ≠ []) (x y : AddrVec) : finalPos x cs = finalPos y cs := by
  cases cs with
  | nil => exact absurd rfl h
  | cons c cs => rfl

theorem parts_final {veq : Vec → Vec → Bool} {feed : PyNum} {es : List Edge} {parts : List (List Motion)}
    (h : ∀ e ∈ es, EdgeOK e) (hm : List.Forall₂ (MovesAlongEdge veq feed) es parts) (a : Edge)
    (ha : es.getLast? = some a) (x : AddrVec) : finalPos x (List.flatten parts) = .fromVec (a.travel 1) := by
  induction hm generalizing x with
  | nil => simp at ha
  | @cons e part es parts h1 h2 ih =>
    have hf := moves_facts (h e (by simp)) h1
    rw [List.flatten_cons, finalPos_append]
    cases es with
    | nil =>
      cases h2
      simp only [List.getLast?_singleton, Option.some.injEq] at ha
      subst ha
      simp only [List.flatten_nil, finalPos]
      rw [hf.2.1, pos_toParam (h e (by simp))]
    | cons b es =>
      rw [List.getLast?_cons_cons] at ha
      exact ih (fun y hy => h y (by simp [hy])) ha _

theorem parts_feeds {veq : Vec → Vec → Bool} {feed : PyNum} {es : List Edge} {parts : List (List Motion)}
    (h : ∀ e ∈ es, EdgeOK e) (hm : List.Forall₂ (MovesAlongEdge veq feed) es parts) :
    ∀ c ∈ List.flatten parts, c.kind.mot ≠ .rapid ∧ c.kind ≠ .plungeCut ∧ c.feed = some feed := by
  induction hm with
  | nil => simp
  | @cons e part es parts h1 h2 ih =>
    intro c hc
    rw [List.flatten_cons, List.mem_append] at hc
    rcases hc with hc | hc
    · exact (moves_facts (h e (by simp)) h1).2.2.2 c hc
    · exact ih (fun x hx => h x (by simp [hx])) c hc

theorem chained_append {l r : List Edge} : Chained (l ++ r) ↔ Chained l ∧ Chained r ∧
    ∀ a b, l.getLast? = some a → r.head? = some b → a.travel 1 = b.travel 0 := by
  induction l with
  | nil => simp [Chained]
  | cons x l ih =>
    cases l with
    | nil =>
      cases r with
      | nil => simp [Chained]
      | cons y r => simp [Chained]; tauto
    | cons y l =>
      simp only [List.cons_append, Chained, List.getLast?_cons_cons]
      rw [List.cons_append] at ih
      rw [ih]; tauto

theorem chained_rotate {edges : List Edge} (hc : Chained edges) (hcl : Closes edges) (k : ℕ) :
    Chained (rotateEdges k edges) := by
  unfold rotateEdges
  rw [← List.take_append_drop k edges] at hc
  rw [chained_append] at hc
  rw [chained_append]
  refine ⟨hc.2.1, hc.1, ?_⟩
  intro a b ha hb
  apply hcl b a
  · cases edges with
    | nil => simp at ha
    | cons e es =>
      cases k with
      | zero => simp at hb
      | succ k => simpa using hb
  · rw [← List.take_append_drop k edges, List.getLast?_append, ha]; rfl

end CQ
