import Verif.Props.Wires

/-! # C37, C73: polygonised wires -/

namespace CQ

theorem pyInt_gt {x : ℚ} (h : 0 ≤ x) : x < pyInt x + 1 := by
  unfold pyInt
  rw [if_neg (not_lt.mpr h)]
  exact Int.lt_floor_add_one x

theorem count_spacing (e : Edge) (prec : ℕ) (h : 0 ≤ e.length) :
    e.length / ((edgeInterpolationCount e prec : ℚ) - 1) < 3 / 10 ^ prec := by
  have hp : (0 : ℚ) < 10 ^ prec := by positivity
  have h2 := count_ge e prec
  have hx : 0 ≤ e.length * 10 ^ prec := by positivity
  have hlt := pyInt_gt hx
  have hc : ((edgeInterpolationCount e prec : ℕ) : ℤ) = max (pyInt (e.length * 10 ^ prec)) 2 := by
    unfold edgeInterpolationCount
    rw [Int.toNat_of_nonneg (le_trans (by norm_num) (le_max_right _ _))]
  have h3 : ((pyInt (e.length * 10 ^ prec) : ℤ) : ℚ) ≤ (edgeInterpolationCount e prec : ℚ) := by
    have := le_max_left (pyInt (e.length * 10 ^ prec)) 2
    rw [← hc] at this
    exact_mod_cast this
  have h4 : (2 : ℚ) ≤ (edgeInterpolationCount e prec : ℚ) := by exact_mod_cast h2
  rw [div_lt_div_iff₀ (by linarith) hp]
  linarith

theorem interpolate_points (e : Edge) (prec : ℕ) : ∃ pts, interpolateEdgeToVectors e prec = e.travel 0 :: pts ∧
    ∃ n : ℕ, 1 ≤ n ∧ pts = (List.range n).map (fun k : ℕ => e.travel ((k + 1 : ℚ) / n)) ∧
      (0 ≤ e.length → e.length / n < 3 / 10 ^ prec) := by
  have h2 := count_ge e prec
  obtain ⟨n, hn⟩ : ∃ n, edgeInterpolationCount e prec = n + 1 := ⟨edgeInterpolationCount e prec - 1, by omega⟩
  refine ⟨(List.range n).map (fun k : ℕ => e.travel ((k + 1 : ℚ) / n)), ?_, n, by omega, rfl, ?_⟩
  · rw [interpolate_eq, hn, List.range_succ_eq_map]
    simp [Function.comp]
  · intro hl
    have := count_spacing e prec hl
    rw [hn] at this
    simpa using this

theorem edgeToVectors_points {e : Edge} (h : EdgeOK e) (hk : e.geom = .offset → e.basis ≠ none) (prec : ℕ) :
    ∃ pts, edgeToVectors e prec = .ok (e.travel 0 :: pts) ∧ EdgePoints prec e pts := by
  have hline : [(edgeStartEnd e).1, (edgeStartEnd e).2] = e.travel 0 :: [e.travel 1] := by
    rw [(C36_oriented_ends e h).2.2.1]
  have h1 : e.straight → EdgePoints prec e [e.travel 1] := fun hs =>
    ⟨1, le_refl _, by simp, fun _ => rfl, fun hn => absurd hs hn⟩
  have h2 : ¬ e.straight → ∃ pts, interpolateEdgeToVectors e prec = e.travel 0 :: pts ∧ EdgePoints prec e pts := by
    intro hs
    obtain ⟨pts, a, n, b, c, d⟩ := interpolate_points e prec
    exact ⟨pts, a, n, b, c, fun h => absurd h hs, fun _ => d⟩
  unfold edgeToVectors
  by_cases hg : e.geom = .offset
  · rw [if_pos hg]
    cases hb : e.basis with
    | none => exact absurd hb (hk hg)
    | some g =>
      by_cases hgl : g = .line
      · subst hgl
        exact ⟨_, by rw [hline], h1 (Or.inr ⟨hg, hb⟩)⟩
      · obtain ⟨pts, a, b⟩ := h2 (by
          rintro (hs | ⟨-, hs⟩)
          · rw [hg] at hs; cases hs
          · rw [hb] at hs; cases hs; exact hgl rfl)
        exact ⟨pts, by cases g <;> first | exact absurd rfl hgl | simp only [a], b⟩
  · rw [if_neg hg]
    by_cases hl : e.geom = .line
    · rw [if_pos hl, hline]
      exact ⟨_, rfl, h1 (Or.inl hl)⟩
    · rw [if_neg hl]
      obtain ⟨pts, a, b⟩ := h2 (by
        rintro (hs | ⟨hs, -⟩)
        · exact hl hs
        · exact hg hs)
      exact ⟨pts, by rw [a], b⟩

theorem edgesToVectors_points {es : List Edge} (h : ∀ e ∈ es, EdgeOK e) (hk : ∀ e ∈ es, e.geom = .offset → e.basis ≠ none)
    (prec : ℕ) (vs : List Vec) : ∃ parts, edgesToVectors prec vs es = .ok (vs ++ List.flatten parts) ∧
      List.Forall₂ (EdgePoints prec) es parts := by
  induction es generalizing vs with
  | nil => exact ⟨[], by simp [edgesToVectors], .nil⟩
  | cons e es ih =>
    obtain ⟨pts, h1, h2⟩ := edgeToVectors_points (h e (by simp)) (hk e (by simp)) prec
    obtain ⟨parts, h3, h4⟩ := ih (fun e he => h e (by simp [he])) (fun e he => hk e (by simp [he])) (vs ++ pts)
    refine ⟨pts :: parts, ?_, .cons h2 h4⟩
    unfold edgesToVectors
    rw [h1]
    simp only [List.tail_cons]
    rw [h3]
    simp

theorem edgePoints_last {prec : ℕ} {e : Edge} {pts : List Vec} (h : EdgePoints prec e pts) :
    pts.getLast? = some (e.travel 1) := by
  obtain ⟨n, hn, rfl, -⟩ := h
  obtain ⟨m, rfl⟩ : ∃ m, n = m + 1 := ⟨n - 1, by omega⟩
  rw [List.range_succ]
  have : ((m : ℚ) + 1) ≠ 0 := by positivity
  simp [this]

/-- Appending two runs. -/
theorem zip_tail_append {α : Type} (l r : List α) (x : α) (hl : l.getLast? = some x) :
    (l ++ r).zip (l ++ r).tail = l.zip l.tail ++ (x :: r).zip r := by
  induction l with
  | nil => cases hl
  | cons a l ih =>
    cases l with
    | nil => cases hl; cases r <;> rfl
    | cons b l =>
      rw [List.getLast?_cons_cons] at hl
      have := ih hl
      simp only [List.cons_append, List.tail_cons, List.zip_cons_cons] at this ⊢
      rw [this]

theorem edgePoints_steps {prec : ℕ} {edges : List Edge} {e : Edge} {pts : List Vec} (he : e ∈ edges)
    (h : EdgePoints prec e pts) : ∀ p ∈ (e.travel 0 :: pts).zip pts, EdgeStep edges p := by
  obtain ⟨n, hn, rfl, -⟩ := h
  intro p hp
  obtain ⟨k, hk⟩ := List.mem_iff_getElem?.mp hp
  rw [List.getElem?_zip_eq_some] at hk
  obtain ⟨h1, h2⟩ := hk
  rw [List.getElem?_map, Option.map_eq_some_iff] at h2
  obtain ⟨k', h2, h3⟩ := h2
  have hkn : k < n := by have := (List.getElem?_eq_some_iff.mp h2).1; simpa using this
  have hkk : k' = k := by rw [List.getElem?_range hkn] at h2; exact (Option.some.inj h2).symm
  subst hkk
  refine ⟨e, he, n, k', hkn, Prod.ext ?_ h3.symm⟩
  cases k' with
  | zero => simpa using h1.symm
  | succ m =>
    rw [List.getElem?_cons_succ, List.getElem?_map, List.getElem?_range (by omega)] at h1
    simpa using h1.symm

theorem parts_steps {prec : ℕ} {all es : List Edge} {parts : List (List Vec)} (hsub : ∀ e ∈ es, e ∈ all)
    (h : List.Forall₂ (EdgePoints prec) es parts) (hc : Chained es) {a : Edge} (ha : es.head? = some a) :
    ∀ p ∈ (a.travel 0 :: parts.flatten).zip parts.flatten, EdgeStep all p := by
  induction h generalizing a with
  | nil => cases ha
  | @cons e pts es parts hp t ih =>
    cases ha
    have hlast : (e.travel 0 :: pts).getLast? = some (e.travel 1) := by
      have := edgePoints_last hp
      rw [List.getLast?_cons, this]; rfl
    have key := zip_tail_append (e.travel 0 :: pts) parts.flatten (e.travel 1) hlast
    simp only [List.tail_cons, List.cons_append] at key
    rw [List.flatten_cons, key]
    intro p hmem
    rcases List.mem_append.mp hmem with hmem | hmem
    · exact edgePoints_steps (hsub e (by simp)) hp p hmem
    · cases t with
      | nil => simp at hmem
      | cons hq t =>
        rw [hc.1] at hmem
        exact ih (fun x hx => hsub x (by simp [hx])) hc.2 rfl p hmem

theorem parts_last {prec : ℕ} {es : List Edge} {parts : List (List Vec)} {b : Edge} (x : List Vec)
    (hf : List.Forall₂ (EdgePoints prec) es parts) (hb : es.getLast? = some b) :
    (x ++ parts.flatten).getLast? = some (b.travel 1) := by
  induction hf generalizing x with
  | nil => cases hb
  | @cons e pts es parts hp t ih =>
    cases t with
    | nil =>
      cases hb
      rw [List.flatten_cons, List.flatten_nil, List.append_nil, List.getLast?_append, edgePoints_last hp]
      rfl
    | cons hq t =>
      rw [List.getLast?_cons_cons] at hb
      rw [List.flatten_cons, ← List.append_assoc]
      exact ih (x ++ pts) hb

theorem wireToVectors_eq (veq : Vec → Vec → Bool) {edges : List Edge} {a b : Edge} (ha : edges.head? = some a)
    (hb : edges.getLast? = some b) (h : ∀ e ∈ edges, EdgeOK e)
    (hk : ∀ e ∈ edges, e.geom = .offset → e.basis ≠ none) (prec : ℕ) (close : Bool) :
    ∃ parts, List.Forall₂ (EdgePoints prec) edges parts ∧ wireToVectors veq edges prec close =
      if close then
        if veq (a.travel 0) (b.travel 1) then .ok (a.travel 0 :: parts.flatten)
        else .ok (a.travel 0 :: parts.flatten ++ [a.travel 0])
      else
        if veq (a.travel 0) (b.travel 1) then .ok (a.travel 0 :: parts.flatten).dropLast
        else .ok (a.travel 0 :: parts.flatten) := by
  cases edges with
  | nil => cases ha
  | cons e es =>
    cases ha
    obtain ⟨pts, h1, h2⟩ := edgeToVectors_points (h a (by simp)) (hk a (by simp)) prec
    obtain ⟨parts, h3, h4⟩ := edgesToVectors_points (es := es) (fun e he => h e (by simp [he]))
      (fun e he => hk e (by simp [he])) prec (a.travel 0 :: pts)
    have hl := parts_last [a.travel 0] (List.Forall₂.cons h2 h4) hb
    have hl' : (a.travel 0 :: (pts ++ parts.flatten)).getLast? = some (b.travel 1) := by simpa using hl
    have hlen : (a.travel 0 :: (pts ++ parts.flatten)).length ≠ 1 := by
      obtain ⟨n, hn, rfl, -⟩ := h2
      simp; omega
    refine ⟨pts :: parts, .cons h2 h4, ?_⟩
    unfold wireToVectors
    simp only [h1, h3, List.cons_append]
    rw [if_neg hlen, hl']
    simp only [List.head?_cons]
    cases veq (a.travel 0) (b.travel 1) <;> cases close <;> simp

/-- C37.  Polygonising a wire never fails (unless an offset edge has an unknown basis curve).  The points are the
start of the first edge and then, for each edge in order, evenly spaced points up to its end (its start, being the end of
the previous edge, is not repeated); consecutive points are steps along one edge; finally the path is closed: its
first point is appended unless the last point already equals it up to the tolerance `veq`.  The 2D path has the same
points without their height. -/
theorem C37_closed (veq : Vec → Vec → Bool) (edges : List Edge) (a b : Edge) (ha : edges.head? = some a)
    (hb : edges.getLast? = some b) (h : ∀ e ∈ edges, EdgeOK e)
    (hk : ∀ e ∈ edges, e.geom = .offset → e.basis ≠ none) (hc : Chained edges) (prec : ℕ) :
    ∃ parts path, wireToVectors veq edges prec true = .ok path ∧
      wireToPath veq edges prec = .ok (path.map (fun v => (⟨v.x, v.y⟩ : Pt))) ∧
      List.Forall₂ (EdgePoints prec) edges parts ∧
      (∀ p ∈ (a.travel 0 :: parts.flatten).zip parts.flatten, EdgeStep edges p) ∧
      (a.travel 0 :: parts.flatten).getLast? = some (b.travel 1) ∧
      (veq (a.travel 0) (b.travel 1) = true ∧ path = a.travel 0 :: parts.flatten ∨
        veq (a.travel 0) (b.travel 1) = false ∧ path = a.travel 0 :: parts.flatten ++ [a.travel 0]) ∧
      (∀ x, path.getLast? = some x → x = a.travel 0 ∨ veq (a.travel 0) x = true) ∧ 2 ≤ path.length := by
  obtain ⟨parts, h1, h2⟩ := wireToVectors_eq veq ha hb h hk prec true
  have h3 : ∀ p ∈ (a.travel 0 :: parts.flatten).zip parts.flatten, EdgeStep edges p :=
    parts_steps (fun _ h => h) h1 hc ha
  have h4 : (a.travel 0 :: parts.flatten).getLast? = some (b.travel 1) := parts_last [a.travel 0] h1 hb
  have h5 : 2 ≤ (a.travel 0 :: parts.flatten).length := by
    cases h1 with
    | nil => cases ha
    | cons hp t =>
      obtain ⟨n, hn, rfl, -⟩ := hp
      simp; omega
  rw [if_pos rfl] at h2
  cases hv : veq (a.travel 0) (b.travel 1) with
  | true =>
    rw [hv, if_pos rfl] at h2
    refine ⟨parts, _, h2, by simp [wireToPath, h2, vectorsTo2d], h1, h3, h4, Or.inl ⟨rfl, rfl⟩, ?_, h5⟩
    intro x hx
    rw [h4] at hx
    cases hx
    exact Or.inr hv
  | false =>
    rw [hv, if_neg (by simp)] at h2
    refine ⟨parts, _, h2, by simp [wireToPath, h2, vectorsTo2d], h1, h3, h4, Or.inr ⟨rfl, rfl⟩, ?_, by
      simp at h5 ⊢⟩
    intro x hx
    rw [List.getLast?_concat] at hx
    cases hx
    exact Or.inl rfl

/-- C37, `close = False`: the last point is dropped if it equals the first. -/
theorem C37_open (veq : Vec → Vec → Bool) (edges : List Edge) (a b : Edge) (ha : edges.head? = some a)
    (hb : edges.getLast? = some b) (h : ∀ e ∈ edges, EdgeOK e)
    (hk : ∀ e ∈ edges, e.geom = .offset → e.basis ≠ none) (hc : Chained edges) (prec : ℕ) :
    ∃ parts path, wireToVectors veq edges prec false = .ok path ∧ List.Forall₂ (EdgePoints prec) edges parts ∧
      (∀ p ∈ (a.travel 0 :: parts.flatten).zip parts.flatten, EdgeStep edges p) ∧
      (veq (a.travel 0) (b.travel 1) = false ∧ path = a.travel 0 :: parts.flatten ∨
        veq (a.travel 0) (b.travel 1) = true ∧ path ++ [b.travel 1] = a.travel 0 :: parts.flatten) := by
  obtain ⟨parts, h1, h2⟩ := wireToVectors_eq veq ha hb h hk prec false
  have h4 : (a.travel 0 :: parts.flatten).getLast? = some (b.travel 1) := parts_last [a.travel 0] h1 hb
  rw [if_neg (by simp)] at h2
  cases hv : veq (a.travel 0) (b.travel 1) with
  | true =>
    rw [hv, if_pos rfl] at h2
    refine ⟨parts, _, h2, h1, parts_steps (fun _ h => h) h1 hc ha, Or.inr ⟨rfl, ?_⟩⟩
    have := List.dropLast_append_getLast? _ h4
    exact this
  | false =>
    rw [hv, if_neg (by simp)] at h2
    exact ⟨parts, _, h2, h1, parts_steps (fun _ h => h) h1 hc ha, Or.inl ⟨rfl, rfl⟩⟩

/-- C37: a wire without edges gives the empty path; an unknown offset curve is an error. -/
theorem C37_empty (veq : Vec → Vec → Bool) (prec : ℕ) (close : Bool) : wireToVectors veq [] prec close = .ok [] := rfl

theorem C37_unknown (veq : Vec → Vec → Bool) (prec : ℕ) (close : Bool) (e : Edge) (es : List Edge)
    (hg : e.geom = .offset) (hb : e.basis = none) : wireToVectors veq (e :: es) prec close = .error .keyError := by
  simp [wireToVectors, edgeToVectors, hg, hb]

/-- The inner square meets the conditions; so does a wire with a parabola. -/
example : Chained parabolaWire ∧ (∀ e ∈ parabolaWire, e.geom = .offset → e.basis ≠ none) ∧
    parabolaWire.head? = some parabola := by
  refine ⟨by norm_num [parabolaWire, Chained, Edge.travel, parabola, lineEdge], ?_, rfl⟩
  intro e he
  simp only [parabolaWire, List.mem_cons, List.not_mem_nil, or_false] at he
  rcases he with rfl | rfl <;> simp [parabola, lineEdge]

/-! ### C73 -/

/-- C73.  Whatever curve is interpolated, the distance along the edge between consecutive points (`Length()` divided
by the number of intervals) is less than `3 / 10^precision`, both for polygonised wires (every edge that is not
straight) and for routed splines (all intervals after the first move, which goes to the start). -/
theorem C73_polygon_density (veq : Vec → Vec → Bool) (edges : List Edge) (a b : Edge) (ha : edges.head? = some a)
    (hb : edges.getLast? = some b) (h : ∀ e ∈ edges, EdgeOK e)
    (hk : ∀ e ∈ edges, e.geom = .offset → e.basis ≠ none) (prec : ℕ) :
    ∃ parts tail, wireToVectors veq edges prec true = .ok (a.travel 0 :: parts.flatten ++ tail) ∧
      (tail = [] ∨ tail = [a.travel 0]) ∧
      List.Forall₂ (fun (e : Edge) (pts : List Vec) => ¬ e.straight → 0 ≤ e.length →
        0 < pts.length ∧ e.length / pts.length < 3 / 10 ^ prec ∧
        ∀ (k : ℕ) (v : Vec), pts[k]? = some v → v = e.travel ((k + 1 : ℚ) / pts.length)) edges parts := by
  obtain ⟨parts, h1, h2⟩ := wireToVectors_eq veq ha hb h hk prec true
  rw [if_pos rfl] at h2
  have h3 : List.Forall₂ (fun (e : Edge) (pts : List Vec) => ¬ e.straight → 0 ≤ e.length →
        0 < pts.length ∧ e.length / pts.length < 3 / 10 ^ prec ∧
        ∀ (k : ℕ) (v : Vec), pts[k]? = some v → v = e.travel ((k + 1 : ℚ) / pts.length)) edges parts := by
    refine h1.imp ?_
    rintro e pts ⟨n, hn, rfl, -, hd⟩ hs hl
    refine ⟨by simp; omega, by simpa using hd hs hl, ?_⟩
    intro k v hkv
    rw [List.getElem?_map, Option.map_eq_some_iff] at hkv
    obtain ⟨k', g1, rfl⟩ := hkv
    have hkn : k < n := by have := (List.getElem?_eq_some_iff.mp g1).1; simpa using this
    rw [List.getElem?_range hkn] at g1
    cases g1
    simp
  cases hv : veq (a.travel 0) (b.travel 1) with
  | true => rw [hv, if_pos rfl] at h2; exact ⟨parts, [], by simpa using h2, Or.inl rfl, h3⟩
  | false => rw [hv, if_neg (by simp)] at h2; exact ⟨parts, [a.travel 0], by simpa using h2, Or.inr rfl, h3⟩

theorem C73_spline_density (veq : Vec → Vec → Bool) (e : Edge) (hf : e.free) (hl : 0 ≤ e.length)
    (prec : ℕ) (sp ep : Option ℚ) (feed : Option PyNum) :
    ∃ cs v, routeEdge veq e prec sp ep feed = .ok (cs, v) ∧ 2 ≤ cs.length ∧
      e.length / (cs.length - 1 : ℚ) < 3 / 10 ^ prec ∧
      ∀ (k : ℕ) (c : Motion), cs[k]? = some c → c.fin = .fromVec (e.travel (k / (cs.length - 1 : ℚ))) := by
  have hrun : routeEdge veq e prec sp ep feed = .ok (cutsThroughPoints feed (.fromVec (routeStart e sp))
      (interpolateEdgeToVectors e prec), routeEnd e ep) := by
    unfold routeEdge
    rcases hf with hg | hg | hg <;> rw [hg]
  refine ⟨_, _, hrun, ?_, ?_, ?_⟩
  · rw [cutsThroughPoints_length, interpolate_eq]
    simpa using count_ge e prec
  · rw [cutsThroughPoints_length, interpolate_eq]
    simpa using count_spacing e prec hl
  · intro k c hk
    obtain ⟨v, w, -, h2, rfl⟩ := cutsThroughPoints_get hk
    rw [cutsThroughPoints_length, interpolate_eq]
    rw [interpolate_eq, List.getElem?_map, Option.map_eq_some_iff] at h2
    obtain ⟨k', g1, rfl⟩ := h2
    have hkn : k < edgeInterpolationCount e prec := by
      have := (List.getElem?_eq_some_iff.mp g1).1; simpa using this
    rw [List.getElem?_range hkn] at g1
    cases g1
    simp [cutAbs, fillEnd, AddrVec.fromVec]

example : parabola.free ∧ 0 ≤ parabola.length ∧ ¬ parabola.straight := by
  simp [Edge.free, parabola, Edge.straight]

end CQ
