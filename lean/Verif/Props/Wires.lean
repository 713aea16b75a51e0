import Verif.Proofs.WireRouter
import Verif.Props.Contours

/-! # C25 (wires), C29, C30, C36, C72: routing CAD edges and wires -/

namespace CQ

/-! ### C36 -/

/-- C36.  All helpers agree with the travel direction of the edge: start and end points, both parameters, the pair,
and parameter ranges, which describe the same points of the edge. -/
theorem C36_oriented_ends (e : Edge) (h : EdgeOK e) :
    edgeStartPoint e = e.travel 0 ∧ edgeEndPoint e = e.travel 1 ∧ edgeStartEnd e = (e.travel 0, e.travel 1) ∧
      e.posParam (edgeStartParam e) = e.travel 0 ∧ e.posParam (edgeEndParam e) = e.travel 1 ∧
      ∀ p1 p2, ∃ a b flag, edgeOrientedParam e p1 p2 = (a, b, flag) ∧ (p1 ≤ p2 → a ≤ b) ∧
        (flag = e.reversed) ∧ (∀ v, (∃ t, p1 ≤ t ∧ t ≤ p2 ∧ v = e.travel t) ↔ ∃ u, a ≤ u ∧ u ≤ b ∧ v = e.posLen u) ∧
        e.posLen (if flag then b else a) = e.travel p1 ∧ e.posLen (if flag then a else b) = e.travel p2 := by
  refine ⟨edgeStartPoint_eq h, edgeEndPoint_eq h, ?_, ?_, ?_, ?_⟩
  · rw [← edgeStartPoint_eq h, ← edgeEndPoint_eq h]
    unfold edgeStartEnd edgeStartPoint edgeEndPoint
    cases e.reversed <;> rfl
  · rw [edgeStartParam_eq, pos_fromParam h]
  · rw [edgeEndParam_eq, pos_toParam h]
  · intro p1 p2
    unfold edgeOrientedParam Edge.travel
    cases e.reversed with
    | false => exact ⟨p1, p2, false, rfl, id, rfl, fun v => by simp, by simp, by simp⟩
    | true =>
      refine ⟨1 - p2, 1 - p1, true, rfl, fun h => by linarith, rfl, fun v => ⟨?_, ?_⟩, by simp, by simp⟩
      · rintro ⟨t, h1, h2, rfl⟩
        exact ⟨1 - t, by linarith, by linarith, by simp⟩
      · rintro ⟨u, h1, h2, rfl⟩
        exact ⟨1 - u, by linarith, by linarith, by simp⟩

/-- A straight edge between two points of the plane at a depth. -/
def lineEdge (id : ℕ) (a b : Pt) (z len : ℚ) (reversed : Bool := false) : Edge where
  id := id
  geom := .line
  reversed := reversed
  startPoint := ⟨a.x, a.y, z⟩
  endPoint := ⟨b.x, b.y, z⟩
  posParam := fun p => ⟨a.x + p / len * (b.x - a.x), a.y + p / len * (b.y - a.y), z⟩
  posLen := fun t => ⟨a.x + t * (b.x - a.x), a.y + t * (b.y - a.y), z⟩
  paramAt := fun t => t * len
  length := len

theorem lineEdge_ok {id : ℕ} {a b : Pt} {z len : ℚ} {r : Bool} (h : len ≠ 0) : EdgeOK (lineEdge id a b z len r) := by
  constructor <;> simp [lineEdge, h]

/-- A reversed straight edge is an instance. -/
example : EdgeOK (lineEdge 1 ⟨0, 0⟩ ⟨3, 4⟩ (-1) 5 true) ∧
    edgeStartPoint (lineEdge 1 ⟨0, 0⟩ ⟨3, 4⟩ (-1) 5 true) = ⟨3, 4, -1⟩ := ⟨lineEdge_ok (by norm_num), rfl⟩

/-! ### C29 -/

/-- C29.  Routing a whole edge of a supported kind yields moves along it in travel direction (see `MovesAlong` for
the shapes), at the given feed, connected, from its start to its end, and reports its end. -/
theorem C29_edge (veq : Vec → Vec → Bool) (e : Edge) (h : EdgeOK e) (hr : Routable e) (prec : ℕ) (feed : PyNum) :
    ∃ cs, routeEdge veq e prec none none (some feed) = .ok (cs, e.travel 1) ∧ MovesAlongEdge veq feed e cs ∧
      Connected (.fromVec (e.travel 0)) cs ∧ (∀ x, finalPos x cs = .fromVec (e.travel 1)) ∧ cs ≠ [] ∧
      ∀ c ∈ cs, c.feed = some feed ∧ c.kind.mot ≠ .rapid := by
  obtain ⟨cs, h1, h2⟩ := routeEdge_along (veq := veq) h hr prec none none feed (fun _ => ⟨rfl, rfl⟩)
  have hf := moves_facts h h2
  simp only [Option.getD_none, pos_fromParam h, pos_toParam h] at hf h1
  exact ⟨cs, h1, h2, hf.1, hf.2.1, hf.2.2.1, fun c hc => ⟨(hf.2.2.2 c hc).2.2, (hf.2.2.2 c hc).1⟩⟩

/-- C29, closed circles: if advancing by half the parameter range leads to the opposite point, the two arcs meet at
the point opposite to the start. -/
theorem C29_circle_opposite (veq : Vec → Vec → Bool) (e : Edge) (h : EdgeOK e) (hr : Routable e) (hc : e.circular)
    (hcl : e.closed = true) (hopp : ∀ p, e.posParam (p + (e.paramAt 1 - e.paramAt 0) / 2) =
      (Vec.smul 2 e.center).sub (e.posParam p)) (prec : ℕ) (feed : PyNum) :
    ∃ c1 c2 q, routeEdge veq e prec none none (some feed) = .ok ([c1, c2], e.travel 1) ∧ c1.fin = .fromVec q ∧
      c2.start = .fromVec q ∧ (Vec.smul 2 e.center).sub (e.travel 0) = q ∧ c1.kind = e.travelKind ∧
      c2.kind = e.travelKind ∧ c1.center = .fromVec e.center ∧ c2.center = .fromVec e.center := by
  obtain ⟨cs, h1, h2, -⟩ := C29_edge veq e h hr prec feed
  rcases h2 with ⟨hg, -⟩ | ⟨-, -, c1, c2, rfl, a1, a2⟩ | ⟨-, hf, -⟩ | ⟨hf, -⟩
  · rcases hc with hc | hc <;> rw [hc] at hg <;> cases hg
  · refine ⟨c1, c2, _, h1, a1.2.2.1, a2.2.1, ?_, a1.1, a2.1, a1.2.2.2.2.1, a2.2.2.2.2.1⟩
    have key : (e.fromParam + e.toParam) / 2 = e.paramAt 0 + (e.paramAt 1 - e.paramAt 0) / 2 := by
      unfold Edge.fromParam Edge.toParam
      cases e.reversed <;> simp <;> ring
    rw [key, hopp]
    unfold Edge.travel
    cases hrev : e.reversed with
    | false => simp [h.len0, h.param0]
    | true =>
      have h3 := hopp (e.paramAt 0 + (e.paramAt 1 - e.paramAt 0) / 2)
      rw [hopp (e.paramAt 0)] at h3
      have h4 : e.paramAt 0 + (e.paramAt 1 - e.paramAt 0) / 2 + (e.paramAt 1 - e.paramAt 0) / 2 = e.paramAt 1 := by ring
      rw [h4, h.param1, h.param0] at h3
      have h5 : (Vec.smul 2 e.center).sub ((Vec.smul 2 e.center).sub e.startPoint) = e.startPoint := by
        ext <;> simp [Vec.sub]
      rw [h5] at h3
      simp [h.len1, h3, h.param0]
  · rw [hcl] at hf; cases hf
  · rcases hc with hc | hc <;> rcases hf with hf | hf | hf <;> rw [hc] at hf <;> cases hf

/-- C29: edges of other kinds and circular edges in vertical planes are refused. -/
theorem C29_unsupported (veq : Vec → Vec → Bool) (e : Edge) (prec : ℕ) (sp ep : Option ℚ) (feed : Option PyNum)
    (hr : ¬ Routable e) : routeEdge veq e prec sp ep feed = .error .runtimeError := by
  unfold Routable at hr
  unfold routeEdge routeArc isArcClockwise2
  cases hg : e.geom with
  | other => rfl
  | arc =>
    have : e.normal.z = 0 := by by_contra hz; exact hr ⟨by rw [hg]; decide, fun _ => hz⟩
    simp [this]
  | circle =>
    have : e.normal.z = 0 := by by_contra hz; exact hr ⟨by rw [hg]; decide, fun _ => hz⟩
    simp [this]
  | line => exact absurd ⟨by rw [hg]; decide, fun hc => by rcases hc with hc | hc <;> rw [hg] at hc <;> cases hc⟩ hr
  | bspline => exact absurd ⟨by rw [hg]; decide, fun hc => by rcases hc with hc | hc <;> rw [hg] at hc <;> cases hc⟩ hr
  | spline => exact absurd ⟨by rw [hg]; decide, fun hc => by rcases hc with hc | hc <;> rw [hg] at hc <;> cases hc⟩ hr
  | offset => exact absurd ⟨by rw [hg]; decide, fun hc => by rcases hc with hc | hc <;> rw [hg] at hc <;> cases hc⟩ hr

/-! ### C25 for wires -/

theorem routeEdge_feeds {veq : Vec → Vec → Bool} {e : Edge} {prec : ℕ} {sp ep : Option ℚ} {feed : Option PyNum}
    {cs : List Motion} {v : Vec} (h : routeEdge veq e prec sp ep feed = .ok (cs, v)) :
    ∀ c ∈ cs, c.kind.mot ≠ .rapid := by
  have hpts : ∀ (pos : AddrVec) (vs : List Vec), ∀ c ∈ cutsThroughPoints feed pos vs, c.kind.mot ≠ .rapid := by
    intro pos vs
    induction vs generalizing pos with
    | nil => simp [cutsThroughPoints]
    | cons v vs ih =>
      intro c hc
      rcases List.mem_cons.mp hc with rfl | hc
      · simp [cutAbs, MKind.mot]
      · exact ih _ c hc
  have harc : ∀ {ds}, routeArc veq e sp ep feed = .ok ds → ∀ c ∈ ds, c.kind.mot ≠ .rapid := by
    intro ds hd
    unfold routeArc at hd
    simp only at hd
    cases hcw : isArcClockwise2 e.normal e.reversed with
    | error x => rw [hcw] at hd; cases hd
    | ok b =>
      rw [hcw] at hd
      simp only at hd
      split at hd
      · cases hd
        intro c hc
        simp only [List.mem_cons, List.not_mem_nil, or_false] at hc
        rcases hc with rfl | rfl <;> cases b <;> simp [MKind.mot]
      · split at hd <;> cases hd <;> intro c hc <;> rw [List.mem_singleton] at hc <;> subst hc
        · simp [cutAbs, MKind.mot]
        · cases b <;> simp [MKind.mot]
  unfold routeEdge at h
  simp only at h
  cases hg : e.geom <;> rw [hg] at h <;> simp only at h
  · cases h; simp [cutAbs, MKind.mot]
  · cases ha : routeArc veq e sp ep feed with
    | error x => rw [ha] at h; cases h
    | ok ds => rw [ha] at h; cases h; exact harc ha
  · cases ha : routeArc veq e sp ep feed with
    | error x => rw [ha] at h; cases h
    | ok ds => rw [ha] at h; cases h; exact harc ha
  · cases h; exact hpts _ _
  · cases h; exact hpts _ _
  · cases h; exact hpts _ _
  · cases h

theorem routeEdges_feeds {veq : Vec → Vec → Bool} {j : Job} {es : List Edge} {fin v : Vec} {cs : List Motion}
    (h : routeEdges veq j fin es = .ok (cs, v)) : ∀ c ∈ cs, c.kind.mot ≠ .rapid := by
  induction es generalizing fin cs v with
  | nil => cases h; simp
  | cons e es ih =>
    unfold routeEdges at h
    cases h1 : routeEdge veq e j.precision none none (some j.feed) with
    | error x => rw [h1] at h; cases h
    | ok r =>
      obtain ⟨a, b⟩ := r
      rw [h1] at h
      simp only at h
      cases h2 : routeEdges veq j b es with
      | error x => rw [h2] at h; cases h
      | ok r =>
        obtain ⟨a', b'⟩ := r
        rw [h2] at h
        cases h
        intro c hc
        rcases List.mem_append.mp hc with hc | hc
        · exact routeEdge_feeds h1 c hc
        · exact ih h2 c hc

theorem routeWire_safe {veq : Vec → Vec → Bool} {j : Job} {stepover : Option ℚ} {hit : Option WireHit} {pos : AddrVec}
    {edges : List Edge} {cs : List Motion} {v : Vec} (h : routeWire veq j stepover hit pos edges = .ok (cs, v)) :
    ∀ c ∈ cs, SafeRapid j.rapidHeight (min j.rapidHeight j.opSafeHeight) c := by
  have hfeed : ∀ c : Motion, c.kind.mot ≠ .rapid → SafeRapid j.rapidHeight (min j.rapidHeight j.opSafeHeight) c :=
    fun c hc hk => absurd hk hc
  have hen : ∀ {es app}, enterWire veq j stepover hit pos edges = .ok (es, app) →
      ∀ c ∈ app, SafeRapid j.rapidHeight (min j.rapidHeight j.opSafeHeight) c := by
    intro es app he
    unfold enterWire at he
    cases hl : wireLink stepover hit with
    | some hh =>
      rw [hl] at he
      simp only at he
      cases hs : shiftEdges veq edges hh with
      | error x => rw [hs] at he; cases he
      | ok es' =>
        rw [hs] at he
        cases es' with
        | nil => cases he
        | cons e es' =>
          cases he
          intro c hc
          rw [List.mem_singleton] at hc
          subst hc
          exact hfeed _ (by simp [cutAbs, MKind.mot])
    | none =>
      rw [hl] at he
      cases edges with
      | nil => cases he
      | cons e es' =>
        cases he
        exact rapidTo_safe _ _ _ _ _
  unfold routeWire at h
  cases he : enterWire veq j stepover hit pos edges with
  | error x => rw [he] at h; cases h
  | ok r =>
    obtain ⟨es, app⟩ := r
    rw [he] at h
    cases es with
    | nil => cases h
    | cons e es =>
      simp only at h
      cases h1 : routeEdge veq e j.precision (hit.bind WireHit.param) none (some j.feed) with
      | error x => rw [h1] at h; cases h
      | ok r =>
        obtain ⟨a, b⟩ := r
        rw [h1] at h
        simp only at h
        cases h2 : routeEdges veq j b es with
        | error x => rw [h2] at h; cases h
        | ok r =>
          obtain ⟨a', b'⟩ := r
          rw [h2] at h
          simp only at h
          have hbase : ∀ c ∈ app ++ a ++ a', SafeRapid j.rapidHeight (min j.rapidHeight j.opSafeHeight) c := by
            intro c hc
            rcases List.mem_append.mp hc with hc | hc
            · rcases List.mem_append.mp hc with hc | hc
              · exact hen he c hc
              · exact hfeed c (routeEdge_feeds h1 c hc)
            · exact hfeed c (routeEdges_feeds h2 c hc)
          cases hp : hit.bind WireHit.param with
          | none => rw [hp] at h; cases h; exact hbase
          | some p =>
            rw [hp] at h
            simp only at h
            split at h
            · cases h; exact hbase
            · cases h3 : routeEdge veq e j.precision none (some p) (some j.feed) with
              | error x => rw [h3] at h; cases h
              | ok r =>
                obtain ⟨a'', b''⟩ := r
                rw [h3] at h
                cases h
                intro c hc
                rcases List.mem_append.mp hc with hc | hc
                · exact hbase c hc
                · exact hfeed c (routeEdge_feeds h3 c hc)

/-- C25 for the wire router, whatever the wires and whatever the search for the nearest point answers. -/
theorem C25_wire_rapids_safe {veq : Vec → Vec → Bool} {search : Vec → List Edge → Option WireHit} {j : Job}
    {wires : List (List Edge)} {stepover : Option ℚ} {prev : Option AddrVec} {cs : List Motion}
    (h : routeWires veq search j wires stepover prev = .ok cs) (hh : j.opSafeHeight ≤ j.rapidHeight) :
    ∀ c ∈ cs, SafeRapid j.rapidHeight j.opSafeHeight c := by
  have key : ∀ (ws : List (List Edge)) (acc : List Motion) (pwe : Option Vec) (pos : AddrVec) (cs : List Motion),
      (∀ c ∈ acc, SafeRapid j.rapidHeight (min j.rapidHeight j.opSafeHeight) c) →
      routeWiresFrom veq search j stepover acc pwe pos ws = .ok cs →
      ∀ c ∈ cs, SafeRapid j.rapidHeight (min j.rapidHeight j.opSafeHeight) c := by
    intro ws
    induction ws with
    | nil => intro acc pwe pos cs ha h; cases h; exact ha
    | cons w ws ih =>
      intro acc pwe pos cs ha h
      cases w with
      | nil => cases h; simp
      | cons e es =>
        simp only [routeWiresFrom] at h
        cases h1 : routeWire veq j stepover (pwe.bind (search · (e :: es))) pos (e :: es) with
        | error x => rw [h1] at h; cases h
        | ok r =>
          obtain ⟨ds, fin⟩ := r
          rw [h1] at h
          refine ih _ _ _ _ ?_ h
          intro c hc
          rcases List.mem_append.mp hc with hc | hc
          · exact ha c hc
          · exact routeWire_safe h1 c hc
  have := key wires [] none (prev.getD {}) cs (by simp) h
  rwa [min_eq_right hh] at this

/-! ### C30, C72 -/

/-- What the nearest-point search must satisfy: the reported distance is the distance to the reported point, and a
reported edge is an edge of the wire. -/
def SearchRight (search : Vec → List Edge → Option WireHit) (edges : List Edge) : Prop :=
  ∀ v h, search v edges = some h → 0 ≤ h.dist ∧ match h with
    | .vertex d q => (v.sub q).sq = d * d
    | .edge d e p => e ∈ edges ∧ (v.sub (e.posParam p)).sq = d * d

/-- The wires the router handles correctly: the nearest point is a vertex (if links are enabled: the start of an edge), or it lies inside
an edge that is a line or circular, at a non-zero parameter, and within the stepover. -/
def GoodEntry (veq : Vec → Vec → Bool) (stepover : Option ℚ) (edges : List Edge) : WireHit → Prop
  | .vertex _ q => stepover.isSome → ∃ e ∈ edges, veq (e.travel 0) q = true
  | .edge d e p => ¬ e.free ∧ p ≠ 0 ∧ d ≠ 0 ∧ ∃ s, stepover = some s ∧ s ≠ 0 ∧ d ≤ s

theorem wireLink_some {stepover : Option ℚ} {hit : Option WireHit} {h : WireHit} (hl : wireLink stepover hit = some h) :
    hit = some h ∧ ∃ s, stepover = some s ∧ h.dist ≤ s := by
  unfold wireLink at hl
  cases stepover with
  | none => cases hl
  | some s =>
    cases hit with
    | none => cases hl
    | some h' =>
      simp only at hl
      split at hl
      · rename_i hc; cases hl; exact ⟨rfl, s, rfl, hc.2.2⟩
      · cases hl

/-- One wire. -/
theorem routeWire_good {veq : Vec → Vec → Bool} {search : Vec → List Edge → Option WireHit} {j : Job}
    {stepover : Option ℚ} {pwe : Option Vec} {pos : AddrVec} {edges : List Edge} (h : WireOK edges)
    (hs : SearchRight search edges) (hg : ∀ v h, search v edges = some h → GoodEntry veq stepover edges h)
    (hpos : ∀ v, pwe = some v → pos = .fromVec v) :
    ∃ cs fin, routeWire veq j stepover (pwe.bind (search · edges)) pos edges = .ok (cs, fin) ∧
      (WholeWire veq j.feed stepover edges cs ∨ SplitWire veq j.feed stepover edges cs) ∧
      lastFin pos cs = .fromVec fin ∧
      (Chained edges → (stepover.isSome → Closes edges) → (∀ e ∈ edges, (e.travel 0).z ≤ j.opSafeHeight) →
        Connected pos cs) := by
  have hshort : ∀ {v h}, pwe = some v → search v edges = some h → ∀ s, stepover = some s → h.dist ≤ s → ∀ t,
      (match h with | .vertex _ q => veq t q = true | .edge _ e p => t = e.posParam p) →
      IsShortLink veq j.feed s (cutAbs (.fromVec t) (some pos) (some j.feed)) := by
    intro v h hv hh s hst hd t ht
    obtain ⟨h0, h1⟩ := hs v h hh
    have hle : h.dist * h.dist ≤ s * s := by nlinarith
    refine ⟨rfl, rfl, ?_⟩
    cases h with
    | vertex d q => exact ⟨v, q, t, hpos v hv, rfl, Or.inr ht, by rw [h1]; exact hle⟩
    | edge d e p => exact ⟨v, _, t, hpos v hv, rfl, Or.inl ht, by rw [h1.2]; exact hle⟩
  have whole : (pwe.bind (search · edges)).bind WireHit.param = none → _ := fun hp =>
    routeWire_whole (veq := veq) (j := j) (stepover := stepover) (pos := pos) h hp (by
      intro hh hl
      obtain ⟨h1, s, hst, -⟩ := wireLink_some hl
      obtain ⟨v, hv, h2⟩ := Option.bind_eq_some_iff.mp h1
      have := hg v hh h2
      cases hh with
      | vertex d q =>
        obtain ⟨e, he, hq⟩ := this (by rw [hst]; rfl)
        exact ⟨e, he, d, q, rfl, by rw [edgeStartPoint_eq (h.edgeOK e he)]; exact hq⟩
      | edge d e p => rw [h1] at hp; cases hp)
  cases hp : (pwe.bind (search · edges)).bind WireHit.param with
  | none =>
    obtain ⟨k, a, entry, parts, e, h1, h2, h3, h4, h5⟩ := whole hp
    have hok : ∀ e ∈ rotateEdges k edges, EdgeOK e := fun e he => h.edgeOK e (wireOK_rotate e he)
    refine ⟨_, _, h2, Or.inl ⟨k, entry, parts, rfl, ?_, h3⟩, ?_, ?_⟩
    · rcases h5 with ⟨-, rfl, rfl⟩ | ⟨d, q, hl, hq, rfl⟩
      · exact Or.inl ⟨rapidTo_approach _ _ _ _ _, rfl⟩
      · obtain ⟨g1, s, hst, hd⟩ := wireLink_some hl
        obtain ⟨v, hv, g2⟩ := Option.bind_eq_some_iff.mp g1
        exact Or.inr ⟨_, a, s, rfl, h1, rfl, hst, hshort hv g2 s hst hd _ hq⟩
    · rw [lastFin_eq, finalPos_append, parts_final hok h3 e h4]
    · intro hch hcl hz
      have hahead : (rotateEdges k edges).head? = some a := by
        unfold rotateEdges
        have hk := (List.getElem?_eq_some_iff.mp h1).1
        rw [List.drop_eq_getElem_cons hk, (List.getElem?_eq_some_iff.mp h1).2]; rfl
      rw [connected_append]
      rcases h5 with ⟨-, rfl, rfl⟩ | ⟨d, q, hl, hq, rfl⟩
      · refine ⟨rapidTo_connected .., ?_⟩
        rw [rapidTo_final, min_eq_left (hz a (List.mem_of_getElem? h1))]
        exact parts_connected hok h3 (by simpa [rotateEdges] using hch) a hahead
      · refine ⟨⟨rfl, trivial⟩, ?_⟩
        obtain ⟨-, s, hst, -⟩ := wireLink_some hl
        exact parts_connected hok h3 (chained_rotate hch (hcl (by rw [hst]; rfl)) k) a hahead
  | some p =>
    obtain ⟨hh, h1, h2⟩ := Option.bind_eq_some_iff.mp hp
    obtain ⟨v, hv, h3⟩ := Option.bind_eq_some_iff.mp h1
    have hgood := hg v hh h3
    cases hh with
    | vertex d q => cases h2
    | edge d e p' =>
      cases h2
      obtain ⟨hn, hp0, hd0, s, rfl, hs0, hds⟩ := hgood
      have he := ((hs v _ h3).2).1
      rw [h1]
      obtain ⟨l, r, first, parts, last, g1, g2, g3, g4, g5⟩ := routeWire_split (veq := veq) (j := j)
        (stepover := some s) (pos := pos) h he hp0 hn (d := d) (by
          exact if_pos ⟨hs0, hd0, hds⟩)
      have hmem : ∀ x ∈ r ++ l, x ∈ edges := by
        intro x hx
        rw [g1]
        simp only [List.mem_append, List.mem_cons] at hx ⊢
        tauto
      have f1 := moves_facts (h.edgeOK e he) g3
      have f2 := moves_facts (h.edgeOK e he) g5
      refine ⟨_, _, g2, Or.inr ⟨l, e, r, p, _, s, first, parts, last, g1, rfl, rfl, rfl,
        hshort hv h3 s rfl hds _ rfl, g3, g4, g5⟩, ?_, ?_⟩
      · rw [lastFin_eq]
        simp only [finalPos, finalPos_append]
        exact f2.2.1 _
      · intro hch hcl hz
        have hrot : Chained (e :: (r ++ l)) := by
          have := chained_rotate hch (hcl rfl) l.length
          rw [g1] at this
          simpa [rotateEdges] using this
        have hcle : ∀ b, (e :: (r ++ l)).getLast? = some b → b.travel 1 = e.travel 0 := by
          intro b hb
          have h0 := hch
          have h00 := hcl rfl
          rw [g1] at h0 h00
          cases l with
          | nil => exact h00 e b rfl (by simpa using hb)
          | cons x l =>
            have hb' : (x :: l).getLast? = some b := by
              rw [← List.cons_append, List.getLast?_append] at hb
              rw [List.getLast?_eq_some_getLast (by simp : x :: l ≠ [])] at hb ⊢
              simpa using hb
            exact (chained_append.mp h0).2.2 b e hb' rfl
        refine ⟨rfl, ?_⟩
        rw [connected_append, connected_append]
        refine ⟨⟨f1.1, ?_⟩, ?_⟩
        · rw [f1.2.1, pos_toParam (h.edgeOK e he)]
          cases hrl : r ++ l with
          | nil => rw [hrl] at g4; cases g4; trivial
          | cons b es =>
            rw [hrl] at hrot g4
            rw [hrot.1]
            exact parts_connected (fun x hx => h.edgeOK x (hmem x (by rw [hrl]; exact hx))) g4 hrot.2 b rfl
        · rw [finalPos_append, f1.2.1, pos_toParam (h.edgeOK e he)]
          have hend : finalPos (.fromVec (e.travel 1)) (List.flatten parts) = .fromVec (e.posParam e.fromParam) := by
            rw [pos_fromParam (h.edgeOK e he)]
            cases hrl : r ++ l with
            | nil =>
              rw [hrl] at g4 hcle; cases g4
              simp only [List.flatten_nil, finalPos]
              rw [hcle e rfl]
            | cons b es =>
              rw [hrl] at g4 hcle
              obtain ⟨z, hz'⟩ : ∃ z, (b :: es).getLast? = some z := ⟨_, List.getLast?_eq_some_getLast (by simp)⟩
              rw [parts_final (fun x hx => h.edgeOK x (hmem x (by rw [hrl]; exact hx))) g4 z hz',
                hcle z (by rw [List.getLast?_cons_cons]; exact hz')]
          rw [hend]
          exact f2.1

theorem routeWires_good {veq : Vec → Vec → Bool} {search : Vec → List Edge → Option WireHit} {j : Job}
    {stepover : Option ℚ} {wires : List (List Edge)} (h : ∀ w ∈ wires, WireOK w)
    (hs : ∀ w ∈ wires, SearchRight search w)
    (hg : ∀ w ∈ wires, ∀ v h, search v w = some h → GoodEntry veq stepover w h) (acc : List Motion)
    (pwe : Option Vec) (pos : AddrVec) (hpos : ∀ v, pwe = some v → pos = .fromVec v) :
    ∃ bs, routeWiresFrom veq search j stepover acc pwe pos wires = .ok (acc ++ List.flatten bs) ∧
      List.Forall₂ (fun w b => WholeWire veq j.feed stepover w b ∨ SplitWire veq j.feed stepover w b) wires bs ∧
      ((∀ w ∈ wires, Chained w ∧ (stepover.isSome → Closes w) ∧ ∀ e ∈ w, (e.travel 0).z ≤ j.opSafeHeight) →
        Connected pos (List.flatten bs)) := by
  induction wires generalizing acc pwe pos with
  | nil => exact ⟨[], by simp [routeWiresFrom], .nil, fun _ => trivial⟩
  | cons w ws ih =>
    obtain ⟨cs, fin, h1, h2, h3, h4⟩ := routeWire_good (veq := veq) (j := j) (pwe := pwe) (pos := pos) (h w (by simp))
      (hs w (by simp)) (hg w (by simp)) hpos
    obtain ⟨bs, g1, g2, g3⟩ := ih (fun x hx => h x (by simp [hx])) (fun x hx => hs x (by simp [hx]))
      (fun x hx => hg x (by simp [hx])) (acc ++ cs) (some fin) (lastFin pos cs) (by
        intro v hv; cases hv; exact h3)
    refine ⟨cs :: bs, ?_, .cons h2 g2, ?_⟩
    · obtain ⟨e, es, rfl⟩ := List.exists_cons_of_ne_nil (h w (by simp)).nonempty
      simp only [routeWiresFrom, h1]
      rw [g1, List.flatten_cons, List.append_assoc]
    · intro hall
      have hw := hall w (by simp)
      rw [List.flatten_cons, connected_append]
      refine ⟨h4 hw.1 hw.2.1 hw.2.2, ?_⟩
      rw [← lastFin_eq]
      exact g3 (fun x hx => hall x (by simp [hx]))

/-- C30 (as far as it holds).  For wires on which the nearest-point search only gives good entries, all wires are
routed in order; the moves for each wire are an approach or a link not longer than the stepover, and moves along all
its edges in order (from the entry point once around), and nothing else.  What is missing: see the violations
below. -/
theorem C30_wires_cut_partial (veq : Vec → Vec → Bool) (search : Vec → List Edge → Option WireHit) (j : Job)
    (wires : List (List Edge)) (stepover : Option ℚ) (prev : Option AddrVec) (h : ∀ w ∈ wires, WireOK w)
    (hs : ∀ w ∈ wires, SearchRight search w)
    (hg : ∀ w ∈ wires, ∀ v h, search v w = some h → GoodEntry veq stepover w h) :
    ∃ bs, routeWires veq search j wires stepover prev = .ok (List.flatten bs) ∧
      List.Forall₂ (fun w b => WholeWire veq j.feed stepover w b ∨ SplitWire veq j.feed stepover w b) wires bs := by
  obtain ⟨bs, h1, h2, -⟩ := routeWires_good (veq := veq) (j := j) (stepover := stepover) h hs hg [] none (prev.getD {})
    (by simp)
  exact ⟨bs, by simpa [routeWires] using h1, h2⟩

/-- C72 (as far as it holds).  Under the same conditions, if the edges of each wire follow each other (and close up
when links are enabled) and start below the safe height, every move starts where the previous one ended. -/
theorem C72_wires_connected_partial (veq : Vec → Vec → Bool) (search : Vec → List Edge → Option WireHit) (j : Job)
    (wires : List (List Edge)) (stepover : Option ℚ) (prev : Option AddrVec) (h : ∀ w ∈ wires, WireOK w)
    (hs : ∀ w ∈ wires, SearchRight search w)
    (hg : ∀ w ∈ wires, ∀ v h, search v w = some h → GoodEntry veq stepover w h)
    (hc : ∀ w ∈ wires, Chained w ∧ (stepover.isSome → Closes w) ∧ ∀ e ∈ w, (e.travel 0).z ≤ j.opSafeHeight) :
    ∃ cs, routeWires veq search j wires stepover prev = .ok cs ∧ Connected (prev.getD {}) cs := by
  obtain ⟨bs, h1, -, h3⟩ := routeWires_good (veq := veq) (j := j) (stepover := stepover) h hs hg [] none (prev.getD {})
    (by simp)
  exact ⟨_, by simpa [routeWires] using h1, h3 hc⟩

/-! ### Instances -/

/-- The outline with the given corners at depth `-1`; `ids` and lengths per edge. -/
def outline (l : List (ℕ × Pt × Pt × ℚ)) : List Edge := l.map (fun x => lineEdge x.1 x.2.1 x.2.2.1 (-1) x.2.2.2)

def innerSquare : List Edge := outline [(1, ⟨0, 0⟩, ⟨6, 0⟩, 6), (2, ⟨6, 0⟩, ⟨6, 6⟩, 6), (3, ⟨6, 6⟩, ⟨0, 6⟩, 6), (4, ⟨0, 6⟩, ⟨0, 0⟩, 6)]
def outerSquare : List Edge :=
  outline [(5, ⟨7, -1⟩, ⟨7, 7⟩, 8), (6, ⟨7, 7⟩, ⟨-1, 7⟩, 8), (7, ⟨-1, 7⟩, ⟨-1, -1⟩, 8), (8, ⟨-1, -1⟩, ⟨7, -1⟩, 8)]

/-- Exact equality as `veq`. -/
def exactEq (a b : Vec) : Bool := decide (a = b)

/-- A search that succeeds from one point and for one wire only. -/
def searchAt (v : Vec) (id : ℕ) (h : WireHit) : Vec → List Edge → Option WireHit :=
  fun v' w => if v' = v ∧ w.head?.map Edge.id = some id then some h else none

/-- From the end of the inner square the nearest point of the outer square is `(0, -1)`, inside its last edge. -/
def squaresSearch : Vec → List Edge → Option WireHit :=
  searchAt ⟨0, 0, -1⟩ 5 (.edge 1 (lineEdge 8 ⟨-1, -1⟩ ⟨7, -1⟩ (-1) 8) 1)

theorem outline_ok {l : List (ℕ × Pt × Pt × ℚ)} (h : l ≠ []) (hl : ∀ x ∈ l, x.2.2.2 ≠ 0)
    (hd : l.Pairwise (fun a b => a.1 ≠ b.1)) : WireOK (outline l) where
  nonempty := by simpa [outline] using h
  edgeOK := by
    intro e he
    obtain ⟨x, hx, rfl⟩ := List.mem_map.mp he
    exact lineEdge_ok (hl x hx)
  routable := by
    intro e he
    obtain ⟨x, hx, rfl⟩ := List.mem_map.mp he
    exact ⟨by simp [lineEdge], by simp [Edge.circular, lineEdge]⟩
  distinct := by
    unfold outline
    rw [List.pairwise_map]
    exact hd

theorem searchAt_some {v v' : Vec} {id : ℕ} {h h' : WireHit} {w : List Edge} (hs : searchAt v id h v' w = some h') :
    v' = v ∧ w.head?.map Edge.id = some id ∧ h' = h := by
  unfold searchAt at hs
  split at hs
  · rename_i hc; cases hs; exact ⟨hc.1, hc.2, rfl⟩
  · cases hs

/-- The two squares, linked inside an edge, meet all conditions of `C30_wires_cut_partial` and
`C72_wires_connected_partial`. -/
theorem squares_ok : (∀ w ∈ [innerSquare, outerSquare], WireOK w ∧ SearchRight squaresSearch w ∧
    (∀ v h, squaresSearch v w = some h → GoodEntry exactEq (some 1) w h) ∧ Chained w ∧ Closes w ∧
    ∀ e ∈ w, (e.travel 0).z ≤ demoInit.opSafeHeight) ∧
    squaresSearch ⟨0, 0, -1⟩ outerSquare ≠ none := by
  constructor
  · intro w hw
    simp only [List.mem_cons, List.not_mem_nil, or_false] at hw
    rcases hw with rfl | rfl
    · refine ⟨outline_ok (by decide +kernel) (by decide +kernel) (by decide +kernel), ?_, ?_, ?_, ?_, ?_⟩
      · intro v h hs
        exact absurd (searchAt_some hs).2.1 (by decide +kernel)
      · intro v h hs
        exact absurd (searchAt_some hs).2.1 (by decide +kernel)
      · simp [innerSquare, outline, Chained, Edge.travel, lineEdge]
      · intro a b ha hb
        simp only [innerSquare, outline, List.map_cons, List.map_nil, List.head?_cons, List.getLast?_cons_cons,
          List.getLast?_singleton, Option.some.injEq] at ha hb
        subst ha hb
        simp [Edge.travel, lineEdge]
      · decide +kernel
    · refine ⟨outline_ok (by decide +kernel) (by decide +kernel) (by decide +kernel), ?_, ?_, ?_, ?_, ?_⟩
      · intro v h hs
        obtain ⟨rfl, -, rfl⟩ := searchAt_some hs
        exact ⟨by decide +kernel, by simp [outerSquare, outline], by decide +kernel⟩
      · intro v h hs
        obtain ⟨rfl, -, rfl⟩ := searchAt_some hs
        exact ⟨by simp [Edge.free, lineEdge], by norm_num, by norm_num, 1, rfl, by norm_num, le_refl _⟩
      · norm_num [outerSquare, outline, Chained, Edge.travel, lineEdge]
      · intro a b ha hb
        simp only [outerSquare, outline, List.map_cons, List.map_nil, List.head?_cons, List.getLast?_cons_cons,
          List.getLast?_singleton, Option.some.injEq] at ha hb
        subst ha hb
        norm_num [Edge.travel, lineEdge]
      · decide +kernel
  · simp [squaresSearch, searchAt, outerSquare, outline, lineEdge]

/-! ### Violations -/

/-- No point of the wire is closer to `v` than `d`. -/
def NoCloser (v : Vec) (d : ℚ) (w : List Edge) : Prop :=
  ∀ e ∈ w, ∀ t, 0 ≤ t → t ≤ 1 → d * d ≤ (v.sub (e.travel t)).sq

/-- The point is on the wire. -/
def OnWire (w : List Edge) (v : Vec) : Prop := ∃ e ∈ w, ∃ t, 0 ≤ t ∧ t ≤ 1 ∧ v = e.travel t

def demoTriangle : List Edge := outline [(10, ⟨3, 30⟩, ⟨6, 30⟩, 3), (11, ⟨6, 30⟩, ⟨3, 34⟩, 5), (12, ⟨3, 34⟩, ⟨3, 30⟩, 4)]
def demoSlot : List Edge :=
  outline [(20, ⟨0, 0⟩, ⟨2, 0⟩, 2), (21, ⟨2, 0⟩, ⟨2, 40⟩, 40), (22, ⟨2, 40⟩, ⟨0, 40⟩, 2), (23, ⟨0, 40⟩, ⟨0, 0⟩, 40)]

/-- From the end of the triangle the nearest point of the slot is `(2, 30)`, on its second edge. -/
def slotSearch : Vec → List Edge → Option WireHit :=
  searchAt ⟨3, 30, -1⟩ 20 (.edge 1 (lineEdge 21 ⟨2, 0⟩ ⟨2, 40⟩ (-1) 40) 30)

/-- C30 is false, first defect: two plain outlines, no links (as `profile` calls the router).  The nearest-point
search answers correctly, but the parameter it found on the second edge is used on the first edge although the tool
went to the start of the outline: after the outline is complete, the tool feeds from `(0, 0)` straight to `(30, 0)`,
28 units past the outline. -/
theorem C30_violated_overshoot : ∃ cs : List Motion,
    (∀ w ∈ [demoTriangle, demoSlot], WireOK w ∧ SearchRight slotSearch w) ∧
    (∃ h, slotSearch ⟨3, 30, -1⟩ demoSlot = some h ∧ NoCloser ⟨3, 30, -1⟩ h.dist demoSlot) ∧
    routeWires exactEq slotSearch demoInit [demoTriangle, demoSlot] none none = .ok cs ∧
    ∃ c ∈ cs, c.kind = .cut ∧ c.start = .fromVec ⟨0, 0, -1⟩ ∧ c.fin = .fromVec ⟨30, 0, -1⟩ ∧
      ∀ w ∈ [demoTriangle, demoSlot], ¬ OnWire w ⟨30, 0, -1⟩ := by
  obtain ⟨cs, h1, h2⟩ := ok_mem (r := routeWires exactEq slotSearch demoInit [demoTriangle, demoSlot] none none)
    (c := cutAbs (.fromVec ⟨30, 0, -1⟩) (some (.fromVec ⟨0, 0, -1⟩)) (some demoInit.feed)) (by decide +kernel)
  refine ⟨cs, ?_, ⟨_, rfl, ?_⟩, h1, _, h2, rfl, rfl, rfl, ?_⟩
  · intro w hw
    simp only [List.mem_cons, List.not_mem_nil, or_false] at hw
    rcases hw with rfl | rfl
    · refine ⟨outline_ok (by decide +kernel) (by decide +kernel) (by decide +kernel), ?_⟩
      intro v h hs
      exact absurd (searchAt_some hs).2.1 (by decide +kernel)
    · refine ⟨outline_ok (by decide +kernel) (by decide +kernel) (by decide +kernel), ?_⟩
      intro v h hs
      obtain ⟨rfl, -, rfl⟩ := searchAt_some hs
      exact ⟨by decide +kernel, by simp [demoSlot, outline], by decide +kernel⟩
  · intro e he t h0 h1
    simp only [demoSlot, outline, List.map_cons, List.map_nil, List.mem_cons, List.not_mem_nil, or_false] at he
    rcases he with rfl | rfl | rfl | rfl <;>
      simp [Edge.travel, lineEdge, Vec.sub, Vec.sq, WireHit.dist] <;> nlinarith
  · intro w hw
    simp only [List.mem_cons, List.not_mem_nil, or_false] at hw
    rintro ⟨e, he, t, h0, h1, h⟩
    rcases hw with rfl | rfl
    · simp only [demoTriangle, outline, List.map_cons, List.map_nil, List.mem_cons, List.not_mem_nil, or_false] at he
      rcases he with rfl | rfl | rfl <;> (simp [Edge.travel, lineEdge] at h; try linarith)
    · simp only [demoSlot, outline, List.map_cons, List.map_nil, List.mem_cons, List.not_mem_nil, or_false] at he
      rcases he with rfl | rfl | rfl | rfl <;> (simp [Edge.travel, lineEdge] at h; try linarith)

/-- C30 is false, second defect: one wire without edges throws away the moves of all wires before it. -/
theorem C30_violated_empty (veq : Vec → Vec → Bool) (search : Vec → List Edge → Option WireHit) (stepover : Option ℚ)
    (j : Job) (prev : Option AddrVec) :
    routeWires veq search j [innerSquare, []] stepover prev = .ok [] ∧
      ∃ cs, routeWires veq search j [innerSquare] stepover prev = .ok cs ∧ cs ≠ [] := by
  have hw : WireOK innerSquare := outline_ok (by decide +kernel) (by decide +kernel) (by decide +kernel)
  obtain ⟨k, a, entry, parts, e, h1, h2, h3, h4, -⟩ := routeWire_whole (veq := veq) (j := j) (stepover := stepover)
    (pos := prev.getD {}) (hit := none) hw rfl (by intro h hl; cases stepover <;> cases hl)
  obtain ⟨x, xs, hx⟩ := List.exists_cons_of_ne_nil hw.nonempty
  rw [hx] at h2 ⊢
  refine ⟨by simp [routeWires, routeWiresFrom, h2], entry ++ parts.flatten, by simp only [routeWires, routeWiresFrom, Option.bind_none, h2,
    List.nil_append], ?_⟩
  intro hnil
  have hp : parts.flatten = [] := (List.append_eq_nil_iff.mp hnil).2
  have hok : ∀ e ∈ rotateEdges k innerSquare, EdgeOK e := fun e he => hw.edgeOK e (wireOK_rotate e he)
  generalize rotateEdges k innerSquare = l at h3 h4 hok
  cases h3 with
  | nil => cases h4
  | cons hm _ => exact (moves_facts (hok _ (by simp)) hm).2.2.1 (List.flatten_eq_nil_iff.mp hp _ (by simp))

/-- A parabola from `(0, 0)` over `(5, 4)` to `(10, 0)`. -/
def parabola : Edge where
  id := 30
  geom := .bspline
  startPoint := ⟨0, 0, -1⟩
  endPoint := ⟨10, 0, -1⟩
  posParam := fun t => ⟨10 * t, 16 * t * (1 - t), -1⟩
  posLen := fun t => ⟨10 * t, 16 * t * (1 - t), -1⟩
  paramAt := fun t => t
  length := 13

def parabolaWire : List Edge := [parabola, lineEdge 31 ⟨10, 0⟩ ⟨0, 0⟩ (-1) 10]
def triangleAbove : List Edge := outline [(10, ⟨5, 5⟩, ⟨8, 5⟩, 3), (11, ⟨8, 5⟩, ⟨5, 9⟩, 5), (12, ⟨5, 9⟩, ⟨5, 5⟩, 4)]
def parabolaSearch : Vec → List Edge → Option WireHit := searchAt ⟨5, 5, -1⟩ 30 (.edge 1 parabola (1 / 2))

/-- C30 is false, third defect: a link into a spline.  The tool links to the nearest point `(5, 4)` and from there
feeds straight to the start `(0, 0)` of the spline, a cut far longer than the stepover and off the wire. -/
theorem C30_violated_spline : ∃ cs : List Motion,
    (∀ w ∈ [triangleAbove, parabolaWire], WireOK w ∧ SearchRight parabolaSearch w) ∧
    (∃ h, parabolaSearch ⟨5, 5, -1⟩ parabolaWire = some h ∧ NoCloser ⟨5, 5, -1⟩ h.dist parabolaWire) ∧
    routeWires exactEq parabolaSearch { demoInit with precision := 0 } [triangleAbove, parabolaWire] (some 1) none =
      .ok cs ∧
    ∃ c ∈ cs, c.kind = .cut ∧ c.start = .fromVec ⟨5, 4, -1⟩ ∧ c.fin = .fromVec ⟨0, 0, -1⟩ ∧
      ∀ w ∈ [triangleAbove, parabolaWire], ¬ OnWire w ⟨5 / 2, 2, -1⟩ := by
  obtain ⟨cs, h1, h2⟩ := ok_mem (r := routeWires exactEq parabolaSearch { demoInit with precision := 0 }
    [triangleAbove, parabolaWire] (some 1) none)
    (c := cutAbs (.fromVec ⟨0, 0, -1⟩) (some (.fromVec ⟨5, 4, -1⟩)) (some demoInit.feed)) (by decide +kernel)
  refine ⟨cs, ?_, ⟨_, rfl, ?_⟩, h1, _, h2, rfl, rfl, rfl, ?_⟩
  · intro w hw
    simp only [List.mem_cons, List.not_mem_nil, or_false] at hw
    rcases hw with rfl | rfl
    · refine ⟨outline_ok (by decide +kernel) (by decide +kernel) (by decide +kernel), ?_⟩
      intro v h hs
      exact absurd (searchAt_some hs).2.1 (by decide +kernel)
    · refine ⟨⟨by simp [parabolaWire], ?_, ?_, ?_⟩, ?_⟩
      · intro e he
        simp only [parabolaWire, List.mem_cons, List.not_mem_nil, or_false] at he
        rcases he with rfl | rfl
        · constructor <;> norm_num [parabola]
        · exact lineEdge_ok (by norm_num)
      · intro e he
        simp only [parabolaWire, List.mem_cons, List.not_mem_nil, or_false] at he
        rcases he with rfl | rfl <;> exact ⟨by simp [lineEdge, parabola], by simp [Edge.circular, lineEdge, parabola]⟩
      · simp [parabolaWire, parabola, lineEdge]
      · intro v h hs
        obtain ⟨rfl, -, rfl⟩ := searchAt_some hs
        exact ⟨by decide +kernel, by simp [parabolaWire], by decide +kernel⟩
  · intro e he t h0 h1
    simp only [parabolaWire, List.mem_cons, List.not_mem_nil, or_false] at he
    rcases he with rfl | rfl <;> simp [Edge.travel, lineEdge, parabola, Vec.sub, Vec.sq, WireHit.dist]
    · nlinarith [sq_nonneg (t - 1/2), sq_nonneg ((t - 1/2) * (t - 1/2))]
    · nlinarith [sq_nonneg (5 - (10 - t * 10))]
  · intro w hw
    simp only [List.mem_cons, List.not_mem_nil, or_false] at hw
    rintro ⟨e, he, t, h0, h1, h⟩
    rcases hw with rfl | rfl
    · simp only [triangleAbove, outline, List.map_cons, List.map_nil, List.mem_cons, List.not_mem_nil, or_false] at he
      rcases he with rfl | rfl | rfl <;> (simp [Edge.travel, lineEdge] at h; try linarith)
    · simp only [parabolaWire, List.mem_cons, List.not_mem_nil, or_false] at he
      rcases he with rfl | rfl
      · simp [Edge.travel, parabola] at h
        have : t = 1 / 4 := by linarith
        rw [this] at h
        norm_num at h
      · simp [Edge.travel, lineEdge] at h

/-- The lower half of the circle around `(1, 0)`, from `(0, 0)` to `(2, 0)` counterclockwise (with a rational
parameterisation). -/
def halfCircle : Edge where
  id := 20
  geom := .circle
  startPoint := ⟨0, 0, -1⟩
  endPoint := ⟨2, 0, -1⟩
  posParam := fun s => ⟨1 - ((1 - s) * (1 - s) - s * s) / ((1 - s) * (1 - s) + s * s), -(2 * s * (1 - s)) / ((1 - s) * (1 - s) + s * s), -1⟩
  posLen := fun s => ⟨1 - ((1 - s) * (1 - s) - s * s) / ((1 - s) * (1 - s) + s * s), -(2 * s * (1 - s)) / ((1 - s) * (1 - s) + s * s), -1⟩
  paramAt := fun s => s
  center := ⟨1, 0, -1⟩
  length := 22 / 7

def roundSlot : List Edge :=
  halfCircle :: outline [(21, ⟨2, 0⟩, ⟨2, 40⟩, 40), (22, ⟨2, 40⟩, ⟨0, 40⟩, 2), (23, ⟨0, 40⟩, ⟨0, 0⟩, 40)]

/-- Commands at a position of an output. -/
theorem ok_get {r : Except Err (List Motion)} {k : ℕ} {c d : Motion}
    (h : (match r with | .ok cs => decide (cs[k]? = some c ∧ cs[k + 1]? = some d) | .error _ => false) = true) :
    ∃ cs, r = .ok cs ∧ cs[k]? = some c ∧ cs[k + 1]? = some d := by
  cases r with
  | error x => cases h
  | ok cs => exact ⟨cs, rfl, of_decide_eq_true h⟩

/-- C72 is false: a slot with a round end after another outline.  The tool goes to the start `(0, 0)` of the arc, but
the arc command is built for an arc that starts elsewhere on the circle, so the centre offsets written for it (which
are relative to the start) are wrong. -/
theorem C72_violated : ∃ cs : List Motion,
    (∀ w ∈ [demoTriangle, roundSlot], WireOK w ∧ SearchRight slotSearch w) ∧
    routeWires exactEq slotSearch demoInit [demoTriangle, roundSlot] none none = .ok cs ∧
    ∃ (k : ℕ) (c d : Motion), cs[k]? = some c ∧ cs[k + 1]? = some d ∧ c.fin = .fromVec ⟨0, 0, -1⟩ ∧ d.kind = .ccw ∧
      d.start = .fromVec (halfCircle.posParam 30) ∧ d.start ≠ c.fin := by
  obtain ⟨cs, h1, h2, h3⟩ := ok_get (r := routeWires exactEq slotSearch demoInit [demoTriangle, roundSlot] none none)
    (k := 10) (c := verticalAbs .plungeCut (some (-1)) (some (.fromVec ⟨0, 0, 1⟩)) (some demoInit.plungeFeed))
    (d := { kind := .ccw, start := .fromVec (halfCircle.posParam 30), fin := .fromVec ⟨2, 0, -1⟩,
            feed := some demoInit.feed, center := .fromVec ⟨1, 0, -1⟩,
            mid := .fromVec (halfCircle.posParam (31 / 2)) }) (by decide +kernel)
  refine ⟨cs, ?_, h1, 10, _, _, h2, h3, rfl, rfl, rfl, by decide +kernel⟩
  intro w hw
  simp only [List.mem_cons, List.not_mem_nil, or_false] at hw
  rcases hw with rfl | rfl
  · refine ⟨outline_ok (by decide +kernel) (by decide +kernel) (by decide +kernel), ?_⟩
    intro v h hs
    exact absurd (searchAt_some hs).2.1 (by decide +kernel)
  · have ho : WireOK (outline [(21, ⟨2, 0⟩, ⟨2, 40⟩, 40), (22, ⟨2, 40⟩, ⟨0, 40⟩, 2), (23, ⟨0, 40⟩, ⟨0, 0⟩, 40)]) :=
      outline_ok (by decide +kernel) (by decide +kernel) (by decide +kernel)
    refine ⟨⟨by simp [roundSlot], ?_, ?_, ?_⟩, ?_⟩
    · intro e he
      rcases List.mem_cons.mp he with rfl | he
      · constructor <;> norm_num [halfCircle]
      · exact ho.edgeOK e he
    · intro e he
      rcases List.mem_cons.mp he with rfl | he
      · exact ⟨by simp [halfCircle], by simp [halfCircle]⟩
      · exact ho.routable e he
    · exact List.pairwise_cons.mpr ⟨by decide +kernel, ho.distinct⟩
    · intro v h hs
      obtain ⟨rfl, -, rfl⟩ := searchAt_some hs
      exact ⟨by decide +kernel, by simp [roundSlot, outline], by decide +kernel⟩

end CQ
