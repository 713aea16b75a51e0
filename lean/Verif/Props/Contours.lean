import Verif.Proofs.Routers
import Verif.Props.Program

/-! # C24-C28: approaches and contour routing -/

namespace CQ

/-! ### C24 -/

/-- C24.  The approach to `e`: a retract straight up to the rapid height; an XY rapid at the rapid height, left out
exactly when the tool is known to be above the target; a rapid straight down to the safe height; a feed plunge to
the target exactly if it is below the safe height.  It ends above (at) the target. -/
theorem C24_approach (start : AddrVec) (e : Vec) (rh sh : ℚ) (pf : Option PyNum) :
    ∃ up side down feed, rapidTo start e rh (some sh) pf = [up] ++ side ++ [down] ++ feed ∧
      (up.kind = .retract ∧ up.start = start ∧ up.fin = ⟨start.x, start.y, some rh⟩) ∧
      ((start.x = some e.x ∧ start.y = some e.y) → side = []) ∧
      (¬ (start.x = some e.x ∧ start.y = some e.y) → ∃ c, side = [c] ∧ c.kind = .rapid ∧
        c.start = ⟨start.x, start.y, some rh⟩ ∧ c.fin = ⟨some e.x, some e.y, some rh⟩) ∧
      (down.kind = .plungeRapid ∧ down.start = ⟨some e.x, some e.y, some rh⟩ ∧
        down.fin = ⟨some e.x, some e.y, some sh⟩) ∧
      (e.z < sh → ∃ c, feed = [c] ∧ c.kind = .plungeCut ∧ c.start = ⟨some e.x, some e.y, some sh⟩ ∧
        c.fin = ⟨some e.x, some e.y, some e.z⟩ ∧ c.feed = pf) ∧
      (sh ≤ e.z → feed = []) ∧
      finalPos start (rapidTo start e rh (some sh) pf) = ⟨some e.x, some e.y, some (min e.z sh)⟩ := by
  obtain ⟨up, side, down, feed, h, rfl, hs, rfl, hf⟩ := rapidTo_pieces start e rh sh pf
  refine ⟨_, side, _, feed, h, ⟨rfl, rfl, rfl⟩, ?_, ?_, ⟨rfl, rfl, rfl⟩, ?_, ?_, rapidTo_final ..⟩
  · intro hx
    rcases hs with ⟨-, -, rfl⟩ | ⟨hn, -⟩
    · rfl
    · exact absurd hx hn
  · intro hn
    rcases hs with ⟨hx, hy, -⟩ | ⟨-, rfl⟩
    · exact absurd ⟨hx, hy⟩ hn
    · exact ⟨_, rfl, rfl, rfl, rfl⟩
  · intro hz
    rcases hf with ⟨-, rfl⟩ | ⟨hz', -⟩
    · exact ⟨_, rfl, rfl, rfl, rfl, rfl⟩
    · exact absurd hz (not_lt.mpr hz')
  · intro hz
    rcases hf with ⟨hz', -⟩ | ⟨-, rfl⟩
    · exact absurd hz' (not_lt.mpr hz)
    · rfl

/-- C24 without a safe height: the whole descent from the rapid height is at plunge feed. -/
theorem C24_approach_no_safe_height (start : AddrVec) (e : Vec) (rh : ℚ) (pf : Option PyNum) :
    ∃ pre plunge, rapidTo start e rh none pf = pre ++ [plunge] ∧ Connected start (pre ++ [plunge]) ∧
      (∀ c ∈ pre, SafeRapid rh rh c) ∧ plunge.kind = .plungeCut ∧
      plunge.start = ⟨some e.x, some e.y, some rh⟩ ∧ plunge.fin = .fromVec e ∧ plunge.feed = pf := by
  obtain ⟨up, side, h, rfl, hs⟩ := rapidTo_pieces_none start e rh pf
  refine ⟨_ :: side, _, h, ?_, ?_, rfl, rfl, rfl, rfl⟩
  · rcases hs with ⟨hx, hy, rfl⟩ | ⟨-, rfl⟩
    · simp [Connected, hx, hy]
    · simp [Connected]
  · intro c hc
    rcases List.mem_cons.mp hc with rfl | hc
    · exact fun _ => ⟨fun hl => absurd hl (by simp [Lateral]), rh, rfl, le_rfl⟩
    · rcases hs with ⟨-, -, rfl⟩ | ⟨-, rfl⟩
      · simp at hc
      · rw [List.mem_singleton] at hc
        subst hc
        exact fun _ => ⟨fun _ => ⟨rfl, rfl⟩, rh, rfl, le_rfl⟩

/-! ### C25, C26 -/

theorem routeFace_pieces {j : Job} {stepover : Option ℚ} {pwe : Option Pt} {pos : AddrVec} {f : PathFace}
    {cs : List Motion} {q : Option Pt} (h : routeFace j stepover pwe pos f = .ok (cs, q)) :
    ∃ app ps, cs = app ++ cutsTo j f.depth (finalPos pos app) ps ∧
      ((∃ p, app = [cutTo j f.depth pos p]) ∨
        ∃ p0 : Pt, app = rapidTo pos ⟨p0.x, p0.y, f.depth⟩ j.rapidHeight (some j.opSafeHeight) (some j.plungeFeed)) := by
  have snoc : ∀ (app : List Motion) (ps : List Pt) (p : Pt), app ++ cutsTo j f.depth (lastFin pos app) ps ++
      [cutTo j f.depth (lastFin pos (app ++ cutsTo j f.depth (lastFin pos app) ps)) p] =
      app ++ cutsTo j f.depth (finalPos pos app) (ps ++ [p]) := by
    intro app ps p
    rw [List.append_assoc]
    congr 1
    rw [lastFin_eq, lastFin_eq, finalPos_append]
    generalize finalPos pos app = x
    induction ps generalizing x with
    | nil => rfl
    | cons a ps ih => simp only [cutsTo, List.cons_append]; rw [← ih]; rfl
  unfold routeFace at h
  cases ho : f.outer with
  | nil => rw [ho] at h; cases h
  | cons p0 rest =>
    rw [ho] at h
    simp only at h
    cases hn : nearestTo pwe (p0 :: rest) with
    | error e => rw [hn] at h; cases h
    | ok nearest =>
      rw [hn] at h
      simp only at h
      cases hs : shortLink stepover nearest with
      | none =>
        rw [hs] at h
        cases nearest with
        | none =>
          cases h
          exact ⟨_, rest, by rw [← lastFin_eq]; rfl, Or.inr ⟨p0, rfl⟩⟩
        | some n =>
          cases h
          exact ⟨_, rest ++ [n.point], snoc _ _ _, Or.inr ⟨p0, rfl⟩⟩
      | some m =>
        rw [hs] at h
        cases nearest with
        | none => cases stepover <;> cases hs
        | some n =>
          cases h
          exact ⟨_, _, snoc _ _ _, Or.inl ⟨m.point, rfl⟩⟩

theorem routeFace_connected {j : Job} {stepover : Option ℚ} {pwe : Option Pt} {pos : AddrVec} {f : PathFace}
    {cs : List Motion} {q : Option Pt} (h : routeFace j stepover pwe pos f = .ok (cs, q)) :
    Connected pos cs ∧ ∀ c ∈ cs, SafeRapid j.rapidHeight (min j.rapidHeight j.opSafeHeight) c := by
  obtain ⟨app, ps, rfl, ha⟩ := routeFace_pieces h
  constructor
  · rw [connected_append]
    refine ⟨?_, cutsTo_connected ..⟩
    rcases ha with ⟨p, rfl⟩ | ⟨p0, rfl⟩
    · exact ⟨rfl, trivial⟩
    · exact rapidTo_connected ..
  · intro c hc
    rcases List.mem_append.mp hc with hc | hc
    · rcases ha with ⟨p, rfl⟩ | ⟨p0, rfl⟩
      · rw [List.mem_singleton] at hc
        subst hc
        intro hk; simp [cutTo, cutAbs, MKind.mot] at hk
      · exact rapidTo_safe _ _ _ _ _ c hc
    · intro hk
      rw [(cutsTo_mem hc).1] at hk
      simp [MKind.mot] at hk

theorem routeFaces_ok {j : Job} {stepover : Option ℚ} {faces : List PathFace} {pwe : Option Pt} {pos : AddrVec}
    {cs : List Motion} (h : routeFaces j stepover pwe pos faces = .ok cs) :
    Connected pos cs ∧ ∀ c ∈ cs, SafeRapid j.rapidHeight (min j.rapidHeight j.opSafeHeight) c := by
  induction faces generalizing pwe pos cs with
  | nil => cases h; exact ⟨trivial, by simp⟩
  | cons f fs ih =>
    unfold routeFaces at h
    cases h1 : routeFace j stepover pwe pos f with
    | error e => rw [h1] at h; cases h
    | ok r =>
      obtain ⟨b, q⟩ := r
      rw [h1] at h
      simp only at h
      cases h2 : routeFaces j stepover q (lastFin pos b) fs with
      | error e => rw [h2] at h; cases h
      | ok rest =>
        rw [h2] at h
        cases h
        obtain ⟨g1, g2⟩ := routeFace_connected h1
        obtain ⟨g3, g4⟩ := ih h2
        rw [lastFin_eq] at g3
        refine ⟨connected_append.mpr ⟨g1, g3⟩, ?_⟩
        intro c hc
        rcases List.mem_append.mp hc with hc | hc
        · exact g2 c hc
        · exact g4 c hc

/-- C25 for the contour router (for whole pockets see `C25_pocket`, for the wire router `C25_wire_rapids_safe`): every rapid
that moves sideways does so at the rapid height for its whole length; the others are vertical and, when the rapid height is at least the safe height, never go below the safe height. -/
theorem C25_contour_rapids_safe {j : Job} {faces : List PathFace} {stepover : Option ℚ} {prev : Option AddrVec}
    {cs : List Motion} (h : routePolyfaceOuters j faces stepover prev = .ok cs)
    (hh : j.opSafeHeight ≤ j.rapidHeight) : ∀ c ∈ cs, SafeRapid j.rapidHeight j.opSafeHeight c := by
  have := (routeFaces_ok h).2
  rwa [min_eq_right hh] at this

/-- C26 for one call of the contour router (for whole pockets see `C26_pocket`).  Every move starts where the previous one
ended; the first at the given previous position. -/
theorem C26_contours_connected {j : Job} {faces : List PathFace} {stepover : Option ℚ} {prev : Option AddrVec}
    {cs : List Motion} (h : routePolyfaceOuters j faces stepover prev = .ok cs) : Connected (prev.getD {}) cs :=
  (routeFaces_ok h).1

/-! ### C27 -/

theorem block_cuts {j : Job} {stepover : Option ℚ} {pwe : Option Pt} {pos : AddrVec} {f : PathFace} {b : List Motion}
    {q : Pt} (hf : FaceOK j f) (h : FaceBlock j stepover pwe pos f b q) :
    ∃ pre cuts post, b = pre ++ cuts ++ post ∧ CutsContour f.depth j.feed f.outer cuts ∧
      ∀ s ∈ segments f.outer, ∀ q, OnSegment s.1 s.2 q → ∃ c ∈ cuts, CutsThrough f.depth q c := by
  cases h with
  | first p0 rest cuts ho hp hc =>
    refine ⟨_, cuts, [], (List.append_nil _).symm, Or.inl ⟨p0, rest, ho, hc⟩, ?_⟩
    rintro ⟨a, b⟩ hs q hq
    rw [ho] at hs
    exact cutsAlong_covers hc hs hq
  | far e p0 rest n cuts chord hp hs ho hb hc hl =>
    refine ⟨_, cuts, [chord], rfl, Or.inl ⟨p0, rest, ho, hc⟩, ?_⟩
    rintro ⟨a, b⟩ hs q hq
    rw [ho] at hs
    exact cutsAlong_covers hc hs hq
  | link e n s cuts hp hs hb h0 hd hc =>
    obtain ⟨a, b, g1, g2⟩ := hb.at_index
    have hon : OnSegment a b n.point := ⟨n.param, hb.param0, hb.param1, g2⟩
    refine ⟨[_], cuts, [], by simp; rfl, Or.inr ⟨n.index, a, b, n.point, g1, hon, hc⟩, ?_⟩
    rintro ⟨a', b'⟩ hs q hq
    have hlen : 2 ≤ f.outer.length := by
      rw [segments_get] at g1
      have := (List.getElem?_eq_some_iff.mp g1.2).1
      omega
    obtain ⟨v, mid, hform⟩ := closed_form hf.closed hlen
    have hk : n.index ≤ mid.length := by
      have := (List.getElem?_eq_some_iff.mp g1).1
      rw [segments_length, hform] at this
      simp at this
      omega
    rw [hform] at hs hc g1
    obtain ⟨x, y, h1, h2⟩ := around_covers hk ⟨a, b, g1, hon⟩ hs hq
    exact cutsAlong_covers hc h1 h2

/-- C27.  Contours that are closed, without repeated points and below the safe height are all routed, one block of
commands per contour in the given order; each block contains cuts at the contour's depth that go once around the
contour segment by segment, so that every point of the contour is passed. -/
theorem C27_contours_cut (j : Job) (faces : List PathFace) (stepover : Option ℚ) (prev : Option AddrVec)
    (hf : ∀ f ∈ faces, FaceOK j f) :
    ∃ bs, routePolyfaceOuters j faces stepover prev = .ok bs.flatten ∧
      List.Forall₂ (fun f b => ∃ pre cuts post, b = pre ++ cuts ++ post ∧
        CutsContour f.depth j.feed f.outer cuts ∧
        ∀ s ∈ segments f.outer, ∀ q, OnSegment s.1 s.2 q → ∃ c ∈ cuts, CutsThrough f.depth q c) faces bs := by
  obtain ⟨bs, h1, h2⟩ := routeFaces_blocks (stepover := stepover) hf none (prev.getD {})
  refine ⟨bs, h1, ?_⟩
  clear h1
  generalize none = pwe at h2
  generalize prev.getD {} = pos at h2
  induction h2 with
  | nil => exact .nil
  | cons hb t ih => exact .cons (block_cuts (hf _ (by simp)) hb) (ih (fun g hg => hf g (by simp [hg])))

/-- Two nested squares at depth -2 meet the hypotheses. -/
def square (a b d : ℚ) : PathFace := ⟨[⟨a, a⟩, ⟨b, a⟩, ⟨b, b⟩, ⟨a, b⟩, ⟨a, a⟩], [], d⟩

theorem square_ok {j : Job} {a b d : ℚ} (h : a ≠ b) (hd : d < j.opSafeHeight) : FaceOK j (square a b d) := by
  refine ⟨⟨by simp [square], rfl⟩, ?_, hd⟩
  intro s hs
  simp only [square, segments, List.mem_cons, List.not_mem_nil, or_false] at hs
  rcases hs with rfl | rfl | rfl | rfl <;> simp [h, h.symm]

example : ∀ f ∈ [square 4 6 (-2), square 3 7 (-2)], FaceOK demoInit f := by
  intro f hf
  simp only [List.mem_cons, List.not_mem_nil, or_false] at hf
  rcases hf with rfl | rfl <;> exact square_ok (by norm_num) (by decide +kernel)

/-- The same list, routed with and without stepover, meets the hypotheses of C25 and C26. -/
example (s : Option ℚ) : demoInit.opSafeHeight ≤ demoInit.rapidHeight ∧
    ∃ cs, routePolyfaceOuters demoInit [square 4 6 (-2), square 3 7 (-2)] s none = .ok cs := by
  refine ⟨by decide +kernel, ?_⟩
  obtain ⟨bs, h, -⟩ := C27_contours_cut demoInit [square 4 6 (-2), square 3 7 (-2)] s none (by
    intro f hf
    simp only [List.mem_cons, List.not_mem_nil, or_false] at hf
    rcases hf with rfl | rfl <;> exact square_ok (by norm_num) (by decide +kernel))
  exact ⟨_, h⟩

/-! ### C28 -/

/-- The feed moves of one block. -/
def FeedsOf (stepover : Option ℚ) (prev : Option (PathFace × Pt)) (f : PathFace) (c : Motion) : Prop :=
  IsPlunge c ∨ CutsOnContour f c ∨
    (∃ g p s, prev = some (g, p) ∧ stepover = some s ∧ Links g f s c) ∨
    ∃ g p n, prev = some (g, p) ∧ (∀ q, OnPath f.outer q → sqDist p n ≤ sqDist p q) ∧ OnPath f.outer n ∧
      (∀ s, stepover = some s → s = 0 ∨ sqDist p n = 0 ∨ s < sqDist p n) ∧
      ∃ l, f.outer.getLast? = some l ∧ c.kind = .cut ∧ c.start = l.at f.depth ∧ c.fin = n.at f.depth

theorem onSegment_left (a b : Pt) : OnSegment a b a := ⟨0, le_rfl, by norm_num, by simp [Pt.lerp]⟩
theorem onSegment_right (a b : Pt) : OnSegment a b b := ⟨1, by norm_num, le_rfl, by ext <;> simp [Pt.lerp]⟩

theorem cutsAlong_mem {d : ℚ} {f : PyNum} {p : Pt} {ps : List Pt} {cs : List Motion} (h : CutsAlong d f p ps cs)
    {c : Motion} (hc : c ∈ cs) : c.kind = .cut ∧ ∃ s ∈ segments (p :: ps), c.start = s.1.at d ∧ c.fin = s.2.at d := by
  induction ps generalizing p cs with
  | nil => cases cs with
    | nil => simp at hc
    | cons c cs => exact h.elim
  | cons q ps ih => cases cs with
    | nil => exact h.elim
    | cons c' cs =>
      rcases List.mem_cons.mp hc with rfl | hc
      · exact ⟨h.1.1, (p, q), by simp [segments], h.1.2.1, h.1.2.2.1⟩
      · obtain ⟨h1, s, h2, h3⟩ := ih h.2 hc
        exact ⟨h1, s, by simp [segments, h2], h3⟩

/-- Every segment of the walk once around lies on a segment of the contour. -/
theorem around_segments {v : Pt} {mid : List Pt} {k : ℕ} {c : Pt} (hk : k ≤ mid.length)
    (hc : ∃ a b, (segments (v :: (mid ++ [v])))[k]? = some (a, b) ∧ OnSegment a b c) :
    ∀ s ∈ segments (c :: around (v :: (mid ++ [v])) k c), ∃ t ∈ segments (v :: (mid ++ [v])),
      OnSegment t.1 t.2 s.1 ∧ OnSegment t.1 t.2 s.2 := by
  rw [around_form v mid k c hk]
  obtain ⟨l, r, rfl, rfl⟩ : ∃ l r, mid = l ++ r ∧ l.length = k :=
    ⟨mid.take k, mid.drop k, (List.take_append_drop k mid).symm, by simp [hk]⟩
  simp only [List.drop_left, List.take_left]
  obtain ⟨x, y, hxy, hcxy⟩ := hc
  have hmem : (x, y) ∈ segments (v :: (l ++ r ++ [v])) := List.mem_of_getElem? hxy
  rw [segments_get] at hxy
  obtain ⟨w, r', hr⟩ : ∃ w r', r ++ [v] = w :: r' := by
    cases r with
    | nil => exact ⟨v, [], rfl⟩
    | cons w r => exact ⟨w, r ++ [v], rfl⟩
  obtain ⟨l', u, hl⟩ : ∃ l' u, v :: l = l' ++ [u] :=
    ⟨(v :: l).dropLast, (v :: l).getLast (by simp), (List.dropLast_append_getLast _).symm⟩
  have hl' : l'.length = l.length := by
    have := congrArg List.length hl; simp at this; omega
  have hpath : v :: ((l ++ r) ++ [v]) = l' ++ u :: w :: r' := by
    rw [List.append_assoc, hr, ← List.cons_append, hl]; simp
  have hx : x = u := by
    have h1 := hxy.1
    rw [hpath, ← hl', List.getElem?_append_right le_rfl] at h1
    simpa using h1.symm
  have hy : y = w := by
    have h1 := hxy.2
    rw [hpath, ← hl', List.getElem?_append_right (by omega)] at h1
    simpa using h1.symm
  subst hx hy
  have hseg : segments (c :: (r ++ v :: l ++ [c])) = (c, y) :: (segments (y :: r') ++ segments (l' ++ [x]) ++ [(x, c)]) := by
    have e1 : c :: (r ++ v :: l ++ [c]) = (c :: r) ++ v :: (l ++ [c]) := by simp
    have e2 : v :: (l ++ [c]) = l' ++ [x, c] := by
      rw [← List.cons_append, hl]; simp
    have e3 : (c :: r) ++ [v] = c :: y :: r' := by rw [List.cons_append, hr]
    rw [e1, segments_append, e2, e3, segments_snoc]
    simp [segments]
  rw [hseg]
  intro s hs
  have hall : segments (v :: (l ++ r ++ [v])) = segments (l' ++ [x]) ++ (x, y) :: segments (y :: r') := by
    rw [hpath, segments_append]; rfl
  simp only [List.mem_cons, List.mem_append, List.not_mem_nil, or_false] at hs
  rcases hs with rfl | (hs | hs) | rfl
  · exact ⟨(x, y), hmem, hcxy, onSegment_right x y⟩
  · exact ⟨s, by rw [hall]; simp [hs], onSegment_left _ _, onSegment_right _ _⟩
  · exact ⟨s, by rw [hall]; simp [hs], onSegment_left _ _, onSegment_right _ _⟩
  · exact ⟨(x, y), hmem, onSegment_left x y, hcxy⟩

theorem best_onPath {e : Pt} {path : List Pt} {n : Nearest} (hb : BestOf e (segments path) n) :
    OnPath path n.point := by
  obtain ⟨a, b, g1, g2⟩ := hb.at_index
  exact Or.inr ⟨(a, b), List.mem_of_getElem? g1, n.param, hb.param0, hb.param1, g2⟩

theorem best_min {e : Pt} {path : List Pt} {n : Nearest} (hb : BestOf e (segments path) n) {q : Pt}
    (hq : OnPath path q) : sqDist e n.point ≤ sqDist e q := by
  rw [← hb.dist]
  rcases hq with hq | ⟨s, hs, hq⟩
  · -- a vertex lies on a segment, as the path has one
    obtain ⟨k, hk⟩ := List.getElem?_of_mem hq
    have hlen : n.index < (segments path).length := by
      obtain ⟨a, b, g1, -⟩ := hb.at_index
      exact (List.getElem?_eq_some_iff.mp g1).1
    rw [segments_length] at hlen
    have hk' := (List.getElem?_eq_some_iff.mp hk).1
    by_cases hlast : k + 1 < path.length
    · have h1 : (segments path)[k]? = some (q, path[k + 1]) := segments_get.mpr ⟨hk, List.getElem?_eq_getElem hlast⟩
      exact hb.min _ _ _ h1 q (onSegment_left _ _)
    · obtain ⟨m, rfl⟩ : ∃ m, k = m + 1 := ⟨k - 1, by omega⟩
      have h1 : (segments path)[m]? = some (path[m], q) :=
        segments_get.mpr ⟨List.getElem?_eq_getElem (by omega), hk⟩
      exact hb.min _ _ _ h1 q (onSegment_right _ _)
  · obtain ⟨k, hk⟩ := List.getElem?_of_mem hs
    exact hb.min k s.1 s.2 hk q hq

theorem rapidTo_feeds (start : AddrVec) (e : Vec) (rh sh : ℚ) (pf : Option PyNum) :
    ∀ c ∈ rapidTo start e rh (some sh) pf, c.kind.mot ≠ .rapid → IsPlunge c ∧ c.feed = pf ∧
      c.start = ⟨some e.x, some e.y, some sh⟩ ∧ c.fin = ⟨some e.x, some e.y, some e.z⟩ := by
  obtain ⟨up, side, down, feed, h, rfl, hs, rfl, hf⟩ := rapidTo_pieces start e rh sh pf
  rw [h]
  intro c hc hk
  simp only [List.mem_append, List.mem_singleton] at hc
  rcases hc with ((rfl | hc) | rfl) | hc
  · exact absurd rfl hk
  · rcases hs with ⟨-, -, rfl⟩ | ⟨-, rfl⟩
    · simp at hc
    · rw [List.mem_singleton] at hc
      subst hc
      exact absurd rfl hk
  · exact absurd rfl hk
  · rcases hf with ⟨-, rfl⟩ | ⟨-, rfl⟩
    · rw [List.mem_singleton] at hc
      subst hc
      exact ⟨⟨rfl, by simp [Lateral, AddrVec.fromVec]⟩, rfl, rfl, rfl⟩
    · simp at hc

/-- Position of the previous contour's end, as the router knows it. -/
def PrevOK (pwe : Option Pt) (pos : AddrVec) (prev : Option (PathFace × Pt)) : Prop :=
  match pwe, prev with
  | none, none => True
  | some e, some (g, p) => e = p ∧ pos = p.at g.depth ∧ OnPath g.outer p
  | _, _ => False

theorem block_feeds {j : Job} {stepover : Option ℚ} {pwe : Option Pt} {pos : AddrVec} {f : PathFace} {b : List Motion}
    {q : Pt} {prev : Option (PathFace × Pt)} (hf : FaceOK j f) (hprev : PrevOK pwe pos prev)
    (h : FaceBlock j stepover pwe pos f b q) :
    (∀ c ∈ b, c.kind.mot ≠ .rapid → FeedsOf stepover prev f c) ∧ OnPath f.outer q := by
  have hcon : ∀ {p0 rest cuts}, f.outer = p0 :: rest → CutsAlong f.depth j.feed p0 rest cuts →
      ∀ c ∈ cuts, FeedsOf stepover prev f c := by
    intro p0 rest cuts ho hc c hm
    obtain ⟨hk, s, hs, h1, h2⟩ := cutsAlong_mem hc hm
    exact Or.inr (Or.inl ⟨hk, s, by rw [ho]; exact hs, s.1, s.2, onSegment_left _ _, onSegment_right _ _, h1, h2⟩)
  cases h with
  | first p0 rest cuts ho hp hc =>
    refine ⟨?_, ?_⟩
    · intro c hm hk
      rcases List.mem_append.mp hm with hm | hm
      · exact Or.inl (rapidTo_feeds _ _ _ _ _ c hm hk).1
      · exact hcon ho hc c hm
    · left; rw [ho]; exact List.getLast_mem _
  | far e p0 rest n cuts chord hp hs ho hb hc hl =>
    refine ⟨?_, best_onPath hb⟩
    intro c hm hk
    rcases List.mem_append.mp hm with hm | hm
    · rcases List.mem_append.mp hm with hm | hm
      · exact Or.inl (rapidTo_feeds _ _ _ _ _ c hm hk).1
      · exact hcon ho hc c hm
    · rw [List.mem_singleton] at hm
      subst hm hp
      cases prev with
      | none => exact hprev.elim
      | some gp =>
        obtain ⟨g, p⟩ := gp
        obtain ⟨rfl, h2, h3⟩ := hprev
        refine Or.inr (Or.inr (Or.inr ⟨g, e, n.point, rfl, fun q hq => best_min hb hq, best_onPath hb, ?_, _, ?_,
          hl.1.1, hl.1.2.1, hl.1.2.2.1⟩))
        · rw [← hb.dist]; exact hs
        · rw [ho]; exact List.getLast?_eq_some_getLast _
  | link e n s cuts hp hs hb h0 hd hc =>
    refine ⟨?_, best_onPath hb⟩
    obtain ⟨a, b, g1, g2⟩ := hb.at_index
    have hon : OnSegment a b n.point := ⟨n.param, hb.param0, hb.param1, g2⟩
    have hlen : 2 ≤ f.outer.length := by
      rw [segments_get] at g1
      have := (List.getElem?_eq_some_iff.mp g1.2).1
      omega
    obtain ⟨v, mid, hform⟩ := closed_form hf.closed hlen
    have hkk : n.index ≤ mid.length := by
      have := (List.getElem?_eq_some_iff.mp g1).1
      rw [segments_length, hform] at this
      simp at this
      omega
    intro c hm hk
    rcases List.mem_cons.mp hm with rfl | hm
    · subst hp hs
      cases prev with
      | none => exact hprev.elim
      | some gp =>
        obtain ⟨g, p⟩ := gp
        obtain ⟨rfl, h2, h3⟩ := hprev
        refine Or.inr (Or.inr (Or.inl ⟨g, e, s, rfl, rfl, rfl, e, n.point, h3, best_onPath hb, h2, rfl, ?_⟩))
        rw [← hb.dist]; exact hd
    · obtain ⟨hk', s', hs', h1, h2⟩ := cutsAlong_mem hc hm
      rw [hform] at hs' g1
      obtain ⟨t, ht, h3, h4⟩ := around_segments hkk ⟨a, b, g1, hon⟩ s' hs'
      exact Or.inr (Or.inl ⟨hk', t, by rw [hform]; exact ht, s'.1, s'.2, h3, h4, h1, h2⟩)

/-- The contours with their predecessors. -/
def withPrev (prev : Option PathFace) : List PathFace → List (Option PathFace × PathFace)
  | [] => []
  | f :: fs => (prev, f) :: withPrev (some f) fs

/-- C28 (as far as it holds).  Every feed move in the block of a contour `f` is a vertical plunge, lies on one segment
of `f` at its depth, or starts at a point `p` of the previous contour and links to a point of `f` with *squared*
length at most the stepover, or - and this is what is wrong besides the squaring - is a closing cut from the last
vertex of `f` across to the point of `f` nearest to where the previous contour ended; this closing cut is made
exactly when the previous contour was too far away to be linked (or touches).  See `C28_violated_link` and
`C28_violated_chord`. -/
theorem C28_feed_moves_partial (j : Job) (faces : List PathFace) (stepover : Option ℚ) (prev : Option AddrVec)
    (hf : ∀ f ∈ faces, FaceOK j f) :
    ∃ bs, routePolyfaceOuters j faces stepover prev = .ok bs.flatten ∧
      List.Forall₂ (fun gf b => ∀ c ∈ b, c.kind.mot ≠ .rapid → ∃ e : Option (PathFace × Pt),
        e.map Prod.fst = gf.1 ∧ (∀ x ∈ e, OnPath x.1.outer x.2) ∧ FeedsOf stepover e gf.2 c)
        (withPrev none faces) bs := by
  obtain ⟨bs, h1, h2⟩ := routeFaces_blocks (stepover := stepover) hf none (prev.getD {})
  refine ⟨bs, h1, ?_⟩
  clear h1
  have : ∀ {pwe pos faces bs} (e : Option (PathFace × Pt)), (∀ f ∈ faces, FaceOK j f) →
      FaceBlocks j stepover pwe pos faces bs → PrevOK pwe pos e →
      List.Forall₂ (fun gf b => ∀ c ∈ b, c.kind.mot ≠ .rapid → ∃ e : Option (PathFace × Pt),
        e.map Prod.fst = gf.1 ∧ (∀ x ∈ e, OnPath x.1.outer x.2) ∧ FeedsOf stepover e gf.2 c)
        (withPrev (e.map Prod.fst) faces) bs := by
    intro pwe pos faces bs e hf h he
    induction h generalizing e with
    | nil => exact .nil
    | @cons pwe pos f fs b bs q hb t ih =>
      obtain ⟨h3, h4⟩ := block_feeds (hf _ (by simp)) he hb
      refine .cons ?_ (ih (some (f, q)) (fun g hg => hf g (by simp [hg])) ⟨rfl, rfl, h4⟩)
      intro c hc hk
      refine ⟨e, rfl, ?_, h3 c hc hk⟩
      intro x hx
      cases e with
      | none => simp at hx
      | some gp =>
        simp only [Option.mem_def, Option.some.injEq] at hx
        subst hx
        cases pwe with
        | none => exact he.elim
        | some p => exact he.1 ▸ he.2.2
  exact this none hf h2 trivial

/-- The coordinates of the points of an axis-parallel or other segment lie between those of its ends. -/
theorem onSegment_between {a b p : Pt} (h : OnSegment a b p) :
    (min a.x b.x ≤ p.x ∧ p.x ≤ max a.x b.x) ∧ min a.y b.y ≤ p.y ∧ p.y ≤ max a.y b.y := by
  obtain ⟨t, h0, h1, rfl⟩ := h
  have aux : ∀ u v : ℚ, min u v ≤ u + t * (v - u) ∧ u + t * (v - u) ≤ max u v := by
    intro u v
    rcases le_total u v with h | h
    · rw [min_eq_left h, max_eq_right h]; constructor <;> nlinarith
    · rw [min_eq_right h, max_eq_left h]; constructor <;> nlinarith
  exact ⟨aux _ _, aux _ _⟩

/-- The boundary of a square. -/
theorem onPath_square {a b d : ℚ} {p : Pt} (hp : OnPath (square a b d).outer p) :
    p.x = a ∨ p.x = b ∨ p.y = a ∨ p.y = b := by
  rcases hp with hp | ⟨s, hs, hp⟩
  · simp only [square, List.mem_cons, List.not_mem_nil, or_false] at hp
    rcases hp with rfl | rfl | rfl | rfl | rfl <;> simp
  · simp only [square, segments, List.mem_cons, List.not_mem_nil, or_false] at hs
    rcases hs with rfl | rfl | rfl | rfl <;> have := onSegment_between hp <;>
      simp only [min_self, max_self] at this
    · exact Or.inr (Or.inr (Or.inl (le_antisymm this.2.2 this.2.1)))
    · exact Or.inr (Or.inl (le_antisymm this.1.2 this.1.1))
    · exact Or.inr (Or.inr (Or.inr (le_antisymm this.2.2 this.2.1)))
    · exact Or.inl (le_antisymm this.1.2 this.1.1)

/-- For concrete tool paths. -/
theorem ok_mem {r : Except Err (List Motion)} {c : Motion}
    (h : (match r with | .ok cs => decide (c ∈ cs) | .error _ => false) = true) : ∃ cs, r = .ok cs ∧ c ∈ cs := by
  cases r with
  | error e => simp at h
  | ok cs => exact ⟨cs, rfl, by simpa using h⟩

/-- C28 is false, first defect (squared distance compared with the stepover): with stepover 1/4 the router cuts a
link of length 9/20, from the inner square to the outer one. -/
theorem C28_violated_link : ∃ cs : List Motion,
    (∀ f ∈ [square 4 6 (-2), square (71/20) (129/20) (-2)], FaceOK demoInit f) ∧
    routePolyfaceOuters demoInit [square 4 6 (-2), square (71/20) (129/20) (-2)] (some (1/4)) none = .ok cs ∧
    ∃ c ∈ cs, c.kind = .cut ∧ ∃ p q : Pt, c.start = p.at (-2) ∧ c.fin = q.at (-2) ∧
      (1/4 : ℚ) * (1/4) < sqDist p q ∧ sqDist p q = (9/20) * (9/20) ∧
      ∀ f ∈ [square 4 6 (-2), square (71/20) (129/20) (-2)], ¬ (OnPath f.outer p ∧ OnPath f.outer q) := by
  obtain ⟨cs, h1, h2⟩ := ok_mem (r := routePolyfaceOuters demoInit
    [square 4 6 (-2), square (71/20) (129/20) (-2)] (some (1/4)) none)
    (c := cutTo demoInit (-2) ((⟨4, 4⟩ : Pt).at (-2)) ⟨4, 71/20⟩) (by decide +kernel)
  refine ⟨cs, ?_, h1, _, h2, rfl,
    ⟨4, 4⟩, ⟨4, 71/20⟩, rfl, rfl, by decide +kernel, by decide +kernel, ?_⟩
  · intro f hf
    simp only [List.mem_cons, List.not_mem_nil, or_false] at hf
    rcases hf with rfl | rfl <;> exact square_ok (by norm_num) (by decide +kernel)
  · intro f hf
    simp only [List.mem_cons, List.not_mem_nil, or_false] at hf
    rcases hf with rfl | rfl <;> rintro ⟨h1, h2⟩
    · -- the end of the link is outside the inner square
      rcases h2 with h2 | ⟨s, hs, h2⟩
      · revert h2; decide +kernel
      · simp only [square, segments, List.mem_cons, List.not_mem_nil, or_false] at hs
        have h3 := (onSegment_between h2).2.1
        rcases hs with rfl | rfl | rfl | rfl <;> norm_num at h3
    · have := onPath_square h1
      norm_num at this

/-- A pocket with an island in the middle. -/
def islandFace : PathFace := { square 0 10 (-2) with inners := [(square 4 6 (-2)).outer] }

/-- C28 is false, second defect (closing cut to the point nearest the previous contour): the contour of the
second face does not touch its island, but after going around it the router cuts diagonally across the face, right
through the island. -/
theorem C28_violated_chord : ∃ cs : List Motion,
    (∀ f ∈ [square 20 22 (-2), islandFace], FaceOK demoInit f) ∧
    routePolyfaceOuters demoInit [square 20 22 (-2), islandFace] (some 1) none = .ok cs ∧
    ∃ c ∈ cs, CutsThrough (-2) ⟨5, 5⟩ c ∧ c.kind = .cut ∧ c.start = (⟨0, 0⟩ : Pt).at (-2) ∧
      c.fin = (⟨10, 10⟩ : Pt).at (-2) ∧ ∀ f ∈ [square 20 22 (-2), islandFace], ¬ OnPath f.outer ⟨5, 5⟩ := by
  obtain ⟨cs, h1, h2⟩ := ok_mem (r := routePolyfaceOuters demoInit [square 20 22 (-2), islandFace] (some 1) none)
    (c := cutTo demoInit (-2) ((⟨0, 0⟩ : Pt).at (-2)) ⟨10, 10⟩) (by decide +kernel)
  refine ⟨cs, ?_, h1, _, h2, ?_, rfl, rfl, rfl, ?_⟩
  · intro f hf
    simp only [List.mem_cons, List.not_mem_nil, or_false] at hf
    rcases hf with rfl | rfl
    · exact square_ok (by norm_num) (by decide +kernel)
    · have := square_ok (j := demoInit) (a := 0) (b := 10) (d := -2) (by norm_num) (by decide +kernel)
      exact ⟨this.closed, this.distinct, this.below⟩
  · exact ⟨rfl, ⟨0, 0⟩, ⟨10, 10⟩, rfl, rfl, 1/2, by norm_num, by norm_num, by ext <;> norm_num [Pt.lerp]⟩
  · intro f hf
    simp only [List.mem_cons, List.not_mem_nil, or_false] at hf
    rcases hf with rfl | rfl <;> intro h
    · have := onPath_square h
      norm_num at this
    · have := onPath_square (a := 0) (b := 10) (d := -2) h
      norm_num at this

end CQ
