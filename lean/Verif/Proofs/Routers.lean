import Verif.Model.Routers
import Verif.Spec.Contour
import Verif.Proofs.Geometry

/-! # Lemmas about approaches and contours -/

namespace CQ

theorem connected_append {p : AddrVec} {a b : List Motion} :
    Connected p (a ++ b) ↔ Connected p a ∧ Connected (finalPos p a) b := by
  induction a generalizing p with
  | nil => simp [Connected, finalPos]
  | cons c cs ih => simp only [List.cons_append, Connected, finalPos, ih, and_assoc]

theorem finalPos_append (p : AddrVec) (a b : List Motion) : finalPos p (a ++ b) = finalPos (finalPos p a) b := by
  induction a generalizing p with
  | nil => rfl
  | cons c cs ih => exact ih _

theorem lastFin_eq (p : AddrVec) (cs : List Motion) : lastFin p cs = finalPos p cs := by
  induction cs generalizing p with
  | nil => rfl
  | cons c cs ih =>
    show _ = finalPos c.fin cs
    rw [← ih]
    cases cs with
    | nil => rfl
    | cons d ds =>
      unfold lastFin
      rw [List.getLast?_cons_cons]
      cases h : (d :: ds).getLast? with
      | none => simp at h
      | some x => rfl

/-- The approach, piece by piece. -/
theorem rapidTo_pieces (start : AddrVec) (e : Vec) (rh sh : ℚ) (pf : Option PyNum) :
    ∃ up side down feed, rapidTo start e rh (some sh) pf = [up] ++ side ++ [down] ++ feed ∧
      up = ⟨.retract, start, ⟨start.x, start.y, some rh⟩, none, {}, {}⟩ ∧
      ((start.x = some e.x ∧ start.y = some e.y ∧ side = []) ∨
        (¬ (start.x = some e.x ∧ start.y = some e.y) ∧
          side = [⟨.rapid, ⟨start.x, start.y, some rh⟩, ⟨some e.x, some e.y, some rh⟩, none, {}, {}⟩])) ∧
      down = ⟨.plungeRapid, ⟨some e.x, some e.y, some rh⟩, ⟨some e.x, some e.y, some sh⟩, none, {}, {}⟩ ∧
      ((e.z < sh ∧ feed = [⟨.plungeCut, ⟨some e.x, some e.y, some sh⟩, .fromVec e, pf, {}, {}⟩]) ∨
        (sh ≤ e.z ∧ feed = [])) := by
  unfold rapidTo
  by_cases hxy : start.x = some e.x ∧ start.y = some e.y
  · obtain ⟨hx, hy⟩ := hxy
    by_cases hz : e.z < sh
    · refine ⟨_, [], _, _, ?_, rfl, Or.inl ⟨hx, hy, rfl⟩, rfl, Or.inl ⟨hz, rfl⟩⟩
      simp [verticalAbs, fillEnd, hx, hy, hz, AddrVec.fromVec]
    · refine ⟨_, [], _, [], ?_, rfl, Or.inl ⟨hx, hy, rfl⟩, rfl, Or.inr ⟨not_lt.mp hz, rfl⟩⟩
      simp [verticalAbs, fillEnd, hx, hy, hz]
  · have hn : (start.x ≠ some e.x ∨ start.y ≠ some e.y) := by
      by_contra hc; push Not at hc; exact hxy hc
    by_cases hz : e.z < sh
    · refine ⟨_, _, _, _, ?_, rfl, Or.inr ⟨hxy, rfl⟩, rfl, Or.inl ⟨hz, rfl⟩⟩
      simp [verticalAbs, fillEnd, hn, hz, AddrVec.fromVec, rapidAbs]
    · refine ⟨_, _, _, [], ?_, rfl, Or.inr ⟨hxy, rfl⟩, rfl, Or.inr ⟨not_lt.mp hz, rfl⟩⟩
      simp [verticalAbs, fillEnd, hn, hz, rapidAbs]

/-- The approach without a safe height plunges at feed from the rapid height. -/
theorem rapidTo_pieces_none (start : AddrVec) (e : Vec) (rh : ℚ) (pf : Option PyNum) :
    ∃ up side, rapidTo start e rh none pf = [up] ++ side ++
        [⟨.plungeCut, ⟨some e.x, some e.y, some rh⟩, .fromVec e, pf, {}, {}⟩] ∧
      up = ⟨.retract, start, ⟨start.x, start.y, some rh⟩, none, {}, {}⟩ ∧
      ((start.x = some e.x ∧ start.y = some e.y ∧ side = []) ∨
        (¬ (start.x = some e.x ∧ start.y = some e.y) ∧
          side = [⟨.rapid, ⟨start.x, start.y, some rh⟩, ⟨some e.x, some e.y, some rh⟩, none, {}, {}⟩])) := by
  unfold rapidTo
  by_cases hxy : start.x = some e.x ∧ start.y = some e.y
  · obtain ⟨hx, hy⟩ := hxy
    refine ⟨_, [], ?_, rfl, Or.inl ⟨hx, hy, rfl⟩⟩
    simp [verticalAbs, fillEnd, hx, hy, AddrVec.fromVec]
  · have hn : (start.x ≠ some e.x ∨ start.y ≠ some e.y) := by
      by_contra hc; push Not at hc; exact hxy hc
    refine ⟨_, _, ?_, rfl, Or.inr ⟨hxy, rfl⟩⟩
    simp [verticalAbs, fillEnd, hn, AddrVec.fromVec, rapidAbs]

theorem rapidTo_connected (start : AddrVec) (e : Vec) (rh sh : ℚ) (pf : Option PyNum) :
    Connected start (rapidTo start e rh (some sh) pf) := by
  obtain ⟨up, side, down, feed, h, rfl, hs, rfl, hf⟩ := rapidTo_pieces start e rh sh pf
  rw [h]
  rcases hs with ⟨hx, hy, rfl⟩ | ⟨-, rfl⟩ <;> rcases hf with ⟨-, rfl⟩ | ⟨-, rfl⟩ <;>
    simp_all [Connected]

theorem rapidTo_final (start : AddrVec) (e : Vec) (rh sh : ℚ) (pf : Option PyNum) :
    finalPos start (rapidTo start e rh (some sh) pf) = ⟨some e.x, some e.y, some (min e.z sh)⟩ := by
  obtain ⟨up, side, down, feed, h, rfl, hs, rfl, hf⟩ := rapidTo_pieces start e rh sh pf
  rw [h]
  rcases hs with ⟨hx, hy, rfl⟩ | ⟨-, rfl⟩ <;> rcases hf with ⟨hz, rfl⟩ | ⟨hz, rfl⟩ <;>
    simp [finalPos, AddrVec.fromVec, hz, hz.le]

theorem rapidTo_safe (start : AddrVec) (e : Vec) (rh sh : ℚ) (pf : Option PyNum) :
    ∀ c ∈ rapidTo start e rh (some sh) pf, SafeRapid rh (min rh sh) c := by
  obtain ⟨up, side, down, feed, h, rfl, hs, rfl, hf⟩ := rapidTo_pieces start e rh sh pf
  rw [h]
  intro c hc
  have hside : c ∈ side → SafeRapid rh (min rh sh) c := by
    rcases hs with ⟨-, -, rfl⟩ | ⟨-, rfl⟩
    · simp
    · intro hm
      rw [List.mem_singleton] at hm
      subst hm
      exact fun _ => ⟨fun _ => ⟨rfl, rfl⟩, rh, rfl, min_le_left _ _⟩
  have hfeed : c ∈ feed → SafeRapid rh (min rh sh) c := by
    rcases hf with ⟨-, rfl⟩ | ⟨-, rfl⟩
    · intro hm
      rw [List.mem_singleton] at hm
      subst hm
      intro hk; simp [MKind.mot] at hk
    · simp
  simp only [List.mem_append, List.mem_singleton] at hc
  rcases hc with ((rfl | hc) | rfl) | hc
  · intro _
    refine ⟨fun hl => absurd hl ?_, rh, rfl, min_le_left _ _⟩
    simp [Lateral]
  · exact hside hc
  · intro _
    refine ⟨fun hl => absurd hl ?_, sh, rfl, min_le_right _ _⟩
    simp [Lateral]
  · exact hfeed hc

theorem cutTo_fin (j : Job) (d : ℚ) (pos : AddrVec) (p : Pt) : (cutTo j d pos p).fin = p.at d := rfl

theorem cutTo_start (j : Job) (d : ℚ) (pos : AddrVec) (p : Pt) : (cutTo j d pos p).start = pos := rfl

theorem cutsTo_along (j : Job) (d : ℚ) (p : Pt) (ps : List Pt) :
    CutsAlong d j.feed p ps (cutsTo j d (p.at d) ps) := by
  induction ps generalizing p with
  | nil => trivial
  | cons q qs ih => exact ⟨⟨rfl, rfl, rfl, rfl⟩, ih q⟩

theorem cutsTo_connected (j : Job) (d : ℚ) (pos : AddrVec) (ps : List Pt) : Connected pos (cutsTo j d pos ps) := by
  induction ps generalizing pos with
  | nil => trivial
  | cons q qs ih => exact ⟨rfl, ih _⟩

theorem cutsTo_mem {j : Job} {d : ℚ} {pos : AddrVec} {ps : List Pt} {c : Motion} (h : c ∈ cutsTo j d pos ps) :
    c.kind = .cut ∧ c.feed = some j.feed ∧ ∃ q ∈ ps, c.fin = q.at d := by
  induction ps generalizing pos with
  | nil => simp [cutsTo] at h
  | cons q qs ih =>
    simp only [cutsTo, List.mem_cons] at h
    rcases h with rfl | h
    · exact ⟨rfl, rfl, q, by simp, rfl⟩
    · obtain ⟨a, b, q', hq, hf⟩ := ih h
      exact ⟨a, b, q', by simp [hq], hf⟩

theorem finalPos_cutsTo (j : Job) (d : ℚ) (p : Pt) (ps : List Pt) :
    finalPos (p.at d) (cutsTo j d (p.at d) ps) = ((p :: ps).getLast (by simp)).at d := by
  induction ps generalizing p with
  | nil => rfl
  | cons q qs ih =>
    rw [List.getLast_cons (by simp)]
    exact ih q

theorem cutsAlong_append {d : ℚ} {f : PyNum} {p : Pt} {ps qs : List Pt} {cs ds : List Motion}
    (h1 : CutsAlong d f p ps cs) (h2 : CutsAlong d f ((p :: ps).getLast (by simp)) qs ds) :
    CutsAlong d f p (ps ++ qs) (cs ++ ds) := by
  induction ps generalizing p cs with
  | nil => cases cs with
    | nil => exact h2
    | cons c cs => exact h1.elim
  | cons q ps ih => cases cs with
    | nil => exact h1.elim
    | cons c cs =>
      refine ⟨h1.1, ih h1.2 ?_⟩
      rw [List.getLast_cons (by simp)] at h2
      exact h2

/-- Every point of the polyline is passed by one of the cuts. -/
theorem cutsAlong_covers {d : ℚ} {f : PyNum} {p : Pt} {ps : List Pt} {cs : List Motion} (h : CutsAlong d f p ps cs)
    {a b q : Pt} (hs : (a, b) ∈ segments (p :: ps)) (hq : OnSegment a b q) : ∃ c ∈ cs, CutsThrough d q c := by
  induction ps generalizing p cs with
  | nil => simp [segments] at hs
  | cons x ps ih => cases cs with
    | nil => exact h.elim
    | cons c cs =>
      simp only [segments, List.mem_cons] at hs
      rcases hs with hs | hs
      · obtain ⟨rfl, rfl⟩ := Prod.mk.inj hs
        exact ⟨c, by simp, h.1.1, _, _, h.1.2.1, h.1.2.2.1, hq⟩
      · obtain ⟨c', h1, h2⟩ := ih h.2 hs
        exact ⟨c', by simp [h1], h2⟩

/-! ### closed contours -/

/-- A closed path with at least one segment is `v :: mid ++ [v]`. -/
theorem closed_form {path : List Pt} (h : IsClosedPath path) (h2 : 2 ≤ path.length) :
    ∃ v mid, path = v :: (mid ++ [v]) := by
  obtain ⟨hne, hhl⟩ := h
  cases path with
  | nil => exact absurd rfl hne
  | cons v rest =>
    have hr : rest ≠ [] := by rintro rfl; simp at h2
    refine ⟨v, rest.dropLast, ?_⟩
    rw [List.getLast?_cons_of_ne_nil hr] at hhl
    have : rest.getLast hr = v := by
      rw [List.getLast?_eq_some_getLast hr] at hhl
      exact (Option.some.inj hhl).symm
    conv_lhs => rw [← List.dropLast_append_getLast hr, this]

theorem shift_tail (v : Pt) (mid : List Pt) (k : ℕ) (hk : k ≤ mid.length) :
    (shiftPolygon (v :: (mid ++ [v])) k).tail = mid.drop k ++ v :: mid.take k := by
  have h1 : (v :: (mid ++ [v])).dropLast = v :: mid := by
    rw [← List.cons_append, List.dropLast_concat]
  unfold shiftPolygon
  simp only [h1]
  have h2 : (v :: mid).drop k ≠ [] := by
    simp only [ne_eq, List.drop_eq_nil_iff, List.length_cons]; omega
  rw [List.tail_append_of_ne_nil h2]
  simp

theorem shift_head (v : Pt) (mid : List Pt) (k : ℕ) :
    shiftPolygon (v :: (mid ++ [v])) k = (v :: mid).drop k ++ v :: mid.take k := by
  have h1 : (v :: (mid ++ [v])).dropLast = v :: mid := by
    rw [← List.cons_append, List.dropLast_concat]
  unfold shiftPolygon
  simp only [h1, List.take_succ_cons]

theorem segments_append (a : List Pt) (x : Pt) (b : List Pt) :
    segments (a ++ x :: b) = segments (a ++ [x]) ++ segments (x :: b) := by
  induction a with
  | nil => simp [segments]
  | cons y a ih =>
    cases a with
    | nil => simp [segments]
    | cons z a =>
      simp only [List.cons_append, segments] at ih ⊢
      rw [ih]

theorem segments_snoc (a : List Pt) (x y : Pt) : segments (a ++ [x, y]) = segments (a ++ [x]) ++ [(x, y)] := by
  rw [show a ++ [x, y] = a ++ x :: [y] from rfl, segments_append]
  simp [segments]

theorem around_form (v : Pt) (mid : List Pt) (k : ℕ) (c : Pt) (hk : k ≤ mid.length) :
    around (v :: (mid ++ [v])) k c = mid.drop k ++ v :: mid.take k ++ [c] := by
  unfold around
  simp only [List.drop_succ_cons, List.tail_cons]
  rw [List.drop_append_of_le_length hk, List.take_append_of_le_length hk]
  simp

/-- Two halves of a segment. -/
theorem onSegment_split {a b c q : Pt} (hc : OnSegment a b c) (hq : OnSegment a b q) :
    OnSegment a c q ∨ OnSegment c b q := by
  obtain ⟨s, s0, s1, rfl⟩ := hc
  obtain ⟨t, t0, t1, rfl⟩ := hq
  rcases le_total t s with h | h
  · left
    rcases eq_or_lt_of_le s0 with h0 | h0
    · have : t = 0 := by linarith
      subst h0 this
      exact ⟨0, le_rfl, by norm_num, by simp [Pt.lerp]⟩
    · refine ⟨t / s, div_nonneg t0 s0, (div_le_one h0).mpr h, ?_⟩
      have hs : s ≠ 0 := h0.ne'
      ext <;> simp only [Pt.lerp] <;> field_simp <;> ring
  · right
    rcases eq_or_lt_of_le s1 with h0 | h0
    · have : t = 1 := by linarith
      subst h0 this
      exact ⟨0, le_rfl, by norm_num, by simp [Pt.lerp]⟩
    · have hs : 1 - s ≠ 0 := by linarith [h0] |> fun h : 0 < 1 - s => h.ne'
      refine ⟨(t - s) / (1 - s), div_nonneg (by linarith) (by linarith), ?_, ?_⟩
      · rw [div_le_one (by linarith)]; linarith
      · ext <;> simp only [Pt.lerp] <;> field_simp <;> ring

/-- Going once around from a point of a segment passes every point of every segment. -/
theorem around_covers {v : Pt} {mid : List Pt} {k : ℕ} {c a b q : Pt} (hk : k ≤ mid.length)
    (hc : ∃ a b, (segments (v :: (mid ++ [v])))[k]? = some (a, b) ∧ OnSegment a b c)
    (hs : (a, b) ∈ segments (v :: (mid ++ [v]))) (hq : OnSegment a b q) :
    ∃ a' b', (a', b') ∈ segments (c :: around (v :: (mid ++ [v])) k c) ∧ OnSegment a' b' q := by
  rw [around_form v mid k c hk]
  -- split `mid` at `k`
  obtain ⟨l, r, rfl, rfl⟩ : ∃ l r, mid = l ++ r ∧ l.length = k :=
    ⟨mid.take k, mid.drop k, (List.take_append_drop k mid).symm, by simp [hk]⟩
  simp only [List.drop_left, List.take_left]
  -- the `k`-th segment
  obtain ⟨x, y, hxy, hcxy⟩ := hc
  rw [segments_get] at hxy
  obtain ⟨w, r', hr⟩ : ∃ w r', r ++ [v] = w :: r' := by
    cases r with
    | nil => exact ⟨v, [], rfl⟩
    | cons w r => exact ⟨w, r ++ [v], rfl⟩
  obtain ⟨l', u, hl⟩ : ∃ l' u, v :: l = l' ++ [u] :=
    ⟨(v :: l).dropLast, (v :: l).getLast (by simp), (List.dropLast_append_getLast _).symm⟩
  have hl' : l'.length = l.length := by
    have := congrArg List.length hl; simp at this; omega
  have hpath : v :: ((l ++ r) ++ [v]) = l' ++ u :: w :: r' := by
    rw [List.append_assoc, hr, ← List.cons_append, hl]; simp
  have hx : x = u := by
    have h1 := hxy.1
    rw [hpath, ← hl', List.getElem?_append_right le_rfl] at h1
    simpa using h1.symm
  have hy : y = w := by
    have h1 := hxy.2
    rw [hpath, ← hl', List.getElem?_append_right (by omega)] at h1
    simpa using h1.symm
  subst hx hy
  have hseg : segments (c :: (r ++ v :: l ++ [c])) = (c, y) :: (segments (y :: r') ++ segments (l' ++ [x]) ++ [(x, c)]) := by
    have e1 : c :: (r ++ v :: l ++ [c]) = (c :: r) ++ v :: (l ++ [c]) := by simp
    have e2 : v :: (l ++ [c]) = l' ++ [x, c] := by
      rw [← List.cons_append, hl]; simp
    have e3 : (c :: r) ++ [v] = c :: y :: r' := by rw [List.cons_append, hr]
    rw [e1, segments_append, e2, e3, segments_snoc]
    simp [segments]
  rw [hseg]
  rw [hpath, segments_append] at hs
  simp only [segments, List.mem_append, List.mem_cons] at hs
  rcases hs with hs | hs | hs
  · exact ⟨a, b, by simp [hs], hq⟩
  · obtain ⟨rfl, rfl⟩ := Prod.mk.inj hs
    rcases onSegment_split hcxy hq with h | h
    · exact ⟨a, c, by simp, h⟩
    · exact ⟨c, b, by simp, h⟩
  · exact ⟨a, b, by simp [hs], hq⟩

/-! ### one contour -/

/-- What the commands for one contour look like: first contour, short link, or far contour. -/
inductive FaceBlock (j : Job) (stepover : Option ℚ) (pwe : Option Pt) (pos : AddrVec) (f : PathFace) :
    List Motion → Pt → Prop
  | first (p0 : Pt) (rest : List Pt) (cuts : List Motion) (ho : f.outer = p0 :: rest)
      (hp : pwe = none ∨ rest = [])
      (hc : CutsAlong f.depth j.feed p0 rest cuts) :
      FaceBlock j stepover pwe pos f
        (rapidTo pos ⟨p0.x, p0.y, f.depth⟩ j.rapidHeight (some j.opSafeHeight) (some j.plungeFeed) ++ cuts)
        ((p0 :: rest).getLast (by simp))
  | link (e : Pt) (n : Nearest) (s : ℚ) (cuts : List Motion) (hp : pwe = some e) (hs : stepover = some s)
      (hb : BestOf e (segments f.outer) n) (h0 : n.dist ≠ 0) (hd : n.dist ≤ s)
      (hc : CutsAlong f.depth j.feed n.point (around f.outer n.index n.point) cuts) :
      FaceBlock j stepover pwe pos f (cutTo j f.depth pos n.point :: cuts) n.point
  | far (e p0 : Pt) (rest : List Pt) (n : Nearest) (cuts : List Motion) (chord : Motion) (hp : pwe = some e)
      (hs : ∀ s, stepover = some s → s = 0 ∨ n.dist = 0 ∨ s < n.dist) (ho : f.outer = p0 :: rest)
      (hb : BestOf e (segments f.outer) n)
      (hc : CutsAlong f.depth j.feed p0 rest cuts)
      (hl : CutsAlong f.depth j.feed ((p0 :: rest).getLast (by simp)) [n.point] [chord]) :
      FaceBlock j stepover pwe pos f
        (rapidTo pos ⟨p0.x, p0.y, f.depth⟩ j.rapidHeight (some j.opSafeHeight) (some j.plungeFeed) ++ cuts ++ [chord])
        n.point

theorem getLast_at (d : ℚ) (p0 : Pt) (rest : List Pt) (j : Job) :
    finalPos (p0.at d) (cutsTo j d (p0.at d) rest) = ((p0 :: rest).getLast (by simp)).at d :=
  finalPos_cutsTo j d p0 rest

theorem routeFace_block {j : Job} {stepover : Option ℚ} {pwe : Option Pt} {pos : AddrVec} {f : PathFace}
    (hcl : IsClosedPath f.outer) (hseg : ∀ s ∈ segments f.outer, s.1 ≠ s.2) (hd : f.depth < j.opSafeHeight) :
    ∃ cs q, routeFace j stepover pwe pos f = .ok (cs, some q) ∧ FaceBlock j stepover pwe pos f cs q := by
  cases ho : f.outer with
  | nil => exact absurd ho hcl.1
  | cons p0 rest =>
    set app := rapidTo pos ⟨p0.x, p0.y, f.depth⟩ j.rapidHeight (some j.opSafeHeight) (some j.plungeFeed) with happ
    have hfin : lastFin pos app = p0.at f.depth := by
      rw [lastFin_eq, happ, rapidTo_final, min_eq_left hd.le]; rfl
    have hcut := cutsTo_along j f.depth p0 rest
    have hlast : lastFin pos (app ++ cutsTo j f.depth (p0.at f.depth) rest) =
        ((p0 :: rest).getLast (by simp)).at f.depth := by
      rw [lastFin_eq, finalPos_append, ← lastFin_eq pos app, hfin, finalPos_cutsTo]
    have hfirst : nearestTo pwe f.outer = .ok none → (pwe = none ∨ rest = []) →
        ∃ cs q, routeFace j stepover pwe pos f = .ok (cs, some q) ∧ FaceBlock j stepover pwe pos f cs q := by
      intro hn hp
      refine ⟨app ++ cutsTo j f.depth (p0.at f.depth) rest, (p0 :: rest).getLast (by simp), ?_, ?_⟩
      · unfold routeFace
        rw [ho] at hn ⊢
        have hsl : shortLink stepover none = none := by cases stepover <;> rfl
        simp only [hn, hsl, List.tail_cons, ← happ, hfin]
        rw [List.getLast?_eq_some_getLast (by simp)]
      · exact FaceBlock.first p0 rest _ ho hp hcut
    cases pwe with
    | none => exact hfirst rfl (Or.inl rfl)
    | some e =>
      obtain ⟨r, hr, hrs⟩ := distanceToPathFrom_spec e f.outer [] none hseg rfl
      cases r with
      | none =>
        refine hfirst hr (Or.inr ?_)
        simp only [List.nil_append] at hrs
        have := congrArg List.length hrs
        rw [segments_length, ho] at this
        simpa using this
      | some n =>
        simp only [List.nil_append] at hrs
        have hlen : 2 ≤ f.outer.length := by
          obtain ⟨a, b, h1, -⟩ := hrs.at_index
          rw [segments_get] at h1
          have := (List.getElem?_eq_some_iff.mp h1.2).1
          omega
        have hnear : nearestTo (some e) f.outer = .ok (some n) := hr
        by_cases hsh : ∃ s, stepover = some s ∧ s ≠ 0 ∧ n.dist ≠ 0 ∧ n.dist ≤ s
        · obtain ⟨s, rfl, h1, h2, h3⟩ := hsh
          have hsl : shortLink (some s) (some n) = some n := by
            simp only [shortLink]; rw [if_pos ⟨h1, h2, h3⟩]
          obtain ⟨v, mid, hform⟩ := closed_form hcl hlen
          have hk : n.index ≤ mid.length := by
            obtain ⟨a, b, g1, -⟩ := hrs.at_index
            have := (List.getElem?_eq_some_iff.mp g1).1
            rw [segments_length, hform] at this
            simp at this
            omega
          have ht : (shiftPolygon f.outer n.index).tail = mid.drop n.index ++ v :: mid.take n.index := by
            rw [hform]; exact shift_tail v mid _ hk
          have har : around f.outer n.index n.point = (mid.drop n.index ++ v :: mid.take n.index) ++ [n.point] := by
            rw [hform, around_form v mid _ _ hk]
          set body := mid.drop n.index ++ v :: mid.take n.index with hbody
          have hcuts := cutsTo_along j f.depth n.point body
          have hlink := cutTo_fin j f.depth pos n.point
          refine ⟨cutTo j f.depth pos n.point :: (cutsTo j f.depth (n.point.at f.depth) body ++
            [cutTo j f.depth (((n.point :: body).getLast (by simp)).at f.depth) n.point]), n.point, ?_, ?_⟩
          · unfold routeFace
            rw [ho] at hnear ⊢
            simp only [hnear, hsl]
            rw [← ho, ht]
            have e1 : lastFin pos [cutTo j f.depth pos n.point] = n.point.at f.depth := rfl
            have e2 : lastFin pos ([cutTo j f.depth pos n.point] ++ cutsTo j f.depth (n.point.at f.depth) body) =
                ((n.point :: body).getLast (by simp)).at f.depth := by
              rw [lastFin_eq, finalPos_append]
              exact finalPos_cutsTo j f.depth n.point body
            rw [e1, e2]
            rfl
          · refine FaceBlock.link e n s _ rfl rfl hrs h2 h3 ?_
            rw [har]
            exact cutsAlong_append hcuts ⟨⟨rfl, rfl, rfl, rfl⟩, trivial⟩
        · have hsl : shortLink stepover (some n) = none := by
            cases stepover with
            | none => rfl
            | some s =>
              simp only [shortLink]
              rw [if_neg]
              intro hh; exact hsh ⟨s, rfl, hh⟩
          refine ⟨app ++ cutsTo j f.depth (p0.at f.depth) rest ++
            [cutTo j f.depth (((p0 :: rest).getLast (by simp)).at f.depth) n.point], n.point, ?_, ?_⟩
          · unfold routeFace
            rw [ho] at hnear ⊢
            simp only [hnear, hsl, List.tail_cons, ← happ, hfin, hlast]
          · refine FaceBlock.far e p0 rest n _ _ rfl ?_ ho hrs hcut ⟨⟨rfl, rfl, rfl, rfl⟩, trivial⟩
            intro s hs
            by_contra hcon
            push Not at hcon
            exact hsh ⟨s, hs, hcon.1, hcon.2.1, hcon.2.2⟩

theorem cutsAlong_connected {d : ℚ} {f : PyNum} {p : Pt} {ps : List Pt} {cs : List Motion}
    (h : CutsAlong d f p ps cs) : Connected (p.at d) cs ∧ finalPos (p.at d) cs = ((p :: ps).getLast (by simp)).at d := by
  induction ps generalizing p cs with
  | nil => cases cs with
    | nil => exact ⟨trivial, rfl⟩
    | cons c cs => exact h.elim
  | cons q ps ih => cases cs with
    | nil => exact h.elim
    | cons c cs =>
      obtain ⟨⟨-, h2, h3, -⟩, h5⟩ := h
      obtain ⟨i1, i2⟩ := ih h5
      refine ⟨⟨h2, by rw [h3]; exact i1⟩, ?_⟩
      rw [List.getLast_cons (by simp)]
      show finalPos c.fin cs = _
      rw [h3, i2]

/-- A contour's block is connected and ends at the contour's depth. -/
theorem block_connected {j : Job} {stepover : Option ℚ} {pwe : Option Pt} {pos : AddrVec} {f : PathFace}
    {cs : List Motion} {q : Pt} (hd : f.depth < j.opSafeHeight) (h : FaceBlock j stepover pwe pos f cs q) :
    Connected pos cs ∧ finalPos pos cs = q.at f.depth := by
  have hfin : ∀ p0 : Pt, finalPos pos (rapidTo pos ⟨p0.x, p0.y, f.depth⟩ j.rapidHeight (some j.opSafeHeight)
      (some j.plungeFeed)) = p0.at f.depth := by
    intro p0; rw [rapidTo_final, min_eq_left hd.le]; rfl
  cases h with
  | first p0 rest cuts ho hp hc =>
    rw [connected_append, finalPos_append, hfin]
    exact ⟨⟨rapidTo_connected .., (cutsAlong_connected hc).1⟩, (cutsAlong_connected hc).2⟩
  | link e n s cuts hp hs hb h0 hd' hc =>
    obtain ⟨h1, h2⟩ := cutsAlong_connected hc
    refine ⟨⟨rfl, h1⟩, ?_⟩
    show finalPos (n.point.at f.depth) cuts = _
    rw [h2, List.getLast_cons (by unfold around; simp)]
    unfold around
    simp
  | far e p0 rest n cuts chord hp hs ho hb hc hl =>
    obtain ⟨h1, h2⟩ := cutsAlong_connected hc
    obtain ⟨h3, h4⟩ := cutsAlong_connected hl
    rw [connected_append, connected_append, finalPos_append, finalPos_append, hfin, h2]
    exact ⟨⟨⟨rapidTo_connected .., h1⟩, h3⟩, h4⟩

/-! ### all contours -/

/-- The commands of a list of contours, block by block. -/
inductive FaceBlocks (j : Job) (stepover : Option ℚ) : Option Pt → AddrVec → List PathFace → List (List Motion) → Prop
  | nil (pwe : Option Pt) (pos : AddrVec) : FaceBlocks j stepover pwe pos [] []
  | cons {pwe : Option Pt} {pos : AddrVec} {f : PathFace} {fs : List PathFace} {b : List Motion} {bs : List (List Motion)}
      {q : Pt} (h : FaceBlock j stepover pwe pos f b q) (t : FaceBlocks j stepover (some q) (q.at f.depth) fs bs) :
      FaceBlocks j stepover pwe pos (f :: fs) (b :: bs)

theorem routeFaces_blocks {j : Job} {stepover : Option ℚ} {faces : List PathFace} (hf : ∀ f ∈ faces, FaceOK j f)
    (pwe : Option Pt) (pos : AddrVec) :
    ∃ bs, routeFaces j stepover pwe pos faces = .ok bs.flatten ∧ FaceBlocks j stepover pwe pos faces bs := by
  induction faces generalizing pwe pos with
  | nil => exact ⟨[], rfl, .nil _ _⟩
  | cons f fs ih =>
    have h0 := hf f (by simp)
    obtain ⟨b, q, h1, h2⟩ := routeFace_block (stepover := stepover) (pwe := pwe) (pos := pos) h0.closed h0.distinct h0.below
    obtain ⟨bs, h3, h4⟩ := ih (fun g hg => hf g (by simp [hg])) (some q) (q.at f.depth)
    refine ⟨b :: bs, ?_, .cons h2 h4⟩
    unfold routeFaces
    simp only [h1, lastFin_eq, (block_connected h0.below h2).2, h3, List.flatten_cons]

theorem blocks_connected {j : Job} {stepover : Option ℚ} {pwe : Option Pt} {pos : AddrVec} {faces : List PathFace}
    {bs : List (List Motion)} (hf : ∀ f ∈ faces, FaceOK j f) (h : FaceBlocks j stepover pwe pos faces bs) :
    Connected pos bs.flatten := by
  induction h with
  | nil => trivial
  | cons hb t ih =>
    obtain ⟨h1, h2⟩ := block_connected (hf _ (by simp)).below hb
    rw [List.flatten_cons, connected_append, h2]
    exact ⟨h1, ih (fun g hg => hf g (by simp [hg]))⟩

end CQ
