import Verif.Props.Near64
import Verif.Props.Contours

/-! # C138: routing of pocket contours in floating point -/

namespace CQ

/-- With exact arithmetic this is the router of `Model/Routers`. -/
theorem routeFacesWith_exact (j : Job) (stepover : Option ℚ) (pwe : Option Pt) (pos : AddrVec) (fs : List PathFace) :
    routeFacesWith distanceToPath j stepover pwe pos fs = routeFaces j stepover pwe pos fs := by
  induction fs generalizing pwe pos with
  | nil => rfl
  | cons f fs ih =>
    have h : routeFaceWith distanceToPath j stepover pwe pos f = routeFace j stepover pwe pos f := by
      unfold routeFaceWith routeFace
      cases f.outer with
      | nil => rfl
      | cons p0 rest => cases pwe <;> rfl
    unfold routeFacesWith routeFaces
    rw [h]
    cases routeFace j stepover pwe pos f with
    | error e => rfl
    | ok r =>
      simp only [ih]
      cases routeFaces j stepover r.2 (lastFin pos r.1) fs <;> rfl

/-! ### one contour -/

/-- What the commands for one contour look like: first contour, short link, or far contour. -/
inductive FaceBlock64 (sq : ℚ → ℚ) (M : ℚ) (j : Job) (stepover : Option ℚ) (pwe : Option Pt) (pos : AddrVec) (f : PathFace) :
    List Motion → Pt → Prop
  | first (p0 : Pt) (rest : List Pt) (cuts : List Motion) (ho : f.outer = p0 :: rest)
      (hp : pwe = none ∨ rest = [])
      (hc : CutsAlong f.depth j.feed p0 rest cuts) :
      FaceBlock64 sq M j stepover pwe pos f
        (rapidTo pos ⟨p0.x, p0.y, f.depth⟩ j.rapidHeight (some j.opSafeHeight) (some j.plungeFeed) ++ cuts)
        ((p0 :: rest).getLast (by simp))
  | link (e : Pt) (n : Nearest) (s : ℚ) (cuts : List Motion) (hp : pwe = some e) (hs : stepover = some s)
      (hb : BestOf64 sq M e (segments f.outer) n) (h0 : n.dist ≠ 0) (hd : n.dist ≤ s)
      (hc : CutsAlong f.depth j.feed n.point (around f.outer n.index n.point) cuts) :
      FaceBlock64 sq M j stepover pwe pos f (cutTo j f.depth pos n.point :: cuts) n.point
  | far (e p0 : Pt) (rest : List Pt) (n : Nearest) (cuts : List Motion) (chord : Motion) (hp : pwe = some e)
      (hs : ∀ s, stepover = some s → s = 0 ∨ n.dist = 0 ∨ s < n.dist) (ho : f.outer = p0 :: rest)
      (hb : BestOf64 sq M e (segments f.outer) n)
      (hc : CutsAlong f.depth j.feed p0 rest cuts)
      (hl : CutsAlong f.depth j.feed ((p0 :: rest).getLast (by simp)) [n.point] [chord]) :
      FaceBlock64 sq M j stepover pwe pos f
        (rapidTo pos ⟨p0.x, p0.y, f.depth⟩ j.rapidHeight (some j.opSafeHeight) (some j.plungeFeed) ++ cuts ++ [chord])
        n.point

theorem face64_points {j : Job} {M : ℚ} {f : PathFace} (hf : FaceOK64 j M f) : ∀ q ∈ f.outer, PtDouble M q :=
  fun q hq => ⟨hf.double q hq, hf.bound q hq⟩

theorem PtDouble.mono {M M' : ℚ} {p : Pt} (h : PtDouble M p) (hM : M ≤ M') : PtDouble M' p :=
  ⟨h.1, h.2.1.trans hM, h.2.2.trans hM⟩

theorem routeFace64_block {lib : MathLib} (hs : SquaresWell lib.sq) {M : ℚ} (hM : 1 ≤ M) {j : Job} {stepover : Option ℚ} {pwe : Option Pt}
    {pos : AddrVec} {f : PathFace} (hf : FaceOK64 j M f) (hp : ∀ e, pwe = some e → PtDouble (2 * M) e) :
    ∃ cs q, routeFaceWith (distanceToPath64 lib) j stepover pwe pos f = .ok (cs, some q) ∧
      FaceBlock64 lib.sq M j stepover pwe pos f cs q ∧ PtDouble (2 * M) q := by
  have hcl := hf.closed
  have hd := hf.below
  cases ho : f.outer with
  | nil => exact absurd ho hcl.1
  | cons p0 rest =>
    set app := rapidTo pos ⟨p0.x, p0.y, f.depth⟩ j.rapidHeight (some j.opSafeHeight) (some j.plungeFeed) with happ
    have hfin : lastFin pos app = p0.at f.depth := by
      rw [lastFin_eq, happ, rapidTo_final, min_eq_left hd.le]; rfl
    have hcut := cutsTo_along j f.depth p0 rest
    have hlast : lastFin pos (app ++ cutsTo j f.depth (p0.at f.depth) rest) =
        ((p0 :: rest).getLast (by simp)).at f.depth := by
      rw [lastFin_eq, finalPos_append, ← lastFin_eq pos app, hfin, finalPos_cutsTo]
    have hfirst : nearestWith (distanceToPath64 lib) pwe f.outer = .ok none → (pwe = none ∨ rest = []) →
        ∃ cs q, routeFaceWith (distanceToPath64 lib) j stepover pwe pos f = .ok (cs, some q) ∧
          FaceBlock64 lib.sq M j stepover pwe pos f cs q ∧ PtDouble (2 * M) q := by
      intro hn hp
      refine ⟨app ++ cutsTo j f.depth (p0.at f.depth) rest, (p0 :: rest).getLast (by simp), ?_, ?_, ?_⟩
      · unfold routeFaceWith
        rw [ho] at hn ⊢
        have hsl : shortLink stepover none = none := by cases stepover <;> rfl
        simp only [hn, hsl, List.tail_cons, ← happ, hfin]
        rw [List.getLast?_eq_some_getLast (by simp)]
      · exact FaceBlock64.first p0 rest _ ho hp hcut
      · exact (face64_points hf _ (by rw [ho]; exact List.getLast_mem _)).mono (by linarith)
    cases pwe with
    | none => exact hfirst rfl (Or.inl rfl)
    | some e =>
      obtain ⟨r, hr, hrs⟩ := distanceToPathFrom64_spec hs hM (hp e rfl) f.outer [] none (face64_points hf) hf.apart rfl
      cases r with
      | none =>
        refine hfirst hr (Or.inr ?_)
        simp only [List.nil_append] at hrs
        have := congrArg List.length hrs
        rw [segments_length, ho] at this
        simpa using this
      | some n =>
        simp only [List.nil_append] at hrs
        have hlen : 2 ≤ f.outer.length := by
          obtain ⟨a, b, h1, -⟩ := hrs.at_index
          rw [segments_get] at h1
          have := (List.getElem?_eq_some_iff.mp h1.2).1
          omega
        have hnear : nearestWith (distanceToPath64 lib) (some e) f.outer = .ok (some n) := hr
        by_cases hsh : ∃ s, stepover = some s ∧ s ≠ 0 ∧ n.dist ≠ 0 ∧ n.dist ≤ s
        · obtain ⟨s, rfl, h1, h2, h3⟩ := hsh
          have hsl : shortLink (some s) (some n) = some n := by
            simp only [shortLink]; rw [if_pos ⟨h1, h2, h3⟩]
          obtain ⟨v, mid, hform⟩ := closed_form hcl hlen
          have hk : n.index ≤ mid.length := by
            obtain ⟨a, b, g1, -⟩ := hrs.at_index
            have := (List.getElem?_eq_some_iff.mp g1).1
            rw [segments_length, hform] at this
            simp at this
            omega
          have ht : (shiftPolygon f.outer n.index).tail = mid.drop n.index ++ v :: mid.take n.index := by
            rw [hform]; exact shift_tail v mid _ hk
          have har : around f.outer n.index n.point = (mid.drop n.index ++ v :: mid.take n.index) ++ [n.point] := by
            rw [hform, around_form v mid _ _ hk]
          set body := mid.drop n.index ++ v :: mid.take n.index with hbody
          have hcuts := cutsTo_along j f.depth n.point body
          have hlink := cutTo_fin j f.depth pos n.point
          refine ⟨cutTo j f.depth pos n.point :: (cutsTo j f.depth (n.point.at f.depth) body ++
            [cutTo j f.depth (((n.point :: body).getLast (by simp)).at f.depth) n.point]), n.point, ?_, ?_, hrs.double⟩
          · unfold routeFaceWith
            rw [ho] at hnear ⊢
            simp only [hnear, hsl]
            rw [← ho, ht]
            have e1 : lastFin pos [cutTo j f.depth pos n.point] = n.point.at f.depth := rfl
            have e2 : lastFin pos ([cutTo j f.depth pos n.point] ++ cutsTo j f.depth (n.point.at f.depth) body) =
                ((n.point :: body).getLast (by simp)).at f.depth := by
              rw [lastFin_eq, finalPos_append]
              exact finalPos_cutsTo j f.depth n.point body
            rw [e1, e2]
            rfl
          · refine FaceBlock64.link e n s _ rfl rfl hrs h2 h3 ?_
            rw [har]
            exact cutsAlong_append hcuts ⟨⟨rfl, rfl, rfl, rfl⟩, trivial⟩
        · have hsl : shortLink stepover (some n) = none := by
            cases stepover with
            | none => rfl
            | some s =>
              simp only [shortLink]
              rw [if_neg]
              intro hh; exact hsh ⟨s, rfl, hh⟩
          refine ⟨app ++ cutsTo j f.depth (p0.at f.depth) rest ++
            [cutTo j f.depth (((p0 :: rest).getLast (by simp)).at f.depth) n.point], n.point, ?_, ?_, hrs.double⟩
          · unfold routeFaceWith
            rw [ho] at hnear ⊢
            simp only [hnear, hsl, List.tail_cons, ← happ, hfin, hlast]
          · refine FaceBlock64.far e p0 rest n _ _ rfl ?_ ho hrs hcut ⟨⟨rfl, rfl, rfl, rfl⟩, trivial⟩
            intro s hs
            by_contra hcon
            push Not at hcon
            exact hsh ⟨s, hs, hcon.1, hcon.2.1, hcon.2.2⟩

/-- A contour's block is connected, safe, and ends at the contour's depth. -/
theorem block64_connected {sq : ℚ → ℚ} {M : ℚ} {j : Job} {stepover : Option ℚ} {pwe : Option Pt} {pos : AddrVec} {f : PathFace}
    {cs : List Motion} {q : Pt} (hd : f.depth < j.opSafeHeight) (h : FaceBlock64 sq M j stepover pwe pos f cs q) :
    Connected pos cs ∧ finalPos pos cs = q.at f.depth := by
  have hfin : ∀ p0 : Pt, finalPos pos (rapidTo pos ⟨p0.x, p0.y, f.depth⟩ j.rapidHeight (some j.opSafeHeight)
      (some j.plungeFeed)) = p0.at f.depth := by
    intro p0; rw [rapidTo_final, min_eq_left hd.le]; rfl
  cases h with
  | first p0 rest cuts ho hp hc =>
    rw [connected_append, finalPos_append, hfin]
    exact ⟨⟨rapidTo_connected .., (cutsAlong_connected hc).1⟩, (cutsAlong_connected hc).2⟩
  | link e n s cuts hp hs hb h0 hd' hc =>
    obtain ⟨h1, h2⟩ := cutsAlong_connected hc
    refine ⟨⟨rfl, h1⟩, ?_⟩
    show finalPos (n.point.at f.depth) cuts = _
    rw [h2, List.getLast_cons (by unfold around; simp)]
    unfold around
    simp
  | far e p0 rest n cuts chord hp hs ho hb hc hl =>
    obtain ⟨h1, h2⟩ := cutsAlong_connected hc
    obtain ⟨h3, h4⟩ := cutsAlong_connected hl
    rw [connected_append, connected_append, finalPos_append, finalPos_append, hfin, h2]
    exact ⟨⟨⟨rapidTo_connected .., h1⟩, h3⟩, h4⟩

/-- The commands of a list of contours, block by block. -/
inductive FaceBlocks64 (sq : ℚ → ℚ) (M : ℚ) (j : Job) (stepover : Option ℚ) :
    Option Pt → AddrVec → List PathFace → List (List Motion) → Prop
  | nil (pwe : Option Pt) (pos : AddrVec) : FaceBlocks64 sq M j stepover pwe pos [] []
  | cons {pwe : Option Pt} {pos : AddrVec} {f : PathFace} {fs : List PathFace} {b : List Motion} {bs : List (List Motion)}
      {q : Pt} (h : FaceBlock64 sq M j stepover pwe pos f b q) (hq : PtDouble (2 * M) q)
      (t : FaceBlocks64 sq M j stepover (some q) (q.at f.depth) fs bs) :
      FaceBlocks64 sq M j stepover pwe pos (f :: fs) (b :: bs)

theorem routeFaces64_blocks {lib : MathLib} (hs : SquaresWell lib.sq) {M : ℚ} (hM : 1 ≤ M) {j : Job} {stepover : Option ℚ}
    {faces : List PathFace} (hf : ∀ f ∈ faces, FaceOK64 j M f) (pwe : Option Pt) (hp : ∀ e, pwe = some e → PtDouble (2 * M) e)
    (pos : AddrVec) :
    ∃ bs, routeFacesWith (distanceToPath64 lib) j stepover pwe pos faces = .ok bs.flatten ∧
      FaceBlocks64 lib.sq M j stepover pwe pos faces bs := by
  induction faces generalizing pwe pos with
  | nil => exact ⟨[], rfl, .nil _ _⟩
  | cons f fs ih =>
    have h0 := hf f (by simp)
    obtain ⟨b, q, h1, h2, hq⟩ := routeFace64_block hs hM (stepover := stepover) (pos := pos) h0 hp
    obtain ⟨bs, h3, h4⟩ := ih (fun g hg => hf g (by simp [hg])) (some q) (by rintro e ⟨⟩; exact hq) (q.at f.depth)
    refine ⟨b :: bs, ?_, .cons h2 hq h4⟩
    unfold routeFacesWith
    simp only [h1, lastFin_eq, (block64_connected h0.below h2).2, h3, List.flatten_cons]

/-! ### the walk around a contour -/

theorem ptNear_refl {tol : ℚ} (h : 0 ≤ tol) (p : Pt) : PtNear tol p p := by simp [PtNear, h]

theorem ptNear_symm {tol : ℚ} {p q : Pt} (h : PtNear tol p q) : PtNear tol q p := by
  unfold PtNear at *; rw [abs_sub_comm q.x, abs_sub_comm q.y]; exact h

theorem lerp_near {tol : ℚ} {a b a' b' : Pt} (ha : PtNear tol a a') (hb : PtNear tol b b') {t : ℚ} (t0 : 0 ≤ t) (t1 : t ≤ 1) :
    PtNear tol (a.lerp b t) (a'.lerp b' t) := by
  have key : ∀ {a b a' b' : ℚ}, |a - a'| ≤ tol → |b - b'| ≤ tol → |a + t * (b - a) - (a' + t * (b' - a'))| ≤ tol := by
    intro a b a' b' h1 h2
    rw [show a + t * (b - a) - (a' + t * (b' - a')) = (1 - t) * (a - a') + t * (b - b') by ring]
    rw [abs_le] at *
    constructor <;> nlinarith
  exact ⟨key ha.1 hb.1, key ha.2 hb.2⟩

theorem segments_near {tol : ℚ} {ps qs : List Pt} (h : List.Forall₂ (PtNear tol) ps qs) {s : Pt × Pt} (hs : s ∈ segments ps) :
    ∃ s' ∈ segments qs, PtNear tol s.1 s'.1 ∧ PtNear tol s.2 s'.2 := by
  induction h with
  | nil => simp [segments] at hs
  | @cons a a' ps qs ha t ih =>
    cases t with
    | nil => simp [segments] at hs
    | @cons b b' ps qs hb t =>
      simp only [segments, List.mem_cons] at hs
      rcases hs with rfl | hs
      · exact ⟨(a', b'), by simp [segments], ha, hb⟩
      · obtain ⟨s', h1, h2⟩ := ih hs
        exact ⟨s', by simp [segments, h1], h2⟩

theorem around_near {tol : ℚ} (path : List Pt) (k : ℕ) {c c' : Pt} (h0 : 0 ≤ tol) (h : PtNear tol c c') :
    List.Forall₂ (PtNear tol) (c :: around path k c) (c' :: around path k c') := by
  have refl : ∀ l : List Pt, List.Forall₂ (PtNear tol) l l := fun l => by
    induction l with
    | nil => exact .nil
    | cons a l ih => exact .cons (ptNear_refl h0 a) ih
  unfold around
  exact .cons h (List.rel_append (refl _) (.cons h .nil))

/-! ### C138 -/

theorem block64_cuts {sq : ℚ → ℚ} {M : ℚ} (hM : 1 ≤ M) {j : Job} {stepover : Option ℚ} {pwe : Option Pt} {pos : AddrVec} {f : PathFace}
    {b : List Motion} {q : Pt} (hf : FaceOK64 j M f) (h : FaceBlock64 sq M j stepover pwe pos f b q) :
    ∃ pre cuts post, b = pre ++ cuts ++ post ∧ CutsContourUpTo (2 ^ (-49 : ℤ) * M) f.depth j.feed f.outer cuts ∧
      ∀ s ∈ segments f.outer, ∀ q, OnSegment s.1 s.2 q → ∃ q', PtNear (2 ^ (-49 : ℤ) * M) q q' ∧ ∃ c ∈ cuts, CutsThrough f.depth q' c := by
  have h0 : 0 ≤ 2 ^ (-49 : ℤ) * M := by have := two_zpow_pos (-49); nlinarith
  cases h with
  | first p0 rest cuts ho hp hc =>
    refine ⟨_, cuts, [], (List.append_nil _).symm, Or.inl ⟨p0, rest, ho, hc⟩, ?_⟩
    rintro ⟨a, b⟩ hs q hq
    rw [ho] at hs
    exact ⟨q, ptNear_refl h0 q, cutsAlong_covers hc hs hq⟩
  | far e p0 rest n cuts chord hp hs ho hb hc hl =>
    refine ⟨_, cuts, [chord], rfl, Or.inl ⟨p0, rest, ho, hc⟩, ?_⟩
    rintro ⟨a, b⟩ hs q hq
    rw [ho] at hs
    exact ⟨q, ptNear_refl h0 q, cutsAlong_covers hc hs hq⟩
  | link e n s cuts hp hs hb h0' hd hc =>
    obtain ⟨a, b, g1, g2⟩ := hb.at_index
    refine ⟨[_], cuts, [], by simp; rfl, Or.inr ⟨n.index, a, b, n.point, g1, g2, hc⟩, ?_⟩
    obtain ⟨c', hon, hnear⟩ := g2
    rintro ⟨a', b'⟩ hs q hq
    have hlen : 2 ≤ f.outer.length := by
      rw [segments_get] at g1
      have := (List.getElem?_eq_some_iff.mp g1.2).1
      omega
    obtain ⟨v, mid, hform⟩ := closed_form hf.closed hlen
    have hk : n.index ≤ mid.length := by
      have := (List.getElem?_eq_some_iff.mp g1).1
      rw [segments_length, hform] at this
      simp at this
      omega
    rw [hform] at hs hc g1
    obtain ⟨x, y, h1, t, t0, t1, rfl⟩ := around_covers hk ⟨a, b, g1, hon⟩ hs hq
    obtain ⟨⟨x', y'⟩, h2, h3, h4⟩ := segments_near (around_near _ _ h0 (ptNear_symm hnear)) h1
    exact ⟨x'.lerp y' t, lerp_near h3 h4 t0 t1, cutsAlong_covers hc h2 ⟨t, t0, t1, rfl⟩⟩

/-- C138.  In floating point, too, all contours are routed, one block of commands per contour in the given order; each block contains cuts at
the contour's depth that go once around the contour segment by segment, so that every point of the contour is passed within `2^-49` of the
size of the coordinates. -/
theorem C138_contours_cut {lib : MathLib} (hs : SquaresWell lib.sq) {M : ℚ} (hM : 1 ≤ M) (j : Job) (faces : List PathFace)
    (stepover : Option ℚ) (prev : Option AddrVec) (hf : ∀ f ∈ faces, FaceOK64 j M f) :
    ∃ bs, routePolyfaceOuters64 lib j faces stepover prev = .ok bs.flatten ∧
      List.Forall₂ (fun f b => ∃ pre cuts post, b = pre ++ cuts ++ post ∧
        CutsContourUpTo (2 ^ (-49 : ℤ) * M) f.depth j.feed f.outer cuts ∧
        ∀ s ∈ segments f.outer, ∀ q, OnSegment s.1 s.2 q →
          ∃ q', PtNear (2 ^ (-49 : ℤ) * M) q q' ∧ ∃ c ∈ cuts, CutsThrough f.depth q' c) faces bs := by
  obtain ⟨bs, h1, h2⟩ := routeFaces64_blocks hs hM (stepover := stepover) hf none (by simp) (prev.getD {})
  refine ⟨bs, h1, ?_⟩
  clear h1
  generalize none = pwe at h2
  generalize prev.getD {} = pos at h2
  induction h2 with
  | nil => exact .nil
  | cons hb hq t ih => exact .cons (block64_cuts hM (hf _ (by simp)) hb) (ih (fun g hg => hf g (by simp [hg])))

/-- Position of the previous contour's end, as the router knows it. -/
def PrevOK64 (M : ℚ) (pwe : Option Pt) (pos : AddrVec) (prev : Option (PathFace × Pt)) : Prop :=
  match pwe, prev with
  | none, none => True
  | some e, some (g, p) => e = p ∧ pos = p.at g.depth ∧ OnPathUpTo (2 ^ (-49 : ℤ) * M) g.outer p ∧ PtDouble (2 * M) p
  | _, _ => False

theorem best64_onPath {sq : ℚ → ℚ} {M : ℚ} {e : Pt} {path : List Pt} {n : Nearest} (hb : BestOf64 sq M e (segments path) n) :
    OnPathUpTo (2 ^ (-49 : ℤ) * M) path n.point := by
  obtain ⟨a, b, g1, s, g2, g3⟩ := hb.at_index
  exact ⟨s, Or.inr ⟨(a, b), List.mem_of_getElem? g1, g2⟩, g3⟩

theorem onPath_segments {path : List Pt} {q : Pt} (hn : segments path ≠ []) (h : OnPath path q) :
    ∃ s ∈ segments path, OnSegment s.1 s.2 q := by
  rcases h with hq | h
  · obtain ⟨k, hk⟩ := List.getElem?_of_mem hq
    have hlen : 0 < (segments path).length := List.length_pos_iff.mpr hn
    rw [segments_length] at hlen
    have hk' := (List.getElem?_eq_some_iff.mp hk).1
    by_cases hlast : k + 1 < path.length
    · have h1 : (segments path)[k]? = some (q, path[k + 1]) := segments_get.mpr ⟨hk, List.getElem?_eq_getElem hlast⟩
      exact ⟨_, List.mem_of_getElem? h1, onSegment_left _ _⟩
    · obtain ⟨m, rfl⟩ : ∃ m, k = m + 1 := ⟨k - 1, by omega⟩
      have h1 : (segments path)[m]? = some (path[m], q) :=
        segments_get.mpr ⟨List.getElem?_eq_getElem (by omega), hk⟩
      exact ⟨_, List.mem_of_getElem? h1, onSegment_right _ _⟩
  · exact h

theorem best64_nearestUpTo {sq : ℚ → ℚ} (hs : SquaresUpToUlp sq) {M : ℚ} (hM : 1 ≤ M) {e : Pt} (he : PtDouble (2 * M) e) {path : List Pt}
    {n : Nearest} (hb : BestOf64 sq M e (segments path) n) : NearestUpTo M path e n.point := by
  refine ⟨best64_onPath hb, fun q hq => ?_⟩
  obtain ⟨a, b, g1, -⟩ := hb.at_index
  obtain ⟨s, h1, h2⟩ := onPath_segments (by intro h; rw [h] at g1; simp at g1) hq
  exact best64_nearest hs hM he hb h1 h2

theorem block64_feeds {sq : ℚ → ℚ} (hsq : SquaresUpToUlp sq) {M : ℚ} (hM : 1 ≤ M) {j : Job} {stepover : Option ℚ} {pwe : Option Pt}
    {pos : AddrVec} {f : PathFace} {b : List Motion}
    {q : Pt} {prev : Option (PathFace × Pt)} (hf : FaceOK64 j M f) (hprev : PrevOK64 M pwe pos prev)
    (h : FaceBlock64 sq M j stepover pwe pos f b q) :
    (∀ c ∈ b, c.kind.mot ≠ .rapid → FeedsUpTo M stepover prev f c) ∧ OnPathUpTo (2 ^ (-49 : ℤ) * M) f.outer q := by
  have h0 : 0 ≤ 2 ^ (-49 : ℤ) * M := by have := two_zpow_pos (-49); nlinarith
  have hcon : ∀ {p0 rest cuts}, f.outer = p0 :: rest → CutsAlong f.depth j.feed p0 rest cuts →
      ∀ c ∈ cuts, FeedsUpTo M stepover prev f c := by
    intro p0 rest cuts ho hc c hm
    obtain ⟨hk, s, hs, h1, h2⟩ := cutsAlong_mem hc hm
    exact Or.inr (Or.inl ⟨hk, s, by rw [ho]; exact hs, s.1, s.2, ⟨s.1, onSegment_left _ _, ptNear_refl h0 _⟩,
      ⟨s.2, onSegment_right _ _, ptNear_refl h0 _⟩, h1, h2⟩)
  cases h with
  | first p0 rest cuts ho hp hc =>
    refine ⟨?_, ?_⟩
    · intro c hm hk
      rcases List.mem_append.mp hm with hm | hm
      · exact Or.inl (rapidTo_feeds _ _ _ _ _ c hm hk).1
      · exact hcon ho hc c hm
    · exact ⟨_, Or.inl (by rw [ho]; exact List.getLast_mem _), ptNear_refl h0 _⟩
  | far e p0 rest n cuts chord hp hs ho hb hc hl =>
    refine ⟨?_, best64_onPath hb⟩
    intro c hm hk
    rcases List.mem_append.mp hm with hm | hm
    · rcases List.mem_append.mp hm with hm | hm
      · exact Or.inl (rapidTo_feeds _ _ _ _ _ c hm hk).1
      · exact hcon ho hc c hm
    · rw [List.mem_singleton] at hm
      subst hm hp
      cases prev with
      | none => exact hprev.elim
      | some gp =>
        obtain ⟨g, p⟩ := gp
        obtain ⟨rfl, h2, h3, he⟩ := hprev
        have hnear := best64_nearestUpTo hsq hM he hb
        refine Or.inr (Or.inr (Or.inr ⟨g, e, rfl, n.point, hnear, ?_, _, ?_, hl.1.1, hl.1.2.1, hl.1.2.2.1⟩))
        · intro s hst
          have herr := abs_le.mp (dist2F_err hsq he.1.1 he.1.2 hb.double.1.1 hb.double.1.2)
          have hMM : 1 ≤ M * M := by nlinarith
          rcases hs s hst with h | h | h
          · exact Or.inl h
          · right; left
            rw [hb.dist] at h
            rw [h] at herr
            have e2 : (2 : ℚ) ^ (-1070 : ℤ) = 4 * 2 ^ (-1072 : ℤ) := by
              rw [show (4 : ℚ) = 2 ^ (2 : ℤ) by norm_num, ← zpow_add₀ (by norm_num)]; norm_num
            have hη := two_zpow_pos (-1072)
            have hq := sqDist_nonneg' e n.point
            rw [e2]
            generalize (2 : ℚ) ^ (-1072 : ℤ) = η at *
            norm_num at herr ⊢
            linarith
          · right; right
            intro q hq
            have h1 := hnear.2 q hq
            rw [hb.dist] at h
            have h5 : sqDist e n.point ≤ 32 * (M * M) := by
              have key : ∀ {a b : ℚ}, |a| ≤ 2 * M → |b| ≤ 2 * M → (a - b) * (a - b) ≤ 16 * (M * M) := by
                intro a b ha hb
                rw [abs_le] at ha hb
                nlinarith
              unfold sqDist
              have := key he.2.1 hb.double.2.1
              have := key he.2.2 hb.double.2.2
              linarith
            have hη : (2 : ℚ) ^ (-1072 : ℤ) ≤ 2 ^ (-60 : ℤ) := zpow_le_zpow_right₀ (by norm_num) (by norm_num)
            generalize (2 : ℚ) ^ (-1072 : ℤ) = η at *
            norm_num at herr h1 hη ⊢
            linarith
        · rw [ho]; exact List.getLast?_eq_some_getLast _
  | link e n s cuts hp hs hb h0' hd hc =>
    refine ⟨?_, best64_onPath hb⟩
    obtain ⟨a, b, g1, c', hon, hnear⟩ := hb.at_index
    have hlen : 2 ≤ f.outer.length := by
      rw [segments_get] at g1
      have := (List.getElem?_eq_some_iff.mp g1.2).1
      omega
    obtain ⟨v, mid, hform⟩ := closed_form hf.closed hlen
    have hkk : n.index ≤ mid.length := by
      have := (List.getElem?_eq_some_iff.mp g1).1
      rw [segments_length, hform] at this
      simp at this
      omega
    intro c hm hk
    rcases List.mem_cons.mp hm with rfl | hm
    · subst hp hs
      cases prev with
      | none => exact hprev.elim
      | some gp =>
        obtain ⟨g, p⟩ := gp
        obtain ⟨rfl, h2, h3, he⟩ := hprev
        refine Or.inr (Or.inr (Or.inl ⟨g, e, s, rfl, rfl, rfl, h3, n.point, best64_nearestUpTo hsq hM he hb, h2, rfl, ?_⟩))
        have herr := abs_le.mp (dist2F_err hsq he.1.1 he.1.2 hb.double.1.1 hb.double.1.2)
        rw [hb.dist] at hd
        have e2 : (2 : ℚ) ^ (-1070 : ℤ) = 4 * 2 ^ (-1072 : ℤ) := by
          rw [show (4 : ℚ) = 2 ^ (2 : ℤ) by norm_num, ← zpow_add₀ (by norm_num)]; norm_num
        have hη := two_zpow_pos (-1072)
        have hq := sqDist_nonneg' e n.point
        rw [e2]
        generalize (2 : ℚ) ^ (-1072 : ℤ) = η at *
        norm_num at herr ⊢
        linarith
    · obtain ⟨hk', s', hs', h1, h2⟩ := cutsAlong_mem hc hm
      obtain ⟨s'', hs'', h3, h4⟩ := segments_near (around_near f.outer n.index h0 hnear) hs'
      rw [hform] at hs'' g1
      obtain ⟨t, ht, h5, h6⟩ := around_segments hkk ⟨a, b, g1, hon⟩ s'' hs''
      exact Or.inr (Or.inl ⟨hk', t, by rw [hform]; exact ht, s'.1, s'.2, ⟨_, h5, h3⟩, ⟨_, h6, h4⟩, h1, h2⟩)

/-- C138 (as far as C28 holds).  In floating point, every feed move in the block of a contour is a vertical plunge, lies on one segment of the
contour, or links it with the contour before over a squared length of at most the stepover, all up to rounding; or it is the closing cut
across to the nearest point (see `C28_violated_chord`), made only when the contour before is too far away to be linked (or touches), up to
rounding. -/
theorem C138_feed_moves_partial {lib : MathLib} (hs : SquaresWell lib.sq) {M : ℚ} (hM : 1 ≤ M) (j : Job) (faces : List PathFace)
    (stepover : Option ℚ) (prev : Option AddrVec) (hf : ∀ f ∈ faces, FaceOK64 j M f) :
    ∃ bs, routePolyfaceOuters64 lib j faces stepover prev = .ok bs.flatten ∧
      List.Forall₂ (fun gf b => ∃ e : Option (PathFace × Pt), e.map Prod.fst = gf.1 ∧ (∀ x ∈ e, OnPathUpTo (2 ^ (-49 : ℤ) * M) x.1.outer x.2) ∧
        ∀ c ∈ b, c.kind.mot ≠ .rapid → FeedsUpTo M stepover e gf.2 c)
        (withPrev none faces) bs := by
  obtain ⟨bs, h1, h2⟩ := routeFaces64_blocks hs hM (stepover := stepover) hf none (by simp) (prev.getD {})
  refine ⟨bs, h1, ?_⟩
  clear h1
  have : ∀ {pwe pos faces bs} (e : Option (PathFace × Pt)), (∀ f ∈ faces, FaceOK64 j M f) →
      FaceBlocks64 lib.sq M j stepover pwe pos faces bs → PrevOK64 M pwe pos e →
      List.Forall₂ (fun gf b => ∃ e : Option (PathFace × Pt), e.map Prod.fst = gf.1 ∧ (∀ x ∈ e, OnPathUpTo (2 ^ (-49 : ℤ) * M) x.1.outer x.2) ∧
        ∀ c ∈ b, c.kind.mot ≠ .rapid → FeedsUpTo M stepover e gf.2 c)
        (withPrev (e.map Prod.fst) faces) bs := by
    intro pwe pos faces bs e hf h he
    induction h generalizing e with
    | nil => exact .nil
    | @cons pwe pos f fs b bs q hb hq t ih =>
      obtain ⟨h3, h4⟩ := block64_feeds hs.err hM (hf _ (by simp)) he hb
      refine .cons ?_ (ih (some (f, q)) (fun g hg => hf g (by simp [hg])) ⟨rfl, rfl, h4, hq⟩)
      refine ⟨e, rfl, ?_, h3⟩
      intro x hx
      cases e with
      | none => simp at hx
      | some y =>
        simp only [Option.mem_some_iff] at hx
        subst hx
        cases pwe with
        | none => exact he.elim
        | some p => exact he.2.2.1
  exact this none hf h2 trivial

/-! ### examples -/

theorem squaresWell_b64 : SquaresWell (fun x => b64 (x * x)) :=
  ⟨squares_b64, fun x => by rw [neg_mul_neg], fun x => b64_nonneg (mul_self_nonneg x)⟩

/-- A library with squares rounded to nearest (the square root is not used by the router). -/
def demoLib : MathLib := ⟨fun x => b64 (x * x), id⟩

theorem double_int (k : ℤ) (h : |k| < 2 ^ 53) : IsDouble k := ⟨k, 0, h, by norm_num, by simp⟩

/-- A triangle with oblique sides. -/
def tri64 (s d : ℚ) : PathFace := ⟨[⟨0, 0⟩, ⟨3 * s, s⟩, ⟨s, 7 * s⟩, ⟨0, 0⟩], [], d⟩

theorem tri64_ok (k : ℤ) (h1 : 1 ≤ k) (h2 : k ≤ 1000) : FaceOK64 demoInit 10000 (tri64 k (-2)) := by
  have hk : (1 : ℚ) ≤ k := by exact_mod_cast h1
  have hk' : (k : ℚ) ≤ 1000 := by exact_mod_cast h2
  have hz : (2 : ℚ) ^ (-500 : ℤ) ≤ 1 := zpow_le_one_of_nonpos₀ (by norm_num) (by norm_num)
  have d0 : IsDouble 0 := by have := double_int 0 (by norm_num); simpa using this
  have d1 : IsDouble (k : ℚ) := double_int k (by rw [abs_lt]; constructor <;> linarith)
  have d3 : IsDouble (3 * (k : ℚ)) := by
    have := double_int (3 * k) (by rw [abs_lt]; constructor <;> linarith); push_cast at this; exact this
  have d7 : IsDouble (7 * (k : ℚ)) := by
    have := double_int (7 * k) (by rw [abs_lt]; constructor <;> linarith); push_cast at this; exact this
  refine ⟨⟨by simp [tri64], rfl⟩, ?_, ?_, ?_, show (-2 : ℚ) < demoInit.opSafeHeight by decide +kernel⟩
  · intro p hp
    simp only [tri64, List.mem_cons, List.not_mem_nil, or_false] at hp
    rcases hp with rfl | rfl | rfl | rfl
    · exact ⟨d0, d0⟩
    · exact ⟨d3, d1⟩
    · exact ⟨d1, d7⟩
    · exact ⟨d0, d0⟩
  · intro p hp
    simp only [tri64, List.mem_cons, List.not_mem_nil, or_false] at hp
    rcases hp with rfl | rfl | rfl | rfl <;> constructor <;> rw [abs_le] <;> constructor <;> norm_num <;> linarith
  · intro s hs
    simp only [tri64, segments, List.mem_cons, List.not_mem_nil, or_false] at hs
    rcases hs with rfl | rfl | rfl
    · left; exact hz.trans (by rw [le_abs]; right; simp only; linarith)
    · left; exact hz.trans (by rw [le_abs]; left; simp only; linarith)
    · left; exact hz.trans (by rw [le_abs]; left; simp only; linarith)

/-- Two triangles with slanted sides, linked and not linked: the hypotheses of `C138_contours_cut` and `C138_feed_moves_partial`. -/
example (s : Option ℚ) : ∃ bs : List (List Motion), routePolyfaceOuters64 demoLib demoInit [tri64 1 (-2), tri64 2 (-2)] s none = .ok bs.flatten ∧
    bs.length = 2 := by
  have hf : ∀ f ∈ [tri64 1 (-2), tri64 2 (-2)], FaceOK64 demoInit 10000 f := by
    intro f hf
    simp only [List.mem_cons, List.not_mem_nil, or_false] at hf
    rcases hf with rfl | rfl
    · exact_mod_cast tri64_ok 1 (by norm_num) (by norm_num)
    · exact_mod_cast tri64_ok 2 (by norm_num) (by norm_num)
  obtain ⟨bs, h1, h2⟩ := C138_contours_cut (lib := demoLib) squaresWell_b64 (by norm_num) demoInit _ s none hf
  exact ⟨bs, h1, h2.length_eq.symm⟩

theorem square64_ok {a b : ℤ} {d : ℚ} {j : Job} (ha : |a| ≤ 100) (hb : |b| ≤ 100) (hab : a < b) (hd : d < j.opSafeHeight) :
    FaceOK64 j 100 (square a b d) := by
  have dbl : ∀ k : ℤ, |k| ≤ 100 → IsDouble (k : ℚ) := fun k hk => double_int k (by linarith)
  have bnd : ∀ k : ℤ, |k| ≤ 100 → |(k : ℚ)| ≤ 100 := fun k hk => by exact_mod_cast hk
  have hz : (2 : ℚ) ^ (-500 : ℤ) ≤ 1 := zpow_le_one_of_nonpos₀ (by norm_num) (by norm_num)
  have hgap : (1 : ℚ) ≤ b - a := by
    have : a + 1 ≤ b := hab
    have : (a : ℚ) + 1 ≤ b := by exact_mod_cast this
    linarith
  have h1 : (2 : ℚ) ^ (-500 : ℤ) ≤ |(a : ℚ) - b| := hz.trans (by rw [le_abs]; right; linarith)
  have h2 : (2 : ℚ) ^ (-500 : ℤ) ≤ |(b : ℚ) - a| := hz.trans (by rw [le_abs]; left; linarith)
  refine ⟨⟨by simp [square], rfl⟩, ?_, ?_, ?_, hd⟩
  · intro p hp
    simp only [square, List.mem_cons, List.not_mem_nil, or_false] at hp
    rcases hp with rfl | rfl | rfl | rfl | rfl <;> refine ⟨?_, ?_⟩ <;> first | exact dbl a ha | exact dbl b hb
  · intro p hp
    simp only [square, List.mem_cons, List.not_mem_nil, or_false] at hp
    rcases hp with rfl | rfl | rfl | rfl | rfl <;> refine ⟨?_, ?_⟩ <;> first | exact bnd a ha | exact bnd b hb
  · intro s hs
    simp only [square, segments, List.mem_cons, List.not_mem_nil, or_false] at hs
    rcases hs with rfl | rfl | rfl | rfl
    · exact Or.inl h1
    · exact Or.inr h1
    · exact Or.inl h2
    · exact Or.inr h2

/-- As `C28_violated_chord`, in floating point: after going around the second contour, the router cuts diagonally across the face, right through
the island, at a point that is 5 mm away from all contours. -/
theorem C138_violated_chord : ∃ cs : List Motion,
    (∀ f ∈ [square 20 22 (-2), islandFace], FaceOK64 demoInit 100 f) ∧
    routePolyfaceOuters64 demoLib demoInit [square 20 22 (-2), islandFace] (some 1) none = .ok cs ∧
    ∃ c ∈ cs, CutsThrough (-2) ⟨5, 5⟩ c ∧ c.kind = .cut ∧
      ∀ f ∈ [square 20 22 (-2), islandFace], ∀ q, OnPath f.outer q → 25 ≤ sqDist ⟨5, 5⟩ q := by
  obtain ⟨cs, h1, h2⟩ := ok_mem (r := routePolyfaceOuters64 demoLib demoInit [square 20 22 (-2), islandFace] (some 1) none)
    (c := cutTo demoInit (-2) ((⟨0, 0⟩ : Pt).at (-2)) ⟨10, 10⟩) (by decide +kernel)
  refine ⟨cs, ?_, h1, _, h2, ?_, rfl, ?_⟩
  · intro f hf
    simp only [List.mem_cons, List.not_mem_nil, or_false] at hf
    rcases hf with rfl | rfl
    · exact_mod_cast square64_ok (a := 20) (b := 22) (j := demoInit) (d := -2) (by norm_num) (by norm_num) (by norm_num) (by decide +kernel)
    · have : FaceOK64 demoInit 100 (square 0 10 (-2)) := by
        exact_mod_cast square64_ok (a := 0) (b := 10) (j := demoInit) (d := -2) (by norm_num) (by norm_num) (by norm_num) (by decide +kernel)
      exact ⟨this.closed, this.double, this.bound, this.apart, this.below⟩
  · exact ⟨rfl, ⟨0, 0⟩, ⟨10, 10⟩, rfl, rfl, 1/2, by norm_num, by norm_num, by ext <;> norm_num [Pt.lerp]⟩
  · intro f hf q hq
    simp only [List.mem_cons, List.not_mem_nil, or_false] at hf
    have key : ∀ x y : ℚ, 5 ≤ |5 - x| ∨ 5 ≤ |5 - y| → 25 ≤ sqDist ⟨5, 5⟩ ⟨x, y⟩ := by
      intro x y h
      unfold sqDist
      rcases h with h | h
      · have := mul_self_le_mul_self (by norm_num) h
        rw [abs_mul_abs_self] at this
        nlinarith [mul_self_nonneg (5 - y)]
      · have := mul_self_le_mul_self (by norm_num) h
        rw [abs_mul_abs_self] at this
        nlinarith [mul_self_nonneg (5 - x)]
    refine key q.x q.y ?_
    rcases hf with rfl | rfl
    · rcases onPath_square hq with h | h | h | h <;> rw [h] <;> norm_num
    · rcases onPath_square (a := 0) (b := 10) (d := -2) hq with h | h | h | h <;> rw [h] <;> norm_num

/-- The place of a link is rounded: on the side from `(0, 0)` to `(3, 1)` the point nearest to `(1, 1)` is
`(6/5, 2/5)`, which is no pair of doubles. -/
example : (match distanceToPath64 demoLib ⟨1, 1⟩ [⟨0, 0⟩, ⟨3, 1⟩] with
    | .ok (some n) => decide (n.point ≠ ⟨6 / 5, 2 / 5⟩ ∧ |n.point.x - 6 / 5| ≤ 1 / 2 ^ 50 ∧ n.index = 0)
    | _ => false) = true := by decide +kernel

end CQ
