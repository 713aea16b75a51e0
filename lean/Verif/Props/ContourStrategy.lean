import Verif.Model.ContourStrategy
import Verif.Spec.ContourStrategy
import Verif.Props.Drill
import Verif.Proofs.ZigZag

/-! # C91-C93: clipping wires, sorting contours, the contour strategy -/

namespace CQ

/-! ### C91 -/

/-- The path a call gives to pyclipper, and whether it is to be kept. -/
def ClipCall.path : ClipCall → Except Err (Option (ClipPath × Bool))
  | .clipWire edges closed cache => do
      let p ← wirePolygon edges closed
      .ok (some (⟨p.map scalePt, .clip, closed⟩, cache))
  | .subjectWire edges closed => do
      let p ← wirePolygon edges closed
      .ok (some (⟨p.map scalePt, .subject, closed⟩, false))
  | .clipPolygon p closed cache => .ok (some (⟨p.map scalePt, .clip, closed⟩, cache))
  | .subjectPolygon p closed => .ok (some (⟨p.map scalePt, .subject, closed⟩, false))
  | .reset => .ok none

theorem foldE_append_eq {α β : Type} {f : β → α → Except Err β} {b : β} {l l' : List α} :
    foldE f b (l ++ l') = (do let b' ← foldE f b l; foldE f b' l') := by
  induction l generalizing b with
  | nil => rfl
  | cons a as ih =>
    simp only [List.cons_append, foldE]
    cases h : f b a with
    | error e => simp only [error_bind]
    | ok b' => simp only [ok_bind, ih]

theorem give_ok {eng : PathEngine} {c c' : WireClipper} {p : ClipPath} (h : c.give eng p = .ok c') :
    eng.accepts p = true ∧ c' = { c with paths := c.paths ++ [p] } := by
  unfold WireClipper.give at h
  split at h
  · rename_i ha; cases h; exact ⟨ha, rfl⟩
  · cases h

theorem addPath_ok {eng : PathEngine} {c c' : WireClipper} {p : List IPt} {t : PolyType} {cl ca : Bool}
    (h : c.addPath eng p t cl ca = .ok c') :
    eng.accepts ⟨p, t, cl⟩ = true ∧ c'.paths = c.paths ++ [⟨p, t, cl⟩] ∧
      c'.cache = c.cache ++ (if t = .clip ∧ ca = true then [⟨p, t, cl⟩] else []) := by
  unfold WireClipper.addPath at h
  split at h
  · rename_i hc
    obtain ⟨h1, rfl⟩ := give_ok h
    exact ⟨h1, rfl, by simp [hc]⟩
  · rename_i hc
    obtain ⟨h1, rfl⟩ := give_ok h
    exact ⟨h1, rfl, by simp [hc]⟩

/-- A call that is not a reset. -/
theorem clipCall_ok {eng : PathEngine} {c c' : WireClipper} {call : ClipCall} (h : call.run eng c = .ok c') (hn : call ≠ .reset) :
    ∃ p keep, call.path = .ok (some (p, keep)) ∧ eng.accepts p = true ∧ c'.paths = c.paths ++ [p] ∧
      c'.cache = c.cache ++ (if keep then [p] else []) := by
  cases call with
  | clipWire edges closed cache =>
    simp only [ClipCall.run, WireClipper.addWire] at h
    obtain ⟨pl, hp, h⟩ := bind_ok.mp h
    obtain ⟨h1, h2, h3⟩ := addPath_ok h
    exact ⟨_, cache, by simp only [ClipCall.path, hp, ok_bind], h1, h2, by simpa using h3⟩
  | subjectWire edges closed =>
    simp only [ClipCall.run, WireClipper.addWire] at h
    obtain ⟨pl, hp, h⟩ := bind_ok.mp h
    obtain ⟨h1, h2, h3⟩ := addPath_ok h
    exact ⟨_, false, by simp only [ClipCall.path, hp, ok_bind], h1, h2, by simpa using h3⟩
  | clipPolygon p closed cache =>
    simp only [ClipCall.run, WireClipper.addPolygon] at h
    obtain ⟨h1, h2, h3⟩ := addPath_ok h
    exact ⟨_, cache, rfl, h1, h2, by simpa using h3⟩
  | subjectPolygon p closed =>
    simp only [ClipCall.run, WireClipper.addPolygon] at h
    obtain ⟨h1, h2, h3⟩ := addPath_ok h
    exact ⟨_, false, rfl, h1, h2, by simpa using h3⟩
  | reset => exact absurd rfl hn

theorem foldE_give {eng : PathEngine} {ps : List ClipPath} (h : ∀ p ∈ ps, eng.accepts p = true) (c : WireClipper) :
    foldE (WireClipper.give eng) c ps = .ok { c with paths := c.paths ++ ps } := by
  induction ps generalizing c with
  | nil => simp [foldE]
  | cons p ps ih =>
    have hg : c.give eng p = .ok { c with paths := c.paths ++ [p] } := by
      simp only [WireClipper.give, h p (by simp), if_true]
    simp only [foldE, hg, ok_bind]
    rw [ih (fun q hq => h q (by simp [hq]))]
    simp

/-- The paths of the calls that are to be kept. -/
def keptPaths (ps : List (Option (ClipPath × Bool))) : List ClipPath :=
  ps.filterMap (fun p => p.bind (fun q => if q.2 then some q.1 else none))

/-- The paths of the calls. -/
def givenPaths (ps : List (Option (ClipPath × Bool))) : List ClipPath := ps.filterMap (fun p => p.map Prod.fst)

/-- After any calls, what is kept: the paths of the calls that asked for it, in their order; pyclipper has taken them. -/
theorem calls_cache {eng : PathEngine} {calls : List ClipCall} {c c' : WireClipper}
    (h : foldE (fun c call => ClipCall.run eng c call) c calls = .ok c') (hc : ∀ p ∈ c.cache, eng.accepts p = true) :
    ∃ ps, mapE ClipCall.path calls = .ok ps ∧ c'.cache = c.cache ++ keptPaths ps ∧ ∀ p ∈ c'.cache, eng.accepts p = true := by
  induction calls generalizing c with
  | nil => cases h; exact ⟨[], rfl, by simp [keptPaths], hc⟩
  | cons call calls ih =>
    unfold foldE at h
    obtain ⟨c1, h1, h⟩ := bind_ok.mp h
    by_cases hr : call = .reset
    · subst hr
      simp only [ClipCall.run, WireClipper.reset] at h1
      rw [foldE_give hc] at h1
      cases h1
      obtain ⟨ps, i1, i2, i3⟩ := ih h hc
      exact ⟨none :: ps, by simp only [mapE, ClipCall.path, i1, ok_bind], by simpa [keptPaths] using i2, i3⟩
    · obtain ⟨p, keep, e1, e2, e3, e4⟩ := clipCall_ok h1 hr
      obtain ⟨ps, i1, i2, i3⟩ := ih h (by
        rw [e4]
        intro q hq
        rcases List.mem_append.mp hq with hq | hq
        · exact hc q hq
        · cases keep with
          | false => simp at hq
          | true => simp only [if_true, List.mem_singleton] at hq; rw [hq]; exact e2)
      refine ⟨some (p, keep) :: ps, by simp only [mapE, e1, i1, ok_bind], ?_, i3⟩
      rw [i2, e4]
      cases keep <;> simp [keptPaths]

theorem calls_paths {eng : PathEngine} {calls : List ClipCall} {c c' : WireClipper}
    (h : foldE (fun c call => ClipCall.run eng c call) c calls = .ok c') (hn : ClipCall.reset ∉ calls) :
    ∃ ps, mapE ClipCall.path calls = .ok ps ∧ c'.paths = c.paths ++ givenPaths ps := by
  induction calls generalizing c with
  | nil => cases h; exact ⟨[], rfl, by simp [givenPaths]⟩
  | cons call calls ih =>
    unfold foldE at h
    obtain ⟨c1, h1, h⟩ := bind_ok.mp h
    simp only [List.mem_cons, not_or] at hn
    obtain ⟨p, keep, e1, -, e3, -⟩ := clipCall_ok h1 (Ne.symm hn.1)
    obtain ⟨ps, i1, i2⟩ := ih h hn.2
    refine ⟨some (p, keep) :: ps, by simp only [mapE, e1, i1, ok_bind], ?_⟩
    rw [i2, e3]
    simp [givenPaths]

/-- C91.  After any calls of a new clipper and a reset, and then any calls but resets: pyclipper has exactly the paths that were
to be kept among those before the reset, and those after it, in their order. -/
theorem C91_reset {eng : PathEngine} {before after : List ClipCall} {c : WireClipper}
    (h : foldE (fun c call => ClipCall.run eng c call) {} (before ++ .reset :: after) = .ok c) (hn : ClipCall.reset ∉ after) :
    ∃ b a, mapE ClipCall.path before = .ok b ∧ mapE ClipCall.path after = .ok a ∧ c.paths = keptPaths b ++ givenPaths a := by
  rw [foldE_append_eq] at h
  obtain ⟨c1, h1, h2⟩ := bind_ok.mp h
  unfold foldE at h2
  obtain ⟨c2, h2, h3⟩ := bind_ok.mp h2
  obtain ⟨b, b1, b2, b3⟩ := calls_cache h1 (by simp)
  simp only [ClipCall.run, WireClipper.reset] at h2
  rw [foldE_give b3] at h2
  cases h2
  obtain ⟨a, a1, a2⟩ := calls_paths h3 hn
  refine ⟨b, a, b1, a1, ?_⟩
  rw [a2, b2]
  simp

/-- C91: a reset never fails. -/
theorem C91_reset_total {eng : PathEngine} {calls : List ClipCall} {c : WireClipper}
    (h : foldE (fun c call => ClipCall.run eng c call) {} calls = .ok c) : ∃ c', c.reset eng = .ok c' := by
  obtain ⟨-, -, -, h3⟩ := calls_cache h (by simp)
  exact ⟨_, foldE_give h3 _⟩

/-! ### C92 -/

theorem pickNearest_spec {a p : Pt} {ps : List Pt} (h : pickNearest a ps = .ok p) : NearestVertex a ps p := by
  cases ps with
  | nil => cases h
  | cons o os =>
    have : pickNearestFrom a (dist2 a o) o os = p := Except.ok.inj h
    rw [← this]
    exact pickNearestFrom_spec a os o

theorem rotateNearest_spec {a : Pt} {ring r : List Pt} (h : rotateNearest a ring = .ok r) :
    ring ~r r ∧ ∃ p, r.head? = some p ∧ NearestVertex a ring p := by
  unfold rotateNearest at h
  obtain ⟨p, hp, h⟩ := bind_ok.mp h
  obtain ⟨i, hi, h⟩ := bind_ok.mp h
  cases h
  have hn := pickNearest_spec hp
  unfold pyIndex at hi
  rw [if_pos hn.1] at hi
  cases hi
  have hlt := List.idxOf_lt_length_of_mem hn.1
  refine ⟨⟨ring.idxOf p, List.rotate_eq_drop_append_take hlt.le⟩, p, ?_, hn⟩
  rw [List.head?_append, List.head?_drop, List.getElem?_idxOf hn.1]
  rfl

theorem closeLoop_ok {r path : List Pt} (h : closeLoop r = .ok path) : Loop path r := by
  cases r with
  | nil => cases h
  | cons p ps => cases h; exact ⟨p, ps, rfl, rfl⟩

theorem sortPath_loop {a : Pt} {path path' ring : List Pt} (hl : Loop path ring) (h : sortPath a path = .ok path') :
    SameLoopFrom a path path' := by
  obtain ⟨p, ps, rfl, rfl⟩ := hl
  simp only [sortPath, List.cons_append] at h
  have hlast : (p :: (ps ++ [p])).getLast? = some p := by
    rw [← List.cons_append, List.getLast?_concat]
  rw [if_pos hlast] at h
  obtain ⟨r, hr, h⟩ := bind_ok.mp h
  have hd : (p :: (ps ++ [p])).dropLast = p :: ps := by
    rw [← List.cons_append, List.dropLast_concat]
  rw [hd] at hr
  obtain ⟨h1, h2⟩ := rotateNearest_spec hr
  exact ⟨p :: ps, r, ⟨p, ps, rfl, rfl⟩, closeLoop_ok h, h1, h2⟩

theorem rotateNearest_total (a : Pt) {ring : List Pt} (h : ring ≠ []) : ∃ r, rotateNearest a ring = .ok r := by
  obtain ⟨o, os, rfl⟩ := List.exists_cons_of_ne_nil h
  have hn := (pickNearestFrom_spec a os o).1
  simp only [rotateNearest, pickNearest, ok_bind, pyIndex, if_pos hn]
  exact ⟨_, rfl⟩

theorem sortPath_total (a : Pt) {path ring : List Pt} (hl : Loop path ring) : ∃ path', sortPath a path = .ok path' := by
  obtain ⟨p, ps, rfl, rfl⟩ := hl
  have hlast : (p :: (ps ++ [p])).getLast? = some p := by
    rw [← List.cons_append, List.getLast?_concat]
  have hd : (p :: (ps ++ [p])).dropLast = p :: ps := by
    rw [← List.cons_append, List.dropLast_concat]
  obtain ⟨r, hr⟩ := rotateNearest_total a (List.cons_ne_nil p ps)
  have hne : r ≠ [] := by
    rintro rfl
    have := (rotateNearest_spec hr).2
    simp at this
  obtain ⟨q, qs, rfl⟩ := List.exists_cons_of_ne_nil hne
  exact ⟨q :: qs ++ [q], by simp only [sortPath, List.cons_append, if_pos hlast, hd, hr, ok_bind, closeLoop]⟩

/-- C92, what holds.  Sorting closed paths succeeds and keeps them in their order, the first as it is; each of the others is the
same closed curve begun at a vertex nearest to the end of the first path (not of the path before it). -/
theorem C92_sorted_partial {first : List Pt} {rest : List (List Pt)} (hf : ∃ ring, Loop first ring)
    (hr : ∀ p ∈ rest, ∃ ring, Loop p ring) :
    ∃ a rest', first.getLast? = some a ∧ sortOutput (first :: rest) = .ok (first :: rest') ∧
      List.Forall₂ (SameLoopFrom a) rest rest' := by
  obtain ⟨ring, p, ps, -, rfl⟩ := hf
  have hlast : (p :: ps ++ [p]).getLast? = some p := by rw [List.getLast?_concat]
  obtain ⟨rest', h1⟩ := mapE_total (f := sortPath p) (as := rest) (fun q hq => sortPath_total p (hr q hq).choose_spec)
  refine ⟨p, rest', hlast, by simp only [sortOutput, hlast, h1, ok_bind], ?_⟩
  have h2 := mapE_ok.mp h1
  clear h1
  induction h2 with
  | nil => exact .nil
  | cons h _ ih =>
    refine .cons ?_ (ih (fun q hq => hr q (by simp [hq])))
    obtain ⟨ring, hl⟩ := hr _ List.mem_cons_self
    exact sortPath_loop hl h

/-- Whatever is sorted. -/
theorem sortPath_restarted {a : Pt} {path path' : List Pt} (h : sortPath a path = .ok path') : Restarted a path path' := by
  cases path with
  | nil => cases h
  | cons p ps =>
    by_cases hl : (p :: ps).getLast? = some p
    · left
      cases hps : ps using List.reverseRecOn with
      | nil =>
        subst hps
        simp [sortPath, rotateNearest, pickNearest, error_bind] at h
      | append_singleton qs q =>
        subst hps
        rw [← List.cons_append, List.getLast?_concat] at hl
        cases hl
        exact sortPath_loop ⟨p, qs, rfl, rfl⟩ h
    · right
      simp only [sortPath, if_neg hl] at h
      obtain ⟨h1, h2⟩ := rotateNearest_spec h
      exact ⟨fun he => hl (by rw [← he]; rfl), h1, h2⟩

/-- C92: all that sorting does, to closed and open paths. -/
theorem C92_restarted {paths paths' : List (List Pt)} (h : sortOutput paths = .ok paths') :
    ∃ first rest rest' a, paths = first :: rest ∧ paths' = first :: rest' ∧ first.getLast? = some a ∧
      List.Forall₂ (Restarted a) rest rest' := by
  cases paths with
  | nil => cases h
  | cons first rest =>
    simp only [sortOutput] at h
    split at h
    · cases h
    · rename_i a ha
      obtain ⟨rest', h1, h⟩ := bind_ok.mp h
      cases h
      exact ⟨first, rest, rest', a, rfl, rfl, ha, (mapE_ok.mp h1).imp (fun _ _ h => sortPath_restarted h)⟩

/-- A square with its lower left corner there. -/
def squareAt (x y : ℚ) : List Pt := [⟨x, y⟩, ⟨x + 1, y⟩, ⟨x + 1, y + 1⟩, ⟨x, y + 1⟩, ⟨x, y⟩]

theorem squareAt_loop (x y : ℚ) : Loop (squareAt x y) [⟨x, y⟩, ⟨x + 1, y⟩, ⟨x + 1, y + 1⟩, ⟨x, y + 1⟩] := ⟨_, _, rfl, rfl⟩

/-- Sorting three squares. -/
example : sortOutput [squareAt 0 0, squareAt 10 10, squareAt 5 0] = .ok [squareAt 0 0, squareAt 10 10, squareAt 5 0] ∧
    sortOutput [squareAt 9 9, squareAt 0 0] = .ok [squareAt 9 9, [⟨1, 1⟩, ⟨0, 1⟩, ⟨0, 0⟩, ⟨1, 0⟩, ⟨1, 1⟩]] := by
  constructor <;> decide +kernel

theorem Loop.unique {path r r' : List Pt} (h : Loop path r) (h' : Loop path r') : r = r' := by
  obtain ⟨p, ps, rfl, rfl⟩ := h
  obtain ⟨q, qs, rfl, he⟩ := h'
  exact List.append_inj_left' he rfl

/-- C92 fails: only the first path's end is looked at (`point` is not updated in the loop of
src/cq_cam/operations/strategy.py:38-51), so that a later path is not begun at a vertex nearest to the end of the path before
it. -/
theorem C92_violated : ∃ paths paths', (∀ p ∈ paths, ∃ ring, Loop p ring) ∧ sortOutput paths = .ok paths' ∧
    ¬ BegunNear paths paths' := by
  refine ⟨[squareAt 0 0, squareAt 10 10, squareAt 5 0], [squareAt 0 0, squareAt 10 10, squareAt 5 0], ?_,
    by decide +kernel, ?_⟩
  · intro p hp
    simp only [List.mem_cons, List.not_mem_nil, or_false] at hp
    rcases hp with rfl | rfl | rfl <;> exact ⟨_, squareAt_loop _ _⟩
  · rintro ⟨-, -, h⟩
    obtain ⟨a, ha, ring, ring', h1, h2, -, p, hp, -, hn⟩ := h 1 _ _ _ rfl rfl rfl
    have e1 := h1.unique (squareAt_loop 5 0)
    have e2 := h2.unique (squareAt_loop 5 0)
    subst e1 e2
    have ha' : a = ⟨10, 10⟩ := by
      have : (some (⟨10, 10⟩ : Pt)) = some a := ha
      exact (Option.some.inj this).symm
    have hp' : p = ⟨5, 0⟩ := (Option.some.inj hp).symm
    have := hn ⟨6, 1⟩ (by decide +kernel)
    rw [ha', hp'] at this
    revert this
    decide +kernel

/-- C92 fails for open paths: they are begun in the middle, so that they become other polylines. -/
theorem C92_open_violated : ∃ first path path', (∃ ring, Loop first ring) ∧ path.head? ≠ path.getLast? ∧
    sortOutput [first, path] = .ok [first, path'] ∧ path' ≠ path ∧ path' ≠ path.reverse :=
  ⟨squareAt 0 0, [⟨-1, 1⟩, ⟨0, -1⟩, ⟨3, 3⟩], [⟨0, -1⟩, ⟨3, 3⟩, ⟨-1, 1⟩], ⟨_, squareAt_loop 0 0⟩, by decide +kernel,
    by decide +kernel, by decide +kernel, by decide +kernel⟩

/-! ### C93 -/

/-- The offsets of a wire that are used: none if the kernel raises `ValueError`. -/
def WireKernel.inward {W : Type} (k : WireKernel W) (step : ℚ) (w : W) : List W :=
  match k.offset2D w step with
  | .ok ws => ws
  | .error _ => []

/-- The path of a wire. -/
def WireKernel.clipPath {W : Type} (k : WireKernel W) (t : PolyType) (w : W) : Except Err ClipPath := do
  let p ← wirePolygon (k.edges w) (k.isClosed w)
  .ok ⟨p.map scalePt, t, k.isClosed w⟩

theorem mapE_append {α β : Type} {f : α → Except Err β} {l l' : List α} {b b' : List β} (h : mapE f l = .ok b)
    (h' : mapE f l' = .ok b') : mapE f (l ++ l') = .ok (b ++ b') :=
  mapE_ok.mpr (List.rel_append (mapE_ok.mp h) (mapE_ok.mp h'))

theorem addWires_ok {W : Type} {eng : PathEngine} {k : WireKernel W} {t : PolyType} {ca : Bool} {ws : List W}
    {c c' : WireClipper}
    (h : foldE (fun c w => WireClipper.addWire eng c (k.edges w) t ca (k.isClosed w)) c ws = .ok c') :
    ∃ ps, mapE (k.clipPath t) ws = .ok ps ∧ c'.paths = c.paths ++ ps := by
  induction ws generalizing c with
  | nil => cases h; exact ⟨[], rfl, by simp⟩
  | cons w ws ih =>
    unfold foldE at h
    obtain ⟨c1, h1, h⟩ := bind_ok.mp h
    unfold WireClipper.addWire at h1
    obtain ⟨p, hp, h1⟩ := bind_ok.mp h1
    obtain ⟨-, h2, -⟩ := addPath_ok h1
    obtain ⟨ps, i1, i2⟩ := ih h
    refine ⟨⟨p.map scalePt, t, k.isClosed w⟩ :: ps, ?_, by rw [i2, h2]; simp⟩
    have hw : k.clipPath t w = .ok ⟨p.map scalePt, t, k.isClosed w⟩ := by simp only [WireKernel.clipPath, hp, ok_bind]
    simp only [mapE, hw, i1, ok_bind]

theorem addSubjects_ok {W : Type} {eng : PathEngine} {k : WireKernel W} {ws : List W} {c c' : WireClipper}
    (h : foldE (addSubjectWire eng k) c ws = .ok c') :
    ∃ ps, mapE (k.clipPath .subject) ws = .ok ps ∧ c'.paths = c.paths ++ ps := addWires_ok h

theorem addClips_ok {W : Type} {eng : PathEngine} {k : WireKernel W} {ws : List W} {c c' : WireClipper}
    (h : foldE (addClipWire eng k) c ws = .ok c') :
    ∃ ps, mapE (k.clipPath .clip) ws = .ok ps ∧ c'.paths = c.paths ++ ps := addWires_ok h

/-- The loop goes through the wires `g` at the front of the queue and puts their offsets at its end. -/
theorem contourLoop_front {W : Type} {eng : PathEngine} {k : WireKernel W} {step : ℚ} {c' : WireClipper} :
    ∀ (g r : List W) (n : ℕ) (c : WireClipper), contourLoop eng k step n (g ++ r) c = .ok c' → (g ++ r = [] ∨ g.length ≤ n) →
      ∃ ps c1, mapE (k.clipPath .subject) (g.flatMap (k.inward step)) = .ok ps ∧ c1.paths = c.paths ++ ps ∧
        contourLoop eng k step (n - g.length) (r ++ g.flatMap (k.inward step)) c1 = .ok c' := by
  intro g
  induction g with
  | nil => intro r n c h _; exact ⟨[], c, rfl, by simp, by simpa using h⟩
  | cons w g ih =>
    intro r n c h hn
    cases n with
    | zero => simp at hn
    | succ n =>
      have hn' : g.length ≤ n := by
        rcases hn with hn | hn
        · simp at hn
        · simpa using hn
      simp only [List.cons_append, contourLoop] at h
      split at h
      · rename_i ho
        obtain ⟨ps, c1, i1, i2, i3⟩ := ih r n c h (.inr hn')
        have hi : k.inward step w = [] := by simp [WireKernel.inward, ho]
        exact ⟨ps, c1, by simpa [hi] using i1, i2, by simpa [hi] using i3⟩
      · cases h
      · rename_i ws ho
        obtain ⟨c2, h2, h⟩ := bind_ok.mp h
        obtain ⟨qs, q1, q2⟩ := addSubjects_ok h2
        rw [List.append_assoc] at h
        obtain ⟨ps, c1, i1, i2, i3⟩ := ih (r ++ ws) n c2 h (.inr hn')
        have hi : k.inward step w = ws := by simp [WireKernel.inward, ho]
        refine ⟨qs ++ ps, c1, ?_, by rw [i2, q2]; simp, ?_⟩
        · rw [List.flatMap_cons, hi]
          exact mapE_append q1 i1
        · rw [List.flatMap_cons, hi]
          simpa using i3

theorem generation_succ {W : Type} (off : W → List W) (ws : List W) (n : ℕ) :
    generation off ws (n + 1) = generation off (ws.flatMap off) n := by
  induction n with
  | zero => rfl
  | succ n ih =>
    rw [generation, ih]
    rfl

theorem generations_succ {W : Type} (off : W → List W) (ws : List W) (n : ℕ) :
    generations off ws (n + 1) = ws.flatMap off ++ generations off (ws.flatMap off) n := by
  unfold generations
  rw [List.range_succ_eq_map, List.flatMap_cons, List.flatMap_map]
  congr 1
  refine List.flatMap_congr ?_
  intro i _
  exact generation_succ off ws (i + 1)

/-- A loop that ends has been through the whole queue. -/
theorem contourLoop_enough {W : Type} {eng : PathEngine} {k : WireKernel W} {step : ℚ} {c' : WireClipper} :
    ∀ (n : ℕ) (q : List W) (c : WireClipper), contourLoop eng k step n q c = .ok c' → q.length ≤ n := by
  intro n
  induction n with
  | zero =>
    intro q c h
    cases q with
    | nil => simp
    | cons w q => cases h
  | succ n ih =>
    intro q c h
    cases q with
    | nil => simp
    | cons w q =>
      simp only [contourLoop] at h
      split at h
      · have := ih _ _ h
        simpa using this
      · cases h
      · obtain ⟨c2, -, h⟩ := bind_ok.mp h
        have := ih _ _ h
        simp only [List.length_append, List.length_cons] at this ⊢
        omega

/-- C93, one boundary. -/
theorem contourLoop_generations {W : Type} {eng : PathEngine} {k : WireKernel W} {step : ℚ} {c' : WireClipper} :
    ∀ (n : ℕ) (q : List W) (c : WireClipper), contourLoop eng k step n q c = .ok c' →
      ∃ m ps, generation (k.inward step) q m = [] ∧
        mapE (k.clipPath .subject) (generations (k.inward step) q m) = .ok ps ∧ c'.paths = c.paths ++ ps := by
  intro n
  induction n using Nat.strong_induction_on with
  | _ n ih =>
    intro q c h
    cases q with
    | nil =>
      have : c = c' := by
        cases n <;> exact Except.ok.inj h
      subst this
      exact ⟨0, [], rfl, rfl, by simp⟩
    | cons w q =>
      have hl := contourLoop_enough _ _ _ h
      have h' : contourLoop eng k step n ((w :: q) ++ []) c = .ok c' := by simpa using h
      obtain ⟨ps, c1, h1, h2, h3⟩ := contourLoop_front (w :: q) [] n c h' (.inr hl)
      rw [List.nil_append] at h3
      have hlt : n - (w :: q).length < n := by
        simp only [List.length_cons] at hl ⊢
        omega
      obtain ⟨m, qs, i1, i2, i3⟩ := ih _ hlt _ _ h3
      refine ⟨m + 1, ps ++ qs, ?_, ?_, by rw [i3, h2]; simp⟩
      · rw [generation_succ]; exact i1
      · rw [generations_succ]; exact mapE_append h1 i2

theorem wirePolygon_ne_fuel {es : List Edge} {cl : Bool} : wirePolygon es cl ≠ .error .outOfFuel := by
  have hf : ∀ es : List Edge, flattenEdges es ≠ .error .outOfFuel := by
    intro es
    induction es with
    | nil => simp [flattenEdges]
    | cons e es ih =>
      intro h
      unfold flattenEdges at h
      cases hr : flattenEdges es with
      | error er =>
        rw [hr] at h
        split at h
        · simp only [ok_bind, error_bind] at h; cases h; exact ih hr
        · split at h
          · simp only [ok_bind, error_bind] at h; cases h; exact ih hr
          · cases h
      | ok vs =>
        rw [hr] at h
        split at h
        · cases h
        · split at h <;> cases h
  intro h
  unfold wirePolygon at h
  cases hv : flattenEdges es with
  | error e => rw [hv, error_bind] at h; cases h; exact hf es hv
  | ok vs =>
    rw [hv, ok_bind] at h
    simp only at h
    split at h
    · cases h
    · split at h <;> cases h

theorem addSubjects_ne_fuel {W : Type} {eng : PathEngine} {k : WireKernel W} {ws : List W} {c : WireClipper} :
    foldE (addSubjectWire eng k) c ws ≠ .error .outOfFuel := by
  induction ws generalizing c with
  | nil => simp [foldE]
  | cons w ws ih =>
    intro h
    unfold foldE at h
    cases hw : addSubjectWire eng k c w with
    | ok c1 => rw [hw, ok_bind] at h; exact ih h
    | error e =>
      rw [hw, error_bind] at h
      cases h
      unfold addSubjectWire WireClipper.addWire at hw
      cases hp : wirePolygon (k.edges w) (k.isClosed w) with
      | error e => rw [hp, error_bind] at hw; cases hw; exact wirePolygon_ne_fuel hp
      | ok p =>
        rw [hp, ok_bind] at hw
        unfold WireClipper.addPath WireClipper.give at hw
        split at hw <;> split at hw <;> cases hw

theorem contourLoop_through {W : Type} {eng : PathEngine} {k : WireKernel W} {step : ℚ}
    (hk : ∀ w, k.offset2D w step ≠ .error .outOfFuel) :
    ∀ (g r : List W) (n : ℕ) (c : WireClipper), g.length ≤ n →
      contourLoop eng k step n (g ++ r) c ≠ .error .outOfFuel ∨
        ∃ c1, contourLoop eng k step n (g ++ r) c = contourLoop eng k step (n - g.length) (r ++ g.flatMap (k.inward step)) c1 := by
  intro g
  induction g with
  | nil => intro r n c _; exact .inr ⟨c, by simp⟩
  | cons w g ih =>
    intro r n c hn
    cases n with
    | zero => simp at hn
    | succ n =>
      have hn' : g.length ≤ n := by simpa using hn
      cases ho : k.offset2D w step with
      | error e =>
        have hi : k.inward step w = [] := by simp [WireKernel.inward, ho]
        by_cases he : e = .valueError
        · subst he
          have hs : contourLoop eng k step (n + 1) (w :: g ++ r) c = contourLoop eng k step n (g ++ r) c := by
            simp only [List.cons_append, contourLoop, ho]
          rw [hs]
          simpa [hi] using ih r n c hn'
        · left
          have hs : contourLoop eng k step (n + 1) (w :: g ++ r) c = .error e := by
            simp only [List.cons_append, contourLoop, ho]
          rw [hs]
          intro h
          cases h
          exact hk w ho
      | ok ws =>
        have hi : k.inward step w = ws := by simp [WireKernel.inward, ho]
        have hs : contourLoop eng k step (n + 1) (w :: g ++ r) c = (do
            let c' ← foldE (addSubjectWire eng k) c ws
            contourLoop eng k step n (g ++ r ++ ws) c') := by
          simp only [List.cons_append, contourLoop, ho]
        rw [hs]
        cases hw : foldE (addSubjectWire eng k) c ws with
        | error e =>
          left
          rw [error_bind]
          intro h
          cases h
          exact addSubjects_ne_fuel hw
        | ok c2 =>
          rw [ok_bind, List.append_assoc]
          simpa [hi] using ih (r ++ ws) n c2 hn'

/-- C93: the loop over one outer boundary ends as soon as a generation of its offsets is empty. -/
theorem contourLoop_ends {W : Type} {eng : PathEngine} {k : WireKernel W} {step : ℚ}
    (hk : ∀ w, k.offset2D w step ≠ .error .outOfFuel) :
    ∀ (m : ℕ) (q : List W) (n : ℕ) (c : WireClipper), generation (k.inward step) q m = [] →
      (q ++ generations (k.inward step) q m).length ≤ n → contourLoop eng k step n q c ≠ .error .outOfFuel := by
  intro m
  induction m with
  | zero =>
    intro q n c hq _
    have : q = [] := hq
    subst this
    cases n <;> simp [contourLoop]
  | succ m ih =>
    intro q n c hq hn
    rw [generations_succ] at hn
    simp only [List.length_append] at hn
    rcases contourLoop_through (eng := eng) hk q [] n c (by omega) with h | ⟨c1, h⟩
    · simpa using h
    · rw [List.append_nil, List.nil_append] at h
      rw [h]
      refine ih _ _ _ (by rw [← generation_succ]; exact hq) ?_
      simp only [List.length_append]
      omega

/-- C93.  Whenever the contour strategy gives paths: every outer boundary has an empty generation of inward offsets, and
pyclipper has been asked once for the intersection of the outer and inner boundaries with all the generations of offsets of all
the outer boundaries up to there, in this order; the paths are its closed paths and then its open paths, the first
as it is and the others begun at a vertex nearest to the end of the first. -/
theorem C93_generations {W : Type} {eng : PathEngine} {k : WireKernel W} {d s : ℚ} {n : ℕ} {outers inners : List W}
    {paths : List (List Pt)} (h : contourStrategy eng k d s n outers inners = .ok paths) :
    ∃ ms clips subjects opened closed loops first rest rest' a, ms.length = outers.length ∧
      (∀ om ∈ outers.zip ms, generation (k.inward (-|d * s|)) [om.1] om.2 = []) ∧
      mapE (k.clipPath .clip) (outers ++ inners) = .ok clips ∧
      mapE (k.clipPath .subject) ((outers.zip ms).flatMap (fun om => generations (k.inward (-|d * s|)) [om.1] om.2)) =
        .ok subjects ∧
      eng.intersect (clips ++ subjects) = .ok (opened, closed) ∧
      List.Forall₂ (fun loop ring => Loop loop (ring.map unscalePt)) loops closed ∧
      loops ++ opened.map (fun p => p.map unscalePt) = first :: rest ∧ first.getLast? = some a ∧ paths = first :: rest' ∧
      List.Forall₂ (Restarted a) rest rest' := by
  unfold contourStrategy at h
  obtain ⟨c1, h1, h⟩ := bind_ok.mp h
  obtain ⟨c2, h2, h⟩ := bind_ok.mp h
  obtain ⟨c3, h3, h⟩ := bind_ok.mp h
  obtain ⟨out, h4, h⟩ := bind_ok.mp h
  obtain ⟨p1, a1, a2⟩ := addClips_ok h1
  obtain ⟨p2, b1, b2⟩ := addClips_ok h2
  have key : ∀ (os : List W) (c c' : WireClipper),
      foldE (fun c o => contourLoop eng k (-|d * s|) n [o] c) c os = .ok c' →
      ∃ (ms : List ℕ) (ps : List ClipPath), ms.length = os.length ∧
        (∀ om ∈ os.zip ms, generation (k.inward (-|d * s|)) [om.1] om.2 = []) ∧
        mapE (k.clipPath .subject) ((os.zip ms).flatMap (fun om => generations (k.inward (-|d * s|)) [om.1] om.2)) = .ok ps ∧
        c'.paths = c.paths ++ ps := by
    intro os
    induction os with
    | nil => intro c c' h; cases h; exact ⟨[], [], rfl, by simp, rfl, by simp⟩
    | cons o os ih =>
      intro c c' h
      unfold foldE at h
      obtain ⟨c1, h1, h⟩ := bind_ok.mp h
      obtain ⟨m, ps, e1, e2, e3⟩ := contourLoop_generations _ _ _ h1
      obtain ⟨ms, qs, i1, i2, i3, i4⟩ := ih _ _ h
      refine ⟨m :: ms, ps ++ qs, by simp [i1], ?_, ?_, by rw [i4, e3]; simp⟩
      · intro om hom
        rw [List.zip_cons_cons, List.mem_cons] at hom
        rcases hom with rfl | hom
        · exact e1
        · exact i2 om hom
      · rw [List.zip_cons_cons, List.flatMap_cons]
        exact mapE_append e2 i3
  obtain ⟨ms, ps, g1, g2, g3, g4⟩ := key _ _ _ h3
  unfold WireClipper.execute at h4
  obtain ⟨⟨opened, closed⟩, h5, h4⟩ := bind_ok.mp h4
  obtain ⟨loops, h6, h4⟩ := bind_ok.mp h4
  cases h4
  obtain ⟨first, rest, rest', a, s1, s2, s3, s4⟩ := C92_restarted h
  refine ⟨ms, p1 ++ p2, ps, opened, closed, loops, first, rest, rest', a, g1, g2, mapE_append a1 b1, g3, ?_, ?_, s1, s3, s2, s4⟩
  · rw [← h5, g4, b2, a2]
    rfl
  · have h7 := mapE_ok.mp h6
    rw [List.forall₂_map_left_iff] at h7
    exact h7.flip.imp (fun a b hab => closeLoop_ok hab)

/-- C93: whenever every outer boundary has an empty generation of inward offsets, the loops end. -/
theorem C93_ends {W : Type} {eng : PathEngine} {k : WireKernel W} {step : ℚ} (hk : ∀ w, k.offset2D w step ≠ .error .outOfFuel)
    (o : W) (m : ℕ) (hm : generation (k.inward step) [o] m = []) :
    ∃ N, ∀ n ≥ N, ∀ c, contourLoop eng k step n [o] c ≠ .error .outOfFuel :=
  ⟨_, fun n hn c => contourLoop_ends hk m [o] n c hm hn⟩

/-- C93: and if one has none, its loop goes on for ever unless it crashes. -/
theorem C93_hangs {W : Type} {eng : PathEngine} {k : WireKernel W} {step : ℚ} (o : W)
    (hm : ∀ m, generation (k.inward step) [o] m ≠ []) (n : ℕ) (c : WireClipper) :
    ∃ e, contourLoop eng k step n [o] c = .error e := by
  cases h : contourLoop eng k step n [o] c with
  | error e => exact ⟨e, rfl⟩
  | ok c' =>
    obtain ⟨m, -, h1, -, -⟩ := contourLoop_generations _ _ _ h
    exact absurd h1 (hm m)

/-! ### Examples -/

/-- A straight edge between two points of the plane. -/
def flatEdge (a b : Pt) : Edge where
  id := 0
  geom := .line
  startPoint := ⟨a.x, a.y, 0⟩
  endPoint := ⟨b.x, b.y, 0⟩
  posParam t := ⟨a.x + t * (b.x - a.x), a.y + t * (b.y - a.y), 0⟩
  posLen t := ⟨a.x + t * (b.x - a.x), a.y + t * (b.y - a.y), 0⟩
  paramAt t := t
  length := 1

/-- Squares around the origin, given by their sizes; each has the next smaller one as its offset, and the smallest has none. -/
def nested : WireKernel ℕ where
  edges n := [flatEdge ⟨-n, -n⟩ ⟨n, -n⟩, flatEdge ⟨n, -n⟩ ⟨n, n⟩, flatEdge ⟨n, n⟩ ⟨-n, n⟩, flatEdge ⟨-n, n⟩ ⟨-n, -n⟩]
  isClosed _ := true
  offset2D n _ := if n ≤ 1 then .error .valueError else .ok [n - 1]

/-- An engine that takes closed paths only and gives back its subjects. -/
def subjectsBack : PathEngine where
  accepts p := p.closed
  intersect ps := .ok ([], (ps.filter (fun p => p.type = .subject)).map ClipPath.path)

/-- The hypothesis of `C93_generations`: a square of size 3 with an inner boundary of size 1. -/
example : (match contourStrategy subjectsBack nested 1 (1/2) 10 [3] [1] with
    | .ok ps => decide (ps = [[⟨2, -2⟩, ⟨2, 2⟩, ⟨-2, 2⟩, ⟨-2, -2⟩, ⟨2, -2⟩], [⟨1, -1⟩, ⟨1, 1⟩, ⟨-1, 1⟩, ⟨-1, -1⟩, ⟨1, -1⟩]])
    | .error _ => false) = true := by decide +kernel

/-- The hypotheses of `C93_ends`. -/
example : (∀ w, nested.offset2D w (-1) ≠ .error .outOfFuel) ∧ generation (nested.inward (-1)) [3] 3 = [] := by
  refine ⟨?_, by decide +kernel⟩
  intro w
  simp only [nested]
  split <;> simp

/-- Offsets that never come to an end: the hypothesis of `C93_hangs`. -/
example : ∀ m, generation ((⟨nested.edges, nested.isClosed, fun n _ => .ok [n]⟩ : WireKernel ℕ).inward (-1)) [3] m ≠ [] := by
  have : ∀ m, generation ((⟨nested.edges, nested.isClosed, fun n _ => .ok [n]⟩ : WireKernel ℕ).inward (-1)) [3] m = [3] := by
    intro m
    induction m with
    | zero => rfl
    | succ m ih => rw [generation, ih]; rfl
  intro m
  rw [this]
  simp

/-- The hypotheses of `C91_reset`: of two clips and a subject before the reset, the kept clip remains. -/
example : (match foldE (fun c call => ClipCall.run subjectsBack c call) {} ([.clipWire (nested.edges 2) true true,
      .clipPolygon [⟨0, 0⟩, ⟨1, 0⟩, ⟨0, 1⟩] true false, .subjectPolygon [⟨0, 0⟩, ⟨2, 0⟩, ⟨0, 2⟩] true] ++ .reset ::
      [.subjectPolygon [⟨0, 0⟩, ⟨1, 0⟩, ⟨1, 1⟩] true]) with
    | .ok c => decide (c.paths.map ClipPath.type = [.clip, .subject] ∧ c.cache.length = 1)
    | .error _ => false) = true := by decide +kernel

end CQ
