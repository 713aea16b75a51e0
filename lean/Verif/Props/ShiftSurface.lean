import Verif.Props.ShiftPocket

/-! # C123, for 3D surfacing -/

namespace CQ

/-! ### Linked polygons -/

theorem pyIndex_side (s : Pt) (l : List Pt) (p : Pt) : pyIndex (l.map (Pt.side s)) (Pt.side s p) = pyIndex l p := by
  have hi : (l.map (Pt.side s)).idxOf (Pt.side s p) = l.idxOf p := by
    induction l with
    | nil => rfl
    | cons a l ih =>
      by_cases h : a = p
      · subst h; simp
      · rw [List.map_cons, List.idxOf_cons_ne _ (fun e => h (side_inj s e)), List.idxOf_cons_ne _ h, ih]
  by_cases h : p ∈ l
  · rw [pyIndex, pyIndex, if_pos h, if_pos (List.mem_map_of_mem h), hi]
  · rw [pyIndex, pyIndex, if_neg h, if_neg (by rwa [List.mem_map_of_injective (side_inj s)])]

theorem pyRemove_side (s : Pt) (l : List Pt) (p : Pt) :
    pyRemove (l.map (Pt.side s)) (Pt.side s p) = (pyRemove l p).map (List.map (Pt.side s)) := by
  by_cases h : p ∈ l
  · rw [pyRemove, pyRemove, if_pos h, if_pos (List.mem_map_of_mem h), ← List.map_erase (side_inj s)]
    rfl
  · rw [pyRemove, pyRemove, if_neg h, if_neg (by rwa [List.mem_map_of_injective (side_inj s)])]
    rfl

theorem pyInsert_side (s : Pt) (l : List Pt) (i : ℕ) (p : Pt) :
    pyInsert (l.map (Pt.side s)) i (Pt.side s p) = (pyInsert l i p).map (Pt.side s) := by
  simp only [pyInsert, List.map_append, List.map_cons, List.map_take, List.map_drop]

/-- A linked polygon, moved. -/
def LinkedPolygon.side (s : Pt) (lp : LinkedPolygon) : LinkedPolygon :=
  ⟨lp.polygon.map (Pt.side s), lp.linked.map (Pt.side s), lp.avail.map (Pt.side s)⟩

theorem linkPoint_side (s : Pt) (lp : LinkedPolygon) (p a b : Pt) :
    (lp.side s).linkPoint (Pt.side s p) (Pt.side s a) (Pt.side s b) = (lp.linkPoint p a b).map (LinkedPolygon.side s) := by
  obtain ⟨poly, linked, avail⟩ := lp
  change LinkedPolygon.linkPoint ⟨poly.map (Pt.side s), linked.map (Pt.side s), avail.map (Pt.side s)⟩ _ _ _ = _
  unfold LinkedPolygon.linkPoint
  by_cases h : p ∈ linked
  · rw [if_pos h, if_pos (List.mem_map_of_mem h)]
    rfl
  · rw [if_neg h, if_neg (by rwa [List.mem_map_of_injective (side_inj s)]), pyIndex_side, pyIndex_side, map_bind_side]
    congr 1
    funext i
    rw [map_bind_side]
    congr 1
    funext k
    by_cases hk : i + 1 = k
    · rw [if_pos hk, if_pos hk, pyInsert_side]
      simp [Except.map, LinkedPolygon.side]
    · rw [if_neg hk, if_neg hk]
      have hr : ((poly.map (Pt.side s)).drop (i + 1)).take (k - (i + 1)) ++ [Pt.side s p] =
          ((poly.drop (i + 1)).take (k - (i + 1)) ++ [p]).map (Pt.side s) := by
        simp only [List.map_append, List.map_take, List.map_drop, List.map_cons, List.map_nil]
      have hso : ∀ l : List Pt, (l.map (Pt.side s)).insertionSort (fun x y => dist2 x (Pt.side s a) ≤ dist2 y (Pt.side s a)) =
          (l.insertionSort (fun x y => dist2 x a ≤ dist2 y a)).map (Pt.side s) := by
        intro l
        symm
        apply List.map_insertionSort
        intro x _ y _
        simp only [dist2_side]
      dsimp only
      rw [hr, hso, pyIndex_side, map_bind_side]
      simp only [pyInsert_side]
      simp [Except.map, LinkedPolygon.side]

theorem reset_side (s : Pt) (lp : LinkedPolygon) : (lp.side s).reset = (lp.reset).side s := rfl

theorem drop_side (s : Pt) (lp : LinkedPolygon) (p : Pt) :
    (lp.side s).drop (Pt.side s p) = (lp.drop p).map (LinkedPolygon.side s) := by
  have h := pyRemove_side s lp.avail p
  simp only [LinkedPolygon.drop, map_bind_side]
  change (pyRemove (lp.avail.map (Pt.side s)) (Pt.side s p) >>= _) = _
  rw [h, bind_map_side]
  rfl

theorem searchLinked_side (s : Pt) (avail : List Pt) (d d' : Pt → ℚ) (hd : ∀ q, d' (Pt.side s q) = d q) (l : List Pt) :
    searchLinked (avail.map (Pt.side s)) d' (l.map (Pt.side s)) =
      ((searchLinked avail d l).1, (searchLinked avail d l).2.map (Pt.side s)) := by
  induction l with
  | nil => rfl
  | cons q l ih =>
    simp only [List.map_cons, searchLinked, ih, hd]
    by_cases h : q ∈ avail
    · rw [if_pos h, if_pos (List.mem_map_of_mem h)]
      rfl
    · rw [if_neg h, if_neg (by rwa [List.mem_map_of_injective (side_inj s)])]
      rfl

/-- The result of a search for the next scanline, moved. -/
def sideLink (s : Pt) (x : Option (List Pt) × LinkedPolygon) : Option (List Pt) × LinkedPolygon :=
  (x.1.map (List.map (Pt.side s)), x.2.side s)

theorem nearestLinked_side (s : Pt) (lp : LinkedPolygon) (p : Pt) :
    (lp.side s).nearestLinked (Pt.side s p) = (lp.nearestLinked p).map (sideLink s) := by
  unfold LinkedPolygon.nearestLinked
  have h := pyRemove_side s lp.avail p
  change (pyRemove (lp.avail.map (Pt.side s)) (Pt.side s p) >>= _) = _
  rw [h, bind_map_side, map_bind_side]
  congr 1
  funext avail
  by_cases ha : avail = []
  · rw [if_pos ha, if_pos (by simpa using ha)]
    rfl
  · rw [if_neg ha, if_neg (by simpa using ha)]
    change (pyIndex (lp.polygon.map (Pt.side s)) (Pt.side s p) >>= _) = _
    rw [pyIndex_side, map_bind_side]
    congr 1
    funext i
    have hse : (lp.side s).polygon.drop (i + 1) ++ (lp.side s).polygon.take i =
        (lp.polygon.drop (i + 1) ++ lp.polygon.take i).map (Pt.side s) := by
      simp only [LinkedPolygon.side, List.map_append, List.map_take, List.map_drop]
    simp only [hse]
    rw [← List.map_reverse, searchLinked_side s avail (fun q => dist2 p q) _ (fun q => dist2_side s p q),
      searchLinked_side s avail (fun q => dist2 q p) _ (fun q => dist2_side s q p)]
    generalize searchLinked avail (fun q => dist2 p q) _ = fw
    generalize searchLinked avail (fun q => dist2 q p) _ = rv
    have hc : chooseLink (fw.1, fw.2.map (Pt.side s)) (rv.1, rv.2.map (Pt.side s)) = (chooseLink fw rv).map (Pt.side s) := by
      simp only [chooseLink]
      split <;> rfl
    rw [hc]
    generalize chooseLink fw rv = seq
    simp only [takeLink, List.getLast?_map]
    cases seq.getLast? with
    | none => rfl
    | some q =>
      simp only [Option.map]
      rw [pyRemove_side, bind_map_side, map_bind_side]
      rfl

/-! ### The zigzag -/

/-- A piece of a line, moved. -/
def sideLine (s : Pt) (l : Pt × Pt) : Pt × Pt := (Pt.side s l.1, Pt.side s l.2)

theorem sideLine_inj (s : Pt) : Function.Injective (sideLine s) := by
  rintro ⟨a, b⟩ ⟨c, d⟩ h
  simp only [sideLine, Prod.mk.injEq] at h
  rw [side_inj s h.1, side_inj s h.2]

theorem foldE_side {α α' β β' : Type} {f : β → α → Except Err β} {f' : β' → α' → Except Err β'} {σ : α → α'} {τ : β → β'}
    (h : ∀ b a, f' (τ b) (σ a) = (f b a).map τ) (b : β) (l : List α) : foldE f' (τ b) (l.map σ) = (foldE f b l).map τ := by
  induction l generalizing b with
  | nil => rfl
  | cons a l ih => simp only [List.map_cons, foldE, h, bind_map_side, map_bind_side, ih]

/-- The state of the linking, moved. -/
def LinkState.side (s : Pt) (x : LinkState) : LinkState :=
  ⟨x.remaining.map (Pt.side s), x.lp.side s, x.owner.map (fun e => (Pt.side s e.1, e.2))⟩

theorem linkStep_side (s : Pt) (k : ℕ) (p1 p2 : Pt) (x : LinkState) (q : Pt) :
    linkStep k (Pt.side s p1) (Pt.side s p2) (x.side s) (Pt.side s q) = (linkStep k p1 p2 x q).map (LinkState.side s) := by
  unfold linkStep
  rw [distToSegment_side, bind_map_side, map_bind_side]
  congr 1
  funext d
  simp only
  split
  · simp only [LinkState.side]
    rw [pyRemove_side, bind_map_side, map_bind_side]
    congr 1
    funext r
    rw [linkPoint_side, bind_map_side, map_bind_side]
    rfl
  · rfl

theorem linkSegment_side (s : Pt) (k : ℕ) (x : LinkState) (seg : Pt × Pt) :
    linkSegment k (x.side s) (sideLine s seg) = (linkSegment k x seg).map (LinkState.side s) :=
  foldE_side (fun b a => linkStep_side s k seg.1 seg.2 b a) x x.remaining

theorem segments_side (s : Pt) (l : List Pt) : segments (l.map (Pt.side s)) = (segments l).map (sideLine s) := by
  induction l with
  | nil => rfl
  | cons a l ih =>
    cases l with
    | nil => rfl
    | cons b l =>
      simp only [List.map_cons, segments] at ih ⊢
      rw [ih]
      rfl

/-- Keys that are points, moved. -/
def sideKeys {β β' : Type} (s : Pt) (τ : β → β') (d : List (Pt × β)) : List (Pt × β') := d.map (fun e => (Pt.side s e.1, τ e.2))

theorem linkBoundaries_side (s : Pt) (k : ℕ) (rem : List Pt) (owner : List (Pt × ℕ)) (bs : List (List Pt)) :
    linkBoundaries k (rem.map (Pt.side s)) (sideKeys s id owner) (bs.map (List.map (Pt.side s))) =
      (linkBoundaries k rem owner bs).map (fun x => (x.1.map (LinkedPolygon.side s), sideKeys s id x.2)) := by
  induction bs generalizing k rem owner with
  | nil =>
    simp only [List.map_nil, linkBoundaries]
    by_cases h : rem = []
    · simp [h, Except.map]
    · rw [if_pos h, if_pos (by simpa using h)]
      rfl
  | cons b bs ih =>
    have h : linkBoundary k (rem.map (Pt.side s)) (sideKeys s id owner) (b.map (Pt.side s)) =
        (linkBoundary k rem owner b).map (LinkState.side s) := by
      unfold linkBoundary
      rw [segments_side]
      exact foldE_side (fun b a => linkSegment_side s k b a) ⟨rem, { polygon := b }, owner⟩ (segments b)
    simp only [List.map_cons, linkBoundaries]
    rw [h, bind_map_side, map_bind_side]
    congr 1
    funext x
    have h2 := ih (k + 1) x.remaining x.owner
    change (linkBoundaries (k + 1) (x.remaining.map (Pt.side s)) (sideKeys s id x.owner) _ >>= _) = _
    rw [h2, bind_map_side, map_bind_side]
    rfl

theorem lookup_side {β β' : Type} (s : Pt) (τ : β → β') (d : List (Pt × β)) (p : Pt) :
    (sideKeys s τ d).lookup (Pt.side s p) = (d.lookup p).map τ := by
  induction d with
  | nil => rfl
  | cons e d ih =>
    obtain ⟨q, v⟩ := e
    simp only [sideKeys, List.map_cons, List.lookup_cons] at ih ⊢
    by_cases h : p = q
    · subst h
      simp
    · have h' : Pt.side s p ≠ Pt.side s q := fun e => h (side_inj s e)
      simp only [beq_eq_false_iff_ne.mpr h, beq_eq_false_iff_ne.mpr h']
      exact ih

theorem getKey_side {β β' : Type} (s : Pt) (τ : β → β') (d : List (Pt × β)) (p : Pt) :
    getKey (sideKeys s τ d) (Pt.side s p) = (getKey d p).map τ := by
  unfold getKey
  rw [lookup_side]
  cases d.lookup p <;> rfl

theorem scanlineMap_side (s : Pt) (ls : List (Pt × Pt)) :
    scanlineMap (ls.map (sideLine s)) = sideKeys s (sideLine s) (scanlineMap ls) := by
  induction ls with
  | nil => rfl
  | cons l ls ih =>
    simp only [List.map_cons, scanlineMap, ih, sideKeys, List.map_append]
    rfl

theorem scanpoints_side (s : Pt) (ls : List (Pt × Pt)) : scanpoints (ls.map (sideLine s)) = (scanpoints ls).map (Pt.side s) := by
  simp only [scanpoints, List.flatMap_map, List.map_flatMap]
  rfl

theorem getPolygon_side (s : Pt) (lps : List LinkedPolygon) (k : ℕ) :
    getPolygon (lps.map (LinkedPolygon.side s)) k = (getPolygon lps k).map (LinkedPolygon.side s) := by
  unfold getPolygon
  rw [List.getElem?_map]
  cases lps[k]? <;> rfl

theorem removeLine_side (s : Pt) (ls : List (Pt × Pt)) (l : Pt × Pt) :
    removeLine (ls.map (sideLine s)) (sideLine s l) = (removeLine ls l).map (List.map (sideLine s)) := by
  unfold removeLine
  by_cases h : l ∈ ls
  · rw [if_pos h, if_pos (List.mem_map_of_mem h), ← List.map_erase (sideLine_inj s)]
    rfl
  · rw [if_neg h, if_neg (by rwa [List.mem_map_of_injective (sideLine_inj s)])]
    rfl

/-- The state of the routing, moved. -/
def RouteState.side (s : Pt) (x : RouteState) : RouteState :=
  ⟨x.lps.map (LinkedPolygon.side s), x.scanlines.map (sideLine s), Pt.side s x.cutPos, x.seq.map (Pt.side s),
    x.seqs.map (List.map (Pt.side s))⟩

theorem restart_side (s : Pt) (x : RouteState) (lps : List LinkedPolygon) :
    (x.side s).restart (lps.map (LinkedPolygon.side s)) = (x.restart lps).map (RouteState.side s) := by
  obtain ⟨l, sc, c, seq, seqs⟩ := x
  cases sc with
  | nil => rfl
  | cons a sc => simp [RouteState.restart, RouteState.side, Except.map, sideLine]

theorem follow_side (s : Pt) (m : List (Pt × (Pt × Pt))) (x : RouteState) (lps : List LinkedPolygon) (path : List Pt) :
    (x.side s).follow (sideKeys s (sideLine s) m) (lps.map (LinkedPolygon.side s)) (path.map (Pt.side s)) =
      (x.follow m lps path).map (RouteState.side s) := by
  unfold RouteState.follow
  rw [List.getLast?_map]
  cases path.getLast? with
  | none => rfl
  | some q =>
    simp only [Option.map]
    rw [getKey_side, bind_map_side, map_bind_side]
    congr 1
    funext line
    simp only [RouteState.side]
    rw [removeLine_side, bind_map_side, map_bind_side]
    congr 1
    funext sc
    have hn : (if (sideLine s line).1 = Pt.side s q then (sideLine s line).2 else (sideLine s line).1) =
        Pt.side s (if line.1 = q then line.2 else line.1) := by
      by_cases h : line.1 = q
      · rw [if_pos h, if_pos (by rw [← h]; rfl)]
        rfl
      · rw [if_neg h, if_neg (show ¬ (sideLine s line).1 = Pt.side s q from fun e => h (side_inj s e))]
        rfl
    simp [Except.map, hn, RouteState.side]

theorem routeRound_side (s : Pt) (owner : List (Pt × ℕ)) (m : List (Pt × (Pt × Pt))) (x : RouteState) :
    routeRound (sideKeys s id owner) (sideKeys s (sideLine s) m) (x.side s) = (routeRound owner m x).map (RouteState.side s) := by
  unfold routeRound
  change (getKey (sideKeys s id owner) (Pt.side s x.cutPos) >>= _) = _
  rw [getKey_side, bind_map_side, map_bind_side]
  congr 1
  funext k
  change (getPolygon (x.lps.map (LinkedPolygon.side s)) k >>= _) = _
  rw [getPolygon_side, bind_map_side, map_bind_side]
  congr 1
  funext lp
  change ((lp.side s).nearestLinked (Pt.side s x.cutPos) >>= _) = _
  rw [nearestLinked_side, bind_map_side, map_bind_side]
  congr 1
  funext r
  obtain ⟨r1, r2⟩ := r
  have hs : (x.side s).lps.set k (r2.side s) = (x.lps.set k r2).map (LinkedPolygon.side s) := by
    rw [List.map_set]
    rfl
  cases r1 with
  | none =>
    change (x.side s).restart ((x.side s).lps.set (id k) (r2.side s)) = _
    rw [id, hs]
    exact restart_side s x _
  | some path =>
    change (x.side s).follow _ ((x.side s).lps.set (id k) (r2.side s)) (path.map (Pt.side s)) = _
    rw [id, hs]
    exact follow_side s m x _ path

theorem routeLoop_side (s : Pt) (owner : List (Pt × ℕ)) (m : List (Pt × (Pt × Pt))) (n : ℕ) (x : RouteState) :
    routeLoop (sideKeys s id owner) (sideKeys s (sideLine s) m) n (x.side s) =
      (routeLoop owner m n x).map (List.map (List.map (Pt.side s))) := by
  induction n generalizing x with
  | zero =>
    unfold routeLoop
    by_cases h : x.scanlines = []
    · rw [if_pos h, if_pos (by simpa [RouteState.side] using h)]
      simp [Except.map, RouteState.side]
    · rw [if_neg h, if_neg (by simpa [RouteState.side] using h)]
      rfl
  | succ n ih =>
    unfold routeLoop
    by_cases h : x.scanlines = []
    · rw [if_pos h, if_pos (by simpa [RouteState.side] using h)]
      simp [Except.map, RouteState.side]
    · rw [if_neg h, if_neg (by simpa [RouteState.side] using h)]
      simp only
      rw [routeRound_side, bind_map_side, map_bind_side]
      congr 1
      funext y
      exact ih y

theorem routeZigZag_side (s : Pt) (lps : List LinkedPolygon) (ls : List (Pt × Pt)) (owner : List (Pt × ℕ))
    (m : List (Pt × (Pt × Pt))) :
    routeZigZag (lps.map (LinkedPolygon.side s)) (ls.map (sideLine s)) (sideKeys s id owner) (sideKeys s (sideLine s) m) =
      (routeZigZag lps ls owner m).map (List.map (List.map (Pt.side s))) := by
  cases ls with
  | nil => rfl
  | cons l ls =>
    have ho : orientLine (sideLine s l) = sideLine s (orientLine l) := by
      unfold orientLine
      by_cases h : l.1.x > l.2.x
      · rw [if_pos h, if_pos (by simpa [sideLine, Pt.side] using h)]
        rfl
      · rw [if_neg h, if_neg (by simpa [sideLine, Pt.side] using h)]
    have hr : (lps.map (LinkedPolygon.side s)).map LinkedPolygon.reset = (lps.map LinkedPolygon.reset).map (LinkedPolygon.side s) := by
      simp only [List.map_map]
      rfl
    simp only [List.map_cons, routeZigZag, ho, hr]
    obtain ⟨a, b⟩ := orientLine l
    simp only [sideLine]
    rw [getKey_side, bind_map_side, map_bind_side]
    congr 1
    funext k
    simp only [id]
    rw [getPolygon_side, bind_map_side, map_bind_side]
    congr 1
    funext lp
    rw [drop_side, bind_map_side, map_bind_side]
    congr 1
    funext lp'
    rw [List.length_map, ← routeLoop_side, ← List.map_set]
    rfl

/-- A shift by whole numbers. -/
theorem maxBounds_side (m n : ℤ) (l t r b d : ℚ) :
    maxBounds (l + m, t + n, r + m, b + n) d = ((maxBounds (l, t, r, b) d).1 + m, (maxBounds (l, t, r, b) d).2.1 + n,
      (maxBounds (l, t, r, b) d).2.2.1 + m, (maxBounds (l, t, r, b) d).2.2.2 + n) := by
  have e1 : (l + m + (r + m)) / 2 = (l + r) / 2 + m := by ring
  have e2 : (t + n + (b + n)) / 2 = (t + b) / 2 + n := by ring
  have f1 : ∀ (a c : ℚ) (z : ℤ), ⌊a + z - c⌋ = ⌊a - c⌋ + z := by
    intro a c z
    rw [← Int.floor_add_intCast]
    congr 1
    ring
  have f2 : ∀ (a c : ℚ) (z : ℤ), ⌈a + z + c⌉ = ⌈a + c⌉ + z := by
    intro a c z
    rw [← Int.ceil_add_intCast]
    congr 1
    ring
  simp only [maxBounds, e1, e2, f1, f2, Int.cast_add]

theorem arange_side (a b step c : ℚ) : arange (a + c) (b + c) step = (arange a b step).map (· + c) := by
  simp only [arange, add_sub_add_right_eq_sub, List.map_map]
  refine List.map_congr_left fun i _ => ?_
  simp only [Function.comp]
  ring

section
variable {s : Pt} {eng eng' : SurfaceEngine} (he : SurfaceSide s eng eng')
include he

theorem scanTemplates_side {m n : ℤ} (hs : s = ⟨m, n⟩) {bs : List (List Pt)} (hb : bs.flatten ≠ []) (step : ℚ) :
    scanTemplates eng'.scan (bs.map (List.map (Pt.side s))) step = (scanTemplates eng.scan bs step).map (List.map (sideLine s)) := by
  have hx : s.x = m := by rw [hs]
  have hy : s.y = n := by rw [hs]
  unfold scanTemplates
  simp only [he.bounds bs hb, he.diagonal]
  by_cases h : step = 0
  · rw [if_pos h, if_pos h]
    rfl
  · rw [if_neg h, if_neg h]
    simp only [hx, hy, maxBounds_side, arange_side, Except.map, List.map_map]
    congr 1
    refine List.map_congr_left fun y _ => ?_
    simp only [Function.comp, sideLine, Pt.side, hx, hy]

theorem zigzag_side {m n : ℤ} (hs : s = ⟨m, n⟩) (bs : List (List Pt)) (step : ℚ) :
    zigzag eng'.scan (bs.map (List.map (Pt.side s))) step = (zigzag eng.scan bs step).map (List.map (List.map (Pt.side s))) := by
  unfold zigzag
  have hc : (scanTemplates eng'.scan (bs.map (List.map (Pt.side s))) step >>= fun ts =>
        eng'.scan.clip (bs.map (List.map (Pt.side s))) ts) =
      ((scanTemplates eng.scan bs step >>= fun ts => eng.scan.clip bs ts)).map (List.map (sideLine s)) := by
    by_cases hb : bs.flatten = []
    · unfold scanTemplates
      dsimp only
      by_cases h : step = 0
      · rw [if_pos h, if_pos h]
        rfl
      · rw [if_neg h, if_neg h, ok_bind, ok_bind]
        exact he.empty bs _ _ hb
    · rw [scanTemplates_side he hs hb, bind_map_side, map_bind_side]
      congr 1
      funext ts
      exact he.clip bs ts
  have hassoc : ∀ {β : Type} (e : ScanClipper) (cs : List (List Pt)) (g : List (Pt × Pt) → Except Err β),
      (scanTemplates e cs step >>= fun ts => e.clip cs ts >>= g) = ((scanTemplates e cs step >>= fun ts => e.clip cs ts) >>= g) := by
    intro β e cs g
    cases scanTemplates e cs step <;> rfl
  rw [hassoc, hassoc, hc, bind_map_side, map_bind_side]
  congr 1
  funext ls
  have hl := linkBoundaries_side s 0 (scanpoints ls) [] bs
  rw [scanpoints_side, scanlineMap_side]
  change (linkBoundaries 0 _ (sideKeys s id []) _ >>= _) = _
  rw [hl, bind_map_side, map_bind_side]
  congr 1
  funext x
  exact routeZigZag_side s x.1 ls x.2 (scanlineMap ls)

theorem interpolateFrom_side (step : ℚ) (p : Pt) (ps : List Pt) :
    interpolateFrom eng' step (Pt.side s p) (ps.map (Pt.side s)) = (interpolateFrom eng step p ps).map (List.map (Pt.side s)) := by
  induction ps generalizing p with
  | nil => rfl
  | cons q ps ih =>
    have hv : (⟨(Pt.side s q).x - (Pt.side s p).x, (Pt.side s q).y - (Pt.side s p).y⟩ : Pt) = ⟨q.x - p.x, q.y - p.y⟩ := by
      simp [Pt.side]
    simp only [List.map_cons, interpolateFrom, he.norm, he.strict, hv]
    split
    · rfl
    · split
      · rfl
      · rw [ih, bind_map_side, map_bind_side]
        congr 1
        funext rest
        simp only [Except.map, List.map_append, List.map_cons, List.map_map]
        congr 2
        refine List.map_congr_left fun t _ => ?_
        simp only [Function.comp, Pt.side]
        ext <;> simp only <;> ring

theorem interpolateSequence_side (step : ℚ) (ps : List Pt) :
    interpolateSequence eng' step (ps.map (Pt.side s)) = (interpolateSequence eng step ps).map (List.map (Pt.side s)) := by
  cases ps with
  | nil => rfl
  | cons p ps =>
    simp only [List.map_cons, interpolateSequence]
    rw [interpolateFrom_side he, bind_map_side, map_bind_side]
    rfl

end

theorem mergeSequence_side (s : Pt) (ps : List Pt) (zs : List ℚ) :
    mergeSequence (ps.map (Pt.side s)) zs = (mergeSequence ps zs).map (fun x => (x.1.map (Vec.side s), x.2)) := by
  induction ps generalizing zs with
  | nil => rfl
  | cons p ps ih =>
    cases zs with
    | nil => rfl
    | cons z zs =>
      simp only [List.map_cons, mergeSequence]
      rw [ih, bind_map_side, map_bind_side]
      rfl

theorem mergeHeights_side (s : Pt) (ss : List (List Pt)) (zs : List ℚ) :
    mergeHeights (ss.map (List.map (Pt.side s))) zs = (mergeHeights ss zs).map (List.map (List.map (Vec.side s))) := by
  induction ss generalizing zs with
  | nil => rfl
  | cons l ss ih =>
    simp only [List.map_cons, mergeHeights]
    rw [mergeSequence_side, bind_map_side, map_bind_side]
    congr 1
    funext x
    simp only
    rw [ih, bind_map_side, map_bind_side]
    rfl

theorem chopFrom_side (s : Pt) (limit : ℚ) (cur ps : List Vec) :
    chopFrom limit (cur.map (Vec.side s)) (ps.map (Vec.side s)) = (chopFrom limit cur ps).map (List.map (Vec.side s)) := by
  induction ps generalizing cur with
  | nil =>
    simp only [List.map_nil, chopFrom]
    by_cases h : cur = []
    · simp [h]
    · rw [if_neg h, if_neg (by simpa using h)]
      rfl
  | cons p ps ih =>
    have hz : (p.side s).z = p.z := rfl
    have h0 := ih []
    rw [List.map_nil] at h0
    have h1 := ih (cur ++ [p])
    rw [List.map_append, List.map_cons, List.map_nil] at h1
    simp only [List.map_cons, chopFrom, hz, h0, h1]
    by_cases hp : p.z > limit
    · rw [if_pos hp, if_pos hp]
      by_cases h : cur = []
      · simp [h]
      · rw [if_neg h, if_neg (by simpa using h)]
        rfl
    · rw [if_neg hp, if_neg hp]

theorem chopSequences_side (s : Pt) (ss : List (List Vec)) (limit : ℚ) :
    chopSequences (ss.map (List.map (Vec.side s))) limit = (chopSequences ss limit).map (List.map (Vec.side s)) := by
  simp only [chopSequences, List.flatMap_map, List.map_flatMap]
  congr 1
  funext l
  exact chopFrom_side s limit [] l

theorem surfaceCuts_side (s : Pt) (depth : ℚ) (pos : AddrVec) (ps : List Vec) :
    surfaceCuts depth (pos.side s) (ps.map (Vec.side s)) = (surfaceCuts depth pos ps).map (Motion.side s) := by
  induction ps generalizing pos with
  | nil => rfl
  | cons p ps ih =>
    have h := cutAbs_side s { x := some p.x, y := some p.y, z := some (max depth p.z) } pos none
    simp only [List.map_cons, surfaceCuts]
    rw [← ih, ← side_fin, ← h]
    rfl

theorem pieceMoves_side (s : Pt) (j : Job) (depth : ℚ) (pos : AddrVec) (ps : List Vec) :
    pieceMoves (j.side s) depth (pos.side s) (ps.map (Vec.side s)) = (pieceMoves j depth pos ps).map (Motion.side s) := by
  cases ps with
  | nil => rfl
  | cons p ps =>
    have h1 := rapidAbs_side s { z := some j.rapidHeight } pos
    have h2 := fun a => rapidAbs_side s { x := some p.x, y := some p.y } a
    have h3 := fun a => rapidAbs_side s { z := some j.opSafeHeight } a
    have e1 : AddrVec.side s { z := some j.rapidHeight } = { z := some (j.side s).rapidHeight } := rfl
    have e2 : AddrVec.side s { x := some p.x, y := some p.y } = { x := some (p.side s).x, y := some (p.side s).y } := rfl
    have e3 : AddrVec.side s { z := some j.opSafeHeight } = { z := some (j.side s).opSafeHeight } := rfl
    rw [e1] at h1
    simp only [e2] at h2
    simp only [e3] at h3
    simp only [List.map_cons, pieceMoves, h1, side_fin, h2, h3, surfaceCuts_side, List.map_append, List.map_nil]

theorem piecesMoves_side (s : Pt) (j : Job) (depth : ℚ) (pos : AddrVec) (ss : List (List Vec)) :
    piecesMoves (j.side s) depth (pos.side s) (ss.map (List.map (Vec.side s))) = (piecesMoves j depth pos ss).map (Motion.side s) := by
  induction ss generalizing pos with
  | nil => rfl
  | cons l ss ih => simp only [List.map_cons, piecesMoves, pieceMoves_side, lastFin_side, ih, List.map_append]

theorem passesMoves_side (s : Pt) (j : Job) (depths : List ℚ) (ss : List (List Vec)) (i : ℕ) (pos : AddrVec) (ds : List ℚ) :
    passesMoves (j.side s) depths (ss.map (List.map (Vec.side s))) i (pos.side s) ds =
      (passesMoves j depths ss i pos ds).map (Motion.side s) := by
  induction ds generalizing i pos with
  | nil => rfl
  | cons d ds ih => simp only [passesMoves, chopSequences_side, piecesMoves_side, lastFin_side, ih, List.map_append]

theorem surfaceBoundary_side {s : Pt} {eng eng' : SurfaceEngine} (he : SurfaceSide s eng eng') {m n : ℤ} (hs : s = ⟨m, n⟩)
    (args : SurfaceArgs) (j : Job) (poly : List Pt) :
    surfaceBoundary eng' args (j.side s) (poly.map (Pt.side s)) = (surfaceBoundary eng args j poly).map (List.map (Motion.side s)) := by
  unfold surfaceBoundary
  have hz := zigzag_side he hs [poly] (args.toolDiameter * args.stepover)
  rw [List.map_cons, List.map_nil] at hz
  rw [hz, bind_map_side, map_bind_side]
  congr 1
  funext paths
  rw [mapE_side (interpolateSequence_side he args.interpolationStep), bind_map_side, map_bind_side]
  congr 1
  funext seqs
  rw [← List.map_flatten, he.drop, mergeHeights_side, bind_map_side, map_bind_side, he.bottom]
  congr 1
  funext merged
  rw [map_bind_side]
  congr 1
  funext depths
  exact congrArg Except.ok (passesMoves_side s j depths merged 0 {} depths)

theorem flattenEdges_side (s : Pt) (es : List Edge) :
    flattenEdges (es.map (Edge.side s)) = (flattenEdges es).map (List.map (Vec.side s)) := by
  induction es with
  | nil => rfl
  | cons e es ih =>
    have hg : (e.side s).geom = e.geom := rfl
    have hp : positionSpace (e.side s) = positionSpace e := rfl
    simp only [List.map_cons, flattenEdges, hg, hp, ih, side_endPoint]
    by_cases h1 : e.geom = .line
    · simp only [h1, if_true, ok_bind, bind_map_side, map_bind_side]
      simp [Except.map]
    · by_cases h2 : e.geom = .arc ∨ e.geom = .circle ∨ e.geom = .offset
      · simp only [h1, h2, if_true, if_false, ok_bind, bind_map_side, map_bind_side]
        simp only [Except.map, List.map_append, List.map_map]
        rfl
      · simp only [h1, h2, if_false]
        rfl

theorem wirePolygon_side (s : Pt) (es : List Edge) :
    wirePolygon (es.map (Edge.side s)) true = (wirePolygon es true).map (List.map (Pt.side s)) := by
  unfold wirePolygon
  rw [flattenEdges_side, bind_map_side, map_bind_side]
  congr 1
  funext vs
  simp only [if_true, Except.map, List.map_map]
  rfl

/-- A face of a 3D operation with its holes, moved. -/
def sideFace (s : Pt) (x : List Edge × List (List Edge)) : List Edge × List (List Edge) :=
  (x.1.map (Edge.side s), x.2.map (List.map (Edge.side s)))

section
variable {s : Pt} {k : FaceKernel} (hk : FaceKernelSide s k)
include hk

theorem assembleFaces_side (is os : List (List Edge)) :
    assembleFaces k (is.map (List.map (Edge.side s))) (os.map (List.map (Edge.side s))) =
      (assembleFaces k is os).map (List.map (sideFace s)) := by
  induction os generalizing is with
  | nil => rfl
  | cons o os ih =>
    have h1 : (is.map (List.map (Edge.side s))).filter (fun i => k.inside i (o.map (Edge.side s))) =
        (is.filter (fun i => k.inside i o)).map (List.map (Edge.side s)) := by
      rw [List.filter_map]
      congr 1
      exact List.filter_congr (fun i _ => hk.inside i o)
    have h2 : (is.map (List.map (Edge.side s))).filter (fun i => !k.inside i (o.map (Edge.side s))) =
        (is.filter (fun i => !k.inside i o)).map (List.map (Edge.side s)) := by
      rw [List.filter_map]
      congr 1
      exact List.filter_congr (fun i _ => by simp only [Function.comp, hk.inside])
    simp only [List.map_cons, assembleFaces, h1, h2, hk.makeFace, map_bind_side]
    congr 1
    funext _
    rw [ih, bind_map_side]
    rfl

theorem offsetBoundary_side (d : ℚ) (oo : ℚ × ℚ) (io : Option (ℚ × ℚ)) (b : BoundaryFace) :
    offsetBoundary k d oo io (b.side s) = (offsetBoundary k d oo io b).map (List.map (sideFace s)) := by
  obtain ⟨flat, outer, inners⟩ := b
  unfold offsetBoundary
  simp only [BoundaryFace.side]
  cases flat with
  | false => rfl
  | true =>
    cases io with
    | none => rfl
    | some io =>
      simp only [Bool.not_true, Bool.false_eq_true, if_false]
      rw [hk.offset2D, bind_map_side, map_bind_side]
      congr 1
      funext os
      rw [mapE_side (fun w => hk.offset2D w _), bind_map_side, map_bind_side]
      congr 1
      funext is
      have hm : ∀ ws : List (List Edge), mapE (fun w => k.makeFace w []) (ws.map (List.map (Edge.side s))) =
          mapE (fun w => k.makeFace w []) ws := by
        intro ws
        rw [mapE_side (f := fun w => k.makeFace w []) (f' := fun w => k.makeFace w []) (σ := List.map (Edge.side s)) (τ := id)]
        · cases mapE (fun w => k.makeFace w []) ws <;> simp [Except.map]
        · intro w
          have := hk.makeFace w []
          rw [List.map_nil] at this
          rw [this]
          cases k.makeFace w [] <;> rfl
      rw [← List.map_flatten, hm, hm, map_bind_side]
      congr 1
      funext _
      rw [map_bind_side]
      congr 1
      funext _
      exact assembleFaces_side hk _ _

/-- C123, for 3D surfacing: only for shifts by a whole number of units in both directions (see `C123_violated_surface`).  The
boundaries are in job coordinates. -/
theorem C123_surface_partial {eng eng' : SurfaceEngine} (he : SurfaceSide s eng eng') {m n : ℤ} (hs : s = ⟨m, n⟩) (f : Frame)
    (args : SurfaceArgs) (oo : ℚ × ℚ) (io : Option (ℚ × ℚ)) (bs : List BoundaryFace) :
    SideWork s f (surface3dRequest eng k args oo io bs) (surface3dRequest eng' k args oo io (bs.map (BoundaryFace.side s))) where
  name := rfl
  tool := rfl
  pre := fun _ _ => rfl
  gen := by
    rintro j rfl
    change surface3d eng' k args oo io _ (j.side s) = (surface3d eng k args oo io bs j).map _
    unfold surface3d
    rw [mapE_side (fun b => offsetBoundary_side hk args.toolDiameter oo io b), bind_map_side, map_bind_side]
    congr 1
    funext faces
    rw [← List.map_flatten, mapE_side (τ := List.map (Motion.side s)) (f' := fun f : List Edge × List (List Edge) =>
      wirePolygon f.1 true >>= fun polygon => surfaceBoundary eng args j polygon), bind_map_side, map_bind_side]
    · congr 1
      funext css
      simp only [Except.map, List.map_flatten]
    · intro x
      simp only [sideFace]
      rw [wirePolygon_side, bind_map_side, map_bind_side]
      simp only [surfaceBoundary_side he hs]

end

end CQ
