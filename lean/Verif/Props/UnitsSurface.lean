import Verif.Props.UnitsPocket
import Verif.Props.ShiftSurface
import Verif.Spec.UnitsSurface
import Verif.Props.SurfaceTotal

/-! # C134, for 3D surfacing -/

namespace CQ

/-! ### Linked polygons -/

theorem pyIndex_units (κ : Units) (l : List Pt) (p : Pt) : pyIndex (l.map (Pt.conv κ)) (Pt.conv κ p) = pyIndex l p := by
  have hi : (l.map (Pt.conv κ)).idxOf (Pt.conv κ p) = l.idxOf p := by
    induction l with
    | nil => rfl
    | cons a l ih =>
      by_cases h : a = p
      · subst h; simp
      · rw [List.map_cons, List.idxOf_cons_ne _ (fun e => h (conv_inj κ e)), List.idxOf_cons_ne _ h, ih]
  by_cases h : p ∈ l
  · rw [pyIndex, pyIndex, if_pos h, if_pos (List.mem_map_of_mem h), hi]
  · rw [pyIndex, pyIndex, if_neg h, if_neg (by rwa [List.mem_map_of_injective (conv_inj κ)])]

theorem pyRemove_units (κ : Units) (l : List Pt) (p : Pt) :
    pyRemove (l.map (Pt.conv κ)) (Pt.conv κ p) = (pyRemove l p).map (List.map (Pt.conv κ)) := by
  by_cases h : p ∈ l
  · rw [pyRemove, pyRemove, if_pos h, if_pos (List.mem_map_of_mem h), ← List.map_erase (conv_inj κ)]
    rfl
  · rw [pyRemove, pyRemove, if_neg h, if_neg (by rwa [List.mem_map_of_injective (conv_inj κ)])]
    rfl

theorem pyInsert_units (κ : Units) (l : List Pt) (i : ℕ) (p : Pt) :
    pyInsert (l.map (Pt.conv κ)) i (Pt.conv κ p) = (pyInsert l i p).map (Pt.conv κ) := by
  simp only [pyInsert, List.map_append, List.map_cons, List.map_take, List.map_drop]

/-- A linked polygon, in the new units. -/
def LinkedPolygon.conv (κ : Units) (lp : LinkedPolygon) : LinkedPolygon :=
  ⟨lp.polygon.map (Pt.conv κ), lp.linked.map (Pt.conv κ), lp.avail.map (Pt.conv κ)⟩

theorem linkPoint_units (κ : Units) (lp : LinkedPolygon) (p a b : Pt) :
    (lp.conv κ).linkPoint (Pt.conv κ p) (Pt.conv κ a) (Pt.conv κ b) = (lp.linkPoint p a b).map (LinkedPolygon.conv κ) := by
  obtain ⟨poly, linked, avail⟩ := lp
  change LinkedPolygon.linkPoint ⟨poly.map (Pt.conv κ), linked.map (Pt.conv κ), avail.map (Pt.conv κ)⟩ _ _ _ = _
  unfold LinkedPolygon.linkPoint
  by_cases h : p ∈ linked
  · rw [if_pos h, if_pos (List.mem_map_of_mem h)]
    rfl
  · rw [if_neg h, if_neg (by rwa [List.mem_map_of_injective (conv_inj κ)]), pyIndex_units, pyIndex_units, map_bind_side]
    congr 1
    funext i
    rw [map_bind_side]
    congr 1
    funext k
    by_cases hk : i + 1 = k
    · rw [if_pos hk, if_pos hk, pyInsert_units]
      simp [Except.map, LinkedPolygon.conv]
    · rw [if_neg hk, if_neg hk]
      have hr : ((poly.map (Pt.conv κ)).drop (i + 1)).take (k - (i + 1)) ++ [Pt.conv κ p] =
          ((poly.drop (i + 1)).take (k - (i + 1)) ++ [p]).map (Pt.conv κ) := by
        simp only [List.map_append, List.map_take, List.map_drop, List.map_cons, List.map_nil]
      have hso : ∀ l : List Pt, (l.map (Pt.conv κ)).insertionSort (fun x y => dist2 x (Pt.conv κ a) ≤ dist2 y (Pt.conv κ a)) =
          (l.insertionSort (fun x y => dist2 x a ≤ dist2 y a)).map (Pt.conv κ) := by
        intro l
        symm
        apply List.map_insertionSort
        intro x _ y _
        simp only [dist2_conv]
        exact (mul_le_mul_iff_right₀ (pow_pos κ.pos 2)).symm
      dsimp only
      rw [hr, hso, pyIndex_units, map_bind_side]
      simp only [pyInsert_units]
      simp [Except.map, LinkedPolygon.conv]

theorem reset_units (κ : Units) (lp : LinkedPolygon) : (lp.conv κ).reset = (lp.reset).conv κ := rfl

theorem drop_units (κ : Units) (lp : LinkedPolygon) (p : Pt) :
    (lp.conv κ).drop (Pt.conv κ p) = (lp.drop p).map (LinkedPolygon.conv κ) := by
  have h := pyRemove_units κ lp.avail p
  simp only [LinkedPolygon.drop, map_bind_side]
  change (pyRemove (lp.avail.map (Pt.conv κ)) (Pt.conv κ p) >>= _) = _
  rw [h, bind_map_side]
  rfl

theorem searchLinked_units (κ : Units) (avail : List Pt) (d d' : Pt → ℚ) (hd : ∀ q, d' (Pt.conv κ q) = κ.c ^ 2 * d q) (l : List Pt) :
    searchLinked (avail.map (Pt.conv κ)) d' (l.map (Pt.conv κ)) =
      (κ.c ^ 2 * (searchLinked avail d l).1, (searchLinked avail d l).2.map (Pt.conv κ)) := by
  induction l with
  | nil => simp [searchLinked]
  | cons q l ih =>
    simp only [List.map_cons, searchLinked, ih, hd]
    by_cases h : q ∈ avail
    · rw [if_pos h, if_pos (List.mem_map_of_mem h)]
      rfl
    · rw [if_neg h, if_neg (by rwa [List.mem_map_of_injective (conv_inj κ)])]
      simp only [List.map_cons, mul_add]

/-- The result of a search for the next scanline, in the new units. -/
def convLink (κ : Units) (x : Option (List Pt) × LinkedPolygon) : Option (List Pt) × LinkedPolygon :=
  (x.1.map (List.map (Pt.conv κ)), x.2.conv κ)

theorem nearestLinked_units (κ : Units) (lp : LinkedPolygon) (p : Pt) :
    (lp.conv κ).nearestLinked (Pt.conv κ p) = (lp.nearestLinked p).map (convLink κ) := by
  unfold LinkedPolygon.nearestLinked
  have h := pyRemove_units κ lp.avail p
  change (pyRemove (lp.avail.map (Pt.conv κ)) (Pt.conv κ p) >>= _) = _
  rw [h, bind_map_side, map_bind_side]
  congr 1
  funext avail
  by_cases ha : avail = []
  · rw [if_pos ha, if_pos (by simpa using ha)]
    rfl
  · rw [if_neg ha, if_neg (by simpa using ha)]
    change (pyIndex (lp.polygon.map (Pt.conv κ)) (Pt.conv κ p) >>= _) = _
    rw [pyIndex_units, map_bind_side]
    congr 1
    funext i
    have hse : (lp.conv κ).polygon.drop (i + 1) ++ (lp.conv κ).polygon.take i =
        (lp.polygon.drop (i + 1) ++ lp.polygon.take i).map (Pt.conv κ) := by
      simp only [LinkedPolygon.conv, List.map_append, List.map_take, List.map_drop]
    simp only [hse]
    rw [← List.map_reverse, searchLinked_units κ avail (fun q => dist2 p q) _ (fun q => dist2_conv κ p q),
      searchLinked_units κ avail (fun q => dist2 q p) _ (fun q => dist2_conv κ q p)]
    generalize searchLinked avail (fun q => dist2 p q) _ = fw
    generalize searchLinked avail (fun q => dist2 q p) _ = rv
    have hc : chooseLink (κ.c ^ 2 * fw.1, fw.2.map (Pt.conv κ)) (κ.c ^ 2 * rv.1, rv.2.map (Pt.conv κ)) = (chooseLink fw rv).map (Pt.conv κ) := by
      simp only [chooseLink, conv_sq_lt]
      split <;> rfl
    rw [hc]
    generalize chooseLink fw rv = seq
    simp only [takeLink, List.getLast?_map]
    cases seq.getLast? with
    | none => rfl
    | some q =>
      simp only [Option.map]
      rw [pyRemove_units, bind_map_side, map_bind_side]
      rfl

/-! ### The zigzag -/

theorem convLine_inj (κ : Units) : Function.Injective (convLine κ) := by
  rintro ⟨a, b⟩ ⟨c, d⟩ h
  simp only [convLine, Prod.mk.injEq] at h
  rw [conv_inj κ h.1, conv_inj κ h.2]

/-- The state of the linking, in the new units. -/
def LinkState.conv (κ : Units) (x : LinkState) : LinkState :=
  ⟨x.remaining.map (Pt.conv κ), x.lp.conv κ, x.owner.map (fun e => (Pt.conv κ e.1, e.2))⟩

theorem linkStep_units {κ : Units} (k : ℕ) {seg : Pt × Pt} (x : LinkState) {q : Pt}
    (hn : NearSegment (convLine κ seg) (Pt.conv κ q) ↔ NearSegment seg q) :
    linkStep k (convLine κ seg).1 (convLine κ seg).2 (x.conv κ) (Pt.conv κ q) = (linkStep k seg.1 seg.2 x q).map (LinkState.conv κ) := by
  obtain ⟨p1, p2⟩ := seg
  unfold linkStep
  by_cases hp : p1 = p2
  · subst hp
    simp only [convLine, distToSegment_degenerate]
    rfl
  obtain ⟨d, hd, hi⟩ := near_iff (q := q) hp
  obtain ⟨d', hd', hi'⟩ := near_iff (q := Pt.conv κ q) (fun e => hp (conv_inj κ e))
  simp only [convLine] at hn ⊢
  have hlt : d'.1 < 1 / 10000000 ↔ d.1 < 1 / 10000000 := hi'.trans (hn.trans hi.symm)
  simp only [hd, hd', ok_bind, hlt]
  split
  · simp only [LinkState.conv]
    rw [pyRemove_units, bind_map_side, map_bind_side]
    congr 1
    funext r
    rw [linkPoint_units, bind_map_side, map_bind_side]
    rfl
  · rfl

theorem linkStep_remaining {k : ℕ} {p1 p2 q : Pt} {x y : LinkState} (h : linkStep k p1 p2 x q = .ok y) :
    ∀ a ∈ y.remaining, a ∈ x.remaining := by
  unfold linkStep at h
  obtain ⟨d, -, h⟩ := bind_ok.mp h
  split at h
  · obtain ⟨r, hr, h⟩ := bind_ok.mp h
    obtain ⟨lp, -, h⟩ := bind_ok.mp h
    cases h
    unfold pyRemove at hr
    split at hr
    · cases hr
      exact fun a ha => List.mem_of_mem_erase ha
    · cases hr
  · cases h
    exact fun a ha => ha

theorem foldE_units {α α' β β' : Type} {f : β → α → Except Err β} {f' : β' → α' → Except Err β'} {σ : α → α'} {τ : β → β'}
    {P : β → Prop} {l : List α} (h : ∀ b, P b → ∀ a ∈ l, f' (τ b) (σ a) = (f b a).map τ ∧ ∀ c, f b a = .ok c → P c) {b : β} (hb : P b) :
    foldE f' (τ b) (l.map σ) = (foldE f b l).map τ ∧ ∀ c, foldE f b l = .ok c → P c := by
  induction l generalizing b with
  | nil =>
    refine ⟨rfl, ?_⟩
    rintro c ⟨⟩
    exact hb
  | cons a l ih =>
    obtain ⟨h1, h2⟩ := h b hb a (List.mem_cons_self ..)
    simp only [List.map_cons, foldE, h1, bind_map_side, map_bind_side]
    cases hfa : f b a with
    | error e => exact ⟨rfl, by rintro c ⟨⟩⟩
    | ok y => exact ih (fun b hb a ha => h b hb a (List.mem_cons_of_mem _ ha)) (h2 y hfa)

theorem linkSegment_units {κ : Units} (k : ℕ) {x : LinkState} {seg : Pt × Pt} {ends : List Pt} (hx : ∀ q ∈ x.remaining, q ∈ ends)
    (hn : ∀ q ∈ ends, (NearSegment (convLine κ seg) (Pt.conv κ q) ↔ NearSegment seg q)) :
    linkSegment k (x.conv κ) (convLine κ seg) = (linkSegment k x seg).map (LinkState.conv κ) ∧
      ∀ y, linkSegment k x seg = .ok y → ∀ q ∈ y.remaining, q ∈ ends :=
  foldE_units (f := linkStep k seg.1 seg.2) (σ := Pt.conv κ) (τ := LinkState.conv κ) (b := x)
    (P := fun y => ∀ q ∈ y.remaining, q ∈ ends) (fun b hb a ha => ⟨linkStep_units k b (hn a (hx a ha)),
    fun c hc q hq => hb q (linkStep_remaining hc q hq)⟩) hx

theorem segments_units (κ : Units) (l : List Pt) : segments (l.map (Pt.conv κ)) = (segments l).map (convLine κ) := by
  induction l with
  | nil => rfl
  | cons a l ih =>
    cases l with
    | nil => rfl
    | cons b l =>
      simp only [List.map_cons, segments] at ih ⊢
      rw [ih]
      rfl

/-- Keys that are points, in the new units. -/
def convKeys {β β' : Type} (κ : Units) (τ : β → β') (d : List (Pt × β)) : List (Pt × β') := d.map (fun e => (Pt.conv κ e.1, τ e.2))

theorem linkBoundaries_units {κ : Units} {ends : List Pt} {bs : List (List Pt)}
    (hn : ∀ b ∈ bs, ∀ q ∈ ends, ∀ seg ∈ segments b, (NearSegment (convLine κ seg) (Pt.conv κ q) ↔ NearSegment seg q))
    (k : ℕ) {rem : List Pt} (hr : ∀ q ∈ rem, q ∈ ends) (owner : List (Pt × ℕ)) :
    linkBoundaries k (rem.map (Pt.conv κ)) (convKeys κ id owner) (bs.map (List.map (Pt.conv κ))) =
      (linkBoundaries k rem owner bs).map (fun x => (x.1.map (LinkedPolygon.conv κ), convKeys κ id x.2)) := by
  induction bs generalizing k rem owner with
  | nil =>
    simp only [List.map_nil, linkBoundaries]
    by_cases h : rem = []
    · simp [h, Except.map]
    · rw [if_pos h, if_pos (by simpa using h)]
      rfl
  | cons b bs ih =>
    have h : linkBoundary k (rem.map (Pt.conv κ)) (convKeys κ id owner) (b.map (Pt.conv κ)) =
        (linkBoundary k rem owner b).map (LinkState.conv κ) ∧ ∀ y, linkBoundary k rem owner b = .ok y → ∀ q ∈ y.remaining, q ∈ ends := by
      unfold linkBoundary
      rw [segments_units]
      exact foldE_units (P := fun y : LinkState => ∀ q ∈ y.remaining, q ∈ ends) (b := ⟨rem, { polygon := b }, owner⟩) (fun x hx seg hs =>
        linkSegment_units k hx (fun q hq => hn b (List.mem_cons_self ..) q hq seg hs)) hr
    simp only [List.map_cons, linkBoundaries]
    rw [h.1, bind_map_side, map_bind_side]
    cases hb : linkBoundary k rem owner b with
    | error e => rfl
    | ok x =>
      have h2 := ih (fun b hb => hn b (List.mem_cons_of_mem _ hb)) (k + 1) (h.2 x hb) x.owner
      simp only [ok_bind]
      change (linkBoundaries (k + 1) (x.remaining.map (Pt.conv κ)) (convKeys κ id x.owner) _ >>= _) = _
      rw [h2, bind_map_side, map_bind_side]
      rfl

theorem lookup_units {β β' : Type} (κ : Units) (τ : β → β') (d : List (Pt × β)) (p : Pt) :
    (convKeys κ τ d).lookup (Pt.conv κ p) = (d.lookup p).map τ := by
  induction d with
  | nil => rfl
  | cons e d ih =>
    obtain ⟨q, v⟩ := e
    simp only [convKeys, List.map_cons, List.lookup_cons] at ih ⊢
    by_cases h : p = q
    · subst h
      simp
    · have h' : Pt.conv κ p ≠ Pt.conv κ q := fun e => h (conv_inj κ e)
      simp only [beq_eq_false_iff_ne.mpr h, beq_eq_false_iff_ne.mpr h']
      exact ih

theorem getKey_units {β β' : Type} (κ : Units) (τ : β → β') (d : List (Pt × β)) (p : Pt) :
    getKey (convKeys κ τ d) (Pt.conv κ p) = (getKey d p).map τ := by
  unfold getKey
  rw [lookup_units]
  cases d.lookup p <;> rfl

theorem scanlineMap_units (κ : Units) (ls : List (Pt × Pt)) :
    scanlineMap (ls.map (convLine κ)) = convKeys κ (convLine κ) (scanlineMap ls) := by
  induction ls with
  | nil => rfl
  | cons l ls ih =>
    simp only [List.map_cons, scanlineMap, ih, convKeys, List.map_append]
    rfl

theorem scanpoints_units (κ : Units) (ls : List (Pt × Pt)) : scanpoints (ls.map (convLine κ)) = (scanpoints ls).map (Pt.conv κ) := by
  simp only [scanpoints, List.flatMap_map, List.map_flatMap]
  rfl

theorem getPolygon_units (κ : Units) (lps : List LinkedPolygon) (k : ℕ) :
    getPolygon (lps.map (LinkedPolygon.conv κ)) k = (getPolygon lps k).map (LinkedPolygon.conv κ) := by
  unfold getPolygon
  rw [List.getElem?_map]
  cases lps[k]? <;> rfl

theorem removeLine_units (κ : Units) (ls : List (Pt × Pt)) (l : Pt × Pt) :
    removeLine (ls.map (convLine κ)) (convLine κ l) = (removeLine ls l).map (List.map (convLine κ)) := by
  unfold removeLine
  by_cases h : l ∈ ls
  · rw [if_pos h, if_pos (List.mem_map_of_mem h), ← List.map_erase (convLine_inj κ)]
    rfl
  · rw [if_neg h, if_neg (by rwa [List.mem_map_of_injective (convLine_inj κ)])]
    rfl

/-- The state of the routing, in the new units. -/
def RouteState.conv (κ : Units) (x : RouteState) : RouteState :=
  ⟨x.lps.map (LinkedPolygon.conv κ), x.scanlines.map (convLine κ), Pt.conv κ x.cutPos, x.seq.map (Pt.conv κ),
    x.seqs.map (List.map (Pt.conv κ))⟩

theorem restart_units (κ : Units) (x : RouteState) (lps : List LinkedPolygon) :
    (x.conv κ).restart (lps.map (LinkedPolygon.conv κ)) = (x.restart lps).map (RouteState.conv κ) := by
  obtain ⟨l, sc, c, seq, seqs⟩ := x
  cases sc with
  | nil => rfl
  | cons a sc => simp [RouteState.restart, RouteState.conv, Except.map, convLine]

theorem follow_units (κ : Units) (m : List (Pt × (Pt × Pt))) (x : RouteState) (lps : List LinkedPolygon) (path : List Pt) :
    (x.conv κ).follow (convKeys κ (convLine κ) m) (lps.map (LinkedPolygon.conv κ)) (path.map (Pt.conv κ)) =
      (x.follow m lps path).map (RouteState.conv κ) := by
  unfold RouteState.follow
  rw [List.getLast?_map]
  cases path.getLast? with
  | none => rfl
  | some q =>
    simp only [Option.map]
    rw [getKey_units, bind_map_side, map_bind_side]
    congr 1
    funext line
    simp only [RouteState.conv]
    rw [removeLine_units, bind_map_side, map_bind_side]
    congr 1
    funext sc
    have hn : (if (convLine κ line).1 = Pt.conv κ q then (convLine κ line).2 else (convLine κ line).1) =
        Pt.conv κ (if line.1 = q then line.2 else line.1) := by
      by_cases h : line.1 = q
      · rw [if_pos h, if_pos (by rw [← h]; rfl)]
        rfl
      · rw [if_neg h, if_neg (show ¬ (convLine κ line).1 = Pt.conv κ q from fun e => h (conv_inj κ e))]
        rfl
    simp [Except.map, hn, RouteState.conv]

theorem routeRound_units (κ : Units) (owner : List (Pt × ℕ)) (m : List (Pt × (Pt × Pt))) (x : RouteState) :
    routeRound (convKeys κ id owner) (convKeys κ (convLine κ) m) (x.conv κ) = (routeRound owner m x).map (RouteState.conv κ) := by
  unfold routeRound
  change (getKey (convKeys κ id owner) (Pt.conv κ x.cutPos) >>= _) = _
  rw [getKey_units, bind_map_side, map_bind_side]
  congr 1
  funext k
  change (getPolygon (x.lps.map (LinkedPolygon.conv κ)) k >>= _) = _
  rw [getPolygon_units, bind_map_side, map_bind_side]
  congr 1
  funext lp
  change ((lp.conv κ).nearestLinked (Pt.conv κ x.cutPos) >>= _) = _
  rw [nearestLinked_units, bind_map_side, map_bind_side]
  congr 1
  funext r
  obtain ⟨r1, r2⟩ := r
  have hs : (x.conv κ).lps.set k (r2.conv κ) = (x.lps.set k r2).map (LinkedPolygon.conv κ) := by
    rw [List.map_set]
    rfl
  cases r1 with
  | none =>
    change (x.conv κ).restart ((x.conv κ).lps.set (id k) (r2.conv κ)) = _
    rw [id, hs]
    exact restart_units κ x _
  | some path =>
    change (x.conv κ).follow _ ((x.conv κ).lps.set (id k) (r2.conv κ)) (path.map (Pt.conv κ)) = _
    rw [id, hs]
    exact follow_units κ m x _ path

theorem routeLoop_units (κ : Units) (owner : List (Pt × ℕ)) (m : List (Pt × (Pt × Pt))) (n : ℕ) (x : RouteState) :
    routeLoop (convKeys κ id owner) (convKeys κ (convLine κ) m) n (x.conv κ) =
      (routeLoop owner m n x).map (List.map (List.map (Pt.conv κ))) := by
  induction n generalizing x with
  | zero =>
    unfold routeLoop
    by_cases h : x.scanlines = []
    · rw [if_pos h, if_pos (by simpa [RouteState.conv] using h)]
      simp [Except.map, RouteState.conv]
    · rw [if_neg h, if_neg (by simpa [RouteState.conv] using h)]
      rfl
  | succ n ih =>
    unfold routeLoop
    by_cases h : x.scanlines = []
    · rw [if_pos h, if_pos (by simpa [RouteState.conv] using h)]
      simp [Except.map, RouteState.conv]
    · rw [if_neg h, if_neg (by simpa [RouteState.conv] using h)]
      simp only
      rw [routeRound_units, bind_map_side, map_bind_side]
      congr 1
      funext y
      exact ih y

theorem routeZigZag_units (κ : Units) (lps : List LinkedPolygon) (ls : List (Pt × Pt)) (owner : List (Pt × ℕ))
    (m : List (Pt × (Pt × Pt))) :
    routeZigZag (lps.map (LinkedPolygon.conv κ)) (ls.map (convLine κ)) (convKeys κ id owner) (convKeys κ (convLine κ) m) =
      (routeZigZag lps ls owner m).map (List.map (List.map (Pt.conv κ))) := by
  cases ls with
  | nil => rfl
  | cons l ls =>
    have ho : orientLine (convLine κ l) = convLine κ (orientLine l) := by
      unfold orientLine
      by_cases h : l.1.x > l.2.x
      · rw [if_pos h, if_pos (by simpa [convLine, Pt.conv, κ.pos] using h)]
        rfl
      · rw [if_neg h, if_neg (by simpa [convLine, Pt.conv, κ.pos] using h)]
    have hr : (lps.map (LinkedPolygon.conv κ)).map LinkedPolygon.reset = (lps.map LinkedPolygon.reset).map (LinkedPolygon.conv κ) := by
      simp only [List.map_map]
      rfl
    simp only [List.map_cons, routeZigZag, ho, hr]
    obtain ⟨a, b⟩ := orientLine l
    simp only [convLine]
    rw [getKey_units, bind_map_side, map_bind_side]
    congr 1
    funext k
    simp only [id]
    rw [getPolygon_units, bind_map_side, map_bind_side]
    congr 1
    funext lp
    rw [drop_units, bind_map_side, map_bind_side]
    congr 1
    funext lp'
    rw [List.length_map, ← routeLoop_units, ← List.map_set]
    rfl

section
variable {κ : Units} {eng eng' : SurfaceEngine} (he : SurfaceUnits κ eng eng')
include he

theorem scanTemplates_units {step : ℚ} {poly : List Pt} (ha : ScanAlike κ eng.scan step poly) :
    scanTemplates eng'.scan [poly.map (Pt.conv κ)] (κ.c * step) = (scanTemplates eng.scan [poly] step).map (List.map (convLine κ)) := by
  have hb := he.bounds [poly]
  rw [List.map_cons, List.map_nil] at hb
  unfold scanTemplates
  simp only [hb, he.diagonal]
  by_cases h : step = 0
  · rw [if_pos h, if_pos (by rw [h, mul_zero])]
    rfl
  · rw [if_neg h, if_neg (mul_ne_zero κ.pos.ne' h)]
    generalize hbo : eng.scan.bounds [poly] = b
    obtain ⟨l, t, r, b⟩ := b
    have hh : eng.scan.diagonal (l, t, r, b) = 2 * (eng.scan.diagonal (l, t, r, b) / 2) := by ring
    have hd := ha.down l t r b _ hbo hh
    have hu := ha.up l t r b _ hbo hh
    generalize eng.scan.diagonal (l, t, r, b) / 2 = h2 at hh hd hu
    have hm : maxBounds (convBounds κ (l, t, r, b)) (κ.c * eng.scan.diagonal (l, t, r, b)) =
        convBounds κ (maxBounds (l, t, r, b) (eng.scan.diagonal (l, t, r, b))) := by
      have e1 : (κ.c * l + κ.c * r) / 2 = κ.c * ((l + r) / 2) := by ring
      have e2 : (κ.c * t + κ.c * b) / 2 = κ.c * ((t + b) / 2) := by ring
      have e3 : κ.c * eng.scan.diagonal (l, t, r, b) / 2 = κ.c * h2 := by rw [hh]; ring
      have e4 : eng.scan.diagonal (l, t, r, b) / 2 = h2 := by rw [hh]; ring
      simp only [maxBounds, convBounds, e1, e2, e3, e4]
      simp only [← mul_sub, ← mul_add, hd _ (List.mem_cons_self ..),
        hd _ (List.mem_cons_of_mem _ (List.mem_cons_self ..)), hu _ (List.mem_cons_self ..),
        hu _ (List.mem_cons_of_mem _ (List.mem_cons_self ..))]
    rw [hm]
    simp only [convBounds, arange_units, Except.map, List.map_map]
    rfl

theorem zigzag_units {step : ℚ} {poly : List Pt} (ha : ScanAlike κ eng.scan step poly) :
    zigzag eng'.scan [poly.map (Pt.conv κ)] (κ.c * step) = (zigzag eng.scan [poly] step).map (List.map (List.map (Pt.conv κ))) := by
  unfold zigzag
  rw [scanTemplates_units he ha, bind_map_side, map_bind_side]
  cases ht : scanTemplates eng.scan [poly] step with
  | error e => rfl
  | ok ts =>
    simp only [ok_bind]
    have hc := he.clip [poly] ts
    rw [List.map_cons, List.map_nil] at hc
    rw [hc, bind_map_side, map_bind_side]
    cases hl : eng.scan.clip [poly] ts with
    | error e => rfl
    | ok ls =>
      simp only [ok_bind]
      have hn := ha.near ls ⟨ts, ht, hl⟩
      have hk := linkBoundaries_units (bs := [poly]) (fun b hb q hq seg hs => by
        rw [List.mem_singleton.mp hb] at hs
        exact hn q hq seg hs) 0 (rem := scanpoints ls) (fun q hq => hq) []
      rw [scanpoints_units, scanlineMap_units]
      change (linkBoundaries 0 _ (convKeys κ id []) _ >>= _) = _
      rw [List.map_cons, List.map_nil] at hk
      rw [hk, bind_map_side, map_bind_side]
      congr 1
      funext x
      exact routeZigZag_units κ x.1 ls x.2 (scanlineMap ls)

theorem interpolateFrom_units (step : ℚ) (p : Pt) (ps : List Pt) :
    interpolateFrom eng' (κ.c * step) (Pt.conv κ p) (ps.map (Pt.conv κ)) = (interpolateFrom eng step p ps).map (List.map (Pt.conv κ)) := by
  have hne := κ.pos.ne'
  induction ps generalizing p with
  | nil => rfl
  | cons q ps ih =>
    have hv : (⟨(Pt.conv κ q).x - (Pt.conv κ p).x, (Pt.conv κ q).y - (Pt.conv κ p).y⟩ : Pt) = Pt.conv κ ⟨q.x - p.x, q.y - p.y⟩ := by
      simp [Pt.conv, mul_sub]
    have h0 : ∀ v : Pt, Pt.conv κ v = ⟨0, 0⟩ ↔ v = ⟨0, 0⟩ := by
      intro v
      obtain ⟨x, y⟩ := v
      simp [Pt.conv, hne]
    have hs : κ.c * step = 0 ↔ step = 0 := by simp [hne]
    simp only [List.map_cons, interpolateFrom, hv, he.norm, he.strict, h0, hs]
    split
    · rfl
    · split
      · rfl
      · have har := arange_units κ 0 (eng.norm ⟨q.x - p.x, q.y - p.y⟩) step
        rw [mul_zero] at har
        rw [ih, bind_map_side, map_bind_side, har]
        congr 1
        funext rest
        simp only [Except.map, List.map_append, List.map_cons, List.map_map]
        congr 2
        refine List.map_congr_left fun t _ => ?_
        have hdiv : ∀ a b : ℚ, κ.c * a / (κ.c * b) = a / b := fun a b => mul_div_mul_left a b hne
        simp only [Function.comp, Pt.conv]
        simp only [← mul_sub, hdiv]
        ext <;> simp only <;> ring

theorem interpolateSequence_units (step : ℚ) (ps : List Pt) :
    interpolateSequence eng' (κ.c * step) (ps.map (Pt.conv κ)) = (interpolateSequence eng step ps).map (List.map (Pt.conv κ)) := by
  cases ps with
  | nil => rfl
  | cons p ps =>
    simp only [List.map_cons, interpolateSequence]
    rw [interpolateFrom_units he, bind_map_side, map_bind_side]
    rfl

end

theorem mergeSequence_units (κ : Units) (ps : List Pt) (zs : List ℚ) :
    mergeSequence (ps.map (Pt.conv κ)) (zs.map (κ.c * ·)) = (mergeSequence ps zs).map (fun x => (x.1.map (Vec.conv κ), x.2.map (κ.c * ·))) := by
  induction ps generalizing zs with
  | nil => rfl
  | cons p ps ih =>
    cases zs with
    | nil => rfl
    | cons z zs =>
      simp only [List.map_cons, mergeSequence]
      rw [ih, bind_map_side, map_bind_side]
      rfl

theorem mergeHeights_units (κ : Units) (ss : List (List Pt)) (zs : List ℚ) :
    mergeHeights (ss.map (List.map (Pt.conv κ))) (zs.map (κ.c * ·)) = (mergeHeights ss zs).map (List.map (List.map (Vec.conv κ))) := by
  induction ss generalizing zs with
  | nil => rfl
  | cons l ss ih =>
    simp only [List.map_cons, mergeHeights]
    rw [mergeSequence_units, bind_map_side, map_bind_side]
    congr 1
    funext x
    simp only
    rw [ih, bind_map_side, map_bind_side]
    rfl

theorem surfaceDepths_units (κ : Units) (d : Option ℚ) (top bottom : ℚ) :
    surfaceDepths (d.map (κ.c * ·)) (κ.c * top) (κ.c * bottom) = (surfaceDepths d top bottom).map (List.map (κ.c * ·)) := by
  unfold surfaceDepths
  cases d with
  | none => rfl
  | some v =>
    have hs : κ.c * v = 0 ↔ v = 0 := by simp [κ.pos.ne']
    simp only [Option.map, hs]
    by_cases h : v = 0
    · rw [if_pos h, if_pos h]
      rfl
    · rw [if_neg h, if_neg h, ← mul_add, arange_units, List.getLast?_map]
      cases (arange (top + v) bottom v).getLast? with
      | none => rfl
      | some last =>
        have he : κ.c * last ≠ κ.c * bottom ↔ last ≠ bottom := not_congr (mul_eq_units κ last bottom)
        simp only [Option.map, he]
        split <;> simp [Except.map]

theorem passLimit_units (κ : Units) (ds : List ℚ) (i : ℕ) : passLimit (ds.map (κ.c * ·)) i = κ.c * passLimit ds i := by
  unfold passLimit
  split
  · rw [List.getD_eq_getElem?_getD, List.getD_eq_getElem?_getD, List.getElem?_map]
    cases ds[i - 2]? <;> simp
  · simp

theorem chopFrom_units (κ : Units) (limit : ℚ) (cur ps : List Vec) :
    chopFrom (κ.c * limit) (cur.map (Vec.conv κ)) (ps.map (Vec.conv κ)) = (chopFrom limit cur ps).map (List.map (Vec.conv κ)) := by
  induction ps generalizing cur with
  | nil =>
    simp only [List.map_nil, chopFrom]
    by_cases h : cur = []
    · simp [h]
    · rw [if_neg h, if_neg (by simpa using h)]
      rfl
  | cons p ps ih =>
    have hz : (p.conv κ).z > κ.c * limit ↔ p.z > limit := mul_lt_mul_iff_right₀ κ.pos
    have h0 := ih []
    rw [List.map_nil] at h0
    have h1 := ih (cur ++ [p])
    rw [List.map_append, List.map_cons, List.map_nil] at h1
    simp only [List.map_cons, chopFrom, hz, h0, h1]
    by_cases hp : p.z > limit
    · rw [if_pos hp, if_pos hp]
      by_cases h : cur = []
      · simp [h]
      · rw [if_neg h, if_neg (by simpa using h)]
        rfl
    · rw [if_neg hp, if_neg hp]

theorem chopSequences_units (κ : Units) (ss : List (List Vec)) (limit : ℚ) :
    chopSequences (ss.map (List.map (Vec.conv κ))) (κ.c * limit) = (chopSequences ss limit).map (List.map (Vec.conv κ)) := by
  simp only [chopSequences, List.flatMap_map, List.map_flatMap]
  congr 1
  funext l
  exact chopFrom_units κ limit [] l

theorem surfaceCuts_units (κ : Units) (depth : ℚ) (pos : AddrVec) (ps : List Vec) :
    surfaceCuts (κ.c * depth) (pos.conv κ) (ps.map (Vec.conv κ)) = (surfaceCuts depth pos ps).map (Motion.conv κ) := by
  induction ps generalizing pos with
  | nil => rfl
  | cons p ps ih =>
    have h := cutAbs_conv κ { x := some p.x, y := some p.y, z := some (max depth p.z) } pos none
    have hm : max (κ.c * depth) (p.conv κ).z = κ.c * max depth p.z := (mul_max_of_nonneg _ _ κ.pos.le).symm
    simp only [List.map_cons, surfaceCuts, hm]
    rw [← ih, ← conv_fin, ← h]
    rfl

theorem pieceMoves_units (κ : Units) (j : Job) (depth : ℚ) (pos : AddrVec) (ps : List Vec) :
    pieceMoves (j.conv κ) (κ.c * depth) (pos.conv κ) (ps.map (Vec.conv κ)) = (pieceMoves j depth pos ps).map (Motion.conv κ) := by
  cases ps with
  | nil => rfl
  | cons p ps =>
    have h1 := rapidAbs_conv κ { z := some j.rapidHeight } pos
    have h2 := fun a => rapidAbs_conv κ { x := some p.x, y := some p.y } a
    have h3 := fun a => rapidAbs_conv κ { z := some j.opSafeHeight } a
    have e1 : AddrVec.conv κ { z := some j.rapidHeight } = { z := some (j.conv κ).rapidHeight } := rfl
    have e2 : AddrVec.conv κ { x := some p.x, y := some p.y } = { x := some (p.conv κ).x, y := some (p.conv κ).y } := rfl
    have e3 : AddrVec.conv κ { z := some j.opSafeHeight } = { z := some (j.conv κ).opSafeHeight } := rfl
    rw [e1] at h1
    simp only [e2] at h2
    simp only [e3] at h3
    simp only [List.map_cons, pieceMoves, h1, conv_fin, h2, h3, surfaceCuts_units, List.map_append, List.map_nil]

theorem piecesMoves_units (κ : Units) (j : Job) (depth : ℚ) (pos : AddrVec) (ss : List (List Vec)) :
    piecesMoves (j.conv κ) (κ.c * depth) (pos.conv κ) (ss.map (List.map (Vec.conv κ))) = (piecesMoves j depth pos ss).map (Motion.conv κ) := by
  induction ss generalizing pos with
  | nil => rfl
  | cons l ss ih => simp only [List.map_cons, piecesMoves, pieceMoves_units, lastFin_conv, ih, List.map_append]

theorem passesMoves_units (κ : Units) (j : Job) (depths : List ℚ) (ss : List (List Vec)) (i : ℕ) (pos : AddrVec) (ds : List ℚ) :
    passesMoves (j.conv κ) (depths.map (κ.c * ·)) (ss.map (List.map (Vec.conv κ))) i (pos.conv κ) (ds.map (κ.c * ·)) =
      (passesMoves j depths ss i pos ds).map (Motion.conv κ) := by
  induction ds generalizing i pos with
  | nil => rfl
  | cons d ds ih =>
    simp only [List.map_cons, passesMoves, passLimit_units, chopSequences_units, piecesMoves_units, lastFin_conv, ih, List.map_append]

theorem surfaceBoundary_units {κ : Units} {eng eng' : SurfaceEngine} (he : SurfaceUnits κ eng eng') {args : SurfaceArgs} (j : Job)
    {poly : List Pt} (ha : ScanAlike κ eng.scan (args.toolDiameter * args.stepover) poly) :
    surfaceBoundary eng' (args.conv κ) (j.conv κ) (poly.map (Pt.conv κ)) = (surfaceBoundary eng args j poly).map (List.map (Motion.conv κ)) := by
  unfold surfaceBoundary
  have hst : (args.conv κ).toolDiameter * (args.conv κ).stepover = κ.c * (args.toolDiameter * args.stepover) := mul_assoc ..
  rw [hst, zigzag_units he ha, bind_map_side, map_bind_side]
  congr 1
  funext paths
  change (mapE (interpolateSequence eng' (κ.c * args.interpolationStep)) _ >>= _) = _
  rw [mapE_side (interpolateSequence_units he args.interpolationStep), bind_map_side, map_bind_side]
  congr 1
  funext seqs
  rw [← List.map_flatten, he.drop, mergeHeights_units, bind_map_side, map_bind_side, he.bottom]
  congr 1
  funext merged
  change (surfaceDepths (args.stepdown.map (κ.c * ·)) (κ.c * args.topHeight) _ >>= _) = _
  rw [surfaceDepths_units, bind_map_side, map_bind_side]
  congr 1
  funext depths
  exact congrArg Except.ok (passesMoves_units κ j depths merged 0 {} depths)

theorem flattenEdges_units {κ : Units} {es : List Edge} (h : ∀ e ∈ es, TenthsAlike κ e) :
    flattenEdges (es.map (Edge.conv κ)) = (flattenEdges es).map (List.map (Vec.conv κ)) := by
  induction es with
  | nil => rfl
  | cons e es ih =>
    have ih := ih (fun e he => h e (List.mem_cons_of_mem _ he))
    have hg : (e.conv κ).geom = e.geom := rfl
    simp only [List.map_cons, flattenEdges, hg, ih, conv_endPoint]
    by_cases h1 : e.geom = .line
    · simp only [h1, if_true, ok_bind, bind_map_side, map_bind_side]
      simp [Except.map]
    · have hp : positionSpace (e.conv κ) = positionSpace e := by
        have h2 : ⌈(e.conv κ).length / (1 / 10)⌉ = ⌈e.length / (1 / 10)⌉ := by
          have h3 := (h e (List.mem_cons_self ..)).resolve_left h1
          have e1 : (e.conv κ).length / (1 / 10) = 10 * (κ.c * e.length) := by
            simp only [Edge.conv]
            ring
          have e2 : e.length / (1 / 10) = 10 * e.length := by ring
          rw [e1, e2, h3]
        unfold positionSpace
        rw [h2]
      by_cases h2 : e.geom = .arc ∨ e.geom = .circle ∨ e.geom = .offset
      · simp only [h1, h2, hp, if_true, if_false, ok_bind, bind_map_side, map_bind_side]
        simp only [Except.map, List.map_append, List.map_map]
        rfl
      · simp only [h1, h2, if_false]
        rfl

theorem wirePolygon_units {κ : Units} {es : List Edge} (h : ∀ e ∈ es, TenthsAlike κ e) :
    wirePolygon (es.map (Edge.conv κ)) true = (wirePolygon es true).map (List.map (Pt.conv κ)) := by
  unfold wirePolygon
  rw [flattenEdges_units h, bind_map_side, map_bind_side]
  congr 1
  funext vs
  simp only [if_true, Except.map, List.map_map]
  rfl

/-- A face of a 3D operation with its holes, in the new units. -/
def convFace (κ : Units) (x : List Edge × List (List Edge)) : List Edge × List (List Edge) :=
  (x.1.map (Edge.conv κ), x.2.map (List.map (Edge.conv κ)))

section
variable {κ : Units} {k : FaceKernel} (hk : FaceKernelUnits κ k)
include hk

theorem assembleFaces_units (is os : List (List Edge)) :
    assembleFaces k (is.map (List.map (Edge.conv κ))) (os.map (List.map (Edge.conv κ))) =
      (assembleFaces k is os).map (List.map (convFace κ)) := by
  induction os generalizing is with
  | nil => rfl
  | cons o os ih =>
    have h1 : (is.map (List.map (Edge.conv κ))).filter (fun i => k.inside i (o.map (Edge.conv κ))) =
        (is.filter (fun i => k.inside i o)).map (List.map (Edge.conv κ)) := by
      rw [List.filter_map]
      congr 1
      exact List.filter_congr (fun i _ => hk.inside i o)
    have h2 : (is.map (List.map (Edge.conv κ))).filter (fun i => !k.inside i (o.map (Edge.conv κ))) =
        (is.filter (fun i => !k.inside i o)).map (List.map (Edge.conv κ)) := by
      rw [List.filter_map]
      congr 1
      exact List.filter_congr (fun i _ => by simp only [Function.comp, hk.inside])
    simp only [List.map_cons, assembleFaces, h1, h2, hk.makeFace, map_bind_side]
    congr 1
    funext _
    rw [ih, bind_map_side]
    rfl

theorem offsetBoundary_units (d : ℚ) (oo : ℚ × ℚ) (io : Option (ℚ × ℚ)) (b : BoundaryFace) :
    offsetBoundary k (κ.c * d) (convOffset κ oo) (io.map (convOffset κ)) (b.conv κ) = (offsetBoundary k d oo io b).map (List.map (convFace κ)) := by
  obtain ⟨flat, outer, inners⟩ := b
  unfold offsetBoundary
  simp only [BoundaryFace.conv]
  cases flat with
  | false => rfl
  | true =>
    cases io with
    | none => rfl
    | some io =>
      have hd : ∀ o : ℚ × ℚ, κ.c * d * (convOffset κ o).1 + (convOffset κ o).2 = κ.c * (d * o.1 + o.2) := by
        intro o
        simp only [convOffset]
        ring
      simp only [Option.map, Bool.not_true, Bool.false_eq_true, if_false, hd]
      rw [hk.offset2D, bind_map_side, map_bind_side]
      congr 1
      funext os
      rw [mapE_side (fun w => hk.offset2D w _), bind_map_side, map_bind_side]
      congr 1
      funext is
      have hm : ∀ ws : List (List Edge), mapE (fun w => k.makeFace w []) (ws.map (List.map (Edge.conv κ))) =
          mapE (fun w => k.makeFace w []) ws := by
        intro ws
        rw [mapE_side (f := fun w => k.makeFace w []) (f' := fun w => k.makeFace w []) (σ := List.map (Edge.conv κ)) (τ := id)]
        · cases mapE (fun w => k.makeFace w []) ws <;> simp [Except.map]
        · intro w
          have := hk.makeFace w []
          rw [List.map_nil] at this
          rw [this]
          cases k.makeFace w [] <;> rfl
      rw [← List.map_flatten, hm, hm, map_bind_side]
      congr 1
      funext _
      rw [map_bind_side]
      congr 1
      funext _
      exact assembleFaces_units hk _ _

omit hk in
theorem offsetBoundary_outline {d : ℚ} {oo : ℚ × ℚ} {io : Option (ℚ × ℚ)} {b : BoundaryFace}
    {fs : List (List Edge × List (List Edge))} (h : offsetBoundary k d oo io b = .ok fs) :
    ∃ ws, k.offset2D b.outer (d * oo.1 + oo.2) = .ok ws ∧ ∀ f ∈ fs, f.1 ∈ ws := by
  have hass : ∀ (os is : List (List Edge)) (fs : List (List Edge × List (List Edge))), assembleFaces k is os = .ok fs →
      ∀ f ∈ fs, f.1 ∈ os := by
    intro os
    induction os with
    | nil =>
      rintro is fs ⟨⟩ f hf
      cases hf
    | cons o os ih =>
      intro is fs h f hf
      unfold assembleFaces at h
      obtain ⟨-, -, h⟩ := bind_ok.mp h
      obtain ⟨rest, hr, h⟩ := bind_ok.mp h
      cases h
      rcases List.mem_cons.mp hf with rfl | hf
      · exact List.mem_cons_self ..
      · exact List.mem_cons_of_mem _ (ih _ _ hr f hf)
  unfold offsetBoundary at h
  split at h
  · cases h
  · cases io with
    | none => cases h
    | some io =>
      simp only at h
      obtain ⟨ws, hw, h⟩ := bind_ok.mp h
      obtain ⟨is, hi, h⟩ := bind_ok.mp h
      obtain ⟨u1, h1, h⟩ := bind_ok.mp h
      obtain ⟨u2, h2, h⟩ := bind_ok.mp h
      exact ⟨ws, hw, hass _ _ _ h⟩

/-- C134, for 3D surfacing (as far as it holds, see `C134_violated_scan`): for outlines whose edges become as many points in either
units (as straight edges do) and whose scanlines are not moved by rounding to whole units. -/
theorem C134_surface_partial {eng eng' : SurfaceEngine} (he : SurfaceUnits κ eng eng') (j : Job) {args : SurfaceArgs} {oo : ℚ × ℚ}
    (io : Option (ℚ × ℚ)) {bs : List BoundaryFace}
    (ho : ∀ w, SurfacedOutline k (args.toolDiameter * oo.1 + oo.2) bs w → (∀ e ∈ w, TenthsAlike κ e) ∧
      ∀ poly, wirePolygon w true = .ok poly → ScanAlike κ eng.scan (args.toolDiameter * args.stepover) poly) :
    UnitWork κ j (surface3dRequest eng k args oo io bs)
      (surface3dRequest eng' k (args.conv κ) (convOffset κ oo) (io.map (convOffset κ)) (bs.map (BoundaryFace.conv κ))) where
  name := rfl
  tool := rfl
  pre := rfl
  gen := by
    change surface3d eng' k (args.conv κ) _ _ _ ((j.updateTool none).2.conv κ) = (surface3d eng k args oo io bs (j.updateTool none).2).map _
    generalize (j.updateTool none).2 = j
    unfold surface3d
    change (mapE (offsetBoundary k (κ.c * args.toolDiameter) (convOffset κ oo) (io.map (convOffset κ))) _ >>= _) = _
    rw [mapE_side (fun b => offsetBoundary_units hk args.toolDiameter oo io b), bind_map_side, map_bind_side]
    cases hm : mapE (offsetBoundary k args.toolDiameter oo io) bs with
    | error e => rfl
    | ok faces =>
    have hw : ∀ f ∈ faces.flatten, SurfacedOutline k (args.toolDiameter * oo.1 + oo.2) bs f.1 := by
      intro f hf
      obtain ⟨fs, hfs, hf⟩ := List.mem_flatten.mp hf
      obtain ⟨b, hb, hr⟩ := mapE_mem hm hfs
      obtain ⟨ws, hws, hmem⟩ := offsetBoundary_outline hr
      exact ⟨b, hb, ws, hws, hmem f hf⟩
    simp only [ok_bind]
    rw [← List.map_flatten, mapE_conv_mem (τ := List.map (Motion.conv κ)) (f' := fun f : List Edge × List (List Edge) =>
      wirePolygon f.1 true >>= fun polygon => surfaceBoundary eng args j polygon), bind_map_side, map_bind_side]
    · congr 1
      funext css
      simp only [Except.map, List.map_flatten]
    · intro x hx
      obtain ⟨h1, h2⟩ := ho x.1 (hw x hx)
      simp only [convFace]
      rw [wirePolygon_units h1, bind_map_side, map_bind_side]
      cases hp : wirePolygon x.1 true with
      | error e => rfl
      | ok poly => exact surfaceBoundary_units he j (h2 poly hp)

end

end CQ
