import Verif.Spec.Cache
import Verif.Props.Drill

/-!
# C121: what ran before in the same process does not change a result
-/

namespace CQ

/-- With any right dictionary the code returns `r`, and leaves a right dictionary. -/
def Faithful {α : Type} (m : Cached α) (r : Except Err α) : Prop :=
  ∀ c, RightDistances c → (m c).1 = r ∧ RightDistances (m c).2

theorem faithful_pure {α : Type} (a : α) : Faithful (pure a : Cached α) (.ok a) := fun _ hc => ⟨rfl, hc⟩

theorem faithful_raise {α : Type} (e : Err) : Faithful (Cached.raise e : Cached α) (.error e) := fun _ hc => ⟨rfl, hc⟩

theorem faithful_lift {α : Type} (x : Except Err α) : Faithful (Cached.lift x) x := fun _ hc => ⟨rfl, hc⟩

theorem faithful_bind {α β : Type} {m : Cached α} {r : Except Err α} {f : α → Cached β} {g : α → Except Err β}
    (hm : Faithful m r) (hf : ∀ a, Faithful (f a) (g a)) : Faithful (m >>= f) (r >>= g) := by
  intro c hc
  obtain ⟨h1, h2⟩ := hm c hc
  have hb : (m >>= f) c = (match m c with
    | (.error e, c') => (.error e, c')
    | (.ok a, c') => f a c') := rfl
  rw [hb]
  cases hmc : m c with
  | mk x c' =>
    rw [hmc] at h1 h2
    simp only at h1 h2
    subst h1
    cases x with
    | error e => exact ⟨rfl, h2⟩
    | ok a => exact hf a c' h2

theorem faithful_dist2 (p q : Pt) : Faithful (cachedDist2 p q) (.ok (dist2 p q)) := by
  intro c hc
  unfold cachedDist2
  cases h : c.lookup (p, q) with
  | none =>
    refine ⟨rfl, ?_⟩
    intro a b d hd
    rcases List.mem_cons.mp hd with he | he
    · simp only [Prod.mk.injEq] at he
      obtain ⟨⟨rfl, rfl⟩, rfl⟩ := he
      simp only [dist2]
      ring
    · exact hc a b d he
  | some d =>
    refine ⟨?_, hc⟩
    have hmem : ((p, q), d) ∈ c := by
      clear hc
      induction c with
      | nil => simp at h
      | cons e es ih =>
        obtain ⟨k, v⟩ := e
        rw [List.lookup_cons] at h
        by_cases hk : (p, q) = k
        · rw [← hk, beq_self_eq_true] at h
          simp only [Option.some.injEq] at h
          rw [← hk, ← h]
          exact List.mem_cons_self
        · have : ((p, q) == k) = false := by simpa using hk
          rw [this] at h
          exact List.mem_cons_of_mem _ (ih h)
    have := hc p q d hmem
    simp only [dist2]
    rw [this]
    congr 1
    ring

theorem faithful_mapC {α β : Type} {f : α → Cached β} {g : α → Except Err β} (h : ∀ a, Faithful (f a) (g a)) :
    ∀ as, Faithful (mapC f as) (mapE g as)
  | [] => faithful_pure _
  | a :: as => faithful_bind (h a) fun _ => faithful_bind (faithful_mapC h as) fun _ => faithful_pure _

theorem faithful_foldC {α β : Type} {f : β → α → Cached β} {g : β → α → Except Err β}
    (h : ∀ b a, Faithful (f b a) (g b a)) : ∀ b as, Faithful (foldC f b as) (foldE g b as)
  | _, [] => faithful_pure _
  | b, a :: as => faithful_bind (h b a) fun b' => faithful_foldC h b' as

theorem faithful_ite {α : Type} {p : Prop} [Decidable p] {m n : Cached α} {r s : Except Err α} (hm : Faithful m r)
    (hn : Faithful n s) : Faithful (if p then m else n) (if p then r else s) := by
  split
  · exact hm
  · exact hn

theorem faithful_pickNearestFrom (p : Pt) : ∀ os d best,
    Faithful (pickNearestFromC p d best os) (.ok (pickNearestFrom p d best os))
  | [], _, _ => faithful_pure _
  | o :: os, d, best => by
      have h : (.ok (pickNearestFrom p d best (o :: os)) : Except Err Pt) =
          ((.ok (dist2 p o) : Except Err ℚ) >>= fun e =>
            if e < d then .ok (pickNearestFrom p e o os) else .ok (pickNearestFrom p d best os)) := by
        show _ = (if dist2 p o < d then _ else _)
        rw [pickNearestFrom]
        split <;> rfl
      rw [h]
      exact faithful_bind (faithful_dist2 p o) fun e =>
        faithful_ite (faithful_pickNearestFrom p os e o) (faithful_pickNearestFrom p os d best)

theorem faithful_pickNearest (p : Pt) : ∀ os, Faithful (pickNearestC p os) (pickNearest p os)
  | [] => faithful_raise _
  | o :: os => faithful_bind (g := fun d => .ok (pickNearestFrom p d o os)) (faithful_dist2 p o) fun d =>
      faithful_pickNearestFrom p os d o

theorem faithful_nextHole : ∀ (last : Option Pt) ps, Faithful (nextHoleC last ps) (nextHole last ps)
  | some last, ps => faithful_pickNearest last ps
  | none, [] => faithful_raise _
  | none, _ :: _ => faithful_pure _

theorem faithful_orderHoles : ∀ n last ps, Faithful (orderHolesC n last ps) (orderHoles n last ps)
  | 0, _, [] => faithful_pure _
  | _ + 1, _, [] => faithful_pure _
  | 0, _, _ :: _ => faithful_raise _
  | n + 1, last, p :: ps => faithful_bind (faithful_nextHole last (p :: ps)) fun next =>
      faithful_bind (faithful_orderHoles n (some next) ((p :: ps).erase next)) fun _ => faithful_pure _

theorem faithful_drill (center : List Edge → Except Err Vec) (o : Option (List DrillObj)) (depth : Option ℚ) (j : Job) :
    Faithful (drillC center o depth j) (drill center o depth j) := by
  cases o with
  | none => exact faithful_raise _
  | some objs =>
    cases depth with
    | none => exact faithful_raise _
    | some d =>
      exact faithful_bind (faithful_lift _) fun vs => faithful_ite (faithful_raise _)
        (faithful_bind (faithful_orderHoles _ none _) fun _ => faithful_pure _)

theorem faithful_rotateNearest (point : Pt) (path : List Pt) :
    Faithful (rotateNearestC point path) (rotateNearest point path) :=
  faithful_bind (faithful_pickNearest point path) fun _ => faithful_bind (faithful_lift _) fun _ => faithful_pure _

theorem faithful_sortPath (point : Pt) : ∀ path, Faithful (sortPathC point path) (sortPath point path)
  | [] => faithful_raise _
  | _ :: _ => faithful_ite (faithful_bind (faithful_rotateNearest point _) fun _ => faithful_lift _)
      (faithful_rotateNearest point _)

theorem faithful_sortOutput : ∀ paths, Faithful (sortOutputC paths) (sortOutput paths)
  | [] => faithful_raise _
  | first :: rest => by
      simp only [sortOutputC, sortOutput]
      cases first.getLast? with
      | none => exact faithful_raise _
      | some point => exact faithful_bind (faithful_mapC (faithful_sortPath point) rest) fun _ => faithful_pure _

theorem faithful_contourStrategy {W : Type} (eng : PathEngine) (k : WireKernel W) (toolDiameter stepover : ℚ) (n : ℕ)
    (outers inners : List W) : Faithful (contourStrategyC eng k toolDiameter stepover n outers inners)
      (contourStrategy eng k toolDiameter stepover n outers inners) :=
  faithful_bind (faithful_lift _) fun _ => faithful_bind (faithful_lift _) fun _ => faithful_bind (faithful_lift _) fun _ =>
    faithful_bind (faithful_lift _) fun _ => faithful_sortOutput _

theorem mapE_pure {α β : Type} (f : α → β) : ∀ as : List α, mapE (fun a => (.ok (f a) : Except Err β)) as = .ok (as.map f)
  | [] => rfl
  | a :: as => by
      show (mapE _ as >>= fun bs => .ok (f a :: bs)) = _
      rw [mapE_pure f as]
      rfl

theorem orderedInsert_keyed {α : Type} (f : α → ℚ) (a : α) : ∀ l : List α,
    ((l.map (fun x => (f x, x))).orderedInsert (fun x y : ℚ × α => x.1 ≤ y.1) (f a, a)) =
      (l.orderedInsert (fun x y => f x ≤ f y) a).map (fun x => (f x, x))
  | [] => rfl
  | b :: l => by
      simp only [List.map_cons, List.orderedInsert]
      split
      · rfl
      · rw [orderedInsert_keyed f a l]
        rfl

theorem insertionSort_keyed {α : Type} (f : α → ℚ) : ∀ l : List α,
    (l.map (fun x => (f x, x))).insertionSort (fun x y : ℚ × α => x.1 ≤ y.1) =
      (l.insertionSort (fun x y => f x ≤ f y)).map (fun x => (f x, x))
  | [] => rfl
  | a :: l => by
      show List.orderedInsert _ _ (List.insertionSort _ (l.map _)) = _
      rw [insertionSort_keyed f l, orderedInsert_keyed]
      rfl

theorem faithful_placeInRange (range : List Pt) (point segStart : Pt) :
    Faithful (placeInRangeC range point segStart)
      (pyIndex (range.insertionSort (fun a b => dist2 a segStart ≤ dist2 b segStart)) point) := by
  have h : (pyIndex (range.insertionSort (fun a b => dist2 a segStart ≤ dist2 b segStart)) point) =
      (mapE (fun p => (.ok (dist2 p segStart, p) : Except Err (ℚ × Pt))) range >>= fun keyed =>
        pyIndex ((keyed.insertionSort (fun a b => a.1 ≤ b.1)).map Prod.snd) point) := by
    rw [mapE_pure]
    show _ = pyIndex (List.map Prod.snd (List.insertionSort _ (List.map _ range))) point
    rw [insertionSort_keyed, List.map_map]
    congr 1
    exact (List.map_id _).symm
  rw [h]
  refine faithful_bind (faithful_mapC (fun p => ?_) range) fun _ => faithful_lift _
  exact faithful_bind (g := fun d => .ok (d, p)) (faithful_dist2 p segStart) fun _ => faithful_pure _

theorem faithful_linkPoint (lp : LinkedPolygon) (point segStart segEnd : Pt) :
    Faithful (lp.linkPointC point segStart segEnd) (lp.linkPoint point segStart segEnd) := by
  refine faithful_ite (faithful_raise _) (faithful_bind (faithful_lift _) fun i => faithful_bind (faithful_lift _) fun j =>
    faithful_ite (faithful_pure _) ?_)
  exact faithful_bind (faithful_placeInRange _ point segStart) fun _ => faithful_pure _

theorem faithful_searchLinked (avail : List Pt) {dist : Pt → Cached ℚ} {d : Pt → ℚ}
    (h : ∀ q, Faithful (dist q) (.ok (d q))) : ∀ qs total sequence,
    Faithful (searchLinkedC avail dist total sequence qs)
      (.ok (total + (searchLinked avail d qs).1, sequence ++ (searchLinked avail d qs).2))
  | [], total, sequence => by
      have : (total + (searchLinked avail d []).1, sequence ++ (searchLinked avail d []).2) = (total, sequence) := by
        simp [searchLinked]
      rw [this]
      exact faithful_pure _
  | q :: qs, total, sequence => by
      have he : (.ok (total + (searchLinked avail d (q :: qs)).1, sequence ++ (searchLinked avail d (q :: qs)).2) :
          Except Err (ℚ × List Pt)) =
          ((.ok (d q) : Except Err ℚ) >>= fun e =>
            if q ∈ avail then .ok (total + e, sequence ++ [q])
            else .ok (total + e + (searchLinked avail d qs).1, sequence ++ [q] ++ (searchLinked avail d qs).2)) := by
        show _ = (if q ∈ avail then _ else _)
        rw [searchLinked]
        split
        · rfl
        · simp only [add_assoc, List.append_assoc, List.singleton_append]
      rw [he]
      exact faithful_bind (h q) fun e => faithful_ite (faithful_pure _)
        (faithful_searchLinked avail h qs (total + e) (sequence ++ [q]))

theorem faithful_nearestLinked (lp : LinkedPolygon) (point : Pt) :
    Faithful (lp.nearestLinkedC point) (lp.nearestLinked point) := by
  refine faithful_bind (faithful_lift _) fun avail => faithful_ite (faithful_pure _) (faithful_bind (faithful_lift _) fun i => ?_)
  have h1 := faithful_searchLinked avail (fun q => faithful_dist2 point q)
    (lp.polygon.drop (i + 1) ++ lp.polygon.take i) 0 []
  have h2 := faithful_searchLinked avail (fun q => faithful_dist2 q point)
    (lp.polygon.drop (i + 1) ++ lp.polygon.take i).reverse 0 []
  simp only [zero_add, List.nil_append] at h1 h2
  exact faithful_bind (g := fun forward => (.ok _ : Except Err (ℚ × List Pt)) >>= fun reverse =>
    takeLink lp avail (chooseLink forward reverse)) h1 fun _ => faithful_bind h2 fun _ => faithful_lift _

theorem faithful_linkStep (k : ℕ) (p1 p2 : Pt) (s : LinkState) (q : Pt) :
    Faithful (linkStepC k p1 p2 s q) (linkStep k p1 p2 s q) :=
  faithful_bind (faithful_lift _) fun _ => faithful_ite (faithful_bind (faithful_lift _) fun _ =>
    faithful_bind (faithful_linkPoint s.lp q p1 p2) fun _ => faithful_pure _) (faithful_pure _)

theorem faithful_linkBoundary (k : ℕ) (remaining : List Pt) (owner : List (Pt × ℕ)) (polygon : List Pt) :
    Faithful (linkBoundaryC k remaining owner polygon) (linkBoundary k remaining owner polygon) :=
  faithful_foldC (f := linkSegmentC k) (g := linkSegment k) (fun s seg => faithful_foldC (f := linkStepC k seg.1 seg.2)
    (g := linkStep k seg.1 seg.2) (fun s' q => faithful_linkStep k seg.1 seg.2 s' q) s s.remaining) _ _

theorem faithful_linkBoundaries : ∀ bs k remaining owner,
    Faithful (linkBoundariesC k remaining owner bs) (linkBoundaries k remaining owner bs)
  | [], _, _, _ => faithful_ite (faithful_raise _) (faithful_pure _)
  | b :: bs, k, remaining, owner => faithful_bind (faithful_linkBoundary k remaining owner b) fun s =>
      faithful_bind (faithful_linkBoundaries bs (k + 1) s.remaining s.owner) fun _ => faithful_pure _

theorem faithful_routeRound (owner : List (Pt × ℕ)) (lineMap : List (Pt × (Pt × Pt))) (s : RouteState) :
    Faithful (routeRoundC owner lineMap s) (routeRound owner lineMap s) :=
  faithful_bind (faithful_lift _) fun _ => faithful_bind (faithful_lift _) fun lp =>
    faithful_bind (faithful_nearestLinked lp s.cutPos) fun _ => faithful_lift _

theorem faithful_routeLoop (owner : List (Pt × ℕ)) (lineMap : List (Pt × (Pt × Pt))) : ∀ n s,
    Faithful (routeLoopC owner lineMap n s) (routeLoop owner lineMap n s)
  | 0, s => by
      unfold routeLoopC routeLoop
      exact faithful_ite (faithful_pure _) (faithful_raise _)
  | n + 1, s => by
      unfold routeLoopC routeLoop
      exact faithful_ite (faithful_pure _) (faithful_bind (faithful_routeRound owner lineMap s) fun s' =>
        faithful_routeLoop owner lineMap n s')

theorem faithful_routeZigZag (lps : List LinkedPolygon) (scanlines : List (Pt × Pt)) (owner : List (Pt × ℕ))
    (lineMap : List (Pt × (Pt × Pt))) :
    Faithful (routeZigZagC lps scanlines owner lineMap) (routeZigZag lps scanlines owner lineMap) := by
  cases scanlines with
  | nil => exact faithful_raise _
  | cons s rest =>
    exact faithful_bind (faithful_lift _) fun _ => faithful_bind (faithful_lift _) fun _ =>
      faithful_bind (faithful_lift _) fun _ => faithful_routeLoop owner lineMap _ _

theorem faithful_zigzag (eng : ScanClipper) (boundaries : List (List Pt)) (step : ℚ) :
    Faithful (zigzagC eng boundaries step) (zigzag eng boundaries step) :=
  faithful_bind (faithful_lift _) fun _ => faithful_bind (faithful_lift _) fun _ =>
    faithful_bind (faithful_linkBoundaries boundaries 0 _ []) fun _ => faithful_routeZigZag _ _ _ _

theorem faithful_surfaceBoundary (eng : SurfaceEngine) (args : SurfaceArgs) (j : Job) (polygon : List Pt) :
    Faithful (surfaceBoundaryC eng args j polygon) (surfaceBoundary eng args j polygon) :=
  faithful_bind (faithful_zigzag eng.scan [polygon] _) fun _ => faithful_lift _

theorem faithful_surface3d (eng : SurfaceEngine) (k : FaceKernel) (args : SurfaceArgs) (outerOffset : ℚ × ℚ)
    (innerOffset : Option (ℚ × ℚ)) (boundaries : List BoundaryFace) (j : Job) :
    Faithful (surface3dC eng k args outerOffset innerOffset boundaries j)
      (surface3d eng k args outerOffset innerOffset boundaries j) :=
  faithful_bind (faithful_lift _) fun _ => faithful_bind (faithful_mapC (fun _ => faithful_bind (faithful_lift _) fun _ =>
    faithful_surfaceBoundary eng args j _) _) fun _ => faithful_pure _

theorem faithful_run (t : ProcessCall) : ∃ r, Faithful t.run r := by
  cases t with
  | drill center o depth j =>
    exact ⟨_, faithful_bind (g := fun cs => .ok (.moves cs)) (faithful_drill center o depth j) fun _ => faithful_pure _⟩
  | surface3d eng k args oo io bs j =>
    exact ⟨_, faithful_bind (g := fun cs => .ok (.moves cs)) (faithful_surface3d eng k args oo io bs j) fun _ =>
      faithful_pure _⟩
  | zigzag eng bs step =>
    exact ⟨_, faithful_bind (g := fun ps => .ok (.paths ps)) (faithful_zigzag eng bs step) fun _ => faithful_pure _⟩
  | sort paths =>
    exact ⟨_, faithful_bind (g := fun ps => .ok (.paths ps)) (faithful_sortOutput paths) fun _ => faithful_pure _⟩

theorem rightDistances_nil : RightDistances [] := fun _ _ _ h => nomatch h

/-- C121.  In a process every call returns what it returns as the first call of a process, whatever was called before. -/
theorem C121_history (ts : List ProcessCall) : runProcess ts [] = ts.map (fun t => (t.run []).1) := by
  have key : ∀ c, RightDistances c → runProcess ts c = ts.map (fun t => (t.run []).1) := by
    induction ts with
    | nil => intro c _; rfl
    | cons t ts ih =>
      intro c hc
      obtain ⟨r, hr⟩ := faithful_run t
      show (t.run c).1 :: runProcess ts (t.run c).2 = (t.run []).1 :: _
      rw [ih _ (hr c hc).2, (hr c hc).1, (hr [] rightDistances_nil).1]
  exact key [] rightDistances_nil

/-- C121.  The dictionary only ever holds right distances. -/
theorem C121_distances (ts : List ProcessCall) : RightDistances (cacheAfter ts []) := by
  have key : ∀ c, RightDistances c → RightDistances (cacheAfter ts c) := by
    induction ts with
    | nil => intro c hc; exact hc
    | cons t ts ih =>
      intro c hc
      obtain ⟨r, hr⟩ := faithful_run t
      exact ih _ (hr c hc).2
  exact key [] rightDistances_nil

/-- C121.  After any calls, drilling, 3D surfacing, the zigzag and contour strategies and the sorting of contours do what
they do without a cache (the functions of the other files). -/
theorem C121_uncached (ts : List ProcessCall) :
    (∀ center o depth j, (drillC center o depth j (cacheAfter ts [])).1 = drill center o depth j) ∧
      (∀ eng k args oo io bs j, (surface3dC eng k args oo io bs j (cacheAfter ts [])).1 = surface3d eng k args oo io bs j) ∧
      (∀ eng bs step, (zigzagC eng bs step (cacheAfter ts [])).1 = zigzag eng bs step) ∧
      (∀ paths, (sortOutputC paths (cacheAfter ts [])).1 = sortOutput paths) ∧
      ∀ (W : Type) eng (k : WireKernel W) d s n outers inners,
        (contourStrategyC eng k d s n outers inners (cacheAfter ts [])).1 = contourStrategy eng k d s n outers inners := by
  have hc := C121_distances ts
  exact ⟨fun _ _ _ _ => (faithful_drill _ _ _ _ _ hc).1, fun _ _ _ _ _ _ _ => (faithful_surface3d _ _ _ _ _ _ _ _ hc).1,
    fun _ _ _ => (faithful_zigzag _ _ _ _ hc).1, fun _ => (faithful_sortOutput _ _ hc).1,
    fun _ _ _ _ _ _ _ _ => (faithful_contourStrategy _ _ _ _ _ _ _ _ hc).1⟩

/-- Drilling three holes. -/
def threeHoles : ProcessCall :=
  .drill drillCenter (some [.vector ⟨0, 0, 0⟩, .vector ⟨9, 0, 0⟩, .vector ⟨4, 0, 0⟩]) (some 1) (drillJob ⟨0, 0, 0⟩)

/-- The same three holes twice, and a call that raises between: the second time the distances are in the dictionary. -/
example : ∃ cs, (threeHoles.run []).1 = .ok (.moves cs) ∧ cs.length = 12 ∧ (cacheAfter [threeHoles] []).length = 3 ∧
    cacheAfter [threeHoles, threeHoles] [] = cacheAfter [threeHoles] [] ∧
      runProcess [threeHoles, .sort [], threeHoles] [] = [.ok (.moves cs), .error .indexError, .ok (.moves cs)] := by
  have h : (match threeHoles.run [] with
      | (.ok (.moves cs), c) => decide (cs.length = 12 ∧ c.length = 3)
      | _ => false) = true := by decide +kernel
  have h2 : cacheAfter [threeHoles, threeHoles] [] = cacheAfter [threeHoles] [] := by decide +kernel
  split at h
  · rename_i cs c hr
    obtain ⟨hl, hc⟩ := of_decide_eq_true h
    refine ⟨cs, by rw [hr], hl, ?_, h2, ?_⟩
    · show ((ProcessCall.run _ []).2).length = 3
      rw [hr]
      exact hc
    · rw [C121_history]
      simp only [List.map_cons, List.map_nil, hr]
      rfl
  · cases h

/-! ### Colours -/

theorem cachedColors_spec {C : Type} (create : ℕ → String → Except Err C) : ∀ (names : List String) (n : ℕ)
    (d : List (String × C)) (cs : List C) (d' : List (String × C)), cachedColors create n names d = .ok (cs, d') →
    cs.length = names.length ∧ (∀ name c, d.lookup name = some c → d'.lookup name = some c) ∧
      (∀ (i : ℕ) name, names[i]? = some name → ∃ c, cs[i]? = some c ∧ d'.lookup name = some c) ∧
      ∀ name c, d'.lookup name = some c → d.lookup name = some c ∨
        ∃ i, names[i]? = some name ∧ create (n + i) name = .ok c := by
  intro names
  induction names with
  | nil =>
    intro n d cs d' h
    cases h
    exact ⟨rfl, fun _ _ h => h, fun i name hi => by simp at hi, fun _ _ h => Or.inl h⟩
  | cons name names ih =>
    intro n d cs d' h
    simp only [cachedColors] at h
    cases hr : cachedColor create n name d with
    | error e => rw [hr] at h; cases h
    | ok r =>
      rw [hr] at h
      change (cachedColors create (n + 1) names r.2 >>= _) = _ at h
      cases hrs : cachedColors create (n + 1) names r.2 with
      | error e => rw [hrs] at h; cases h
      | ok rs =>
        rw [hrs] at h
        obtain ⟨rs1, rs2⟩ := rs
        cases h
        obtain ⟨h1, h2, h3, h4⟩ := ih (n + 1) r.2 rs1 rs2 hrs
        -- the first call
        have hfirst : r.2.lookup name = some r.1 ∧ (∀ nm c, d.lookup nm = some c → r.2.lookup nm = some c) ∧
            ∀ nm c, r.2.lookup nm = some c → d.lookup nm = some c ∨ (nm = name ∧ create n name = .ok c) := by
          unfold cachedColor at hr
          cases hm : create n name with
          | error e => rw [hm] at hr; cases hr
          | ok made =>
            rw [hm] at hr
            change (match d.lookup name with
              | some c => (.ok (c, d) : Except Err (C × List (String × C)))
              | none => .ok (made, (name, made) :: d)) = _ at hr
            cases hl : d.lookup name with
            | some c =>
              rw [hl] at hr
              cases hr
              exact ⟨hl, fun _ _ h => h, fun _ _ h => Or.inl h⟩
            | none =>
              rw [hl] at hr
              cases hr
              refine ⟨by simp, fun nm c hnc => ?_, fun nm c hnc => ?_⟩
              · have hne : nm ≠ name := by rintro rfl; rw [hl] at hnc; cases hnc
                have hb : (nm == name) = false := by simpa using hne
                simp only [List.lookup_cons, hb]
                exact hnc
              · by_cases hne : nm = name
                · subst hne
                  simp only [List.lookup_cons, beq_self_eq_true, Option.some.injEq] at hnc
                  exact Or.inr ⟨rfl, by rw [hnc]⟩
                · have hb : (nm == name) = false := by simpa using hne
                  simp only [List.lookup_cons, hb] at hnc
                  exact Or.inl hnc
        obtain ⟨hf1, hf2, hf3⟩ := hfirst
        refine ⟨by simp [h1], fun nm c hnc => h2 nm c (hf2 nm c hnc), fun i nm hi => ?_, fun nm c hnc => ?_⟩
        · cases i with
          | zero =>
            simp only [List.getElem?_cons_zero, Option.some.injEq] at hi
            subst hi
            exact ⟨r.1, by simp, h2 _ _ hf1⟩
          | succ i =>
            obtain ⟨c, hc1, hc2⟩ := h3 i nm (by simpa using hi)
            exact ⟨c, by simpa using hc1, hc2⟩
        · rcases h4 nm c hnc with h | ⟨i, hi, hc⟩
          · rcases hf3 nm c h with h | ⟨rfl, h⟩
            · exact Or.inl h
            · exact Or.inr ⟨0, by simp, by simpa using h⟩
          · exact Or.inr ⟨i + 1, by simpa using hi, by rw [← hc]; congr 1; omega⟩

/-- C121.  In a process all shapes drawn in one colour share one colour object, whatever the viewer returns for the same name
later: it is one the viewer returned for this very name. -/
theorem C121_colours {C : Type} {create : ℕ → String → Except Err C} {names : List String} {cs : List C}
    {d : List (String × C)} (h : cachedColors create 0 names [] = .ok (cs, d)) :
    cs.length = names.length ∧
      (∀ (i k : ℕ) name, names[i]? = some name → names[k]? = some name → cs[i]? = cs[k]?) ∧
      ∀ (i : ℕ) name, names[i]? = some name → ∃ c m, cs[i]? = some c ∧ names[m]? = some name ∧ create m name = .ok c := by
  obtain ⟨h1, -, h3, h4⟩ := cachedColors_spec create names 0 [] cs d h
  refine ⟨h1, fun i k name hi hk => ?_, fun i name hi => ?_⟩
  · obtain ⟨c, hc, hd⟩ := h3 i name hi
    obtain ⟨c', hc', hd'⟩ := h3 k name hk
    rw [hd] at hd'
    cases hd'
    rw [hc, hc']
  · obtain ⟨c, hc, hd⟩ := h3 i name hi
    rcases h4 name c hd with h | ⟨m, hm, hcm⟩
    · simp at h
    · exact ⟨c, m, hc, hm, by simpa using hcm⟩

/-- A viewer that numbers its colours. -/
example : cachedColors (fun n _ => .ok n) 0 ["red", "green", "red", "blue", "green"] [] =
    .ok ([0, 1, 0, 3, 1], [("blue", 3), ("green", 1), ("red", 0)]) := by decide +kernel

end CQ
