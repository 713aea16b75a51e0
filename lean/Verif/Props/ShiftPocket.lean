import Verif.Props.ShiftProfile

/-! # C123 for pockets -/

namespace CQ

/-- A path, moved. -/
abbrev sidePath (s : Pt) : List Pt → List Pt := List.map (Pt.side s)

/-! ### From faces to polygons -/

theorem edgeToVectors_side (s : Pt) (e : Edge) (n : ℕ) :
    edgeToVectors (e.side s) n = (edgeToVectors e n).map (List.map (Vec.side s)) := by
  have h1 : (e.side s).geom = e.geom := rfl
  have h2 : (e.side s).basis = e.basis := rfl
  have h3 : edgeStartEnd (e.side s) = ((edgeStartEnd e).1.side s, (edgeStartEnd e).2.side s) := by
    unfold edgeStartEnd
    change (if e.reversed then _ else _) = _
    split <;> rfl
  unfold edgeToVectors
  simp only [h1, h2, h3, interpolate_side]
  split
  · cases e.basis with
    | none => rfl
    | some g => cases g <;> rfl
  · split <;> rfl

theorem edgesToVectors_side (s : Pt) (n : ℕ) (vs : List Vec) (es : List Edge) :
    edgesToVectors n (vs.map (Vec.side s)) (es.map (Edge.side s)) = (edgesToVectors n vs es).map (List.map (Vec.side s)) := by
  induction es generalizing vs with
  | nil => rfl
  | cons e es ih =>
    simp only [List.map_cons, edgesToVectors, edgeToVectors_side]
    cases edgeToVectors e n with
    | error x => rfl
    | ok ws =>
      have := ih (vs ++ ws.tail)
      rw [List.map_append, List.map_tail] at this
      exact this

theorem wireToPath_side {veq : Vec → Vec → Bool} {s : Pt} (hv : ∀ a b, veq (a.side s) (b.side s) = veq a b) (es : List Edge)
    (n : ℕ) : wireToPath veq (es.map (Edge.side s)) n = (wireToPath veq es n).map (sidePath s) := by
  have h : wireToVectors veq (es.map (Edge.side s)) n = (wireToVectors veq es n).map (List.map (Vec.side s)) := by
    cases es with
    | nil => rfl
    | cons e es =>
      simp only [List.map_cons, wireToVectors, edgeToVectors_side]
      cases edgeToVectors e n with
      | error x => rfl
      | ok vs =>
        simp only [Except.map, edgesToVectors_side]
        cases edgesToVectors n vs es with
        | error x => rfl
        | ok ws =>
          simp only [List.length_map, List.head?_map, List.getLast?_map]
          split
          · rfl
          · cases ws.head? with
            | none => rfl
            | some a =>
              cases ws.getLast? with
              | none => rfl
              | some b =>
                simp only [Option.map, hv]
                split
                · simp only [List.map_append, List.map_cons, List.map_nil]
                · split
                  · simp only [List.map_dropLast]
                  · rfl
  unfold wireToPath
  rw [h]
  cases wireToVectors veq es n with
  | error x => rfl
  | ok vs => simp only [Except.map, vectorsTo2d, List.map_map]; rfl

/-- A face in job coordinates, moved. -/
def CqFace.side (s : Pt) (f : CqFace) : CqFace :=
  { f with outerWire := f.outerWire.map (Edge.side s), innerWires := f.innerWires.map (List.map (Edge.side s)) }

theorem fromCqFace_side {veq : Vec → Vec → Bool} {s : Pt} (hv : ∀ a b, veq (a.side s) (b.side s) = veq a b) (f : CqFace) (n : ℕ) :
    PathFace.fromCqFace veq (f.side s) n = (PathFace.fromCqFace veq f n).map (PathFace.side s) := by
  have hd : ∀ g : CqFace, PathFace.fromCqFace veq g n = if pyRound g.zmin 3 ≠ pyRound g.zmax 3 then .error .valueError
      else wireToPath veq g.outerWire n >>= fun o => mapE (fun w => wireToPath veq w n) g.innerWires >>= fun is =>
        .ok ⟨o, is, g.zmax⟩ := fun _ => rfl
  rw [hd, hd]
  by_cases h : pyRound f.zmin 3 ≠ pyRound f.zmax 3
  · have h' : pyRound (CqFace.side s f).zmin 3 ≠ pyRound (CqFace.side s f).zmax 3 := h
    rw [if_pos h, if_pos h']
    rfl
  · have h' : ¬ pyRound (CqFace.side s f).zmin 3 ≠ pyRound (CqFace.side s f).zmax 3 := h
    rw [if_neg h, if_neg h']
    simp only [CqFace.side]
    rw [wireToPath_side hv, bind_map_side, map_bind_side]
    congr 1
    funext o
    rw [mapE_side (fun w => wireToPath_side hv w n), bind_map_side, map_bind_side]
    rfl

/-! ### Polygon operations -/

theorem closePath_side (s : Pt) (p : List Pt) : closePath (sidePath s p) = (closePath p).map (sidePath s) := by
  unfold closePath
  simp only [sidePath, List.head?_map, List.getLast?_map]
  cases p.head? with
  | none => rfl
  | some a =>
    cases p.getLast? with
    | none => rfl
    | some b =>
      simp only [Option.map, Except.map, ne_eq, (side_inj s).eq_iff]
      split <;> simp

theorem sideNodes_eq (s : Pt) (ns : List PolyNode) : sideNodes s ns = ns.map (PolyNode.side s) := by
  induction ns with
  | nil => simp [sideNodes]
  | cons n ns ih => simp [sideNodes, ih]

theorem node_side (s : Pt) (n : PolyNode) : (n.side s).contour = sidePath s n.contour ∧ (n.side s).childs = n.childs.map (PolyNode.side s) := by
  cases n with
  | node c cs => exact ⟨by simp [PolyNode.side, PolyNode.contour], by simp [PolyNode.side, PolyNode.childs, sideNodes_eq]⟩

theorem nodeToPolyFace_side (s : Pt) (d : ℚ) (n : PolyNode) : nodeToPolyFace d (n.side s) = (nodeToPolyFace d n).map (PathFace.side s) := by
  have h : ∀ c : PolyNode, closePath (c.side s).contour = (closePath c.contour).map (sidePath s) := by
    intro c
    rw [(node_side s c).1, closePath_side]
  unfold nodeToPolyFace
  rw [h, (node_side s n).2, bind_map_side, map_bind_side]
  congr 1
  funext o
  rw [mapE_side (f := fun c : PolyNode => closePath c.contour) h, bind_map_side, map_bind_side]
  rfl

theorem polyTree_side (s : Pt) (t : List PolyNode) (d : ℚ) :
    polyTreeToPolyFaces (sideNodes s t) d = (polyTreeToPolyFaces t d).map (List.map (PathFace.side s)) := by
  unfold polyTreeToPolyFaces
  rw [sideNodes_eq]
  exact mapE_side (nodeToPolyFace_side s d) t

section
variable {s : Pt} {eng : Clipper} (he : ClipperSide s eng)
include he

theorem unionPolyTree_side (a b : List (List Pt)) (d : ℚ) :
    unionPolyTree eng (a.map (sidePath s)) (b.map (sidePath s)) d = (unionPolyTree eng a b d).map (List.map (PathFace.side s)) := by
  unfold unionPolyTree
  rw [he.union, bind_map_side, map_bind_side]
  simp only [polyTree_side]

theorem differencePolyTree_side (a b : List (List Pt)) (d : ℚ) :
    differencePolyTree eng (a.map (sidePath s)) (b.map (sidePath s)) d =
      (differencePolyTree eng a b d).map (List.map (PathFace.side s)) := by
  unfold differencePolyTree
  rw [he.difference, bind_map_side, map_bind_side]
  simp only [polyTree_side]

theorem offsetPath_side (p : List Pt) (o : ℚ) (n : ℕ) :
    offsetPath eng (sidePath s p) o n = (offsetPath eng p o n).map (List.map (sidePath s)) := by
  unfold offsetPath
  rw [he.offset, bind_map_side, map_bind_side]
  congr 1
  funext ps
  have hf : (ps.map (List.map (Pt.side s))).filter (fun p => decide (p ≠ [])) =
      (ps.filter (fun p => decide (p ≠ []))).map (sidePath s) := by
    rw [List.filter_map]
    congr 2
    funext p
    simp
  rw [hf]
  exact mapE_side (closePath_side s) _

theorem offsetPolyface_side (f : PathFace) (a b : ℚ) (n : ℕ) :
    offsetPolyface eng (f.side s) a b n = (offsetPolyface eng f a b n).map (List.map (PathFace.side s)) := by
  have ho : (f.side s).outer = sidePath s f.outer := rfl
  have hi : (f.side s).inners = f.inners.map (sidePath s) := rfl
  have hd : (f.side s).depth = f.depth := rfl
  unfold offsetPolyface
  rw [ho, hi, hd, offsetPath_side he, bind_map_side, map_bind_side]
  congr 1
  funext os
  by_cases h : f.inners = []
  · simp only [h, List.map_nil, ne_eq, not_true_eq_false, if_false, Except.map, List.map_map]
    rfl
  · rw [if_pos h, if_pos (by simpa using h), mapE_side (fun i => offsetPath_side he i b n), bind_map_side, map_bind_side]
    congr 1
    funext is
    unfold makePolyfaces
    rw [← List.map_flatten, differencePolyTree_side he]

end

/-! ### Depths -/

theorem depth_side (s : Pt) (f : PathFace) : (f.side s).depth = f.depth := rfl

/-- A map of depths, moved. -/
def sideMap (s : Pt) (m : DepthMap) : DepthMap := m.map (fun e => (e.1, e.2.map (PathFace.side s)))

theorem add_side (s : Pt) (f : PathFace) (m : DepthMap) : (sideMap s m).add (f.side s) = sideMap s (m.add f) := by
  induction m with
  | nil => rfl
  | cons e m ih =>
    obtain ⟨d, fs⟩ := e
    by_cases h : d = f.depth
    · simp [sideMap, DepthMap.add, depth_side, h]
    · have h' : ¬ d = (PathFace.side s f).depth := h
      simp only [sideMap, List.map_cons, DepthMap.add] at ih ⊢
      rw [if_neg h, if_neg h', ih]
      rfl

theorem get_side (s : Pt) (d : ℚ) (m : DepthMap) : (sideMap s m).get d = (m.get d).map (PathFace.side s) := by
  induction m with
  | nil => rfl
  | cons e m ih =>
    obtain ⟨e, fs⟩ := e
    simp only [sideMap, List.map_cons, DepthMap.get] at ih ⊢
    split
    · rfl
    · exact ih

theorem depthMapFrom_side (s : Pt) (m : DepthMap) (fs : List PathFace) :
    depthMapFrom (sideMap s m) (fs.map (PathFace.side s)) = (depthMapFrom m fs).map (sideMap s) := by
  induction fs generalizing m with
  | nil => rfl
  | cons f fs ih =>
    simp only [List.map_cons, depthMapFrom, depth_side, add_side, ih]
    split <;> rfl

theorem generateDepthMap_side (s : Pt) (fs : List PathFace) :
    generateDepthMap (fs.map (PathFace.side s)) = (generateDepthMap fs).map (fun x => (sideMap s x.1, x.2)) := by
  unfold generateDepthMap
  have h := depthMapFrom_side s [] fs
  have h0 : sideMap s [] = [] := rfl
  rw [h0] at h
  rw [h, bind_map_side, map_bind_side]
  congr 1
  funext m
  have hm : (sideMap s m).map Prod.fst = m.map Prod.fst := by
    simp only [sideMap, List.map_map]
    rfl
  simp only [Except.map, hm]

theorem outers_side (s : Pt) (fs : List PathFace) : (fs.map (PathFace.side s)).map PathFace.outer = (fs.map PathFace.outer).map (sidePath s) := by
  simp only [List.map_map]
  rfl

theorem inners_side (s : Pt) (fs : List PathFace) :
    ((fs.map (PathFace.side s)).map PathFace.inners).flatten = ((fs.map PathFace.inners).flatten).map (sidePath s) := by
  rw [List.map_flatten]
  simp only [List.map_map]
  rfl

section
variable {s : Pt} {eng : Clipper} (he : ClipperSide s eng)
include he

theorem combineOuters_side (fs : List PathFace) (d : ℚ) :
    combineOuters eng (fs.map (PathFace.side s)) d = (combineOuters eng fs d).map (List.map (sidePath s)) := by
  unfold combineOuters
  have h := unionPolyTree_side he (fs.map PathFace.outer) [] d
  rw [List.map_nil] at h
  rw [outers_side, h, bind_map_side, map_bind_side]
  simp only [outers_side, Except.map]

theorem depthOps_side (dm am : DepthMap) (ads : List ℚ) (d : ℚ) (deeper : List ℚ) :
    depthOps eng (sideMap s dm) (sideMap s am) ads d deeper = (depthOps eng dm am ads d deeper).map (List.map (PathFace.side s)) := by
  have hg : ∀ (m : DepthMap) (ds : List ℚ), (ds.map (fun a => (sideMap s m).get a)).flatten =
      ((ds.map (fun a => m.get a)).flatten).map (PathFace.side s) := by
    intro m ds
    rw [List.map_flatten, List.map_map]
    congr 1
    exact List.map_congr_left fun a _ => get_side s a m
  unfold depthOps
  simp only [get_side] at hg
  simp only [get_side, hg, ← List.map_append]
  rw [combineOuters_side he, bind_map_side, map_bind_side]
  congr 1
  funext ops
  simp only [inners_side, outers_side, ← List.map_append]
  split
  · exact differencePolyTree_side he _ _ _
  · exact differencePolyTree_side he _ _ _

theorem depthsOps_side (dm am : DepthMap) (ads : List ℚ) (ds : List ℚ) :
    depthsOps eng (sideMap s dm) (sideMap s am) ads ds = (depthsOps eng dm am ads ds).map (List.map (PathFace.side s)) := by
  induction ds with
  | nil => rfl
  | cons d ds ih =>
    simp only [depthsOps, depthOps_side he, ih, bind_map_side, map_bind_side]
    simp only [Except.map, List.map_append]

theorem buildPocketOps_side (a b : List PathFace) :
    buildPocketOps eng (a.map (PathFace.side s)) (b.map (PathFace.side s)) =
      (buildPocketOps eng a b).map (List.map (PathFace.side s)) := by
  unfold buildPocketOps
  simp only [generateDepthMap_side, bind_map_side, map_bind_side, depthsOps_side he]

theorem nextFaces_side (pocket : PathFace) (step : ℚ) (n : ℕ) (f : PathFace) :
    nextFaces eng (pocket.side s) step n (f.side s) = (nextFaces eng pocket step n f).map (List.map (PathFace.side s)) := by
  have ho : nextOuters eng (pocket.side s) step n (sidePath s f.outer) =
      (nextOuters eng pocket step n f.outer).map (List.map (sidePath s)) := by
    unfold nextOuters
    rw [offsetPath_side he, bind_map_side, map_bind_side]
    congr 1
    funext cs
    have hi : (pocket.side s).inners = pocket.inners.map (sidePath s) := rfl
    by_cases h : cs ≠ [] ∧ pocket.inners ≠ []
    · rw [if_pos h, if_pos (by simpa [hi] using h), hi, differencePolyTree_side he, bind_map_side, map_bind_side]
      simp only [outers_side, Except.map]
    · rw [if_neg h, if_neg (by simpa [hi] using h)]
      rfl
  unfold nextFaces
  change (nextOuters eng (pocket.side s) step n (sidePath s f.outer) >>= _) = _
  rw [ho, bind_map_side, map_bind_side]
  simp only [Except.map, List.map_map]
  rfl

end

/-! ### The tree of contours -/

theorem pathFace_side_inj (s : Pt) : Function.Injective (PathFace.side s) := by
  intro f g h
  cases f; cases g
  simp only [PathFace.side, PathFace.mk.injEq] at h
  obtain ⟨h1, h2, h3⟩ := h
  rw [List.map_injective_iff.mpr (side_inj s) h1,
    List.map_injective_iff.mpr (List.map_injective_iff.mpr (side_inj s)) h2, h3]

section
variable {α β : Type} (σ : α → β)

/-- The objects of a tree, replaced. -/
def CTree.over (t : CTree α) : CTree β := t.map (fun n => { obj := σ n.obj, parent := n.parent, locked := n.locked })

theorem over_get (t : CTree α) (i : ℕ) :
    (t.over σ)[i]? = t[i]?.map (fun n => { obj := σ n.obj, parent := n.parent, locked := n.locked }) := by
  simp [CTree.over]

theorem over_length (t : CTree α) : (t.over σ).length = t.length := by simp [CTree.over]

theorem over_leaves (t : CTree α) : (t.over σ).leaves = t.leaves := by
  have hp : (t.over σ).parents = t.parents := by
    simp only [CTree.parents, CTree.over, List.filterMap_map]
    rfl
  simp only [CTree.leaves, over_length, hp]

theorem over_nextUnlocked (t : CTree α) : (t.over σ).nextUnlocked = t.nextUnlocked := by
  unfold CTree.nextUnlocked
  rw [over_leaves]
  congr 1
  funext i
  rw [over_get]
  cases t[i]? <;> rfl

theorem over_parentOf (t : CTree α) (i : ℕ) : (t.over σ).parentOf i = t.parentOf i := by
  unfold CTree.parentOf
  rw [over_get]
  cases t[i]? <;> rfl

theorem over_traverse (t : CTree α) (i : ℕ) : (t.over σ).traverse i = t.traverse i := by
  have h : ∀ n i, (t.over σ).ancestorsF n i = t.ancestorsF n i := by
    intro n
    induction n with
    | zero => intro i; rfl
    | succ n ih =>
      intro i
      simp only [CTree.ancestorsF, over_parentOf, ih]
  simp only [CTree.traverse, over_length, h]

theorem over_unwrap (t : CTree α) (i : ℕ) : (t.over σ).unwrap i = (t.unwrap i).map σ := by
  simp only [CTree.unwrap, over_traverse, List.map_filterMap, over_get]
  congr 1
  funext k
  cases t[k]? <;> rfl

variable [DecidableEq α] [DecidableEq β]

theorem sequencesFrom_over (hσ : Function.Injective σ) (n : ℕ) (cands : List (List α)) (used : List α) :
    sequencesFrom n (cands.map (List.map σ)) (used.map σ) = (sequencesFrom n cands used).map (List.map σ) := by
  induction n generalizing cands used with
  | zero => rfl
  | succ n ih =>
    have hs : (cands.map (List.map σ)).insertionSort (fun a b => b.length ≤ a.length) =
        (cands.insertionSort (fun a b => b.length ≤ a.length)).map (List.map σ) := by
      symm
      apply List.map_insertionSort
      intro a _ b _
      simp
    simp only [sequencesFrom, hs]
    cases cands.insertionSort (fun a b => b.length ≤ a.length) with
    | nil => rfl
    | cons c rest =>
      simp only [List.map_cons, ← List.map_append]
      rw [← ih]
      congr 2
      simp only [List.map_map]
      refine List.map_congr_left fun l _ => ?_
      simp only [Function.comp, List.filter_map]
      congr 1
      apply List.filter_congr
      intro x _
      simp [Function.comp, hσ.eq_iff]

theorem over_sequences (hσ : Function.Injective σ) (t : CTree α) : (t.over σ).sequences = t.sequences.map (List.map σ) := by
  unfold CTree.sequences
  have h : (t.over σ).leaves.map (t.over σ).unwrap = (t.leaves.map t.unwrap).map (List.map σ) := by
    rw [over_leaves, List.map_map]
    exact List.map_congr_left fun i _ => over_unwrap σ t i
  simp only [h, List.length_map]
  have := sequencesFrom_over σ hσ t.leaves.length (t.leaves.map t.unwrap) []
  simpa using this

end

/-- An object with its identity, moved. -/
def sideTag (s : Pt) (x : ℕ × PathFace) : ℕ × PathFace := (x.1, x.2.side s)

theorem sideTag_inj (s : Pt) : Function.Injective (sideTag s) := by
  rintro ⟨a, f⟩ ⟨b, g⟩ h
  simp only [sideTag, Prod.mk.injEq] at h
  rw [h.1, pathFace_side_inj s h.2]

theorem tagged_side (s : Pt) (n : ℕ) (fs : List PathFace) : tagged n (fs.map (PathFace.side s)) = (tagged n fs).map (sideTag s) := by
  induction fs generalizing n with
  | nil => rfl
  | cons f fs ih => simp only [List.map_cons, tagged, ih, sideTag]

theorem fillLoop_side {s : Pt} {next next' : PathFace → Except Err (List PathFace)}
    (h : ∀ f, next' (f.side s) = (next f).map (List.map (PathFace.side s))) (n : ℕ) (t : CTree (ℕ × PathFace)) :
    fillLoop next' n (t.over (sideTag s)) = (fillLoop next n t).map (CTree.over (sideTag s)) := by
  induction n generalizing t with
  | zero => rfl
  | succ n ih =>
    simp only [fillLoop, over_nextUnlocked]
    cases t.nextUnlocked with
    | none => rfl
    | some i =>
      simp only [over_get]
      cases t[i]? with
      | none => rfl
      | some nd =>
        simp only [Option.map]
        change (next' (nd.obj.2.side s) >>= _) = _
        rw [h, bind_map_side, map_bind_side]
        congr 1
        funext os
        rw [← ih]
        congr 1
        by_cases ho : os = []
        · simp only [ho, List.map_nil, ne_eq, not_true_eq_false, if_false, CTree.lock, CTree.over]
          apply List.ext_getElem?
          intro k
          simp only [List.getElem?_map, List.getElem?_modify]
          cases t[k]? with
          | none => rfl
          | some nd =>
            simp only [Option.map]
            by_cases hk : i = k <;> simp [hk]
        · rw [if_pos ho, if_pos (by simpa using ho)]
          simp only [CTree.branch, over_length, tagged_side, List.map_map]
          simp [CTree.over, Function.comp_def]


/-! ### The sequences -/

section
variable {s : Pt} {eng : Clipper} (he : ClipperSide s eng)
include he

theorem fillPocket_side (fuel : ℕ) (op : PathFace) (step : ℚ) (n : ℕ) :
    fillPocket eng fuel (op.side s) step n = (fillPocket eng fuel op step n).map (List.map (List.map (PathFace.side s))) := by
  unfold fillPocket
  have h := fillLoop_side (nextFaces_side he op step n) fuel (CTree.init (0, ⟨op.outer, [], op.depth⟩))
  change (fillLoop _ fuel (CTree.over (sideTag s) (CTree.init (0, ⟨op.outer, [], op.depth⟩))) >>= _) = _
  rw [h, bind_map_side, map_bind_side]
  congr 1
  funext t
  rw [over_sequences _ (sideTag_inj s)]
  simp only [Except.map, List.map_map]
  congr 1
  refine List.map_congr_left fun l _ => ?_
  simp only [Function.comp, List.map_map]
  rfl

theorem startDepth_side (op : PathFace) (sh : List PathFace) :
    determineStepdownStartDepth eng (op.side s) (sh.map (PathFace.side s)) = determineStepdownStartDepth eng op sh := by
  unfold determineStepdownStartDepth
  rw [List.filter_map, List.map_map]
  congr 2
  have h : sh.filter ((fun o => eng.contains o (op.side s)) ∘ PathFace.side s) = sh.filter (fun o => eng.contains o op) :=
    List.filter_congr (fun o _ => he.contains o op)
  rw [h]
  rfl

end

theorem applyStepdown_side (s : Pt) (ss : List (List PathFace)) (d : Option ℚ) (step : ℚ) :
    applyStepdown (ss.map (List.map (PathFace.side s))) d step = (applyStepdown ss d step).map (List.map (List.map (PathFace.side s))) := by
  unfold applyStepdown
  have h : (ss.map (List.map (PathFace.side s))).flatten.map PathFace.depth = ss.flatten.map PathFace.depth := by
    rw [← List.map_flatten, List.map_map]
    rfl
  simp only [h]
  split
  · simp only [Except.map, List.map_flatMap, List.map_map]
    congr 1
    congr 1
    funext x
    refine List.map_congr_left fun l _ => ?_
    simp only [Function.comp, List.map_map]
    rfl
  · rfl

section
variable {s : Pt} {eng : Clipper} (he : ClipperSide s eng)
include he

theorem opSequences_side (fuel : ℕ) (stepover : ℚ) (stepdown : Option ℚ) (n : ℕ) (sh : List PathFace) (op : PathFace) :
    opSequences eng fuel stepover stepdown n (sh.map (PathFace.side s)) (op.side s) =
      (opSequences eng fuel stepover stepdown n sh op).map (List.map (List.map (PathFace.side s))) := by
  unfold opSequences
  rw [fillPocket_side he, bind_map_side, map_bind_side]
  congr 1
  funext fill
  cases stepdown with
  | none => rfl
  | some d =>
    simp only
    split
    · rfl
    · rw [startDepth_side he, applyStepdown_side, bind_map_side, map_bind_side]
      simp only [Except.map, List.map_append]

theorem allSequences_side (fuel : ℕ) (stepover : ℚ) (stepdown : Option ℚ) (n : ℕ) (sh ops : List PathFace) :
    allSequences eng fuel stepover stepdown n (sh.map (PathFace.side s)) (ops.map (PathFace.side s)) =
      (allSequences eng fuel stepover stepdown n sh ops).map (List.map (List.map (PathFace.side s))) := by
  induction ops generalizing sh with
  | nil => rfl
  | cons op ops ih =>
    have h := ih (sh ++ [op])
    simp only [List.map_append, List.map_cons, List.map_nil] at h
    simp only [List.map_cons, allSequences, opSequences_side he, h, bind_map_side, map_bind_side]
    simp only [Except.map, List.map_append]

end

/-! ### Routing -/

/-- The nearest point, moved. -/
def Nearest.side (s : Pt) (n : Nearest) : Nearest := { n with point := Pt.side s n.point }

theorem distToSegment_side (s p v w : Pt) : distToSegmentSquared (Pt.side s p) (Pt.side s v) (Pt.side s w) =
    (distToSegmentSquared p v w).map (fun x => (x.1, Pt.side s x.2)) := by
  unfold distToSegmentSquared
  simp only [dist2_side]
  by_cases h : dist2 v w = 0
  · rw [if_pos h, if_pos h]
    rfl
  · rw [if_neg h, if_neg h]
    have e1 : (Pt.side s p).x - (Pt.side s v).x = p.x - v.x := by simp [Pt.side]
    have e2 : (Pt.side s p).y - (Pt.side s v).y = p.y - v.y := by simp [Pt.side]
    have e3 : (Pt.side s w).x - (Pt.side s v).x = w.x - v.x := by simp [Pt.side]
    have e4 : (Pt.side s w).y - (Pt.side s v).y = w.y - v.y := by simp [Pt.side]
    simp only [e1, e2, e3, e4, Except.map]
    generalize max 0 (min 1 (((p.x - v.x) * (w.x - v.x) + (p.y - v.y) * (w.y - v.y)) / dist2 v w)) = t
    have e5 : (⟨(Pt.side s v).x + t * (w.x - v.x), (Pt.side s v).y + t * (w.y - v.y)⟩ : Pt) =
        Pt.side s ⟨v.x + t * (w.x - v.x), v.y + t * (w.y - v.y)⟩ := by
      simp only [Pt.side]
      ext <;> simp only <;> ring
    rw [e5, dist2_side]

theorem distanceToPath_side (s p : Pt) (path : List Pt) :
    distanceToPath (Pt.side s p) (sidePath s path) = (distanceToPath p path).map (Option.map (Nearest.side s)) := by
  have hs : ∀ a b, segmentLengthSquared (Pt.side s a) (Pt.side s b) = segmentLengthSquared a b := by
    intro a b
    simp only [segmentLengthSquared, Pt.side]
    ring
  have h : ∀ (path : List Pt) (i : ℕ) (best : Option Nearest),
      distanceToPathFrom (Pt.side s p) i (best.map (Nearest.side s)) (path.map (Pt.side s)) =
        (distanceToPathFrom p i best path).map (Option.map (Nearest.side s)) := by
    intro path
    induction path with
    | nil => intro i best; rfl
    | cons a rest ih =>
      intro i best
      cases rest with
      | nil => rfl
      | cons b rest =>
        simp only [List.map_cons, distanceToPathFrom, distToSegment_side]
        cases distToSegmentSquared p a b with
        | error e => rfl
        | ok x =>
          obtain ⟨d, c⟩ := x
          simp only [List.map_cons] at ih
          change distanceToPathFrom _ _ _ _ = _
          have hb : ∀ q : Nearest, ((match best.map (Nearest.side s) with
              | none => some (q.side s)
              | some n => if d < n.dist then some (q.side s) else some n) : Option Nearest) =
              (match best with
              | none => some q
              | some n => if d < n.dist then some q else some n).map (Nearest.side s) := by
            intro q
            cases best with
            | none => rfl
            | some m =>
              by_cases hd : d < m.dist
              · have hd' : d < (Nearest.side s m).dist := hd
                simp only [Option.map, if_pos hd, if_pos hd']
              · have hd' : ¬ d < (Nearest.side s m).dist := hd
                simp only [Option.map, if_neg hd, if_neg hd']
          rw [hs, hs]
          have := hb ⟨d, c, i, Rat.sqrt (segmentLengthSquared a c / segmentLengthSquared a b)⟩
          exact (congrArg (fun q => distanceToPathFrom (Pt.side s p) (i + 1) q (Pt.side s b :: rest.map (Pt.side s))) this).trans
            (ih (i + 1) _)
  exact h path 0 none

theorem nearestTo_side (s : Pt) (pwe : Option Pt) (path : List Pt) :
    nearestTo (pwe.map (Pt.side s)) (sidePath s path) = (nearestTo pwe path).map (Option.map (Nearest.side s)) := by
  cases pwe with
  | none => rfl
  | some e => exact distanceToPath_side s e path

theorem shortLink_side (s : Pt) (stepover : Option ℚ) (n : Option Nearest) :
    shortLink stepover (n.map (Nearest.side s)) = (shortLink stepover n).map (Nearest.side s) := by
  cases stepover <;> cases n <;> try rfl
  rename_i o n
  simp only [shortLink, Option.map]
  have hm : (Nearest.side s n).dist = n.dist := rfl
  simp only [hm]
  split <;> rfl

theorem cutTo_side (s : Pt) (j : Job) (d : ℚ) (pos : AddrVec) (p : Pt) :
    cutTo (j.side s) d (pos.side s) (Pt.side s p) = (cutTo j d pos p).side s := cutAbs_side s ⟨some p.x, some p.y, some d⟩ pos _

theorem cutsTo_side (s : Pt) (j : Job) (d : ℚ) (pos : AddrVec) (ps : List Pt) :
    cutsTo (j.side s) d (pos.side s) (ps.map (Pt.side s)) = (cutsTo j d pos ps).map (Motion.side s) := by
  induction ps generalizing pos with
  | nil => rfl
  | cons p ps ih => simp only [List.map_cons, cutsTo, cutTo_side, side_fin, ih]

theorem shiftPolygon_side (s : Pt) (p : List Pt) (i : ℕ) : shiftPolygon (p.map (Pt.side s)) i = (shiftPolygon p i).map (Pt.side s) := by
  simp only [shiftPolygon, List.map_append, List.map_drop, List.map_take, List.map_dropLast]

theorem routeFace_side (s : Pt) (j : Job) (stepover : Option ℚ) (pwe : Option Pt) (pos : AddrVec) (f : PathFace) :
    routeFace (j.side s) stepover (pwe.map (Pt.side s)) (pos.side s) (f.side s) =
      (routeFace j stepover pwe pos f).map (fun x => (x.1.map (Motion.side s), x.2.map (Pt.side s))) := by
  obtain ⟨outer, inners, depth⟩ := f
  unfold routeFace
  simp only [PathFace.side]
  cases outer with
  | nil => rfl
  | cons p0 ps =>
    have hn := nearestTo_side s pwe (p0 :: ps)
    simp only [sidePath] at hn
    simp only [List.map_cons] at hn ⊢
    rw [hn]
    cases nearestTo pwe (p0 :: ps) with
    | error e => rfl
    | ok nearest =>
      simp only [Except.map, shortLink_side]
      have hr := rapidTo_side s pos ⟨p0.x, p0.y, depth⟩ j.rapidHeight (some j.opSafeHeight) (some j.plungeFeed)
      have hx : ∀ (ap : List Motion) (po : List Pt),
          (match nearest.map (Nearest.side s) with
          | some n => Except.ok (ap.map (Motion.side s) ++ cutsTo (j.side s) depth (lastFin (pos.side s) (ap.map (Motion.side s))) (po.map (Pt.side s)).tail ++
              [cutTo (j.side s) depth (lastFin (pos.side s) (ap.map (Motion.side s) ++ cutsTo (j.side s) depth (lastFin (pos.side s) (ap.map (Motion.side s))) (po.map (Pt.side s)).tail)) n.point], some n.point)
          | none => Except.ok (ap.map (Motion.side s) ++ cutsTo (j.side s) depth (lastFin (pos.side s) (ap.map (Motion.side s))) (po.map (Pt.side s)).tail,
              (po.map (Pt.side s)).getLast?) : Except Err (List Motion × Option Pt)) =
          Except.map (fun x => (x.1.map (Motion.side s), x.2.map (Pt.side s))) (match nearest with
          | some n => Except.ok (ap ++ cutsTo j depth (lastFin pos ap) po.tail ++
              [cutTo j depth (lastFin pos (ap ++ cutsTo j depth (lastFin pos ap) po.tail)) n.point], some n.point)
          | none => Except.ok (ap ++ cutsTo j depth (lastFin pos ap) po.tail, po.getLast?)) := by
        intro ap po
        rw [← List.map_tail, lastFin_side, cutsTo_side, ← List.map_append, lastFin_side]
        cases nearest with
        | none => simp [Option.map, Except.map]
        | some n => simp [Option.map, Except.map, Nearest.side, cutTo_side]
      cases shortLink stepover nearest with
      | none =>
        have := hx (rapidTo pos ⟨p0.x, p0.y, depth⟩ j.rapidHeight (some j.opSafeHeight) (some j.plungeFeed)) (p0 :: ps)
        rw [← hr] at this
        exact this
      | some n =>
        have := hx [cutTo j depth pos n.point] (shiftPolygon (p0 :: ps) n.index)
        rw [← shiftPolygon_side, List.map_cons, List.map_nil, ← cutTo_side] at this
        exact this

theorem routeFaces_side (s : Pt) (j : Job) (stepover : Option ℚ) (pwe : Option Pt) (pos : AddrVec) (fs : List PathFace) :
    routeFaces (j.side s) stepover (pwe.map (Pt.side s)) (pos.side s) (fs.map (PathFace.side s)) =
      (routeFaces j stepover pwe pos fs).map (List.map (Motion.side s)) := by
  induction fs generalizing pwe pos with
  | nil => rfl
  | cons f fs ih =>
    simp only [List.map_cons, routeFaces, routeFace_side]
    cases routeFace j stepover pwe pos f with
    | error e => rfl
    | ok x =>
      obtain ⟨cs, pwe'⟩ := x
      simp only [Except.map, lastFin_side, ih]
      cases routeFaces j stepover pwe' (lastFin pos cs) fs with
      | error e => rfl
      | ok rest => simp only [Except.map, List.map_append]

theorem routeSequences_side (s : Pt) (j : Job) (stepover : ℚ) (cs : List Motion) (pos : AddrVec) (ss : List (List PathFace)) :
    routeSequences (j.side s) stepover (cs.map (Motion.side s)) (pos.side s) (ss.map (List.map (PathFace.side s))) =
      (routeSequences j stepover cs pos ss).map (List.map (Motion.side s)) := by
  induction ss generalizing cs pos with
  | nil => rfl
  | cons l ss ih =>
    have h : routePolyfaceOuters (j.side s) (l.map (PathFace.side s)) (some stepover) (some (pos.side s)) =
        (routePolyfaceOuters j l (some stepover) (some pos)).map (List.map (Motion.side s)) :=
      routeFaces_side s j (some stepover) none pos l
    simp only [List.map_cons, routeSequences, h, bind_map_side, map_bind_side, ← List.map_append, List.getLast?_map]
    congr 1
    funext ds
    cases (cs ++ ds).getLast? with
    | none => rfl
    | some c => exact ih _ _

/-! ### The operation -/

theorem pocketClipper_side {s : Pt} {eng : Clipper} (he : ClipperSide s eng) (fuel : ℕ) (j : Job) (a b : List PathFace)
    (o i ao ai st : ℚ) (d : Option ℚ) :
    pocketClipper eng fuel (j.side s) (a.map (PathFace.side s)) (b.map (PathFace.side s)) o i ao ai st d =
      (pocketClipper eng fuel j a b o i ao ai st d).map (List.map (Motion.side s)) := by
  unfold pocketClipper
  have hp : (j.side s).precision = j.precision := rfl
  simp only [hp]
  rw [mapE_side (τ := List.map (PathFace.side s)) (fun f => offsetPolyface_side he f o i j.precision), bind_map_side, map_bind_side]
  congr 1
  funext x
  rw [mapE_side (τ := List.map (PathFace.side s)) (fun f => offsetPolyface_side he f ao ai j.precision), bind_map_side, map_bind_side]
  congr 1
  funext y
  rw [← List.map_flatten, ← List.map_flatten, buildPocketOps_side he, bind_map_side, map_bind_side]
  congr 1
  funext z
  have h := allSequences_side he fuel st d j.precision [] z
  rw [List.map_nil] at h
  rw [h, bind_map_side, map_bind_side]
  congr 1
  funext w
  exact routeSequences_side s j st [] {} w

/-- C123, for pockets. -/
theorem C123_pocket {s : Pt} {f : Frame} {eng : Clipper} {veq : Vec → Vec → Bool} {box : List Edge → List (List Edge) → ℚ × ℚ}
    (hf : f.Square) (he : ClipperSide s eng) (hv : ∀ a b, veq (a.side s) (b.side s) = veq a b)
    (hb : ∀ o is, box (o.map (Edge.side s)) (is.map (List.map (Edge.side s))) = box o is) (fuel : ℕ)
    (opAreas avoidAreas : List WorldFace) (a : PocketArgs) (tool : Option Tool) :
    SideWork s f (pocketPlacedRequest eng veq box fuel opAreas avoidAreas a tool)
      (pocketPlacedRequest eng veq box fuel (opAreas.map (f.slide s).face) (avoidAreas.map (f.slide s).face) a tool) where
  name := rfl
  tool := rfl
  pre := fun _ _ => rfl
  gen := by
    rintro j rfl
    have hfaces : ∀ fs : List WorldFace, (fs.map (j.top.slide s).face).map (WorldFace.toJob box j.top) =
        (fs.map (WorldFace.toJob box j.top)).map (CqFace.side s) := by
      intro fs
      simp only [List.map_map]
      refine List.map_congr_left fun w _ => ?_
      have hi : List.map (List.map (Edge.toLocal j.top)) (List.map (List.map (j.top.slide s).edge) w.innerWires) =
          List.map (List.map (Edge.side s)) (List.map (List.map (Edge.toLocal j.top)) w.innerWires) := by
        simp only [List.map_map]
        refine List.map_congr_left fun v _ => ?_
        exact wire_slide hf s v
      simp only [Function.comp, WorldFace.toJob, CqFace.side, Rigid.face, wire_slide hf, hi, hb]
    change pocket eng veq fuel ((opAreas.map (j.top.slide s).face).map (WorldFace.toJob box j.top))
      ((avoidAreas.map (j.top.slide s).face).map (WorldFace.toJob box j.top)) a (j.side s) =
      (pocket eng veq fuel (opAreas.map (WorldFace.toJob box j.top)) (avoidAreas.map (WorldFace.toJob box j.top)) a j).map _
    rw [hfaces, hfaces]
    generalize opAreas.map (WorldFace.toJob box j.top) = ops
    generalize avoidAreas.map (WorldFace.toJob box j.top) = avs
    unfold pocket
    have hr : (j.side s).toolRadius = j.toolRadius := rfl
    have hp : (j.side s).precision = j.precision := rfl
    have hne : (avs.map (CqFace.side s) ≠ []) = (avs ≠ []) := by simp
    rw [hr]
    cases j.toolRadius with
    | none => rfl
    | some r =>
      simp only [hp]
      rw [mapE_side (τ := PathFace.side s) (fun g => fromCqFace_side hv g j.precision), bind_map_side, map_bind_side]
      congr 1
      funext x
      rw [mapE_side (τ := PathFace.side s) (fun g => fromCqFace_side hv g j.precision), bind_map_side, map_bind_side]
      congr 1
      funext y
      rw [pocketClipper_side he]
      congr 3
      by_cases h : avs = [] <;> simp [h]

end CQ
