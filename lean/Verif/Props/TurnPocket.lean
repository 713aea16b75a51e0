import Verif.Props.TurnProfile
import Verif.Props.ShiftPocket

/-! # C136 for pockets -/

namespace CQ

/-- A path, turned. -/
abbrev turnPath (s : Turn) : List Pt → List Pt := List.map (Pt.turn s)

/-! ### From faces to polygons -/

theorem edgeToVectors_turn (s : Turn) (e : Edge) (n : ℕ) :
    edgeToVectors (e.turn s) n = (edgeToVectors e n).map (List.map (Vec.turn s)) := by
  have h1 : (e.turn s).geom = e.geom := rfl
  have h2 : (e.turn s).basis = e.basis := rfl
  have h3 : edgeStartEnd (e.turn s) = ((edgeStartEnd e).1.turn s, (edgeStartEnd e).2.turn s) := by
    unfold edgeStartEnd
    change (if e.reversed then _ else _) = _
    split <;> rfl
  unfold edgeToVectors
  simp only [h1, h2, h3, interpolate_turn]
  split
  · cases e.basis with
    | none => rfl
    | some g => cases g <;> rfl
  · split <;> rfl

theorem edgesToVectors_turn (s : Turn) (n : ℕ) (vs : List Vec) (es : List Edge) :
    edgesToVectors n (vs.map (Vec.turn s)) (es.map (Edge.turn s)) = (edgesToVectors n vs es).map (List.map (Vec.turn s)) := by
  induction es generalizing vs with
  | nil => rfl
  | cons e es ih =>
    simp only [List.map_cons, edgesToVectors, edgeToVectors_turn]
    cases edgeToVectors e n with
    | error x => rfl
    | ok ws =>
      have := ih (vs ++ ws.tail)
      rw [List.map_append, List.map_tail] at this
      exact this

theorem wireToPath_turn {veq : Vec → Vec → Bool} {s : Turn} (hv : ∀ a b, veq (a.turn s) (b.turn s) = veq a b) (es : List Edge)
    (n : ℕ) : wireToPath veq (es.map (Edge.turn s)) n = (wireToPath veq es n).map (turnPath s) := by
  have h : wireToVectors veq (es.map (Edge.turn s)) n = (wireToVectors veq es n).map (List.map (Vec.turn s)) := by
    cases es with
    | nil => rfl
    | cons e es =>
      simp only [List.map_cons, wireToVectors, edgeToVectors_turn]
      cases edgeToVectors e n with
      | error x => rfl
      | ok vs =>
        simp only [Except.map, edgesToVectors_turn]
        cases edgesToVectors n vs es with
        | error x => rfl
        | ok ws =>
          simp only [List.length_map, List.head?_map, List.getLast?_map]
          split
          · rfl
          · cases ws.head? with
            | none => rfl
            | some a =>
              cases ws.getLast? with
              | none => rfl
              | some b =>
                simp only [Option.map, hv]
                split
                · simp only [List.map_append, List.map_cons, List.map_nil]
                · split
                  · simp only [List.map_dropLast]
                  · rfl
  unfold wireToPath
  rw [h]
  cases wireToVectors veq es n with
  | error x => rfl
  | ok vs => simp only [Except.map, vectorsTo2d, List.map_map]; rfl

/-- A face in job coordinates, turned. -/
def CqFace.turn (s : Turn) (f : CqFace) : CqFace :=
  { f with outerWire := f.outerWire.map (Edge.turn s), innerWires := f.innerWires.map (List.map (Edge.turn s)) }

theorem fromCqFace_turn {veq : Vec → Vec → Bool} {s : Turn} (hv : ∀ a b, veq (a.turn s) (b.turn s) = veq a b) (f : CqFace) (n : ℕ) :
    PathFace.fromCqFace veq (f.turn s) n = (PathFace.fromCqFace veq f n).map (PathFace.turn s) := by
  have hd : ∀ g : CqFace, PathFace.fromCqFace veq g n = if pyRound g.zmin 3 ≠ pyRound g.zmax 3 then .error .valueError
      else wireToPath veq g.outerWire n >>= fun o => mapE (fun w => wireToPath veq w n) g.innerWires >>= fun is =>
        .ok ⟨o, is, g.zmax⟩ := fun _ => rfl
  rw [hd, hd]
  by_cases h : pyRound f.zmin 3 ≠ pyRound f.zmax 3
  · have h' : pyRound (CqFace.turn s f).zmin 3 ≠ pyRound (CqFace.turn s f).zmax 3 := h
    rw [if_pos h, if_pos h']
    rfl
  · have h' : ¬ pyRound (CqFace.turn s f).zmin 3 ≠ pyRound (CqFace.turn s f).zmax 3 := h
    rw [if_neg h, if_neg h']
    simp only [CqFace.turn]
    rw [wireToPath_turn hv, bind_map_side, map_bind_side]
    congr 1
    funext o
    rw [mapE_side (fun w => wireToPath_turn hv w n), bind_map_side, map_bind_side]
    rfl

/-! ### Polygon operations -/

theorem closePath_turn (s : Turn) (p : List Pt) : closePath (turnPath s p) = (closePath p).map (turnPath s) := by
  unfold closePath
  simp only [turnPath, List.head?_map, List.getLast?_map]
  cases p.head? with
  | none => rfl
  | some a =>
    cases p.getLast? with
    | none => rfl
    | some b =>
      simp only [Option.map, Except.map, ne_eq, (turn_inj s).eq_iff]
      split <;> simp

theorem turnNodes_eq (s : Turn) (ns : List PolyNode) : turnNodes s ns = ns.map (PolyNode.turn s) := by
  induction ns with
  | nil => simp [turnNodes]
  | cons n ns ih => simp [turnNodes, ih]

theorem node_turn (s : Turn) (n : PolyNode) : (n.turn s).contour = turnPath s n.contour ∧ (n.turn s).childs = n.childs.map (PolyNode.turn s) := by
  cases n with
  | node c cs => exact ⟨by simp [PolyNode.turn, PolyNode.contour], by simp [PolyNode.turn, PolyNode.childs, turnNodes_eq]⟩

theorem nodeToPolyFace_turn (s : Turn) (d : ℚ) (n : PolyNode) : nodeToPolyFace d (n.turn s) = (nodeToPolyFace d n).map (PathFace.turn s) := by
  have h : ∀ c : PolyNode, closePath (c.turn s).contour = (closePath c.contour).map (turnPath s) := by
    intro c
    rw [(node_turn s c).1, closePath_turn]
  unfold nodeToPolyFace
  rw [h, (node_turn s n).2, bind_map_side, map_bind_side]
  congr 1
  funext o
  rw [mapE_side (f := fun c : PolyNode => closePath c.contour) h, bind_map_side, map_bind_side]
  rfl

theorem polyTree_turn (s : Turn) (t : List PolyNode) (d : ℚ) :
    polyTreeToPolyFaces (turnNodes s t) d = (polyTreeToPolyFaces t d).map (List.map (PathFace.turn s)) := by
  unfold polyTreeToPolyFaces
  rw [turnNodes_eq]
  exact mapE_side (nodeToPolyFace_turn s d) t

section
variable {s : Turn} {eng : Clipper} (he : ClipperTurn s eng)
include he

theorem unionPolyTree_turn (a b : List (List Pt)) (d : ℚ) :
    unionPolyTree eng (a.map (turnPath s)) (b.map (turnPath s)) d = (unionPolyTree eng a b d).map (List.map (PathFace.turn s)) := by
  unfold unionPolyTree
  rw [he.union, bind_map_side, map_bind_side]
  simp only [polyTree_turn]

theorem differencePolyTree_turn (a b : List (List Pt)) (d : ℚ) :
    differencePolyTree eng (a.map (turnPath s)) (b.map (turnPath s)) d =
      (differencePolyTree eng a b d).map (List.map (PathFace.turn s)) := by
  unfold differencePolyTree
  rw [he.difference, bind_map_side, map_bind_side]
  simp only [polyTree_turn]

theorem offsetPath_turn (p : List Pt) (o : ℚ) (n : ℕ) :
    offsetPath eng (turnPath s p) o n = (offsetPath eng p o n).map (List.map (turnPath s)) := by
  unfold offsetPath
  rw [he.offset, bind_map_side, map_bind_side]
  congr 1
  funext ps
  have hf : (ps.map (List.map (Pt.turn s))).filter (fun p => decide (p ≠ [])) =
      (ps.filter (fun p => decide (p ≠ []))).map (turnPath s) := by
    rw [List.filter_map]
    congr 2
    funext p
    simp
  rw [hf]
  exact mapE_side (closePath_turn s) _

theorem offsetPolyface_turn (f : PathFace) (a b : ℚ) (n : ℕ) :
    offsetPolyface eng (f.turn s) a b n = (offsetPolyface eng f a b n).map (List.map (PathFace.turn s)) := by
  have ho : (f.turn s).outer = turnPath s f.outer := rfl
  have hi : (f.turn s).inners = f.inners.map (turnPath s) := rfl
  have hd : (f.turn s).depth = f.depth := rfl
  unfold offsetPolyface
  rw [ho, hi, hd, offsetPath_turn he, bind_map_side, map_bind_side]
  congr 1
  funext os
  by_cases h : f.inners = []
  · simp only [h, List.map_nil, ne_eq, not_true_eq_false, if_false, Except.map, List.map_map]
    rfl
  · rw [if_pos h, if_pos (by simpa using h), mapE_side (fun i => offsetPath_turn he i b n), bind_map_side, map_bind_side]
    congr 1
    funext is
    unfold makePolyfaces
    rw [← List.map_flatten, differencePolyTree_turn he]

end

/-! ### Depths -/

theorem depth_turn (s : Turn) (f : PathFace) : (f.turn s).depth = f.depth := rfl

/-- A map of depths, turned. -/
def turnMap (s : Turn) (m : DepthMap) : DepthMap := m.map (fun e => (e.1, e.2.map (PathFace.turn s)))

theorem add_turn (s : Turn) (f : PathFace) (m : DepthMap) : (turnMap s m).add (f.turn s) = turnMap s (m.add f) := by
  induction m with
  | nil => rfl
  | cons e m ih =>
    obtain ⟨d, fs⟩ := e
    by_cases h : d = f.depth
    · simp [turnMap, DepthMap.add, depth_turn, h]
    · have h' : ¬ d = (PathFace.turn s f).depth := h
      simp only [turnMap, List.map_cons, DepthMap.add] at ih ⊢
      rw [if_neg h, if_neg h', ih]
      rfl

theorem get_turn (s : Turn) (d : ℚ) (m : DepthMap) : (turnMap s m).get d = (m.get d).map (PathFace.turn s) := by
  induction m with
  | nil => rfl
  | cons e m ih =>
    obtain ⟨e, fs⟩ := e
    simp only [turnMap, List.map_cons, DepthMap.get] at ih ⊢
    split
    · rfl
    · exact ih

theorem depthMapFrom_turn (s : Turn) (m : DepthMap) (fs : List PathFace) :
    depthMapFrom (turnMap s m) (fs.map (PathFace.turn s)) = (depthMapFrom m fs).map (turnMap s) := by
  induction fs generalizing m with
  | nil => rfl
  | cons f fs ih =>
    simp only [List.map_cons, depthMapFrom, depth_turn, add_turn, ih]
    split <;> rfl

theorem generateDepthMap_turn (s : Turn) (fs : List PathFace) :
    generateDepthMap (fs.map (PathFace.turn s)) = (generateDepthMap fs).map (fun x => (turnMap s x.1, x.2)) := by
  unfold generateDepthMap
  have h := depthMapFrom_turn s [] fs
  have h0 : turnMap s [] = [] := rfl
  rw [h0] at h
  rw [h, bind_map_side, map_bind_side]
  congr 1
  funext m
  have hm : (turnMap s m).map Prod.fst = m.map Prod.fst := by
    simp only [turnMap, List.map_map]
    rfl
  simp only [Except.map, hm]

theorem outers_turn (s : Turn) (fs : List PathFace) : (fs.map (PathFace.turn s)).map PathFace.outer = (fs.map PathFace.outer).map (turnPath s) := by
  simp only [List.map_map]
  rfl

theorem inners_turn (s : Turn) (fs : List PathFace) :
    ((fs.map (PathFace.turn s)).map PathFace.inners).flatten = ((fs.map PathFace.inners).flatten).map (turnPath s) := by
  rw [List.map_flatten]
  simp only [List.map_map]
  rfl

section
variable {s : Turn} {eng : Clipper} (he : ClipperTurn s eng)
include he

theorem combineOuters_turn (fs : List PathFace) (d : ℚ) :
    combineOuters eng (fs.map (PathFace.turn s)) d = (combineOuters eng fs d).map (List.map (turnPath s)) := by
  unfold combineOuters
  have h := unionPolyTree_turn he (fs.map PathFace.outer) [] d
  rw [List.map_nil] at h
  rw [outers_turn, h, bind_map_side, map_bind_side]
  simp only [outers_turn, Except.map]

theorem depthOps_turn (dm am : DepthMap) (ads : List ℚ) (d : ℚ) (deeper : List ℚ) :
    depthOps eng (turnMap s dm) (turnMap s am) ads d deeper = (depthOps eng dm am ads d deeper).map (List.map (PathFace.turn s)) := by
  have hg : ∀ (m : DepthMap) (ds : List ℚ), (ds.map (fun a => (turnMap s m).get a)).flatten =
      ((ds.map (fun a => m.get a)).flatten).map (PathFace.turn s) := by
    intro m ds
    rw [List.map_flatten, List.map_map]
    congr 1
    exact List.map_congr_left fun a _ => get_turn s a m
  unfold depthOps
  simp only [get_turn] at hg
  simp only [get_turn, hg, ← List.map_append]
  rw [combineOuters_turn he, bind_map_side, map_bind_side]
  congr 1
  funext ops
  simp only [inners_turn, outers_turn, ← List.map_append]
  split
  · exact differencePolyTree_turn he _ _ _
  · exact differencePolyTree_turn he _ _ _

theorem depthsOps_turn (dm am : DepthMap) (ads : List ℚ) (ds : List ℚ) :
    depthsOps eng (turnMap s dm) (turnMap s am) ads ds = (depthsOps eng dm am ads ds).map (List.map (PathFace.turn s)) := by
  induction ds with
  | nil => rfl
  | cons d ds ih =>
    simp only [depthsOps, depthOps_turn he, ih, bind_map_side, map_bind_side]
    simp only [Except.map, List.map_append]

theorem buildPocketOps_turn (a b : List PathFace) :
    buildPocketOps eng (a.map (PathFace.turn s)) (b.map (PathFace.turn s)) =
      (buildPocketOps eng a b).map (List.map (PathFace.turn s)) := by
  unfold buildPocketOps
  simp only [generateDepthMap_turn, bind_map_side, map_bind_side, depthsOps_turn he]

theorem nextFaces_turn (pocket : PathFace) (step : ℚ) (n : ℕ) (f : PathFace) :
    nextFaces eng (pocket.turn s) step n (f.turn s) = (nextFaces eng pocket step n f).map (List.map (PathFace.turn s)) := by
  have ho : nextOuters eng (pocket.turn s) step n (turnPath s f.outer) =
      (nextOuters eng pocket step n f.outer).map (List.map (turnPath s)) := by
    unfold nextOuters
    rw [offsetPath_turn he, bind_map_side, map_bind_side]
    congr 1
    funext cs
    have hi : (pocket.turn s).inners = pocket.inners.map (turnPath s) := rfl
    by_cases h : cs ≠ [] ∧ pocket.inners ≠ []
    · rw [if_pos h, if_pos (by simpa [hi] using h), hi, differencePolyTree_turn he, bind_map_side, map_bind_side]
      simp only [outers_turn, Except.map]
    · rw [if_neg h, if_neg (by simpa [hi] using h)]
      rfl
  unfold nextFaces
  change (nextOuters eng (pocket.turn s) step n (turnPath s f.outer) >>= _) = _
  rw [ho, bind_map_side, map_bind_side]
  simp only [Except.map, List.map_map]
  rfl

end

/-! ### The tree of contours -/

theorem pathFace_turn_inj (s : Turn) : Function.Injective (PathFace.turn s) := by
  intro f g h
  cases f; cases g
  simp only [PathFace.turn, PathFace.mk.injEq] at h
  obtain ⟨h1, h2, h3⟩ := h
  rw [List.map_injective_iff.mpr (turn_inj s) h1,
    List.map_injective_iff.mpr (List.map_injective_iff.mpr (turn_inj s)) h2, h3]

/-- An object with its identity, turned. -/
def turnTag (s : Turn) (x : ℕ × PathFace) : ℕ × PathFace := (x.1, x.2.turn s)

theorem turnTag_inj (s : Turn) : Function.Injective (turnTag s) := by
  rintro ⟨a, f⟩ ⟨b, g⟩ h
  simp only [turnTag, Prod.mk.injEq] at h
  rw [h.1, pathFace_turn_inj s h.2]

theorem tagged_turn (s : Turn) (n : ℕ) (fs : List PathFace) : tagged n (fs.map (PathFace.turn s)) = (tagged n fs).map (turnTag s) := by
  induction fs generalizing n with
  | nil => rfl
  | cons f fs ih => simp only [List.map_cons, tagged, ih, turnTag]

theorem fillLoop_turn {s : Turn} {next next' : PathFace → Except Err (List PathFace)}
    (h : ∀ f, next' (f.turn s) = (next f).map (List.map (PathFace.turn s))) (n : ℕ) (t : CTree (ℕ × PathFace)) :
    fillLoop next' n (t.over (turnTag s)) = (fillLoop next n t).map (CTree.over (turnTag s)) := by
  induction n generalizing t with
  | zero => rfl
  | succ n ih =>
    simp only [fillLoop, over_nextUnlocked]
    cases t.nextUnlocked with
    | none => rfl
    | some i =>
      simp only [over_get]
      cases t[i]? with
      | none => rfl
      | some nd =>
        simp only [Option.map]
        change (next' (nd.obj.2.turn s) >>= _) = _
        rw [h, bind_map_side, map_bind_side]
        congr 1
        funext os
        rw [← ih]
        congr 1
        by_cases ho : os = []
        · simp only [ho, List.map_nil, ne_eq, not_true_eq_false, if_false, CTree.lock, CTree.over]
          apply List.ext_getElem?
          intro k
          simp only [List.getElem?_map, List.getElem?_modify]
          cases t[k]? with
          | none => rfl
          | some nd =>
            simp only [Option.map]
            by_cases hk : i = k <;> simp [hk]
        · rw [if_pos ho, if_pos (by simpa using ho)]
          simp only [CTree.branch, over_length, tagged_turn, List.map_map]
          simp [CTree.over, Function.comp_def]


/-! ### The sequences -/

section
variable {s : Turn} {eng : Clipper} (he : ClipperTurn s eng)
include he

theorem fillPocket_turn (fuel : ℕ) (op : PathFace) (step : ℚ) (n : ℕ) :
    fillPocket eng fuel (op.turn s) step n = (fillPocket eng fuel op step n).map (List.map (List.map (PathFace.turn s))) := by
  unfold fillPocket
  have h := fillLoop_turn (nextFaces_turn he op step n) fuel (CTree.init (0, ⟨op.outer, [], op.depth⟩))
  change (fillLoop _ fuel (CTree.over (turnTag s) (CTree.init (0, ⟨op.outer, [], op.depth⟩))) >>= _) = _
  rw [h, bind_map_side, map_bind_side]
  congr 1
  funext t
  rw [over_sequences _ (turnTag_inj s)]
  simp only [Except.map, List.map_map]
  congr 1
  refine List.map_congr_left fun l _ => ?_
  simp only [Function.comp, List.map_map]
  rfl

theorem startDepth_turn (op : PathFace) (sh : List PathFace) :
    determineStepdownStartDepth eng (op.turn s) (sh.map (PathFace.turn s)) = determineStepdownStartDepth eng op sh := by
  unfold determineStepdownStartDepth
  rw [List.filter_map, List.map_map]
  congr 2
  have h : sh.filter ((fun o => eng.contains o (op.turn s)) ∘ PathFace.turn s) = sh.filter (fun o => eng.contains o op) :=
    List.filter_congr (fun o _ => he.contains o op)
  rw [h]
  rfl

end

theorem applyStepdown_turn (s : Turn) (ss : List (List PathFace)) (d : Option ℚ) (step : ℚ) :
    applyStepdown (ss.map (List.map (PathFace.turn s))) d step = (applyStepdown ss d step).map (List.map (List.map (PathFace.turn s))) := by
  unfold applyStepdown
  have h : (ss.map (List.map (PathFace.turn s))).flatten.map PathFace.depth = ss.flatten.map PathFace.depth := by
    rw [← List.map_flatten, List.map_map]
    rfl
  simp only [h]
  split
  · simp only [Except.map, List.map_flatMap, List.map_map]
    congr 1
    congr 1
    funext x
    refine List.map_congr_left fun l _ => ?_
    simp only [Function.comp, List.map_map]
    rfl
  · rfl

section
variable {s : Turn} {eng : Clipper} (he : ClipperTurn s eng)
include he

theorem opSequences_turn (fuel : ℕ) (stepover : ℚ) (stepdown : Option ℚ) (n : ℕ) (sh : List PathFace) (op : PathFace) :
    opSequences eng fuel stepover stepdown n (sh.map (PathFace.turn s)) (op.turn s) =
      (opSequences eng fuel stepover stepdown n sh op).map (List.map (List.map (PathFace.turn s))) := by
  unfold opSequences
  rw [fillPocket_turn he, bind_map_side, map_bind_side]
  congr 1
  funext fill
  cases stepdown with
  | none => rfl
  | some d =>
    simp only
    split
    · rfl
    · rw [startDepth_turn he, applyStepdown_turn, bind_map_side, map_bind_side]
      simp only [Except.map, List.map_append]

theorem allSequences_turn (fuel : ℕ) (stepover : ℚ) (stepdown : Option ℚ) (n : ℕ) (sh ops : List PathFace) :
    allSequences eng fuel stepover stepdown n (sh.map (PathFace.turn s)) (ops.map (PathFace.turn s)) =
      (allSequences eng fuel stepover stepdown n sh ops).map (List.map (List.map (PathFace.turn s))) := by
  induction ops generalizing sh with
  | nil => rfl
  | cons op ops ih =>
    have h := ih (sh ++ [op])
    simp only [List.map_append, List.map_cons, List.map_nil] at h
    simp only [List.map_cons, allSequences, opSequences_turn he, h, bind_map_side, map_bind_side]
    simp only [Except.map, List.map_append]

end

/-! ### Routing -/

/-- The nearest point, turned. -/
def Nearest.turn (s : Turn) (n : Nearest) : Nearest := { n with point := Pt.turn s n.point }

theorem distToSegment_turn (s : Turn) (p v w : Pt) : distToSegmentSquared (Pt.turn s p) (Pt.turn s v) (Pt.turn s w) =
    (distToSegmentSquared p v w).map (fun x => (x.1, Pt.turn s x.2)) := by
  unfold distToSegmentSquared
  simp only [dist2_turn]
  by_cases h : dist2 v w = 0
  · rw [if_pos h, if_pos h]
    rfl
  · rw [if_neg h, if_neg h]
    have e1 : ((Pt.turn s p).x - (Pt.turn s v).x) * ((Pt.turn s w).x - (Pt.turn s v).x) +
        ((Pt.turn s p).y - (Pt.turn s v).y) * ((Pt.turn s w).y - (Pt.turn s v).y) =
        (p.x - v.x) * (w.x - v.x) + (p.y - v.y) * (w.y - v.y) := by
      simp only [Pt.turn]
      linear_combination (p.x - v.x) * (w.x - v.x) * s.unitX + (p.y - v.y) * (w.y - v.y) * s.unitY +
        ((p.x - v.x) * (w.y - v.y) + (p.y - v.y) * (w.x - v.x)) * s.perp
    simp only [e1, Except.map]
    generalize max 0 (min 1 (((p.x - v.x) * (w.x - v.x) + (p.y - v.y) * (w.y - v.y)) / dist2 v w)) = t
    have e5 : (⟨(Pt.turn s v).x + t * ((Pt.turn s w).x - (Pt.turn s v).x), (Pt.turn s v).y + t * ((Pt.turn s w).y - (Pt.turn s v).y)⟩ : Pt) =
        Pt.turn s ⟨v.x + t * (w.x - v.x), v.y + t * (w.y - v.y)⟩ := by
      simp only [Pt.turn]
      ext <;> simp only <;> ring
    rw [e5, dist2_turn]

theorem distanceToPath_turn (s : Turn) (p : Pt) (path : List Pt) :
    distanceToPath (Pt.turn s p) (turnPath s path) = (distanceToPath p path).map (Option.map (Nearest.turn s)) := by
  have hs : ∀ a b, segmentLengthSquared (Pt.turn s a) (Pt.turn s b) = segmentLengthSquared a b := by
    intro a b
    simp only [segmentLengthSquared, Pt.turn]
    linear_combination (b.x - a.x) ^ 2 * s.unitX + (b.y - a.y) ^ 2 * s.unitY + 2 * (b.x - a.x) * (b.y - a.y) * s.perp
  have h : ∀ (path : List Pt) (i : ℕ) (best : Option Nearest),
      distanceToPathFrom (Pt.turn s p) i (best.map (Nearest.turn s)) (path.map (Pt.turn s)) =
        (distanceToPathFrom p i best path).map (Option.map (Nearest.turn s)) := by
    intro path
    induction path with
    | nil => intro i best; rfl
    | cons a rest ih =>
      intro i best
      cases rest with
      | nil => rfl
      | cons b rest =>
        simp only [List.map_cons, distanceToPathFrom, distToSegment_turn]
        cases distToSegmentSquared p a b with
        | error e => rfl
        | ok x =>
          obtain ⟨d, c⟩ := x
          simp only [List.map_cons] at ih
          change distanceToPathFrom _ _ _ _ = _
          have hb : ∀ q : Nearest, ((match best.map (Nearest.turn s) with
              | none => some (q.turn s)
              | some n => if d < n.dist then some (q.turn s) else some n) : Option Nearest) =
              (match best with
              | none => some q
              | some n => if d < n.dist then some q else some n).map (Nearest.turn s) := by
            intro q
            cases best with
            | none => rfl
            | some m =>
              by_cases hd : d < m.dist
              · have hd' : d < (Nearest.turn s m).dist := hd
                simp only [Option.map, if_pos hd, if_pos hd']
              · have hd' : ¬ d < (Nearest.turn s m).dist := hd
                simp only [Option.map, if_neg hd, if_neg hd']
          rw [hs, hs]
          have := hb ⟨d, c, i, Rat.sqrt (segmentLengthSquared a c / segmentLengthSquared a b)⟩
          exact (congrArg (fun q => distanceToPathFrom (Pt.turn s p) (i + 1) q (Pt.turn s b :: rest.map (Pt.turn s))) this).trans
            (ih (i + 1) _)
  exact h path 0 none

theorem nearestTo_turn (s : Turn) (pwe : Option Pt) (path : List Pt) :
    nearestTo (pwe.map (Pt.turn s)) (turnPath s path) = (nearestTo pwe path).map (Option.map (Nearest.turn s)) := by
  cases pwe with
  | none => rfl
  | some e => exact distanceToPath_turn s e path

theorem shortLink_turn (s : Turn) (stepover : Option ℚ) (n : Option Nearest) :
    shortLink stepover (n.map (Nearest.turn s)) = (shortLink stepover n).map (Nearest.turn s) := by
  cases stepover <;> cases n <;> try rfl
  rename_i o n
  simp only [shortLink, Option.map]
  have hm : (Nearest.turn s n).dist = n.dist := rfl
  simp only [hm]
  split <;> rfl

theorem cutTo_turn (s : Turn) (j : Job) (d : ℚ) (pos : AddrVec) (p : Pt) :
    cutTo (j.turn s) d (pos.turn s) (Pt.turn s p) = (cutTo j d pos p).turn s := cutAbs_turn s (e := ⟨some p.x, some p.y, some d⟩) rfl pos _

theorem cutsTo_turn (s : Turn) (j : Job) (d : ℚ) (pos : AddrVec) (ps : List Pt) :
    cutsTo (j.turn s) d (pos.turn s) (ps.map (Pt.turn s)) = (cutsTo j d pos ps).map (Motion.turn s) := by
  induction ps generalizing pos with
  | nil => rfl
  | cons p ps ih => simp only [List.map_cons, cutsTo, cutTo_turn, turn_fin, ih]

theorem shiftPolygon_turn (s : Turn) (p : List Pt) (i : ℕ) : shiftPolygon (p.map (Pt.turn s)) i = (shiftPolygon p i).map (Pt.turn s) := by
  simp only [shiftPolygon, List.map_append, List.map_drop, List.map_take, List.map_dropLast]

theorem routeFace_turn (s : Turn) (j : Job) (stepover : Option ℚ) (pwe : Option Pt) (pos : AddrVec) (f : PathFace) :
    routeFace (j.turn s) stepover (pwe.map (Pt.turn s)) (pos.turn s) (f.turn s) =
      (routeFace j stepover pwe pos f).map (fun x => (x.1.map (Motion.turn s), x.2.map (Pt.turn s))) := by
  obtain ⟨outer, inners, depth⟩ := f
  unfold routeFace
  simp only [PathFace.turn]
  cases outer with
  | nil => rfl
  | cons p0 ps =>
    have hn := nearestTo_turn s pwe (p0 :: ps)
    simp only [turnPath] at hn
    simp only [List.map_cons] at hn ⊢
    rw [hn]
    cases nearestTo pwe (p0 :: ps) with
    | error e => rfl
    | ok nearest =>
      simp only [Except.map, shortLink_turn]
      have hr := rapidTo_turn s pos ⟨p0.x, p0.y, depth⟩ j.rapidHeight (some j.opSafeHeight) (some j.plungeFeed)
      have hx : ∀ (ap : List Motion) (po : List Pt),
          (match nearest.map (Nearest.turn s) with
          | some n => Except.ok (ap.map (Motion.turn s) ++ cutsTo (j.turn s) depth (lastFin (pos.turn s) (ap.map (Motion.turn s))) (po.map (Pt.turn s)).tail ++
              [cutTo (j.turn s) depth (lastFin (pos.turn s) (ap.map (Motion.turn s) ++ cutsTo (j.turn s) depth (lastFin (pos.turn s) (ap.map (Motion.turn s))) (po.map (Pt.turn s)).tail)) n.point], some n.point)
          | none => Except.ok (ap.map (Motion.turn s) ++ cutsTo (j.turn s) depth (lastFin (pos.turn s) (ap.map (Motion.turn s))) (po.map (Pt.turn s)).tail,
              (po.map (Pt.turn s)).getLast?) : Except Err (List Motion × Option Pt)) =
          Except.map (fun x => (x.1.map (Motion.turn s), x.2.map (Pt.turn s))) (match nearest with
          | some n => Except.ok (ap ++ cutsTo j depth (lastFin pos ap) po.tail ++
              [cutTo j depth (lastFin pos (ap ++ cutsTo j depth (lastFin pos ap) po.tail)) n.point], some n.point)
          | none => Except.ok (ap ++ cutsTo j depth (lastFin pos ap) po.tail, po.getLast?)) := by
        intro ap po
        rw [← List.map_tail, lastFin_turn, cutsTo_turn, ← List.map_append, lastFin_turn]
        cases nearest with
        | none => simp [Option.map, Except.map]
        | some n => simp [Option.map, Except.map, Nearest.turn, cutTo_turn]
      cases shortLink stepover nearest with
      | none =>
        have := hx (rapidTo pos ⟨p0.x, p0.y, depth⟩ j.rapidHeight (some j.opSafeHeight) (some j.plungeFeed)) (p0 :: ps)
        rw [← hr] at this
        exact this
      | some n =>
        have := hx [cutTo j depth pos n.point] (shiftPolygon (p0 :: ps) n.index)
        rw [← shiftPolygon_turn, List.map_cons, List.map_nil, ← cutTo_turn] at this
        exact this

theorem routeFaces_turn (s : Turn) (j : Job) (stepover : Option ℚ) (pwe : Option Pt) (pos : AddrVec) (fs : List PathFace) :
    routeFaces (j.turn s) stepover (pwe.map (Pt.turn s)) (pos.turn s) (fs.map (PathFace.turn s)) =
      (routeFaces j stepover pwe pos fs).map (List.map (Motion.turn s)) := by
  induction fs generalizing pwe pos with
  | nil => rfl
  | cons f fs ih =>
    simp only [List.map_cons, routeFaces, routeFace_turn]
    cases routeFace j stepover pwe pos f with
    | error e => rfl
    | ok x =>
      obtain ⟨cs, pwe'⟩ := x
      simp only [Except.map, lastFin_turn, ih]
      cases routeFaces j stepover pwe' (lastFin pos cs) fs with
      | error e => rfl
      | ok rest => simp only [Except.map, List.map_append]

theorem routeSequences_turn (s : Turn) (j : Job) (stepover : ℚ) (cs : List Motion) (pos : AddrVec) (ss : List (List PathFace)) :
    routeSequences (j.turn s) stepover (cs.map (Motion.turn s)) (pos.turn s) (ss.map (List.map (PathFace.turn s))) =
      (routeSequences j stepover cs pos ss).map (List.map (Motion.turn s)) := by
  induction ss generalizing cs pos with
  | nil => rfl
  | cons l ss ih =>
    have h : routePolyfaceOuters (j.turn s) (l.map (PathFace.turn s)) (some stepover) (some (pos.turn s)) =
        (routePolyfaceOuters j l (some stepover) (some pos)).map (List.map (Motion.turn s)) :=
      routeFaces_turn s j (some stepover) none pos l
    simp only [List.map_cons, routeSequences, h, bind_map_side, map_bind_side, ← List.map_append, List.getLast?_map]
    congr 1
    funext ds
    cases (cs ++ ds).getLast? with
    | none => rfl
    | some c => exact ih _ _

/-! ### The operation -/

theorem pocketClipper_turn {s : Turn} {eng : Clipper} (he : ClipperTurn s eng) (fuel : ℕ) (j : Job) (a b : List PathFace)
    (o i ao ai st : ℚ) (d : Option ℚ) :
    pocketClipper eng fuel (j.turn s) (a.map (PathFace.turn s)) (b.map (PathFace.turn s)) o i ao ai st d =
      (pocketClipper eng fuel j a b o i ao ai st d).map (List.map (Motion.turn s)) := by
  unfold pocketClipper
  have hp : (j.turn s).precision = j.precision := rfl
  simp only [hp]
  rw [mapE_side (τ := List.map (PathFace.turn s)) (fun f => offsetPolyface_turn he f o i j.precision), bind_map_side, map_bind_side]
  congr 1
  funext x
  rw [mapE_side (τ := List.map (PathFace.turn s)) (fun f => offsetPolyface_turn he f ao ai j.precision), bind_map_side, map_bind_side]
  congr 1
  funext y
  rw [← List.map_flatten, ← List.map_flatten, buildPocketOps_turn he, bind_map_side, map_bind_side]
  congr 1
  funext z
  have h := allSequences_turn he fuel st d j.precision [] z
  rw [List.map_nil] at h
  rw [h, bind_map_side, map_bind_side]
  congr 1
  funext w
  exact routeSequences_turn s j st [] {} w

/-- C136, for pockets. -/
theorem C136_pocket {s : Turn} {f : Frame} {eng : Clipper} {veq : Vec → Vec → Bool} {box : List Edge → List (List Edge) → ℚ × ℚ}
    (hf : f.Cube) (he : ClipperTurn s eng) (hv : ∀ a b, veq (a.turn s) (b.turn s) = veq a b)
    (hb : ∀ o is, box (o.map (Edge.turn s)) (is.map (List.map (Edge.turn s))) = box o is) (fuel : ℕ)
    (opAreas avoidAreas : List WorldFace) (a : PocketArgs) (tool : Option Tool) :
    TurnWork s f (pocketPlacedRequest eng veq box fuel opAreas avoidAreas a tool)
      (pocketPlacedRequest eng veq box fuel (opAreas.map (f.turnFace s)) (avoidAreas.map (f.turnFace s)) a tool) where
  name := rfl
  tool := rfl
  pre := fun _ _ => rfl
  gen := by
    rintro j rfl
    have hfaces : ∀ fs : List WorldFace, (fs.map (j.top.turnFace s)).map (WorldFace.toJob box j.top) =
        (fs.map (WorldFace.toJob box j.top)).map (CqFace.turn s) := by
      intro fs
      simp only [List.map_map]
      refine List.map_congr_left fun w _ => ?_
      have hi : List.map (List.map (Edge.toLocal j.top)) (List.map (List.map (j.top.turnEdge s)) w.innerWires) =
          List.map (List.map (Edge.turn s)) (List.map (List.map (Edge.toLocal j.top)) w.innerWires) := by
        simp only [List.map_map]
        refine List.map_congr_left fun v _ => ?_
        exact wire_turned hf s v
      simp only [Function.comp, WorldFace.toJob, CqFace.turn, Frame.turnFace, wire_turned hf, hi, hb]
    change pocket eng veq fuel ((opAreas.map (j.top.turnFace s)).map (WorldFace.toJob box j.top))
      ((avoidAreas.map (j.top.turnFace s)).map (WorldFace.toJob box j.top)) a (j.turn s) =
      (pocket eng veq fuel (opAreas.map (WorldFace.toJob box j.top)) (avoidAreas.map (WorldFace.toJob box j.top)) a j).map _
    rw [hfaces, hfaces]
    generalize opAreas.map (WorldFace.toJob box j.top) = ops
    generalize avoidAreas.map (WorldFace.toJob box j.top) = avs
    unfold pocket
    have hr : (j.turn s).toolRadius = j.toolRadius := rfl
    have hp : (j.turn s).precision = j.precision := rfl
    have hne : (avs.map (CqFace.turn s) ≠ []) = (avs ≠ []) := by simp
    rw [hr]
    cases j.toolRadius with
    | none => rfl
    | some r =>
      simp only [hp]
      rw [mapE_side (τ := PathFace.turn s) (fun g => fromCqFace_turn hv g j.precision), bind_map_side, map_bind_side]
      congr 1
      funext x
      rw [mapE_side (τ := PathFace.turn s) (fun g => fromCqFace_turn hv g j.precision), bind_map_side, map_bind_side]
      congr 1
      funext y
      rw [pocketClipper_turn he]
      congr 3
      by_cases h : avs = [] <;> simp [h]

end CQ
