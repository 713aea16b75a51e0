import Verif.Props.UnitsProfile
import Verif.Props.ShiftPocket
import Verif.Spec.UnitsPocket
import Verif.Props.PocketFill
import Verif.Props.PocketAreas

/-! # C134 for pockets -/

namespace CQ

/-- A path, in the new units. -/
abbrev convPath (κ : Units) : List Pt → List Pt := List.map (Pt.conv κ)

/-! ### From faces to polygons -/

theorem interpolate_units {κ : Units} {n : ℕ} {e : Edge}
    (h : max (pyInt (κ.c * e.length * 10 ^ κ.precision)) 2 = max (pyInt (e.length * 10 ^ n)) 2) :
    interpolateEdgeToVectors (e.conv κ) κ.precision = (interpolateEdgeToVectors e n).map (Vec.conv κ) := by
  have hc : edgeInterpolationCount (e.conv κ) κ.precision = edgeInterpolationCount e n := congrArg Int.toNat h
  have hs : interpolationSpace (e.conv κ) κ.precision = interpolationSpace e n := by
    unfold interpolationSpace
    rw [hc]
    rfl
  unfold interpolateEdgeToVectors
  rw [hs, List.map_map]
  rfl

theorem edgeToVectors_units {κ : Units} {n : ℕ} {e : Edge} (h : SampledAlike κ n e) :
    edgeToVectors (e.conv κ) κ.precision = (edgeToVectors e n).map (List.map (Vec.conv κ)) := by
  have h1 : (e.conv κ).geom = e.geom := rfl
  have h2 : (e.conv κ).basis = e.basis := rfl
  have h3 : edgeStartEnd (e.conv κ) = ((edgeStartEnd e).1.conv κ, (edgeStartEnd e).2.conv κ) := by
    unfold edgeStartEnd
    change (if e.reversed then _ else _) = _
    split <;> rfl
  unfold edgeToVectors
  simp only [h1, h2, h3]
  rcases h with h | h
  · rw [h]
    rfl
  · simp only [interpolate_units h]
    split
    · cases e.basis with
      | none => rfl
      | some g => cases g <;> rfl
    · split <;> rfl

theorem edgesToVectors_units {κ : Units} {n : ℕ} (vs : List Vec) {es : List Edge} (h : ∀ e ∈ es, SampledAlike κ n e) :
    edgesToVectors κ.precision (vs.map (Vec.conv κ)) (es.map (Edge.conv κ)) = (edgesToVectors n vs es).map (List.map (Vec.conv κ)) := by
  induction es generalizing vs with
  | nil => rfl
  | cons e es ih =>
    simp only [List.map_cons, edgesToVectors, edgeToVectors_units (h e (by simp))]
    cases edgeToVectors e n with
    | error x => rfl
    | ok ws =>
      have := ih (vs ++ ws.tail) (fun e he => h e (by simp [he]))
      rw [List.map_append, List.map_tail] at this
      exact this

theorem wireToPath_units {veq : Vec → Vec → Bool} {κ : Units} (hv : ∀ a b, veq (a.conv κ) (b.conv κ) = veq a b) {es : List Edge}
    {n : ℕ} (hes : ∀ e ∈ es, SampledAlike κ n e) :
    wireToPath veq (es.map (Edge.conv κ)) κ.precision = (wireToPath veq es n).map (convPath κ) := by
  have h : wireToVectors veq (es.map (Edge.conv κ)) κ.precision = (wireToVectors veq es n).map (List.map (Vec.conv κ)) := by
    cases es with
    | nil => rfl
    | cons e es =>
      simp only [List.map_cons, wireToVectors, edgeToVectors_units (hes e (by simp))]
      cases edgeToVectors e n with
      | error x => rfl
      | ok vs =>
        simp only [Except.map, edgesToVectors_units _ (fun e he => hes e (List.mem_cons_of_mem _ he))]
        cases edgesToVectors n vs es with
        | error x => rfl
        | ok ws =>
          simp only [List.length_map, List.head?_map, List.getLast?_map]
          split
          · rfl
          · cases ws.head? with
            | none => rfl
            | some a =>
              cases ws.getLast? with
              | none => rfl
              | some b =>
                simp only [Option.map, hv]
                split
                · simp only [List.map_append, List.map_cons, List.map_nil]
                · split
                  · simp only [List.map_dropLast]
                  · rfl
  unfold wireToPath
  rw [h]
  cases wireToVectors veq es n with
  | error x => rfl
  | ok vs => simp only [Except.map, vectorsTo2d, List.map_map]; rfl

theorem fromCqFace_units {veq : Vec → Vec → Bool} {κ : Units} (hv : ∀ a b, veq (a.conv κ) (b.conv κ) = veq a b) {f : CqFace} {n : ℕ}
    (hf : FaceAlike κ n f) : PathFace.fromCqFace veq (f.conv κ) κ.precision = (PathFace.fromCqFace veq f n).map (PathFace.conv κ) := by
  have hd : ∀ (g : CqFace) (n : ℕ), PathFace.fromCqFace veq g n = if pyRound g.zmin 3 ≠ pyRound g.zmax 3 then .error .valueError
      else wireToPath veq g.outerWire n >>= fun o => mapE (fun w => wireToPath veq w n) g.innerWires >>= fun is =>
        .ok ⟨o, is, g.zmax⟩ := fun _ _ => rfl
  rw [hd, hd]
  by_cases h : pyRound f.zmin 3 ≠ pyRound f.zmax 3
  · have h' : pyRound (CqFace.conv κ f).zmin 3 ≠ pyRound (CqFace.conv κ f).zmax 3 := fun e => h (hf.flat.mp e)
    rw [if_pos h, if_pos h']
    rfl
  · have h' : ¬ pyRound (CqFace.conv κ f).zmin 3 ≠ pyRound (CqFace.conv κ f).zmax 3 := fun e => h (fun e' => e (hf.flat.mpr e'))
    rw [if_neg h, if_neg h']
    simp only [CqFace.conv]
    rw [wireToPath_units hv hf.outer, bind_map_side, map_bind_side]
    congr 1
    funext o
    rw [mapE_conv_mem (f := fun w => wireToPath veq w κ.precision) (f' := fun w => wireToPath veq w n)
      (fun w hw => wireToPath_units hv (hf.inner w hw)), bind_map_side, map_bind_side]
    rfl

/-! ### Polygon operations -/

theorem closePath_units (κ : Units) (p : List Pt) : closePath (convPath κ p) = (closePath p).map (convPath κ) := by
  unfold closePath
  simp only [convPath, List.head?_map, List.getLast?_map]
  cases p.head? with
  | none => rfl
  | some a =>
    cases p.getLast? with
    | none => rfl
    | some b =>
      simp only [Option.map, Except.map, ne_eq, (conv_inj κ).eq_iff]
      split <;> simp

theorem convNodes_eq (κ : Units) (ns : List PolyNode) : convNodes κ ns = ns.map (PolyNode.conv κ) := by
  induction ns with
  | nil => simp [convNodes]
  | cons n ns ih => simp [convNodes, ih]

theorem node_units (κ : Units) (n : PolyNode) : (n.conv κ).contour = convPath κ n.contour ∧ (n.conv κ).childs = n.childs.map (PolyNode.conv κ) := by
  cases n with
  | node c cs => exact ⟨by simp [PolyNode.conv, PolyNode.contour], by simp [PolyNode.conv, PolyNode.childs, convNodes_eq]⟩

theorem nodeToPolyFace_units (κ : Units) (d : ℚ) (n : PolyNode) : nodeToPolyFace (κ.c * d) (n.conv κ) = (nodeToPolyFace d n).map (PathFace.conv κ) := by
  have h : ∀ c : PolyNode, closePath (c.conv κ).contour = (closePath c.contour).map (convPath κ) := by
    intro c
    rw [(node_units κ c).1, closePath_units]
  unfold nodeToPolyFace
  rw [h, (node_units κ n).2, bind_map_side, map_bind_side]
  congr 1
  funext o
  rw [mapE_side (f := fun c : PolyNode => closePath c.contour) h, bind_map_side, map_bind_side]
  rfl

theorem polyTree_units (κ : Units) (t : List PolyNode) (d : ℚ) :
    polyTreeToPolyFaces (convNodes κ t) (κ.c * d) = (polyTreeToPolyFaces t d).map (List.map (PathFace.conv κ)) := by
  unfold polyTreeToPolyFaces
  rw [convNodes_eq]
  exact mapE_side (nodeToPolyFace_units κ d) t

section
variable {κ : Units} {n : ℕ} {eng : Clipper} (he : ClipperUnits κ n eng)
include he

theorem unionPolyTree_units (a b : List (List Pt)) (d : ℚ) :
    unionPolyTree eng (a.map (convPath κ)) (b.map (convPath κ)) (κ.c * d) = (unionPolyTree eng a b d).map (List.map (PathFace.conv κ)) := by
  unfold unionPolyTree
  rw [he.union, bind_map_side, map_bind_side]
  simp only [polyTree_units]

theorem differencePolyTree_units (a b : List (List Pt)) (d : ℚ) :
    differencePolyTree eng (a.map (convPath κ)) (b.map (convPath κ)) (κ.c * d) =
      (differencePolyTree eng a b d).map (List.map (PathFace.conv κ)) := by
  unfold differencePolyTree
  rw [he.difference, bind_map_side, map_bind_side]
  simp only [polyTree_units]

theorem offsetPath_units (p : List Pt) (o : ℚ) :
    offsetPath eng (convPath κ p) (κ.c * o) κ.precision = (offsetPath eng p o n).map (List.map (convPath κ)) := by
  unfold offsetPath
  rw [he.offset, bind_map_side, map_bind_side]
  congr 1
  funext ps
  have hf : (ps.map (List.map (Pt.conv κ))).filter (fun p => decide (p ≠ [])) =
      (ps.filter (fun p => decide (p ≠ []))).map (convPath κ) := by
    rw [List.filter_map]
    congr 2
    funext p
    simp
  rw [hf]
  exact mapE_side (closePath_units κ) _

theorem offsetPolyface_units (f : PathFace) (a b : ℚ) :
    offsetPolyface eng (f.conv κ) (κ.c * a) (κ.c * b) κ.precision = (offsetPolyface eng f a b n).map (List.map (PathFace.conv κ)) := by
  have ho : (f.conv κ).outer = convPath κ f.outer := rfl
  have hi : (f.conv κ).inners = f.inners.map (convPath κ) := rfl
  have hd : (f.conv κ).depth = κ.c * f.depth := rfl
  unfold offsetPolyface
  rw [ho, hi, hd, offsetPath_units he, bind_map_side, map_bind_side]
  congr 1
  funext os
  by_cases h : f.inners = []
  · simp only [h, List.map_nil, ne_eq, not_true_eq_false, if_false, Except.map, List.map_map]
    rfl
  · rw [if_pos h, if_pos (by simpa using h), mapE_side (fun i => offsetPath_units he i b), bind_map_side, map_bind_side]
    congr 1
    funext is
    unfold makePolyfaces
    rw [← List.map_flatten, differencePolyTree_units he]

end

/-! ### Depths -/

theorem depth_units (κ : Units) (f : PathFace) : (f.conv κ).depth = κ.c * f.depth := rfl

theorem mul_eq_units (κ : Units) (a b : ℚ) : κ.c * a = κ.c * b ↔ a = b := mul_right_inj' κ.pos.ne'

/-- A map of depths, in the new units. -/
def convMap (κ : Units) (m : DepthMap) : DepthMap := m.map (fun e => (κ.c * e.1, e.2.map (PathFace.conv κ)))

theorem add_units (κ : Units) (f : PathFace) (m : DepthMap) : (convMap κ m).add (f.conv κ) = convMap κ (m.add f) := by
  induction m with
  | nil => rfl
  | cons e m ih =>
    obtain ⟨d, fs⟩ := e
    by_cases h : d = f.depth
    · simp [convMap, DepthMap.add, depth_units, h]
    · have h' : ¬ κ.c * d = (PathFace.conv κ f).depth := fun e => h ((mul_eq_units κ _ _).mp e)
      simp only [convMap, List.map_cons, DepthMap.add] at ih ⊢
      rw [if_neg h, if_neg h', ih]
      rfl

theorem get_units (κ : Units) (d : ℚ) (m : DepthMap) : (convMap κ m).get (κ.c * d) = (m.get d).map (PathFace.conv κ) := by
  induction m with
  | nil => rfl
  | cons e m ih =>
    obtain ⟨e, fs⟩ := e
    simp only [convMap, List.map_cons, DepthMap.get, mul_eq_units] at ih ⊢
    split
    · rfl
    · exact ih

theorem depthMapFrom_units (κ : Units) (m : DepthMap) (fs : List PathFace) :
    depthMapFrom (convMap κ m) (fs.map (PathFace.conv κ)) = (depthMapFrom m fs).map (convMap κ) := by
  induction fs generalizing m with
  | nil => rfl
  | cons f fs ih =>
    have h : κ.c * f.depth > 0 ↔ f.depth > 0 := mul_pos_iff_of_pos_left κ.pos
    simp only [List.map_cons, depthMapFrom, depth_units, add_units, ih, h]
    split <;> rfl

theorem generateDepthMap_units (κ : Units) (fs : List PathFace) :
    generateDepthMap (fs.map (PathFace.conv κ)) = (generateDepthMap fs).map (fun x => (convMap κ x.1, x.2.map (κ.c * ·))) := by
  unfold generateDepthMap
  have h := depthMapFrom_units κ [] fs
  have h0 : convMap κ [] = [] := rfl
  rw [h0] at h
  rw [h, bind_map_side, map_bind_side]
  congr 1
  funext m
  have hm : (convMap κ m).map Prod.fst = (m.map Prod.fst).map (κ.c * ·) := by
    simp only [convMap, List.map_map]
    rfl
  have hs : ((m.map Prod.fst).map (κ.c * ·)).insertionSort (fun a b => b ≤ a) =
      ((m.map Prod.fst).insertionSort (fun a b => b ≤ a)).map (κ.c * ·) := by
    symm
    apply List.map_insertionSort
    intro a _ b _
    exact (mul_le_mul_iff_right₀ κ.pos).symm
  simp only [Except.map, hm, hs]

theorem outers_units (κ : Units) (fs : List PathFace) : (fs.map (PathFace.conv κ)).map PathFace.outer = (fs.map PathFace.outer).map (convPath κ) := by
  simp only [List.map_map]
  rfl

theorem inners_units (κ : Units) (fs : List PathFace) :
    ((fs.map (PathFace.conv κ)).map PathFace.inners).flatten = ((fs.map PathFace.inners).flatten).map (convPath κ) := by
  rw [List.map_flatten]
  simp only [List.map_map]
  rfl

section
variable {κ : Units} {n : ℕ} {eng : Clipper} (he : ClipperUnits κ n eng)
include he

theorem combineOuters_units (fs : List PathFace) (d : ℚ) :
    combineOuters eng (fs.map (PathFace.conv κ)) (κ.c * d) = (combineOuters eng fs d).map (List.map (convPath κ)) := by
  unfold combineOuters
  have h := unionPolyTree_units he (fs.map PathFace.outer) [] d
  rw [List.map_nil] at h
  rw [outers_units, h, bind_map_side, map_bind_side]
  simp only [outers_units, Except.map]

theorem depthOps_units (dm am : DepthMap) (ads : List ℚ) (d : ℚ) (deeper : List ℚ) :
    depthOps eng (convMap κ dm) (convMap κ am) (ads.map (κ.c * ·)) (κ.c * d) (deeper.map (κ.c * ·)) =
      (depthOps eng dm am ads d deeper).map (List.map (PathFace.conv κ)) := by
  have hg : ∀ (m : DepthMap) (ds : List ℚ), ((ds.map (κ.c * ·)).map (fun a => (convMap κ m).get a)).flatten =
      ((ds.map (fun a => m.get a)).flatten).map (PathFace.conv κ) := by
    intro m ds
    rw [List.map_flatten, List.map_map, List.map_map]
    congr 1
    exact List.map_congr_left fun a _ => get_units κ a m
  have hact : (ads.map (κ.c * ·)).filter (fun a => decide (κ.c * d ≤ a)) = (ads.filter (fun a => decide (d ≤ a))).map (κ.c * ·) := by
    rw [List.filter_map]
    congr 1
    refine List.filter_congr fun a _ => ?_
    simp only [Function.comp, decide_eq_decide]
    exact mul_le_mul_iff_right₀ κ.pos
  have hne : ads.map (κ.c * ·) ≠ [] ↔ ads ≠ [] := by simp
  unfold depthOps
  simp only [hact, hg, get_units, ← List.map_append]
  rw [combineOuters_units he, bind_map_side, map_bind_side]
  congr 1
  funext ops
  simp only [inners_units, outers_units, ← List.map_append, hne]
  split
  · exact differencePolyTree_units he _ _ _
  · exact differencePolyTree_units he _ _ _

theorem depthsOps_units (dm am : DepthMap) (ads : List ℚ) (ds : List ℚ) :
    depthsOps eng (convMap κ dm) (convMap κ am) (ads.map (κ.c * ·)) (ds.map (κ.c * ·)) =
      (depthsOps eng dm am ads ds).map (List.map (PathFace.conv κ)) := by
  induction ds with
  | nil => rfl
  | cons d ds ih =>
    simp only [List.map_cons, depthsOps, depthOps_units he, ih, bind_map_side, map_bind_side]
    simp only [Except.map, List.map_append]

theorem buildPocketOps_units (a b : List PathFace) :
    buildPocketOps eng (a.map (PathFace.conv κ)) (b.map (PathFace.conv κ)) =
      (buildPocketOps eng a b).map (List.map (PathFace.conv κ)) := by
  unfold buildPocketOps
  simp only [generateDepthMap_units, bind_map_side, map_bind_side, depthsOps_units he]

theorem nextFaces_units (pocket : PathFace) (step : ℚ) (f : PathFace) :
    nextFaces eng (pocket.conv κ) (κ.c * step) κ.precision (f.conv κ) = (nextFaces eng pocket step n f).map (List.map (PathFace.conv κ)) := by
  have hneg : -(κ.c * step) = κ.c * -step := by ring
  have ho : nextOuters eng (pocket.conv κ) (κ.c * step) κ.precision (convPath κ f.outer) =
      (nextOuters eng pocket step n f.outer).map (List.map (convPath κ)) := by
    unfold nextOuters
    rw [hneg, offsetPath_units he, bind_map_side, map_bind_side]
    congr 1
    funext cs
    have hi : (pocket.conv κ).inners = pocket.inners.map (convPath κ) := rfl
    by_cases h : cs ≠ [] ∧ pocket.inners ≠ []
    · rw [if_pos h, if_pos (by simpa [hi] using h), hi,
        show (0 : ℚ) = κ.c * 0 by ring, differencePolyTree_units he, show κ.c * 0 = (0 : ℚ) by ring, bind_map_side, map_bind_side]
      simp only [outers_units, Except.map]
    · rw [if_neg h, if_neg (by simpa [hi] using h)]
      rfl
  unfold nextFaces
  change (nextOuters eng (pocket.conv κ) (κ.c * step) κ.precision (convPath κ f.outer) >>= _) = _
  rw [ho, bind_map_side, map_bind_side]
  simp only [Except.map, List.map_map]
  rfl

end

/-! ### The tree of contours -/

theorem pathFace_units_inj (κ : Units) : Function.Injective (PathFace.conv κ) := by
  intro f g h
  cases f; cases g
  simp only [PathFace.conv, PathFace.mk.injEq] at h
  obtain ⟨h1, h2, h3⟩ := h
  rw [List.map_injective_iff.mpr (conv_inj κ) h1,
    List.map_injective_iff.mpr (List.map_injective_iff.mpr (conv_inj κ)) h2, (mul_eq_units κ _ _).mp h3]

/-- An object with its identity, in the new units. -/
def convTag (κ : Units) (x : ℕ × PathFace) : ℕ × PathFace := (x.1, x.2.conv κ)

theorem convTag_inj (κ : Units) : Function.Injective (convTag κ) := by
  rintro ⟨a, f⟩ ⟨b, g⟩ h
  simp only [convTag, Prod.mk.injEq] at h
  rw [h.1, pathFace_units_inj κ h.2]

theorem tagged_units (κ : Units) (n : ℕ) (fs : List PathFace) : tagged n (fs.map (PathFace.conv κ)) = (tagged n fs).map (convTag κ) := by
  induction fs generalizing n with
  | nil => rfl
  | cons f fs ih => simp only [List.map_cons, tagged, ih, convTag]

theorem fillLoop_units {κ : Units} {next next' : PathFace → Except Err (List PathFace)}
    (h : ∀ f, next' (f.conv κ) = (next f).map (List.map (PathFace.conv κ))) (n : ℕ) (t : CTree (ℕ × PathFace)) :
    fillLoop next' n (t.over (convTag κ)) = (fillLoop next n t).map (CTree.over (convTag κ)) := by
  induction n generalizing t with
  | zero => rfl
  | succ n ih =>
    simp only [fillLoop, over_nextUnlocked]
    cases t.nextUnlocked with
    | none => rfl
    | some i =>
      simp only [over_get]
      cases t[i]? with
      | none => rfl
      | some nd =>
        simp only [Option.map]
        change (next' (nd.obj.2.conv κ) >>= _) = _
        rw [h, bind_map_side, map_bind_side]
        congr 1
        funext os
        rw [← ih]
        congr 1
        by_cases ho : os = []
        · simp only [ho, List.map_nil, ne_eq, not_true_eq_false, if_false, CTree.lock, CTree.over]
          apply List.ext_getElem?
          intro k
          simp only [List.getElem?_map, List.getElem?_modify]
          cases t[k]? with
          | none => rfl
          | some nd =>
            simp only [Option.map]
            by_cases hk : i = k <;> simp [hk]
        · rw [if_pos ho, if_pos (by simpa using ho)]
          simp only [CTree.branch, over_length, tagged_units, List.map_map]
          simp [CTree.over, Function.comp_def]


/-! ### The sequences -/

section
variable {κ : Units} {n : ℕ} {eng : Clipper} (he : ClipperUnits κ n eng)
include he

theorem fillPocket_units (fuel : ℕ) (op : PathFace) (step : ℚ) :
    fillPocket eng fuel (op.conv κ) (κ.c * step) κ.precision = (fillPocket eng fuel op step n).map (List.map (List.map (PathFace.conv κ))) := by
  unfold fillPocket
  have h := fillLoop_units (nextFaces_units he op step) fuel (CTree.init (0, ⟨op.outer, [], op.depth⟩))
  change (fillLoop _ fuel (CTree.over (convTag κ) (CTree.init (0, ⟨op.outer, [], op.depth⟩))) >>= _) = _
  rw [h, bind_map_side, map_bind_side]
  congr 1
  funext t
  rw [over_sequences _ (convTag_inj κ)]
  simp only [Except.map, List.map_map]
  congr 1
  refine List.map_congr_left fun l _ => ?_
  simp only [Function.comp, List.map_map]
  rfl

theorem startDepth_units (op : PathFace) (sh : List PathFace) :
    determineStepdownStartDepth eng (op.conv κ) (sh.map (PathFace.conv κ)) =
      (determineStepdownStartDepth eng op sh).map (κ.c * ·) := by
  unfold determineStepdownStartDepth
  have h : sh.filter ((fun o => eng.contains o (op.conv κ)) ∘ PathFace.conv κ) = sh.filter (fun o => eng.contains o op) :=
    List.filter_congr (fun o _ => he.contains o op)
  have hm : ∀ l : List PathFace, l.map (PathFace.depth ∘ PathFace.conv κ) = (l.map PathFace.depth).map (κ.c * ·) := by
    intro l
    rw [List.map_map]
    rfl
  rw [List.filter_map, List.map_map, h, hm, ← List.map_insertionSort (r := (· ≤ ·)), List.head?_map]
  intro a _ b _
  exact (mul_le_mul_iff_right₀ κ.pos).symm

end

theorem arange_units (κ : Units) (a b d : ℚ) : arange (κ.c * a) (κ.c * b) (κ.c * d) = (arange a b d).map (κ.c * ·) := by
  unfold arange
  rw [← mul_sub, mul_div_mul_left _ _ κ.pos.ne', List.map_map]
  refine List.map_congr_left fun i _ => ?_
  simp only [Function.comp]
  ring

theorem applyStepdown_units (κ : Units) (ss : List (List PathFace)) (d : Option ℚ) (step : ℚ) :
    applyStepdown (ss.map (List.map (PathFace.conv κ))) (d.map (κ.c * ·)) (κ.c * step) =
      (applyStepdown ss d step).map (List.map (List.map (PathFace.conv κ))) := by
  unfold applyStepdown
  have h : ((ss.map (List.map (PathFace.conv κ))).flatten.map PathFace.depth).dedup =
      ((ss.flatten.map PathFace.depth).dedup).map (κ.c * ·) := by
    have : (ss.map (List.map (PathFace.conv κ))).flatten.map PathFace.depth = (ss.flatten.map PathFace.depth).map (κ.c * ·) := by
      rw [← List.map_flatten, List.map_map, List.map_map]
      rfl
    rw [this, List.dedup_map_of_injective (fun a b e => (mul_eq_units κ a b).mp e)]
  cases hd : (ss.flatten.map PathFace.depth).dedup with
  | nil => rw [h, hd]; rfl
  | cons x0 l =>
  cases l with
  | cons y l => rw [h, hd]; rfl
  | nil =>
  have hneg : -(κ.c * step) = κ.c * -step := by ring
  have hgo : ∀ st : ℚ, (arange (κ.c * st) (κ.c * x0) (κ.c * -step)).flatMap (fun d =>
      (ss.map (List.map (PathFace.conv κ))).map (fun s => s.map (fun f => f.cloneToDepth d))) =
      ((arange st x0 (-step)).flatMap (fun d => ss.map (fun s => s.map (fun f => f.cloneToDepth d)))).map
        (List.map (PathFace.conv κ)) := by
    intro st
    rw [arange_units, List.map_flatMap, List.flatMap_map]
    congr 1
    funext z
    simp only [List.map_map]
    refine List.map_congr_left fun l _ => ?_
    simp only [Function.comp, List.map_map]
    rfl
  rw [h, hd]
  have hsub : ∀ v, κ.c * v - κ.c * step = κ.c * (v - step) := fun v => by ring
  cases d with
  | none => simp only [List.map_cons, List.map_nil, Option.map, hneg, hgo, Except.map]
  | some v => simp only [List.map_cons, List.map_nil, Option.map, hneg, hsub, hgo, Except.map]

section
variable {κ : Units} {n : ℕ} {eng : Clipper} (he : ClipperUnits κ n eng)
include he

theorem opSequences_units (fuel : ℕ) (stepover : ℚ) (stepdown : Option ℚ) (sh : List PathFace) (op : PathFace) :
    opSequences eng fuel (κ.c * stepover) (stepdown.map (κ.c * ·)) κ.precision (sh.map (PathFace.conv κ)) (op.conv κ) =
      (opSequences eng fuel stepover stepdown n sh op).map (List.map (List.map (PathFace.conv κ))) := by
  unfold opSequences
  rw [fillPocket_units he, bind_map_side, map_bind_side]
  congr 1
  funext fill
  cases stepdown with
  | none => rfl
  | some d =>
    simp only [Option.map, mul_eq_zero, κ.pos.ne', false_or]
    split
    · rfl
    · have := startDepth_units he op sh
      simp only [Option.map] at this
      rw [startDepth_units he, applyStepdown_units, bind_map_side, map_bind_side]
      simp only [Except.map, List.map_append]

theorem allSequences_units (fuel : ℕ) (stepover : ℚ) (stepdown : Option ℚ) (sh ops : List PathFace) :
    allSequences eng fuel (κ.c * stepover) (stepdown.map (κ.c * ·)) κ.precision (sh.map (PathFace.conv κ)) (ops.map (PathFace.conv κ)) =
      (allSequences eng fuel stepover stepdown n sh ops).map (List.map (List.map (PathFace.conv κ))) := by
  induction ops generalizing sh with
  | nil => rfl
  | cons op ops ih =>
    have h := ih (sh ++ [op])
    simp only [List.map_append, List.map_cons, List.map_nil] at h
    simp only [List.map_cons, allSequences, opSequences_units he, h, bind_map_side, map_bind_side]
    simp only [Except.map, List.map_append]

end

/-! ### Routing -/

/-- The nearest point, in the new units. -/
def Nearest.conv (κ : Units) (n : Nearest) : Nearest := { n with dist := κ.c ^ 2 * n.dist, point := Pt.conv κ n.point }

theorem distToSegment_units (κ : Units) (p v w : Pt) : distToSegmentSquared (Pt.conv κ p) (Pt.conv κ v) (Pt.conv κ w) =
    (distToSegmentSquared p v w).map (fun x => (κ.c ^ 2 * x.1, Pt.conv κ x.2)) := by
  have hc : κ.c ^ 2 ≠ 0 := pow_ne_zero 2 κ.pos.ne'
  unfold distToSegmentSquared
  simp only [dist2_conv, mul_eq_zero, hc, false_or]
  by_cases h : dist2 v w = 0
  · rw [if_pos h, if_pos h]
    rfl
  · rw [if_neg h, if_neg h]
    have e : (((Pt.conv κ p).x - (Pt.conv κ v).x) * ((Pt.conv κ w).x - (Pt.conv κ v).x) +
        ((Pt.conv κ p).y - (Pt.conv κ v).y) * ((Pt.conv κ w).y - (Pt.conv κ v).y)) / (κ.c ^ 2 * dist2 v w) =
        ((p.x - v.x) * (w.x - v.x) + (p.y - v.y) * (w.y - v.y)) / dist2 v w := by
      rw [← mul_div_mul_left _ (dist2 v w) hc]
      simp only [Pt.conv]
      congr 1
      ring
    simp only [e, Except.map]
    generalize max 0 (min 1 (((p.x - v.x) * (w.x - v.x) + (p.y - v.y) * (w.y - v.y)) / dist2 v w)) = t
    have e5 : (⟨(Pt.conv κ v).x + t * ((Pt.conv κ w).x - (Pt.conv κ v).x), (Pt.conv κ v).y + t * ((Pt.conv κ w).y - (Pt.conv κ v).y)⟩ : Pt) =
        Pt.conv κ ⟨v.x + t * (w.x - v.x), v.y + t * (w.y - v.y)⟩ := by
      simp only [Pt.conv]
      ext <;> simp only <;> ring
    rw [e5, dist2_conv]

theorem distanceToPath_units (κ : Units) (p : Pt) (path : List Pt) :
    distanceToPath (Pt.conv κ p) (convPath κ path) = (distanceToPath p path).map (Option.map (Nearest.conv κ)) := by
  have hc : κ.c ^ 2 ≠ 0 := pow_ne_zero 2 κ.pos.ne'
  have hs : ∀ a b, segmentLengthSquared (Pt.conv κ a) (Pt.conv κ b) = κ.c ^ 2 * segmentLengthSquared a b := by
    intro a b
    simp only [segmentLengthSquared, Pt.conv]
    ring
  have h : ∀ (path : List Pt) (i : ℕ) (best : Option Nearest),
      distanceToPathFrom (Pt.conv κ p) i (best.map (Nearest.conv κ)) (path.map (Pt.conv κ)) =
        (distanceToPathFrom p i best path).map (Option.map (Nearest.conv κ)) := by
    intro path
    induction path with
    | nil => intro i best; rfl
    | cons a rest ih =>
      intro i best
      cases rest with
      | nil => rfl
      | cons b rest =>
        simp only [List.map_cons, distanceToPathFrom, distToSegment_units]
        cases distToSegmentSquared p a b with
        | error e => rfl
        | ok x =>
          obtain ⟨d, c⟩ := x
          simp only [List.map_cons] at ih
          change distanceToPathFrom _ _ _ _ = _
          have hb : ∀ q : Nearest, ((match best.map (Nearest.conv κ) with
              | none => some (q.conv κ)
              | some n => if κ.c ^ 2 * d < n.dist then some (q.conv κ) else some n) : Option Nearest) =
              (match best with
              | none => some q
              | some n => if d < n.dist then some q else some n).map (Nearest.conv κ) := by
            intro q
            cases best with
            | none => rfl
            | some m =>
              have hlt : κ.c ^ 2 * d < (Nearest.conv κ m).dist ↔ d < m.dist := mul_lt_mul_iff_right₀ (pow_pos κ.pos 2)
              simp only [Option.map, hlt]
              split <;> rfl
          rw [hs, hs, mul_div_mul_left _ _ hc]
          have := hb ⟨d, c, i, Rat.sqrt (segmentLengthSquared a c / segmentLengthSquared a b)⟩
          exact (congrArg (fun q => distanceToPathFrom (Pt.conv κ p) (i + 1) q (Pt.conv κ b :: rest.map (Pt.conv κ))) this).trans
            (ih (i + 1) _)
  exact h path 0 none

theorem nearestTo_units (κ : Units) (pwe : Option Pt) (path : List Pt) :
    nearestTo (pwe.map (Pt.conv κ)) (convPath κ path) = (nearestTo pwe path).map (Option.map (Nearest.conv κ)) := by
  cases pwe with
  | none => rfl
  | some e => exact distanceToPath_units κ e path

theorem shortLink_units {κ : Units} {stepover : ℚ} {n : Option Nearest}
    (h : ∀ m, n = some m → (m.dist ≤ stepover ↔ κ.c * m.dist ≤ stepover)) :
    shortLink (some (κ.c * stepover)) (n.map (Nearest.conv κ)) = (shortLink (some stepover) n).map (Nearest.conv κ) := by
  cases n with
  | none => rfl
  | some m =>
    simp only [shortLink, Option.map]
    have h1 : (Nearest.conv κ m).dist ≠ 0 ↔ m.dist ≠ 0 := by
      have : (Nearest.conv κ m).dist = κ.c ^ 2 * m.dist := rfl
      rw [this]
      simp [κ.pos.ne']
    have h2 : (Nearest.conv κ m).dist ≤ κ.c * stepover ↔ m.dist ≤ stepover := by
      have : (Nearest.conv κ m).dist = κ.c * (κ.c * m.dist) := by
        change κ.c ^ 2 * m.dist = _
        ring
      rw [this, mul_le_mul_iff_right₀ κ.pos, ← h m rfl]
    have h3 : κ.c * stepover ≠ 0 ↔ stepover ≠ 0 := by simp [κ.pos.ne']
    simp only [h1, h2, h3]
    split <;> rfl

theorem cutTo_units (κ : Units) (j : Job) (d : ℚ) (pos : AddrVec) (p : Pt) :
    cutTo (j.conv κ) (κ.c * d) (pos.conv κ) (Pt.conv κ p) = (cutTo j d pos p).conv κ :=
  cutAbs_conv κ ⟨some p.x, some p.y, some d⟩ pos (some j.feed)

theorem cutsTo_units (κ : Units) (j : Job) (d : ℚ) (pos : AddrVec) (ps : List Pt) :
    cutsTo (j.conv κ) (κ.c * d) (pos.conv κ) (ps.map (Pt.conv κ)) = (cutsTo j d pos ps).map (Motion.conv κ) := by
  induction ps generalizing pos with
  | nil => rfl
  | cons p ps ih => simp only [List.map_cons, cutsTo, cutTo_units, conv_fin, ih]

theorem shiftPolygon_units (κ : Units) (p : List Pt) (i : ℕ) : shiftPolygon (p.map (Pt.conv κ)) i = (shiftPolygon p i).map (Pt.conv κ) := by
  simp only [shiftPolygon, List.map_append, List.map_drop, List.map_take, List.map_dropLast]

theorem routeFace_units {κ : Units} (j : Job) {stepover : ℚ} {pwe : Option Pt} (pos : AddrVec) {f : PathFace}
    (hl : ∀ m, nearestTo pwe f.outer = .ok (some m) → (m.dist ≤ stepover ↔ κ.c * m.dist ≤ stepover)) :
    routeFace (j.conv κ) (some (κ.c * stepover)) (pwe.map (Pt.conv κ)) (pos.conv κ) (f.conv κ) =
      (routeFace j (some stepover) pwe pos f).map (fun x => (x.1.map (Motion.conv κ), x.2.map (Pt.conv κ))) := by
  obtain ⟨outer, inners, depth⟩ := f
  unfold routeFace
  simp only [PathFace.conv]
  cases outer with
  | nil => rfl
  | cons p0 ps =>
    have hn := nearestTo_units κ pwe (p0 :: ps)
    simp only [convPath] at hn
    simp only [List.map_cons] at hn ⊢
    rw [hn]
    cases hnear : nearestTo pwe (p0 :: ps) with
    | error e => rfl
    | ok nearest =>
      have hsl : shortLink (some (κ.c * stepover)) (nearest.map (Nearest.conv κ)) = (shortLink (some stepover) nearest).map (Nearest.conv κ) :=
        shortLink_units fun m hm => hl m (by rw [hnear, hm])
      simp only [Except.map, hsl]
      have hr := rapidTo_conv κ pos ⟨p0.x, p0.y, depth⟩ j.rapidHeight j.opSafeHeight j.plungeFeed
      have hx : ∀ (ap : List Motion) (po : List Pt),
          (match nearest.map (Nearest.conv κ) with
          | some n => Except.ok (ap.map (Motion.conv κ) ++ cutsTo (j.conv κ) (κ.c * depth) (lastFin (pos.conv κ) (ap.map (Motion.conv κ))) (po.map (Pt.conv κ)).tail ++
              [cutTo (j.conv κ) (κ.c * depth) (lastFin (pos.conv κ) (ap.map (Motion.conv κ) ++ cutsTo (j.conv κ) (κ.c * depth) (lastFin (pos.conv κ) (ap.map (Motion.conv κ))) (po.map (Pt.conv κ)).tail)) n.point], some n.point)
          | none => Except.ok (ap.map (Motion.conv κ) ++ cutsTo (j.conv κ) (κ.c * depth) (lastFin (pos.conv κ) (ap.map (Motion.conv κ))) (po.map (Pt.conv κ)).tail,
              (po.map (Pt.conv κ)).getLast?) : Except Err (List Motion × Option Pt)) =
          Except.map (fun x => (x.1.map (Motion.conv κ), x.2.map (Pt.conv κ))) (match nearest with
          | some n => Except.ok (ap ++ cutsTo j depth (lastFin pos ap) po.tail ++
              [cutTo j depth (lastFin pos (ap ++ cutsTo j depth (lastFin pos ap) po.tail)) n.point], some n.point)
          | none => Except.ok (ap ++ cutsTo j depth (lastFin pos ap) po.tail, po.getLast?)) := by
        intro ap po
        rw [← List.map_tail, lastFin_conv, cutsTo_units, ← List.map_append, lastFin_conv]
        cases nearest with
        | none => simp [Option.map, Except.map]
        | some n => simp [Option.map, Except.map, Nearest.conv, cutTo_units]
      cases shortLink (some stepover) nearest with
      | none =>
        have := hx (rapidTo pos ⟨p0.x, p0.y, depth⟩ j.rapidHeight (some j.opSafeHeight) (some j.plungeFeed)) (p0 :: ps)
        rw [← hr] at this
        exact this
      | some n =>
        have := hx [cutTo j depth pos n.point] (shiftPolygon (p0 :: ps) n.index)
        rw [← shiftPolygon_units, List.map_cons, List.map_nil, ← cutTo_units] at this
        exact this

/-! ### What the links are -/

theorem distanceToPathFrom_nondegenerate {p : Pt} {path : List Pt} {i : ℕ} {best r : Option Nearest}
    (h : distanceToPathFrom p i best path = .ok r) : ∀ s ∈ segments path, s.1 ≠ s.2 := by
  induction path generalizing i best with
  | nil => simp [segments]
  | cons a rest ih =>
    cases rest with
    | nil => simp [segments]
    | cons b rest =>
      unfold distanceToPathFrom at h
      intro s hs
      simp only [segments, List.mem_cons] at hs
      cases hd : distToSegmentSquared p a b with
      | error e => rw [hd] at h; cases h
      | ok x =>
        rw [hd] at h
        rcases hs with rfl | hs
        · intro e
          have e : a = b := e
          subst e
          rw [distToSegment_degenerate] at hd
          cases hd
        · exact ih h s hs

theorem nearest_of {e : Pt} {path : List Pt} {m : Nearest} (h : distanceToPath e path = .ok (some m)) :
    NearestOn path e m.point ∧ m.dist = sqDist e m.point := by
  obtain ⟨r, h1, h2⟩ := distanceToPathFrom_spec e path [] none (distanceToPathFrom_nondegenerate h) rfl
  have hr : r = some m := by
    have h : distanceToPathFrom e 0 none path = .ok (some m) := h
    rw [List.length_nil, h] at h1
    cases h1
    rfl
  subst hr
  rw [List.nil_append] at h2
  obtain ⟨⟨a, b, h3, h4⟩, p0, p1, hd, hmin, -⟩ := h2
  refine ⟨⟨⟨(a, b), List.mem_of_getElem? h3, m.param, p0, p1, h4⟩, fun s hs y hy => ?_⟩, hd⟩
  obtain ⟨k, hk⟩ := List.getElem?_of_mem hs
  rw [← hd]
  exact hmin k s.1 s.2 hk y hy

theorem routeFace_end {j : Job} {stepover : Option ℚ} {pwe pwe' : Option Pt} {pos : AddrVec} {f : PathFace} {cs : List Motion}
    (h : routeFace j stepover pwe pos f = .ok (cs, pwe')) : ∀ e, pwe' = some e → OnPath f.outer e := by
  obtain ⟨outer, inners, depth⟩ := f
  unfold routeFace at h
  simp only at h
  cases outer with
  | nil => cases h
  | cons p0 ps =>
    simp only at h
    cases hn : nearestTo pwe (p0 :: ps) with
    | error x => rw [hn] at h; cases h
    | ok nearest =>
      rw [hn] at h
      cases nearest with
      | none =>
        have hs : shortLink stepover none = none := by cases stepover <;> rfl
        simp only [hs] at h
        cases h
        intro e he
        exact .inl (List.mem_of_getLast? he)
      | some m =>
        cases h
        rintro e ⟨⟩
        cases pwe with
        | none => cases hn
        | some e0 => exact .inr (nearest_of hn).1.1

theorem routeFaces_units {κ : Units} (j : Job) {stepover : ℚ} {pwe : Option Pt} (pos : AddrVec) {fs : List PathFace}
    (h0 : ∀ e f, pwe = some e → fs.head? = some f → ∀ x, NearestOn f.outer e x → (sqDist e x ≤ stepover ↔ κ.c * sqDist e x ≤ stepover))
    (hc : List.IsChain (fun a b => LinksAlike κ stepover a.outer b.outer) fs) :
    routeFaces (j.conv κ) (some (κ.c * stepover)) (pwe.map (Pt.conv κ)) (pos.conv κ) (fs.map (PathFace.conv κ)) =
      (routeFaces j (some stepover) pwe pos fs).map (List.map (Motion.conv κ)) := by
  induction fs generalizing pwe pos with
  | nil => rfl
  | cons f fs ih =>
    have hl : ∀ m, nearestTo pwe f.outer = .ok (some m) → (m.dist ≤ stepover ↔ κ.c * m.dist ≤ stepover) := by
      intro m hm
      cases pwe with
      | none => cases hm
      | some e =>
        obtain ⟨h1, h2⟩ := nearest_of hm
        rw [h2]
        exact h0 e f rfl rfl _ h1
    simp only [List.map_cons, routeFaces, routeFace_units j pos hl]
    cases hx : routeFace j (some stepover) pwe pos f with
    | error e => rfl
    | ok x =>
      obtain ⟨cs, pwe'⟩ := x
      have h1 : ∀ e g, pwe' = some e → fs.head? = some g → ∀ x, NearestOn g.outer e x →
          (sqDist e x ≤ stepover ↔ κ.c * sqDist e x ≤ stepover) := by
        intro e g he hg x hx'
        cases fs with
        | nil => cases hg
        | cons g' fs =>
          cases hg
          exact (List.isChain_cons_cons.mp hc).1 e x (routeFace_end hx e he) hx'
      have h2 : List.IsChain (fun a b => LinksAlike κ stepover a.outer b.outer) fs := by
        cases fs with
        | nil => exact List.isChain_nil
        | cons g fs => exact (List.isChain_cons_cons.mp hc).2
      simp only [Except.map, lastFin_conv, ih _ h1 h2]
      cases routeFaces j (some stepover) pwe' (lastFin pos cs) fs with
      | error e => rfl
      | ok rest => simp only [List.map_append]

theorem routeSequences_units {κ : Units} (j : Job) {stepover : ℚ} (cs : List Motion) (pos : AddrVec) {ss : List (List PathFace)}
    (hc : ∀ l ∈ ss, List.IsChain (fun a b => LinksAlike κ stepover a.outer b.outer) l) :
    routeSequences (j.conv κ) (κ.c * stepover) (cs.map (Motion.conv κ)) (pos.conv κ) (ss.map (List.map (PathFace.conv κ))) =
      (routeSequences j stepover cs pos ss).map (List.map (Motion.conv κ)) := by
  induction ss generalizing cs pos with
  | nil => rfl
  | cons l ss ih =>
    have h : routePolyfaceOuters (j.conv κ) (l.map (PathFace.conv κ)) (some (κ.c * stepover)) (some (pos.conv κ)) =
        (routePolyfaceOuters j l (some stepover) (some pos)).map (List.map (Motion.conv κ)) :=
      routeFaces_units j (pwe := none) pos (by rintro e f ⟨⟩) (hc l (by simp))
    simp only [List.map_cons, routeSequences, h, bind_map_side, map_bind_side, ← List.map_append, List.getLast?_map]
    congr 1
    funext ds
    cases (cs ++ ds).getLast? with
    | none => rfl
    | some c => exact ih _ _ (fun l hl => hc l (by simp [hl]))

/-! ### The operation -/

theorem allSequences_chains {R : List Pt → List Pt → Prop} {eng : Clipper} {fuel : ℕ} {stepover : ℚ} {stepdown : Option ℚ} {n : ℕ}
    {sh ops : List PathFace} {ss : List (List PathFace)}
    (hR : ∀ region b cs a, Follows eng region stepover n b cs → a ∈ cs → R a b)
    (h : allSequences eng fuel stepover stepdown n sh ops = .ok ss) :
    ∀ l ∈ ss, List.IsChain (fun a b => R a.outer b.outer) l := by
  induction ops generalizing sh ss with
  | nil => cases h; simp
  | cons op ops ih =>
    unfold allSequences at h
    obtain ⟨s1, h1, h⟩ := bind_ok.mp h
    obtain ⟨s2, h2, h⟩ := bind_ok.mp h
    cases h
    have hs1 : ∀ l ∈ s1, List.IsChain (fun a b => R a.outer b.outer) l := by
      unfold opSequences at h1
      obtain ⟨fill, h3, h1⟩ := bind_ok.mp h1
      have hfill : ∀ l ∈ fill, List.IsChain (fun a b => R a.outer b.outer) l := by
        obtain ⟨-, -, -, -, h4⟩ := C42_complete h3
        intro l hl
        exact (h4 l hl).2.imp (fun a b ⟨cs, h5, h6⟩ => hR _ _ _ _ h5 h6)
      cases stepdown with
      | none => cases h1; exact hfill
      | some d =>
        simp only at h1
        split at h1
        · cases h1; exact hfill
        · obtain ⟨stepped, h4, h1⟩ := bind_ok.mp h1
          cases h1
          intro l hl
          rcases List.mem_append.mp hl with hl | hl
          · unfold applyStepdown at h4
            simp only at h4
            split at h4
            · cases h4
              simp only [List.mem_flatMap, List.mem_map] at hl
              obtain ⟨z, -, l0, hl0, rfl⟩ := hl
              rw [List.isChain_map]
              exact hfill l0 hl0
            · cases h4
          · exact hfill l hl
    intro l hl
    rcases List.mem_append.mp hl with hl | hl
    · exact hs1 l hl
    · exact ih h2 l hl

theorem pocketClipper_units {κ : Units} {j : Job} {eng : Clipper} (he : ClipperUnits κ j.precision eng) (fuel : ℕ) (a b : List PathFace)
    (o i ao ai : ℚ) {st : ℚ} (d : Option ℚ)
    (hR : ∀ region b cs a, Follows eng region st j.precision b cs → a ∈ cs → LinksAlike κ st a b) :
    pocketClipper eng fuel (j.conv κ) (a.map (PathFace.conv κ)) (b.map (PathFace.conv κ)) (κ.c * o) (κ.c * i) (κ.c * ao) (κ.c * ai)
        (κ.c * st) (d.map (κ.c * ·)) =
      (pocketClipper eng fuel j a b o i ao ai st d).map (List.map (Motion.conv κ)) := by
  unfold pocketClipper
  have hp : (j.conv κ).precision = κ.precision := rfl
  simp only [hp]
  rw [mapE_side (τ := List.map (PathFace.conv κ)) (fun f => offsetPolyface_units he f o i), bind_map_side, map_bind_side]
  congr 1
  funext x
  rw [mapE_side (τ := List.map (PathFace.conv κ)) (fun f => offsetPolyface_units he f ao ai), bind_map_side, map_bind_side]
  congr 1
  funext y
  rw [← List.map_flatten, ← List.map_flatten, buildPocketOps_units he, bind_map_side, map_bind_side]
  congr 1
  funext z
  have h := allSequences_units he fuel st d [] z
  rw [List.map_nil] at h
  rw [h]
  cases hw : allSequences eng fuel st d j.precision [] z with
  | error e => rfl
  | ok w => exact routeSequences_units j [] {} (allSequences_chains hR hw)

theorem calculateOffset_units (κ : Units) (r k : ℚ) (o : Option OffsetInput) :
    calculateOffset (κ.c * r) (o.map (OffsetInput.conv κ)) (some k) = κ.c * calculateOffset r o (some k) := by
  rw [calculateOffset_distance, calculateOffset_distance]
  cases o with
  | none => simp only [Option.map, offsetDistance]; ring
  | some o => cases o <;> simp only [Option.map, OffsetInput.conv, offsetDistance] <;> ring

theorem pocket_units {κ : Units} {j : Job} {eng : Clipper} {veq : Vec → Vec → Bool} (he : ClipperUnits κ j.precision eng)
    (hv : ∀ a b, veq (a.conv κ) (b.conv κ) = veq a b) (fuel : ℕ) {ops avoids : List CqFace} (a : PocketArgs)
    (hf : ∀ f ∈ ops ++ avoids, FaceAlike κ j.precision f)
    (hl : ∀ diameter region b cs p, j.toolDiameter = some diameter →
      Follows eng region (offsetDistance (diameter / 2) (1 / 2) a.stepover) j.precision b cs → p ∈ cs →
      LinksAlike κ (offsetDistance (diameter / 2) (1 / 2) a.stepover) p b) :
    pocket eng veq fuel (ops.map (CqFace.conv κ)) (avoids.map (CqFace.conv κ)) (a.conv κ) (j.conv κ) =
      (pocket eng veq fuel ops avoids a j).map (List.map (Motion.conv κ)) := by
  unfold pocket
  rw [toolRadius_conv]
  cases hr : j.toolRadius with
  | none => rfl
  | some r =>
    obtain ⟨d, hd, rfl⟩ : ∃ d, j.toolDiameter = some d ∧ d / 2 = r := by
      unfold Job.toolRadius at hr
      cases hd : j.toolDiameter with
      | none => rw [hd] at hr; cases hr
      | some d =>
        rw [hd] at hr
        simp only at hr
        split at hr
        · cases hr
        · exact ⟨d, rfl, Option.some.inj hr⟩
    have hp : (j.conv κ).precision = κ.precision := rfl
    simp only [hp, Option.map]
    rw [mapE_conv_mem (f := fun f => PathFace.fromCqFace veq f κ.precision) (f' := fun f => PathFace.fromCqFace veq f j.precision)
      (fun f h => fromCqFace_units hv (hf f (by simp [h]))), bind_map_side, map_bind_side]
    congr 1
    funext x
    rw [mapE_conv_mem (f := fun f => PathFace.fromCqFace veq f κ.precision) (f' := fun f => PathFace.fromCqFace veq f j.precision)
      (fun f h => fromCqFace_units hv (hf f (by simp [h]))), bind_map_side, map_bind_side]
    congr 1
    funext y
    have ho : (if avoids.map (CqFace.conv κ) ≠ [] ∧ (a.conv κ).outerOffset = none then some (.mult 0) else (a.conv κ).outerOffset) =
        (if avoids ≠ [] ∧ a.outerOffset = none then some (.mult 0) else a.outerOffset).map (OffsetInput.conv κ) := by
      have e : (a.conv κ).outerOffset = a.outerOffset.map (OffsetInput.conv κ) := rfl
      have e2 : (avoids.map (CqFace.conv κ) ≠ [] ∧ a.outerOffset.map (OffsetInput.conv κ) = none) ↔ (avoids ≠ [] ∧ a.outerOffset = none) := by
        simp
      rw [e]
      simp only [e2]
      split <;> rfl
    rw [ho, ← pocketClipper_units he]
    · rw [← calculateOffset_units, ← calculateOffset_units, ← calculateOffset_units, ← calculateOffset_units, ← calculateOffset_units]
      rfl
    · intro region b cs p h1 h2
      rw [calculateOffset_distance] at h1 ⊢
      exact hl d region b cs p hd h1 h2

/-- C134, for pockets (as far as it holds, see `C134_violated_link`): faces whose edges become as many points in either units (as
straight edges do), and contours between which the way is short in both units or in none. -/
theorem C134_pocket_partial {κ : Units} {j : Job} {eng : Clipper} {veq : Vec → Vec → Bool} {tool : Option Tool}
    (he : ClipperUnits κ (j.updateTool tool).2.precision eng)
    (hv : ∀ a b, veq (a.conv κ) (b.conv κ) = veq a b) (fuel : ℕ) {opAreas avoidAreas : List CqFace} (a : PocketArgs)
    (hf : ∀ f ∈ opAreas ++ avoidAreas, FaceAlike κ (j.updateTool tool).2.precision f)
    (hl : ∀ diameter region b cs p, (j.updateTool tool).2.toolDiameter = some diameter →
      Follows eng region (offsetDistance (diameter / 2) (1 / 2) a.stepover) (j.updateTool tool).2.precision b cs → p ∈ cs →
      LinksAlike κ (offsetDistance (diameter / 2) (1 / 2) a.stepover) p b) :
    UnitWork κ j (pocketRequest eng veq fuel opAreas avoidAreas a tool)
      (pocketRequest eng veq fuel (opAreas.map (CqFace.conv κ)) (avoidAreas.map (CqFace.conv κ)) (a.conv κ) (tool.map (Tool.conv κ))) where
  name := rfl
  tool := rfl
  pre := rfl
  gen := pocket_units he hv fuel a hf hl

/-- The same for faces given in world coordinates. -/
theorem C134_placed_pocket_partial {κ : Units} {j : Job} {eng : Clipper} {veq : Vec → Vec → Bool} {tool : Option Tool}
    {box : List Edge → List (List Edge) → ℚ × ℚ} (he : ClipperUnits κ (j.updateTool tool).2.precision eng)
    (hv : ∀ a b, veq (a.conv κ) (b.conv κ) = veq a b)
    (hb : ∀ o is, box (o.map (Edge.conv κ)) (is.map (List.map (Edge.conv κ))) = (κ.c * (box o is).1, κ.c * (box o is).2))
    (fuel : ℕ) {opAreas avoidAreas : List WorldFace} (a : PocketArgs)
    (hf : ∀ f ∈ opAreas ++ avoidAreas, FaceAlike κ (j.updateTool tool).2.precision (f.toJob box (j.updateTool tool).2.top))
    (hl : ∀ diameter region b cs p, (j.updateTool tool).2.toolDiameter = some diameter →
      Follows eng region (offsetDistance (diameter / 2) (1 / 2) a.stepover) (j.updateTool tool).2.precision b cs → p ∈ cs →
      LinksAlike κ (offsetDistance (diameter / 2) (1 / 2) a.stepover) p b) :
    UnitWork κ j (pocketPlacedRequest eng veq box fuel opAreas avoidAreas a tool)
      (pocketPlacedRequest eng veq box fuel (opAreas.map (WorldFace.conv κ)) (avoidAreas.map (WorldFace.conv κ)) (a.conv κ)
        (tool.map (Tool.conv κ))) where
  name := rfl
  tool := rfl
  pre := rfl
  gen := by
    change pocketPlaced eng veq box fuel (opAreas.map (WorldFace.conv κ)) (avoidAreas.map (WorldFace.conv κ)) (a.conv κ)
      ((j.updateTool tool).2.conv κ) = (pocketPlaced eng veq box fuel opAreas avoidAreas a (j.updateTool tool).2).map _
    generalize (j.updateTool tool).2 = k at *
    have hfaces : ∀ fs : List WorldFace, (fs.map (WorldFace.conv κ)).map (WorldFace.toJob box (k.conv κ).top) =
        (fs.map (WorldFace.toJob box k.top)).map (CqFace.conv κ) := by
      intro fs
      simp only [List.map_map]
      refine List.map_congr_left fun w _ => ?_
      have hi : List.map (List.map (Edge.toLocal (k.top.conv κ))) (List.map (List.map (Edge.conv κ)) w.innerWires) =
          List.map (List.map (Edge.conv κ)) (List.map (List.map (Edge.toLocal k.top)) w.innerWires) := by
        simp only [List.map_map]
        refine List.map_congr_left fun v _ => ?_
        have := wire_conv κ k.top v
        simpa only [Function.comp, List.map_map] using this
      simp only [Function.comp, WorldFace.toJob, CqFace.conv, WorldFace.conv, Job.conv_fields, wire_conv, hi, hb]
    unfold pocketPlaced
    rw [hfaces, hfaces]
    refine pocket_units he hv fuel a ?_ hl
    rw [← List.map_append]
    intro f hm
    obtain ⟨w, hw, rfl⟩ := List.mem_map.mp hm
    exact hf w hw

end CQ
