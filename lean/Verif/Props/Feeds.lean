import Verif.Spec.Feeds
import Verif.Model.Placed
import Verif.Model.PocketCq
import Verif.Props.ShiftMachine

/-! # C124: feeds, speeds, coolant, tool numbers and names do not change where the tool goes -/

namespace CQ

/-- A motion with all feeds 0. -/
def Motion.still (c : Motion) : Motion := { c with feed := c.feed.map (fun _ => .int 0) }

/-- The job's geometry alone. -/
def Job.still (j : Job) : Job where
  top := j.top
  feed := .int 0
  toolDiameter := j.toolDiameter
  plungeFeed := .int 0
  rapidHeight := j.rapidHeight
  opSafeHeight := j.opSafeHeight
  precision := j.precision

theorem SameGeometry.still {j j' : Job} (h : SameGeometry j j') : j'.still = j.still := by
  simp only [Job.still, h.top, h.diameter, h.rapid, h.safe, h.precision]

theorem sameWay_of_still {cs cs' : List Motion} (h : cs.map Motion.still = cs'.map Motion.still) : List.Forall₂ SameWay cs cs' := by
  induction cs generalizing cs' with
  | nil =>
    cases cs' with
    | nil => exact .nil
    | cons => cases h
  | cons c cs ih =>
    cases cs' with
    | nil => cases h
    | cons c' cs' =>
      simp only [List.map_cons, List.cons.injEq, Motion.still, Motion.mk.injEq] at h
      obtain ⟨⟨h1, h2, h3, h4, h5, h6⟩, h7⟩ := h
      refine .cons ⟨h1.symm, h2.symm, h3.symm, h5.symm, h6.symm, ?_⟩ (ih h7)
      have := congrArg Option.isSome h4
      simpa using this.symm

theorem alike_of_still {x y : Except Err (List Motion)}
    (h : x.map (List.map Motion.still) = y.map (List.map Motion.still)) : Alike (List.Forall₂ SameWay) x y := by
  cases x with
  | error e =>
    cases y with
    | error e' => cases h; rfl
    | ok b => cases h
  | ok a =>
    cases y with
    | error e' => cases h
    | ok b =>
      simp only [Except.map, Except.ok.injEq] at h
      exact sameWay_of_still h

/-- A generator that only passes feeds on. -/
def PassesFeeds (gen : Job → Except Err (List Motion)) : Prop := ∀ j, gen j.still = (gen j).map (List.map Motion.still)

theorem PassesFeeds.alike {gen : Job → Except Err (List Motion)} (h : PassesFeeds gen) {j j' : Job} (hj : SameGeometry j j') :
    Alike (List.Forall₂ SameWay) (gen j) (gen j') :=
  alike_of_still (by rw [← h j, ← h j', hj.still])

/-! ### Contours and approaches -/

@[simp] theorem still_fin (c : Motion) : c.still.fin = c.fin := rfl

@[simp] theorem lastFin_still (d : AddrVec) (cs : List Motion) : lastFin d (cs.map Motion.still) = lastFin d cs := by
  simp only [lastFin, List.getLast?_map]
  cases cs.getLast? <;> rfl

theorem cutTo_still (j : Job) (d : ℚ) (pos : AddrVec) (p : Pt) : cutTo j.still d pos p = (cutTo j d pos p).still := rfl

theorem cutsTo_still (j : Job) (d : ℚ) (pos : AddrVec) (ps : List Pt) :
    cutsTo j.still d pos ps = (cutsTo j d pos ps).map Motion.still := by
  induction ps generalizing pos with
  | nil => rfl
  | cons p ps ih => simp only [cutsTo, List.map_cons, cutTo_still, still_fin, ih]

theorem rapidTo_still (a : AddrVec) (e : Vec) (h : ℚ) (p : Option ℚ) (f : PyNum) :
    rapidTo a e h p (some (.int 0)) = (rapidTo a e h p (some f)).map Motion.still := by
  unfold rapidTo
  dsimp only
  cases p <;> dsimp only <;> split_ifs <;> rfl

theorem routeFace_still (j : Job) (so : Option ℚ) (pwe : Option Pt) (pos : AddrVec) (f : PathFace) :
    routeFace j.still so pwe pos f = (routeFace j so pwe pos f).map (fun x => (x.1.map Motion.still, x.2)) := by
  unfold routeFace
  cases f.outer with
  | nil => rfl
  | cons p0 ps =>
    simp only
    cases nearestTo pwe (p0 :: ps) with
    | error e => rfl
    | ok nearest =>
      simp only
      have hx : ∀ (A : List Motion) (P : List Pt), (match nearest with
            | some n => Except.ok (A.map Motion.still ++ cutsTo j.still f.depth (lastFin pos (A.map Motion.still)) P.tail ++
                [cutTo j.still f.depth (lastFin pos (A.map Motion.still ++ cutsTo j.still f.depth (lastFin pos (A.map Motion.still)) P.tail))
                  n.point], some n.point)
            | none => (Except.ok (A.map Motion.still ++ cutsTo j.still f.depth (lastFin pos (A.map Motion.still)) P.tail, P.getLast?) :
                Except Err (List Motion × Option Pt))) =
          (match nearest with
            | some n => Except.ok (A ++ cutsTo j f.depth (lastFin pos A) P.tail ++
                [cutTo j f.depth (lastFin pos (A ++ cutsTo j f.depth (lastFin pos A) P.tail)) n.point], some n.point)
            | none => (Except.ok (A ++ cutsTo j f.depth (lastFin pos A) P.tail, P.getLast?) :
                Except Err (List Motion × Option Pt))).map (fun x : List Motion × Option Pt => (x.1.map Motion.still, x.2)) := by
        intro A P
        cases nearest with
        | none => simp only [cutsTo_still, lastFin_still, ← List.map_append, Except.map]
        | some n =>
          simp only [cutsTo_still, cutTo_still, lastFin_still, ← List.map_append, Except.map]
          simp only [List.map_append, List.map_cons, List.map_nil]
      cases shortLink so nearest with
      | some n => exact hx [cutTo j f.depth pos n.point] (shiftPolygon (p0 :: ps) n.index)
      | none =>
        have := hx (rapidTo pos ⟨p0.x, p0.y, f.depth⟩ j.rapidHeight (some j.opSafeHeight) (some j.plungeFeed)) (p0 :: ps)
        rw [← rapidTo_still] at this
        exact this

theorem routeFaces_still (j : Job) (so : Option ℚ) (pwe : Option Pt) (pos : AddrVec) (fs : List PathFace) :
    routeFaces j.still so pwe pos fs = (routeFaces j so pwe pos fs).map (List.map Motion.still) := by
  induction fs generalizing pwe pos with
  | nil => rfl
  | cons f fs ih =>
    simp only [routeFaces, routeFace_still]
    cases routeFace j so pwe pos f with
    | error e => rfl
    | ok x =>
      obtain ⟨cs, pwe'⟩ := x
      simp only [Except.map, lastFin_still, ih]
      cases routeFaces j so pwe' (lastFin pos cs) fs <;> simp

theorem routeSequences_still (j : Job) (so : ℚ) (cs : List Motion) (pos : AddrVec) (ss : List (List PathFace)) :
    routeSequences j.still so (cs.map Motion.still) pos ss = (routeSequences j so cs pos ss).map (List.map Motion.still) := by
  induction ss generalizing cs pos with
  | nil => rfl
  | cons s ss ih =>
    simp only [routeSequences, routePolyfaceOuters, Option.getD, routeFaces_still, bind_map_side, map_bind_side]
    congr 1
    funext ds
    rw [← List.map_append, List.getLast?_map]
    cases (cs ++ ds).getLast? with
    | none => rfl
    | some c => exact ih _ _

theorem pocket_still (eng : Clipper) (veq : Vec → Vec → Bool) (fuel : ℕ) (opAreas avoidAreas : List CqFace) (a : PocketArgs) :
    PassesFeeds (pocket eng veq fuel opAreas avoidAreas a) := by
  intro j
  unfold pocket
  have hr : j.still.toolRadius = j.toolRadius := rfl
  have hp : j.still.precision = j.precision := rfl
  have h := fun so ss => routeSequences_still j so [] {} ss
  simp only [List.map_nil] at h
  rw [hr]
  cases j.toolRadius with
  | none => rfl
  | some r => simp only [pocketClipper, hp, map_bind_side, h]

/-! ### Wires -/

theorem cutsThroughPoints_still (f : PyNum) (a : AddrVec) (vs : List Vec) :
    cutsThroughPoints (some (.int 0)) a vs = (cutsThroughPoints (some f) a vs).map Motion.still := by
  induction vs generalizing a with
  | nil => rfl
  | cons v vs ih => simp only [cutsThroughPoints, List.map_cons, ih]; rfl

theorem routeArc_still (veq : Vec → Vec → Bool) (e : Edge) (a b : Option ℚ) (f : PyNum) :
    routeArc veq e a b (some (.int 0)) = (routeArc veq e a b (some f)).map (List.map Motion.still) := by
  unfold routeArc
  simp only
  split_ifs <;> first | rfl | (split <;> rfl)

theorem routeEdge_still (veq : Vec → Vec → Bool) (e : Edge) (n : ℕ) (a b : Option ℚ) (f : PyNum) :
    routeEdge veq e n a b (some (.int 0)) = (routeEdge veq e n a b (some f)).map (fun x => (x.1.map Motion.still, x.2)) := by
  unfold routeEdge
  simp only [routeArc_still veq e a b f, cutsThroughPoints_still f]
  cases e.geom <;> try rfl
  all_goals cases routeArc veq e a b (some f) <;> rfl

theorem routeEdges_still (veq : Vec → Vec → Bool) (j : Job) (fin : Vec) (es : List Edge) :
    routeEdges veq j.still fin es = (routeEdges veq j fin es).map (fun x => (x.1.map Motion.still, x.2)) := by
  induction es generalizing fin with
  | nil => rfl
  | cons e es ih =>
    have h := routeEdge_still veq e j.precision none none j.feed
    simp only [routeEdges]
    change (match routeEdge veq e j.precision none none (some (.int 0)) with | .error x => _ | .ok (cs, fin) => _) = _
    rw [h]
    cases routeEdge veq e j.precision none none (some j.feed) with
    | error e => rfl
    | ok x =>
      obtain ⟨cs, fin'⟩ := x
      simp only [Except.map, ih]
      cases routeEdges veq j fin' es with
      | error e => rfl
      | ok y => simp only [List.map_append]

theorem enterWire_still (veq : Vec → Vec → Bool) (j : Job) (so : Option ℚ) (hit : Option WireHit) (pos : AddrVec) (es : List Edge) :
    enterWire veq j.still so hit pos es = (enterWire veq j so hit pos es).map (fun x => (x.1, x.2.map Motion.still)) := by
  unfold enterWire
  cases wireLink so hit with
  | some h =>
    simp only
    cases shiftEdges veq es h with
    | error e => rfl
    | ok es => cases es <;> rfl
  | none =>
    cases es with
    | nil => rfl
    | cons e es =>
      have h := rapidTo_still pos (edgeStartPoint e) j.rapidHeight (some j.opSafeHeight) j.plungeFeed
      simp only [Except.map, ← h]
      rfl

theorem routeWire_still (veq : Vec → Vec → Bool) (j : Job) (so : Option ℚ) (hit : Option WireHit) (pos : AddrVec) (es : List Edge) :
    routeWire veq j.still so hit pos es = (routeWire veq j so hit pos es).map (fun x => (x.1.map Motion.still, x.2)) := by
  have hE : ∀ (e : Edge) (a b : Option ℚ), routeEdge veq e j.still.precision a b (some j.still.feed) = _ :=
    fun e a b => routeEdge_still veq e j.precision a b j.feed
  unfold routeWire
  rw [enterWire_still]
  cases enterWire veq j so hit pos es with
  | error e => rfl
  | ok x =>
    obtain ⟨es, approach⟩ := x
    cases es with
    | nil => rfl
    | cons e es =>
      simp only [Except.map, hE]
      cases routeEdge veq e j.precision (hit.bind WireHit.param) none (some j.feed) with
      | error e => rfl
      | ok y =>
        obtain ⟨first, fin⟩ := y
        simp only [routeEdges_still]
        cases routeEdges veq j fin es with
        | error e => rfl
        | ok z =>
          obtain ⟨rest, fin⟩ := z
          simp only [Except.map]
          cases hit.bind WireHit.param with
          | none => simp
          | some p =>
            simp only
            by_cases hp : p = 0
            · rw [if_pos hp, if_pos hp]; simp
            · rw [if_neg hp, if_neg hp]
              cases routeEdge veq e j.precision none (some p) (some j.feed) with
              | error e => rfl
              | ok y => simp

theorem routeWiresFrom_still (veq : Vec → Vec → Bool) (search : Vec → List Edge → Option WireHit) (j : Job) (so : Option ℚ)
    (acc : List Motion) (pwe : Option Vec) (pos : AddrVec) (ws : List (List Edge)) :
    routeWiresFrom veq search j.still so (acc.map Motion.still) pwe pos ws =
      (routeWiresFrom veq search j so acc pwe pos ws).map (List.map Motion.still) := by
  induction ws generalizing acc pwe pos with
  | nil => rfl
  | cons w ws ih =>
    cases w with
    | nil => rfl
    | cons e es =>
      simp only [routeWiresFrom, routeWire_still]
      cases routeWire veq j so (pwe.bind (search · (e :: es))) pos (e :: es) with
      | error e => rfl
      | ok x =>
        obtain ⟨cs, fin⟩ := x
        simp only [Except.map, lastFin_still, ← List.map_append]
        exact ih _ _ _

theorem routeWires_still (veq : Vec → Vec → Bool) (search : Vec → List Edge → Option WireHit) (j : Job) (ws : List (List Edge))
    (so : Option ℚ) (pos : Option AddrVec) :
    routeWires veq search j.still ws so pos = (routeWires veq search j ws so pos).map (List.map Motion.still) :=
  routeWiresFrom_still veq search j so [] none _ ws

theorem mapE_still {α β γ : Type} {f : α → Except Err γ} {f' : α → Except Err β} {τ : β → γ} (h : ∀ a, f a = (f' a).map τ)
    (l : List α) : mapE f l = (mapE f' l).map (List.map τ) := by
  have := mapE_side (f := f) (f' := f') (σ := id) (τ := τ) h l
  rwa [List.map_id] at this

theorem profiles_still (cad : Cad) (j : Job) (o : ℚ) (sd : Option ℚ) (tabs : Option Tabs) (ws : List (List Edge)) :
    profiles cad j.still o sd tabs ws = (profiles cad j o sd tabs ws).map (List.map Motion.still) := by
  unfold profiles
  rw [mapE_still (f' := fun w => profile cad j w o sd tabs) (τ := List.map Motion.still), bind_map_side, map_bind_side]
  · simp only [Except.map, List.map_flatten]
  · intro w
    unfold profile
    rw [map_bind_side]
    have : profileWires cad j.still w o sd tabs = profileWires cad j w o sd tabs := rfl
    simp only [this, routeWires_still]

theorem profilesOpt_still (cad : Cad) (j : Job) (o : Option ℚ) (sd : Option ℚ) (tabs : Option Tabs) (ws : List (List Edge)) :
    profilesOpt cad j.still o sd tabs ws = (profilesOpt cad j o sd tabs ws).map (List.map Motion.still) := by
  cases o with
  | none => rfl
  | some o => exact profiles_still cad j o sd tabs ws

theorem cqRouteSequences_still (cad : Cad) (j : Job) (so : ℚ) (cs : List Motion) (pos : AddrVec) (ss : List (List (List Edge))) :
    cqRouteSequences cad j.still so (cs.map Motion.still) pos ss =
      (cqRouteSequences cad j so cs pos ss).map (List.map Motion.still) := by
  induction ss generalizing cs pos with
  | nil => rfl
  | cons s ss ih =>
    simp only [cqRouteSequences, routeWires_still, bind_map_side, map_bind_side]
    congr 1
    funext ds
    rw [← List.map_append, List.getLast?_map]
    cases (cs ++ ds).getLast? with
    | none => rfl
    | some c => exact ih _ _

theorem pocketWith_still {F : Type} (eng : Clipper) (k : FaceKernelCq F) (view : F → CqFace) (fuel : ℕ) (opAreas avoidAreas : List F)
    (a : PocketArgs) (engine : Text) : PassesFeeds (pocketWith eng k view fuel opAreas avoidAreas a engine) := by
  intro j
  unfold pocketWith
  have hr : j.still.toolRadius = j.toolRadius := rfl
  have ht : j.still.top = j.top := rfl
  have h := fun so ss => cqRouteSequences_still k.cad j so [] {} ss
  simp only [List.map_nil] at h
  rw [hr]
  cases j.toolRadius with
  | none => rfl
  | some r =>
    simp only
    by_cases h1 : engine = "clipper".toList
    · rw [if_pos h1, if_pos h1]; exact pocket_still _ _ _ _ _ _ j
    · rw [if_neg h1, if_neg h1]
      by_cases h2 : engine = "cq".toList
      · rw [if_pos h2, if_pos h2]
        simp only [pocketCq, ht, map_bind_side, h]
      · rw [if_neg h2, if_neg h2]; rfl

/-! ### Drilling and surfacing -/

theorem drillHoles_still (j : Job) (d : ℚ) (pos : AddrVec) (ps : List Pt) :
    drillHoles j.still d pos ps = (drillHoles j d pos ps).map Motion.still := by
  induction ps generalizing pos with
  | nil => rfl
  | cons p ps ih =>
    have h : drillHole j.still d pos p = (drillHole j d pos p).map Motion.still := rfl
    simp only [drillHoles, h, lastFin_still, ih, List.map_append]

theorem drill_still (center : List Edge → Except Err Vec) (o : Option (List DrillObj)) (depth : Option ℚ) :
    PassesFeeds (drill center o depth) := by
  intro j
  cases o with
  | none => rfl
  | some objs =>
    cases depth with
    | none => rfl
    | some d =>
      have ht : j.still.top = j.top := rfl
      simp only [drill, ht, map_bind_side]
      congr 1
      funext vs
      split
      · rfl
      · rw [map_bind_side]
        simp only [drillHoles_still, Except.map]

theorem surfaceCuts_still (d : ℚ) (pos : AddrVec) (ps : List Vec) :
    (surfaceCuts d pos ps).map Motion.still = surfaceCuts d pos ps := by
  induction ps generalizing pos with
  | nil => rfl
  | cons p ps ih => simp only [surfaceCuts, List.map_cons, ih]; rfl

theorem pieceMoves_still (j : Job) (d : ℚ) (pos : AddrVec) (ps : List Vec) :
    pieceMoves j.still d pos ps = (pieceMoves j d pos ps).map Motion.still := by
  cases ps with
  | nil => rfl
  | cons p ps => simp only [pieceMoves, List.map_append, surfaceCuts_still]; rfl

theorem piecesMoves_still (j : Job) (d : ℚ) (pos : AddrVec) (ss : List (List Vec)) :
    piecesMoves j.still d pos ss = (piecesMoves j d pos ss).map Motion.still := by
  induction ss generalizing pos with
  | nil => rfl
  | cons s ss ih => simp only [piecesMoves, pieceMoves_still, lastFin_still, ih, List.map_append]

theorem passesMoves_still (j : Job) (ds : List ℚ) (ss : List (List Vec)) (i : ℕ) (pos : AddrVec) (rest : List ℚ) :
    passesMoves j.still ds ss i pos rest = (passesMoves j ds ss i pos rest).map Motion.still := by
  induction rest generalizing i pos with
  | nil => rfl
  | cons d rest ih => simp only [passesMoves, piecesMoves_still, lastFin_still, ih, List.map_append]

theorem surfaceBoundary_still (eng : SurfaceEngine) (args : SurfaceArgs) (j : Job) (polygon : List Pt) :
    surfaceBoundary eng args j.still polygon = (surfaceBoundary eng args j polygon).map (List.map Motion.still) := by
  simp only [surfaceBoundary, passesMoves_still, map_bind_side]
  rfl

theorem surface3d_still (eng : SurfaceEngine) (k : FaceKernel) (args : SurfaceArgs) (oo : ℚ × ℚ) (io : Option (ℚ × ℚ))
    (bs : List BoundaryFace) : PassesFeeds (surface3d eng k args oo io bs) := by
  intro j
  unfold surface3d
  rw [map_bind_side]
  congr 1
  funext faces
  rw [mapE_still (f' := fun f : List Edge × List (List Edge) => wirePolygon f.1 true >>= fun polygon => surfaceBoundary eng args j polygon)
    (τ := List.map Motion.still), bind_map_side, map_bind_side]
  · simp only [Except.map, List.map_flatten]
  · intro f
    rw [map_bind_side]
    simp only [surfaceBoundary_still]

/-! ### The operations -/

/-- C124, for pockets. -/
theorem C124_pocket (eng : Clipper) (veq : Vec → Vec → Bool) (box : List Edge → List (List Edge) → ℚ × ℚ) (fuel : ℕ)
    (opAreas avoidAreas : List WorldFace) (a : PocketArgs) {tool tool' : Option Tool}
    (h : tool'.bind Tool.toolDiameter = tool.bind Tool.toolDiameter) :
    SamePath (pocketPlacedRequest eng veq box fuel opAreas avoidAreas a tool)
      (pocketPlacedRequest eng veq box fuel opAreas avoidAreas a tool') where
  diameter := h
  pre := fun _ _ _ => rfl
  gen := fun _ _ hj => PassesFeeds.alike (gen := pocketPlaced eng veq box fuel opAreas avoidAreas a)
    (fun j => pocket_still eng veq fuel _ _ a j) hj

/-- C124, for pockets with either engine (on faces in job coordinates). -/
theorem C124_pocket_engine {F : Type} (eng : Clipper) (k : FaceKernelCq F) (view : F → CqFace) (fuel : ℕ) (opAreas avoidAreas : List F)
    (a : PocketArgs) (engine : Text) {tool tool' : Option Tool} (h : tool'.bind Tool.toolDiameter = tool.bind Tool.toolDiameter) :
    SamePath { opName := "Pocket".toList, tool, gen := pocketWith eng k view fuel opAreas avoidAreas a engine }
      { opName := "Pocket".toList, tool := tool', gen := pocketWith eng k view fuel opAreas avoidAreas a engine } where
  diameter := h
  pre := fun _ _ _ => rfl
  gen := fun _ _ hj => PassesFeeds.alike (pocketWith_still eng k view fuel opAreas avoidAreas a engine) hj

/-- C124, for profiles. -/
theorem C124_profile (cad : Cad) (shapes : List Shape) (oo io : Option ℚ) (sd : Option ℚ) (tabs : Option Tabs)
    {tool tool' : Option Tool} (h : tool'.bind Tool.toolDiameter = tool.bind Tool.toolDiameter) :
    SamePath (profileRequest cad shapes oo io sd tabs tool) (profileRequest cad shapes oo io sd tabs tool') where
  diameter := h
  pre := fun j j' hj => by simp only [profileRequest, hj.diameter]
  gen := fun _ _ hj => PassesFeeds.alike (gen := (profileRequest cad shapes oo io sd tabs tool).gen)
    (fun j => by
      simp only [profileRequest, map_bind_side, profilesOpt_still, bind_map_side]
      simp only [Except.map, List.map_append]) hj

/-- C124, for wire profiles. -/
theorem C124_wire_profile (cad : Cad) (wires : List (List Edge)) (o : ℚ) (sd : Option ℚ) (tabs : Option Tabs)
    {tool tool' : Option Tool} (h : tool'.bind Tool.toolDiameter = tool.bind Tool.toolDiameter) :
    SamePath (wireProfileRequest cad wires o sd tabs tool) (wireProfileRequest cad wires o sd tabs tool') where
  diameter := h
  pre := fun _ _ _ => rfl
  gen := fun _ _ hj => PassesFeeds.alike (fun j => profiles_still cad j o sd tabs wires) hj

/-- C124, for drilling. -/
theorem C124_drill (center : List Edge → Except Err Vec) (o : Option (List DrillObj)) (depth : Option ℚ)
    {tool tool' : Option Tool} (h : tool'.bind Tool.toolDiameter = tool.bind Tool.toolDiameter) :
    SamePath (drillRequest center o depth tool) (drillRequest center o depth tool') where
  diameter := h
  pre := fun _ _ _ => rfl
  gen := fun _ _ hj => PassesFeeds.alike (drill_still center o depth) hj

/-- C124, for 3D surfacing. -/
theorem C124_surface (eng : SurfaceEngine) (k : FaceKernel) (args : SurfaceArgs) (oo : ℚ × ℚ) (io : Option (ℚ × ℚ))
    (bs : List BoundaryFace) : SamePath (surface3dRequest eng k args oo io bs) (surface3dRequest eng k args oo io bs) where
  diameter := rfl
  pre := fun _ _ _ => rfl
  gen := fun _ _ hj => PassesFeeds.alike (surface3d_still eng k args oo io bs) hj

/-! ### The whole program -/

theorem updateTool_geometry {j j' : Job} (hj : SameGeometry j j') {t t' : Option Tool}
    (h : t'.bind Tool.toolDiameter = t.bind Tool.toolDiameter) : SameGeometry (j.updateTool t).2 (j'.updateTool t').2 := by
  have hu : ∀ (i : Job) (u : Option Tool), (i.updateTool u).2.top = i.top ∧ (i.updateTool u).2.rapidHeight = i.rapidHeight ∧
      (i.updateTool u).2.opSafeHeight = i.opSafeHeight ∧ (i.updateTool u).2.precision = i.precision ∧
      (i.updateTool u).2.toolDiameter = (match u.bind Tool.toolDiameter with | none => i.toolDiameter | some d => some d) := by
    intro i u
    cases u with
    | none => exact ⟨rfl, rfl, rfl, rfl, rfl⟩
    | some u =>
      simp only [Job.updateTool]
      split_ifs <;> exact ⟨rfl, rfl, rfl, rfl, rfl⟩
  obtain ⟨a1, a2, a3, a4, a5⟩ := hu j t
  obtain ⟨b1, b2, b3, b4, b5⟩ := hu j' t'
  exact ⟨by rw [a1, b1, hj.top], by rw [a5, b5, h, hj.diameter], by rw [a2, b2, hj.rapid], by rw [a3, b3, hj.safe],
    by rw [a4, b4, hj.precision]⟩

theorem updateTool_motions (j : Job) (t : Option Tool) : (j.updateTool t).2.motions = j.motions := by
  cases t with
  | none => rfl
  | some t =>
    simp only [Job.updateTool]
    split_ifs <;> simp [Job.motions, Job.addOperation, motionsOf]

theorem motionsOf_motion (cs : List Motion) : motionsOf (cs.map .motion) = cs := by
  induction cs with
  | nil => rfl
  | cons c cs ih => simp only [List.map_cons, motionsOf, ih]

theorem call_samePath {j j' : Job} {r r' : Request} (hj : SameGeometry j j') (hm : List.Forall₂ SameWay j.motions j'.motions)
    (h : SamePath r r') : Alike (fun i i' => SameGeometry i i' ∧ List.Forall₂ SameWay i.motions i'.motions) (j.call r).2 (j'.call r').2 := by
  have hu := updateTool_geometry hj h.diameter
  have hg := h.gen _ _ hu
  simp only [Job.call, h.pre j j' hj]
  cases r.pre j with
  | error e => rfl
  | ok _ =>
    simp only
    cases hx : r.gen (j.updateTool r.tool).2 with
    | error e =>
      cases hy : r'.gen (j'.updateTool r'.tool).2 with
      | error e' => rw [hx, hy] at hg; exact hg
      | ok cs' => rw [hx, hy] at hg; exact hg.elim
    | ok cs =>
      cases hy : r'.gen (j'.updateTool r'.tool).2 with
      | error e' => rw [hx, hy] at hg; exact hg.elim
      | ok cs' =>
        rw [hx, hy] at hg
        refine ⟨⟨hu.top, hu.diameter, hu.rapid, hu.safe, hu.precision⟩, ?_⟩
        have : ∀ (i : Job) (n : Text) (ds : List Motion), (i.addOperation n (ds.map .motion)).motions = i.motions ++ ds := by
          intro i n ds
          simp [Job.motions, Job.addOperation, motionsOf_motion]
        rw [this, this, updateTool_motions, updateTool_motions]
        exact List.rel_append hm hg

/-- C124.  Two chains of calls that may differ in feeds, speeds, tool numbers, coolant, names, units and controller settings, but
not in the rest, are refused with the same exception or both accepted, and their programs have the same motions but for the
feeds. -/
theorem C124_program {j j' : Job} (hj : SameGeometry j j') (h0 : j.operations = []) (h0' : j'.operations = []) {rs rs' : List Request}
    (h : List.Forall₂ SamePath rs rs') : Alike (fun i i' => List.Forall₂ SameWay i.motions i'.motions) (j.chain rs) (j'.chain rs') := by
  have hm : List.Forall₂ SameWay j.motions j'.motions := by simp [Job.motions, h0, h0']
  clear h0 h0'
  induction h generalizing j j' with
  | nil => exact hm
  | @cons r r' rs rs' hr _ ih =>
    have hc := call_samePath hj hm hr
    simp only [Job.chain]
    cases hx : (j.call r).2 with
    | error e =>
      cases hy : (j'.call r').2 with
      | error e' => rw [hx, hy] at hc; exact hc
      | ok i' => rw [hx, hy] at hc; exact hc.elim
    | ok i =>
      cases hy : (j'.call r').2 with
      | error e' => rw [hx, hy] at hc; exact hc.elim
      | ok i' =>
        rw [hx, hy] at hc
        exact ih hc.1 hc.2

/-! ### On the machine -/

theorem chainMoves_sameWay {j j' : Job} (hj : SameGeometry j j') {rs rs' : List Request} (h : List.Forall₂ SamePath rs rs') :
    List.Forall₂ (List.Forall₂ SameWay) (chainMoves j rs) (chainMoves j' rs') := by
  induction h generalizing j j' with
  | nil => exact .nil
  | @cons r r' rs rs' hr _ ih =>
    have hu := updateTool_geometry hj hr.diameter
    have hg := hr.gen _ _ hu
    have hp := hr.pre j j' hj
    simp only [chainMoves, Job.call, hp]
    cases hpre : r.pre j with
    | error e =>
      cases hx : r.gen (j.updateTool r.tool).2 <;> cases hy : r'.gen (j'.updateTool r'.tool).2 <;> exact .nil
    | ok _ =>
      cases hx : r.gen (j.updateTool r.tool).2 with
      | error e =>
        cases hy : r'.gen (j'.updateTool r'.tool).2 with
        | error e' => exact .nil
        | ok cs' => rw [hx, hy] at hg; exact hg.elim
      | ok cs =>
        cases hy : r'.gen (j'.updateTool r'.tool).2 with
        | error e' => rw [hx, hy] at hg; exact hg.elim
        | ok cs' =>
          rw [hx, hy] at hg
          exact .cons hg (ih ⟨hu.top, hu.diameter, hu.rapid, hu.safe, hu.precision⟩)

theorem axis_alike {g b a b' a' : Option ℚ} (h : AxisAt g b a) (h' : AxisAt g b' a') : AxisAlike b a b' a' := by
  cases g with
  | none => exact .inr ⟨h.2 rfl, h'.2 rfl⟩
  | some v => exact .inl ⟨_, h.1 v rfl, h'.1 v rfl⟩

theorem performs_alike {e e' : Event} {c c' : Motion} (hc : SameWay c c') (h : Performs e c) (h' : Performs e' c') :
    MovesAlike e e' := by
  obtain ⟨tgt, ctr, ha, hx, hy, hz, hctr, -⟩ := h
  obtain ⟨tgt', ctr', ha', hx', hy', hz', hctr', -⟩ := h'
  rw [hc.fin] at hx' hy' hz'
  rw [hc.kind] at ha'
  have : centreOff c' = centreOff c := by simp only [centreOff, hc.kind, hc.start, hc.center]
  rw [this] at hctr'
  subst hctr hctr'
  exact ⟨c.kind.mot, tgt, tgt', centreOff c, ha, ha', axis_alike hx hx', axis_alike hy hy', axis_alike hz hz'⟩

theorem requestSettings_length (st : Settings) (rs : List Request) : (requestSettings st rs).length = rs.length := by
  induction rs generalizing st with
  | nil => rfl
  | cons r rs ih => simp only [requestSettings, List.length_cons, ih]

/-- C124 on the machine: running the two programs (on two machines in whatever state), the machines make the same moves, call by
call and one by one. -/
theorem C124_machine {j0 j0' jf : Job} {rs rs' : List Request} (m m' : Machine) (hj : SameGeometry j0 j0') (h0 : InitOK j0)
    (h0' : InitOK j0') (hn : ∀ v, j0.toolNumber = some v → NumOK v) (hn' : ∀ v, j0'.toolNumber = some v → NumOK v)
    (hok : ChainOK j0 rs) (hok' : ChainOK j0' rs') (hw : List.Forall₂ SamePath rs rs') (h : j0.chain rs = .ok jf)
    (hend : m.ended = false) (hend' : m'.ended = false) (htool : ∀ n, j0.toolNumber = some n → m.tool = some n.value)
    (htool' : ∀ n, j0'.toolNumber = some n → m'.tool = some n.value) :
    ∃ jf' t t' m1 m1' a b c a' b' c' evss evss', j0'.chain rs' = .ok jf' ∧ jf.toGcode = .ok t ∧ jf'.toGcode = .ok t' ∧
      runText m t = some (m1, a :: (evss.flatten ++ [b, c])) ∧ runText m' t' = some (m1', a' :: (evss'.flatten ++ [b', c'])) ∧
      evss.length = rs.length ∧ (isMove a = false ∧ isMove b = false ∧ isMove c = false) ∧
      (isMove a' = false ∧ isMove b' = false ∧ isMove c' = false) ∧
      List.Forall₂ (fun evs evs' => List.Forall₂ MovesAlike (evs.filter isMove) (evs'.filter isMove)) evss evss' := by
  have hp := C124_program hj h0.1 h0'.1 hw
  rw [h] at hp
  cases h' : j0'.chain rs' with
  | error e => rw [h'] at hp; exact hp.elim
  | ok jf' =>
    obtain ⟨t, m1, a, b, c, evss, p1, p2, p3, p4, p5, p6, p7, -⟩ := chain_program m h0 hn hok h hend htool
    obtain ⟨t', m1', a', b', c', evss', q1, q2, q3, q4, q5, q6, q7, -⟩ := chain_program m' h0' hn' hok' h' hend' htool'
    refine ⟨_, t, t', m1, m1', a, b, c, a', b', c', evss, evss', rfl, p1, q1, p2, q2, ?_, ?_, ?_, ?_⟩
    · rw [p7.length_eq, requestSettings_length]
    · simp [isMove, p3, p4, p5]
    · simp [isMove, q3, q4, q5]
    · have hm := chainMoves_sameWay hj hw
      clear p2 p7 q2 q7
      generalize chainMoves j0 rs = css at p6 hm
      generalize chainMoves j0' rs' = css' at q6 hm
      revert q6 css' evss'
      induction p6 with
      | nil =>
        intro evss' css' q6 hm
        cases hm
        cases q6
        exact .nil
      | @cons evs cs evss css hp hps ih =>
        intro evss' css' q6 hm
        cases hm with
        | @cons _ cs' _ css'' hcs hcss =>
          cases q6 with
          | @cons evs' _ evss'' _ hq hqs =>
            refine .cons ?_ (ih _ _ hqs hcss)
            clear ih hps hqs hcss
            generalize evs.filter isMove = l at hp ⊢
            generalize evs'.filter isMove = l' at hq ⊢
            revert hq hcs l' cs'
            induction hp with
            | nil => intro cs' hcs l' hq; cases hcs; cases hq; exact .nil
            | @cons x c l cs hx _ ih2 =>
              intro cs' hcs l' hq
              cases hcs with
              | cons hc hcs =>
                cases hq with
                | cons hy hys => exact .cons (performs_alike hc hx hy) (ih2 hcs _ hys)

end CQ
