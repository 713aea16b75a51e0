import Verif.Spec.Split
import Verif.Model.Placed
import Verif.Model.Drill
import Verif.Model.Mesh
import Verif.Model.Op3dCall
import Verif.Model.PocketCq

/-! # The operations do not look at the operations done before -/

namespace CQ

section
variable (j : Job) (old : List Operation)

theorem forget_cutsTo (d : ℚ) (ps : List Pt) : ∀ pos, cutsTo { j with operations := old } d pos ps = cutsTo j d pos ps := by
  induction ps with
  | nil => intro _; rfl
  | cons p ps ih => intro pos; simp only [cutsTo, ih]; rfl

theorem forget_routeFace (so : Option ℚ) (pwe : Option Pt) (pos : AddrVec) (f : PathFace) :
    routeFace { j with operations := old } so pwe pos f = routeFace j so pwe pos f := by
  unfold routeFace
  simp only [forget_cutsTo]
  rfl

theorem forget_routeFaces (so : Option ℚ) (fs : List PathFace) :
    ∀ pwe pos, routeFaces { j with operations := old } so pwe pos fs = routeFaces j so pwe pos fs := by
  induction fs with
  | nil => intro _ _; rfl
  | cons f fs ih => intro pwe pos; simp only [routeFaces, forget_routeFace, ih]

theorem forget_routeSequences (so : ℚ) (ss : List (List PathFace)) :
    ∀ cs pos, routeSequences { j with operations := old } so cs pos ss = routeSequences j so cs pos ss := by
  induction ss with
  | nil => intro _ _; rfl
  | cons s ss ih => intro cs pos; simp only [routeSequences, routePolyfaceOuters, forget_routeFaces, ih]

theorem forget_pocketClipper (eng : Clipper) (fuel : ℕ) (os as : List PathFace) (a b c d e : ℚ) (sd : Option ℚ) :
    pocketClipper eng fuel { j with operations := old } os as a b c d e sd = pocketClipper eng fuel j os as a b c d e sd := by
  unfold pocketClipper
  simp only [forget_routeSequences]

theorem forget_pocket (eng : Clipper) (veq : Vec → Vec → Bool) (fuel : ℕ) (os as : List CqFace) (a : PocketArgs) :
    pocket eng veq fuel os as a { j with operations := old } = pocket eng veq fuel os as a j := by
  unfold pocket
  simp only [forget_pocketClipper]
  rfl

theorem forget_routeEdges (veq : Vec → Vec → Bool) (es : List Edge) :
    ∀ fin, routeEdges veq { j with operations := old } fin es = routeEdges veq j fin es := by
  induction es with
  | nil => intro _; rfl
  | cons e es ih => intro fin; simp only [routeEdges, ih]

theorem forget_routeWire (veq : Vec → Vec → Bool) (so : Option ℚ) (hit : Option WireHit) (pos : AddrVec) (es : List Edge) :
    routeWire veq { j with operations := old } so hit pos es = routeWire veq j so hit pos es := by
  unfold routeWire
  simp only [forget_routeEdges]
  rfl

theorem forget_routeWiresFrom (veq : Vec → Vec → Bool) (search : Vec → List Edge → Option WireHit) (so : Option ℚ) (ws : List (List Edge)) :
    ∀ acc pwe pos, routeWiresFrom veq search { j with operations := old } so acc pwe pos ws = routeWiresFrom veq search j so acc pwe pos ws := by
  induction ws with
  | nil => intro _ _ _; rfl
  | cons w ws ih =>
    intro acc pwe pos
    cases w with
    | nil => rfl
    | cons e es => simp only [routeWiresFrom, forget_routeWire, ih]

theorem forget_profile (cad : Cad) (w : List Edge) (o : ℚ) (sd : Option ℚ) (tabs : Option Tabs) :
    profile cad { j with operations := old } w o sd tabs = profile cad j w o sd tabs := by
  unfold profile routeWires
  simp only [forget_routeWiresFrom]
  rfl

theorem forget_profiles (cad : Cad) (o : ℚ) (sd : Option ℚ) (tabs : Option Tabs) (ws : List (List Edge)) :
    profiles cad { j with operations := old } o sd tabs ws = profiles cad j o sd tabs ws := by
  unfold profiles
  simp only [forget_profile]

theorem forget_cqRouteSequences (cad : Cad) (so : ℚ) (ss : List (List (List Edge))) :
    ∀ cs pos, cqRouteSequences cad { j with operations := old } so cs pos ss = cqRouteSequences cad j so cs pos ss := by
  induction ss with
  | nil => intro _ _; rfl
  | cons s ss ih => intro cs pos; simp only [cqRouteSequences, routeWires, forget_routeWiresFrom, ih]

theorem forget_pocketCq {F : Type} (k : FaceKernelCq F) (fuel : ℕ) (os as : List F) (a b c d e : ℚ) :
    pocketCq k fuel { j with operations := old } os as a b c d e = pocketCq k fuel j os as a b c d e := by
  unfold pocketCq
  simp only [forget_cqRouteSequences]

theorem forget_pocketWith {F : Type} (eng : Clipper) (k : FaceKernelCq F) (view : F → CqFace) (fuel : ℕ) (os as : List F) (a : PocketArgs)
    (engine : Text) : pocketWith eng k view fuel os as a engine { j with operations := old } = pocketWith eng k view fuel os as a engine j := by
  unfold pocketWith
  simp only [forget_pocketCq, forget_pocket]
  rfl

theorem forget_drillHoles (d : ℚ) (ps : List Pt) : ∀ pos, drillHoles { j with operations := old } d pos ps = drillHoles j d pos ps := by
  induction ps with
  | nil => intro _; rfl
  | cons p ps ih => intro pos; simp only [drillHoles, ih]; rfl

theorem forget_pieceMoves (d : ℚ) (pos : AddrVec) (s : List Vec) : pieceMoves { j with operations := old } d pos s = pieceMoves j d pos s := by
  cases s <;> rfl

theorem forget_piecesMoves (d : ℚ) (ss : List (List Vec)) :
    ∀ pos, piecesMoves { j with operations := old } d pos ss = piecesMoves j d pos ss := by
  induction ss with
  | nil => intro _; rfl
  | cons s ss ih => intro pos; simp only [piecesMoves, forget_pieceMoves, ih]

theorem forget_passesMoves (ds : List ℚ) (ss : List (List Vec)) (rest : List ℚ) :
    ∀ i pos, passesMoves { j with operations := old } ds ss i pos rest = passesMoves j ds ss i pos rest := by
  induction rest with
  | nil => intro _ _; rfl
  | cons d rest ih => intro i pos; simp only [passesMoves, forget_piecesMoves, ih]

end

theorem forgetful_pocket (eng : Clipper) (veq : Vec → Vec → Bool) (box : List Edge → List (List Edge) → ℚ × ℚ) (fuel : ℕ)
    (os as : List WorldFace) (a : PocketArgs) (t : Option Tool) : Forgetful (pocketPlacedRequest eng veq box fuel os as a t) :=
  ⟨fun _ _ => rfl, fun j old => forget_pocket j old eng veq fuel _ _ a⟩

theorem forgetful_pocketWith {F : Type} (eng : Clipper) (k : FaceKernelCq F) (view : F → CqFace) (fuel : ℕ) (os as : List F) (a : PocketArgs)
    (engine : Text) (t : Option Tool) :
    Forgetful { opName := "Pocket".toList, tool := t, gen := pocketWith eng k view fuel os as a engine } :=
  ⟨fun _ _ => rfl, fun j old => forget_pocketWith j old eng k view fuel os as a engine⟩

theorem forgetful_wireProfile (cad : Cad) (ws : List (List Edge)) (o : ℚ) (sd : Option ℚ) (tabs : Option Tabs) (t : Option Tool) :
    Forgetful (wireProfileRequest cad ws o sd tabs t) :=
  ⟨fun _ _ => rfl, fun j old => forget_profiles j old cad o sd tabs ws⟩

theorem forgetful_profile (cad : Cad) (ss : List Shape) (oo io : Option ℚ) (sd : Option ℚ) (tabs : Option Tabs) (t : Option Tool) :
    Forgetful (profileRequest cad ss oo io sd tabs t) := by
  refine ⟨fun _ _ => rfl, fun j old => ?_⟩
  have h : ∀ o ws, profilesOpt cad { j with operations := old } o sd tabs ws = profilesOpt cad j o sd tabs ws := by
    intro o ws
    cases o with
    | none => rfl
    | some o => exact forget_profiles j old cad o sd tabs ws
  simp only [profileRequest, h]

theorem forgetful_drill (center : List Edge → Except Err Vec) (o : Option (List DrillObj)) (d : Option ℚ) (t : Option Tool) :
    Forgetful (drillRequest center o d t) := by
  refine ⟨fun _ _ => rfl, fun j old => ?_⟩
  simp only [drillRequest, drill, forget_drillHoles]

theorem forgetful_surface (eng : SurfaceEngine) (k : FaceKernel) (args : SurfaceArgs) (oo : ℚ × ℚ) (io : Option (ℚ × ℚ)) (bs : List BoundaryFace) :
    Forgetful (surface3dRequest eng k args oo io bs) := by
  refine ⟨fun _ _ => rfl, fun j old => ?_⟩
  have h : ∀ polygon, surfaceBoundary eng args { j with operations := old } polygon = surfaceBoundary eng args j polygon := by
    intro polygon
    unfold surfaceBoundary
    simp only [forget_passesMoves]
  change surface3d eng k args oo io bs _ = surface3d eng k args oo io bs _
  unfold surface3d
  simp only [h]

theorem forgetful_surfaceCall {F : Type} (c : SurfaceCad F) (k : FaceKernel) (args : SurfaceArgs) (oo : OffsetInput) (io : Option OffsetInput)
    (sel : List (Selected F)) : Forgetful { opName := "Surface 3D".toList, tool := none, gen := surface3dCall c k args oo io sel } := by
  refine ⟨fun _ _ => rfl, fun j old => ?_⟩
  have h : ∀ eng oo io bs, surface3d eng k args oo io bs { j with operations := old } = surface3d eng k args oo io bs j :=
    fun eng oo io bs => (forgetful_surface eng k args oo io bs).gen j old
  change surface3dCall c k args oo io sel _ = surface3dCall c k args oo io sel _
  unfold surface3dCall
  simp only [h]

theorem forgetful_mesh (m : SurfaceLibs) (k : FaceKernel) (shape : CadShape) (bottom : ℚ) (args : SurfaceArgs) (oo : ℚ × ℚ)
    (io : Option (ℚ × ℚ)) (bs : List BoundaryFace) : Forgetful (surface3dMeshRequest m k shape bottom args oo io bs) := by
  refine ⟨fun _ _ => rfl, fun j old => ?_⟩
  have h : ∀ polygon, surfaceBoundaryMesh m shape bottom args { j with operations := old } polygon =
      surfaceBoundaryMesh m shape bottom args j polygon := by
    intro polygon
    unfold surfaceBoundaryMesh
    simp only [forget_passesMoves]
  change surface3dMesh m k shape bottom args oo io bs _ = surface3dMesh m k shape bottom args oo io bs _
  unfold surface3dMesh
  simp only [h]

end CQ
