import Verif.Spec.Pocket
import Verif.Spec.Profile
import Verif.Model.PocketCq

/-! # Specification: regions and contours of pockets made with the CAD kernel -/

namespace CQ

/-- Where the faces of a CAD kernel are, seen from above: the points they cover, and their borders. -/
structure FaceGeometry (F : Type) where
  covers : F → Pt → Prop
  border : F → Pt → Prop

/-- The point is on none of the borders. -/
def FaceGeometry.OffBorders {F : Type} (g : FaceGeometry F) (fs : List F) (p : Pt) : Prop := ∀ f ∈ fs, ¬ g.border f p

/-- The contract of the kernel: moving a face moves it; fusing and cutting faces (with at least one face to cut away) is
right at every point that is not on a border, and keeps the height of faces of equal height. -/
structure KernelOK {F : Type} (k : FaceKernelCq F) (g : FaceGeometry F) : Prop where
  move : ∀ v f p, g.covers (k.translate v f) p ↔ g.covers f ⟨p.x - v.x, p.y - v.y⟩
  moveBorder : ∀ v f p, g.border (k.translate v f) p ↔ g.border f ⟨p.x - v.x, p.y - v.y⟩
  moveHeight : ∀ v f, k.zmax (k.translate v f) = k.zmax f + v.z
  combine : ∀ fs gs, k.combine fs = .ok gs → ∀ p, g.OffBorders fs p →
    ((∃ f ∈ gs, g.covers f p) ↔ ∃ f ∈ fs, g.covers f p) ∧ g.OffBorders gs p
  combineHeight : ∀ fs gs d, k.combine fs = .ok gs → (∀ f ∈ fs, k.zmax f = d) → ∀ f ∈ gs, k.zmax f = d
  cut : ∀ f clips gs, clips ≠ [] → k.cut f clips = .ok gs → ∀ p, g.OffBorders (f :: clips) p →
    ((∃ o ∈ gs, g.covers o p) ↔ g.covers f p ∧ ∀ c ∈ clips, ¬ g.covers c p)
  cutHeight : ∀ f clips gs d, k.cut f clips = .ok gs → k.zmax f = d → (∀ c ∈ clips, k.zmax c = d) → ∀ o ∈ gs, k.zmax o = d

/-- What is to be cleared at depth `d`: all areas at depth `d` or deeper, without the avoid areas that reach depth `d`. -/
def WantedCq {F : Type} (k : FaceKernelCq F) (g : FaceGeometry F) (opAreas avoidAreas : List F) (d : ℚ) (p : Pt) : Prop :=
  (∃ f ∈ opAreas, k.zmax f ≤ d ∧ g.covers f p) ∧ ∀ a ∈ avoidAreas, d ≤ k.zmax a → ¬ g.covers a p

/-- The contours at distance `d` from the wire, or none if the kernel fails twice. -/
def ShrunkTo (cad : Cad) (w : List Edge) (d : ℚ) (curves : List (List Edge)) : Prop :=
  OffsetCurves cad w d curves ∨
    cad.offset2D w d = .error .valueError ∧ cad.offset2D w (d + 1 / 1000000) = .error .valueError ∧ curves = []

/-- What is left of the contour `w` outside the holes: the outer contours of the faces left (none if no face can be made of
the contour). -/
def LeftOf {F : Type} (k : FaceKernelCq F) (holes : List F) (w : List Edge) (cs : List (List Edge)) : Prop :=
  (∃ f fs, k.make w [] = .ok f ∧ k.cut f holes = .ok fs ∧ cs = fs.map k.outerWire) ∨
    k.make w [] = .error .stdFail ∧ cs = []

/-- `cs` are the contours that follow the contour `w` in a pocket: `w` shrunk by `step`, and if the pocket has holes, what is
left of that outside the holes. -/
def FollowsCq {F : Type} (k : FaceKernelCq F) (holes : List F) (step : ℚ) (w : List Edge) (cs : List (List Edge)) : Prop :=
  ∃ shrunk, ShrunkTo k.cad w (-step) shrunk ∧
    if holes = [] then cs = shrunk
    else ∃ pieces, List.Forall₂ (LeftOf k holes) shrunk pieces ∧ cs = pieces.flatten

/-- `fs` is the face `f` with its outline offset by `outer` and its holes by `inner`: one face for each contour of the offset
outline, each with the contours of all the offset holes. -/
def OffsetFaceTo {F : Type} (k : FaceKernelCq F) (outer inner : ℚ) (f : F) (fs : List F) : Prop :=
  ∃ outers holes, ShrunkTo k.cad (k.outerWire f) outer outers ∧
    List.Forall₂ (fun w hs => ShrunkTo k.cad w inner hs) (k.innerWires f) holes ∧
    List.Forall₂ (fun o g => k.make o holes.flatten = .ok g) outers fs

/-- `contours` are all the contours for a region: its outline and everything obtained from it by repeatedly shrinking by
`step` and removing the holes. -/
def ContoursOf {F : Type} (k : FaceKernelCq F) (step : ℚ) (region : F) (contours : List (List Edge)) : Prop :=
  ∃ holes, List.Forall₂ (fun w f => k.make w [] = .ok f) (k.innerWires region) holes ∧
    Unfolds (FollowsCq k holes step) [k.outerWire region] contours

end CQ
