import Verif.Spec.Machining
import Verif.Model.Drill
import Verif.Model.Op3d
import Verif.Model.Pocket
import Verif.Model.Profile

/-!
# Specification: the operations of the library
-/

namespace CQ

/-- The operations of the library. -/
inductive LibraryRequest : Request → Prop
  | pocket (eng : Clipper) (veq : Vec → Vec → Bool) (fuel : ℕ) (opAreas avoidAreas : List CqFace) (a : PocketArgs)
      (tool : Option Tool) : LibraryRequest (pocketRequest eng veq fuel opAreas avoidAreas a tool)
  | profile (cad : Cad) (shapes : List Shape) (outerOffset innerOffset stepdown : Option ℚ) (tabs : Option Tabs)
      (tool : Option Tool) : LibraryRequest (profileRequest cad shapes outerOffset innerOffset stepdown tabs tool)
  | wireProfile (cad : Cad) (wires : List (List Edge)) (offset : ℚ) (stepdown : Option ℚ) (tabs : Option Tabs)
      (tool : Option Tool) : LibraryRequest (wireProfileRequest cad wires offset stepdown tabs tool)
  | drill (center : List Edge → Except Err Vec) (o : Option (List DrillObj)) (depth : Option ℚ) (tool : Option Tool) :
      LibraryRequest (drillRequest center o depth tool)
  | surface3d (eng : SurfaceEngine) (k : FaceKernel) (args : SurfaceArgs) (oo : ℚ × ℚ) (io : Option (ℚ × ℚ))
      (bs : List BoundaryFace) : LibraryRequest (surface3dRequest eng k args oo io bs)

/-- The operations of the library that give their moves a feed: all but 3D surfacing. -/
inductive FeedRequest : Request → Prop
  | pocket (eng : Clipper) (veq : Vec → Vec → Bool) (fuel : ℕ) (opAreas avoidAreas : List CqFace) (a : PocketArgs)
      (tool : Option Tool) : FeedRequest (pocketRequest eng veq fuel opAreas avoidAreas a tool)
  | profile (cad : Cad) (shapes : List Shape) (outerOffset innerOffset stepdown : Option ℚ) (tabs : Option Tabs)
      (tool : Option Tool) : FeedRequest (profileRequest cad shapes outerOffset innerOffset stepdown tabs tool)
  | wireProfile (cad : Cad) (wires : List (List Edge)) (offset : ℚ) (stepdown : Option ℚ) (tabs : Option Tabs)
      (tool : Option Tool) : FeedRequest (wireProfileRequest cad wires offset stepdown tabs tool)
  | drill (center : List Edge → Except Err Vec) (o : Option (List DrillObj)) (depth : Option ℚ) (tool : Option Tool) :
      FeedRequest (drillRequest center o depth tool)

/-- Pockets and profiles. -/
inductive ContourRequest : Request → Prop
  | pocket (eng : Clipper) (veq : Vec → Vec → Bool) (fuel : ℕ) (opAreas avoidAreas : List CqFace) (a : PocketArgs)
      (tool : Option Tool) : ContourRequest (pocketRequest eng veq fuel opAreas avoidAreas a tool)
  | profile (cad : Cad) (shapes : List Shape) (outerOffset innerOffset stepdown : Option ℚ) (tabs : Option Tabs)
      (tool : Option Tool) : ContourRequest (profileRequest cad shapes outerOffset innerOffset stepdown tabs tool)
  | wireProfile (cad : Cad) (wires : List (List Edge)) (offset : ℚ) (stepdown : Option ℚ) (tabs : Option Tabs)
      (tool : Option Tool) : ContourRequest (wireProfileRequest cad wires offset stepdown tabs tool)

/-- The machine moves straight down or up. -/
def Vertically (e : Event) : Prop := ∃ k tgt ctr, e.act = .move k tgt ctr ∧ tgt.x = e.st.pos.x ∧ tgt.y = e.st.pos.y

end CQ
