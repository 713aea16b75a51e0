import Verif.Spec.Machining
import Verif.Model.Drill64
import Verif.Model.Mesh64
import Verif.Model.Pocket64
import Verif.Model.TabProfile64

/-! # Specification: the operations of the library, computed in floating point -/

namespace CQ

/-- The operations of the library, as the floating-point models compute them. -/
inductive LibraryRequest64 : Request → Prop
  | pocket (lib : MathLib) (eng : Clipper) (veq : Vec → Vec → Bool) (fuel : ℕ) (opAreas avoidAreas : List CqFace) (a : PocketArgs)
      (tool : Option Tool) : LibraryRequest64 (pocketRequest64 lib eng veq fuel opAreas avoidAreas a tool)
  | profile (cad : Cad) (shapes : List Shape) (outerOffset innerOffset stepdown : Option ℚ) (tool : Option Tool) :
      LibraryRequest64 (profileRequest64 cad shapes outerOffset innerOffset stepdown tool)
  | wireProfile (cad : Cad) (wires : List (List Edge)) (offset : ℚ) (stepdown : Option ℚ) (tool : Option Tool) :
      LibraryRequest64 (wireProfileRequest64 cad wires offset stepdown tool)
  | tabProfile (cad : Cad) (len : Edge → ℚ) (total : List Edge → ℚ) (shapes : List Shape) (outerOffset innerOffset stepdown : Option ℚ)
      (tabs : Tabs) (tool : Option Tool) :
      LibraryRequest64 (tabProfileRequest64 cad len total shapes outerOffset innerOffset stepdown tabs tool)
  | tabWireProfile (cad : Cad) (len : Edge → ℚ) (total : List Edge → ℚ) (wires : List (List Edge)) (offset : ℚ) (stepdown : Option ℚ)
      (tabs : Tabs) (tool : Option Tool) : LibraryRequest64 (tabWireProfileRequest64 cad len total wires offset stepdown tabs tool)
  | drill (sq : ℚ → ℚ) (world : Frame → Vec → Vec) (center : List Edge → Except Err Vec) (o : Option (List DrillObj)) (depth : Option ℚ)
      (tool : Option Tool) : LibraryRequest64 (drillRequest64 sq world center o depth tool)
  | surface3d (sq : ℚ → ℚ) (eng : SurfaceEngine) (k : FaceKernel) (args : SurfaceArgs) (oo : ℚ × ℚ) (io : Option (ℚ × ℚ))
      (bs : List BoundaryFace) : LibraryRequest64 (surface3dRequest64 sq eng k args oo io bs)
  | surface3dMesh (sq : ℚ → ℚ) (m : SurfaceLibs) (k : FaceKernel) (s : CadShape) (z : ℚ) (args : SurfaceArgs) (oo : ℚ × ℚ)
      (io : Option (ℚ × ℚ)) (bs : List BoundaryFace) : LibraryRequest64 (surface3dMeshRequest64 sq m k s z args oo io bs)

end CQ
