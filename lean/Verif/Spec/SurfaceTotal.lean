import Verif.Spec.ZigZag
import Verif.Spec.SurfaceBoundary
import Verif.Model.Op3d

/-! # Specification: 3D surfacing that can be made -/

namespace CQ

/-- pyclipper cuts the lines `step` apart to the pieces `lines` inside the polygon. -/
def ScansTo (scan : ScanClipper) (poly : List Pt) (step : ℚ) (lines : List (Pt × Pt)) : Prop :=
  ∃ templates, scanTemplates scan [poly] step = .ok templates ∧ scan.clip [poly] templates = .ok lines

/-- Different vertices, and scanlines with different ends, none of them at a vertex. -/
def OrdinaryScan (poly : List Pt) (lines : List (Pt × Pt)) : Prop :=
  poly.Nodup ∧ (lineEnds lines).Nodup ∧ ∀ q ∈ lineEnds lines, q ∉ poly

/-- The end of a scanline is within the tolerance from a segment of the polyline. -/
def NearOutline (poly : List Pt) (q : Pt) : Prop := ∃ seg ∈ segments poly, NearSegment seg q

/-- A first pass at `top + stepdown` lies strictly between the top and the lowest point; a stepdown of zero is none. -/
def HasFirstPass (stepdown : Option ℚ) (top bottom : ℚ) : Prop :=
  ∀ s, stepdown = some s → s ≠ 0 → 0 < s ∧ top + s < bottom ∨ s < 0 ∧ bottom < top + s

/-- The polygon can be surfaced: scanlines a non-zero step apart hit it, all of them end on its outline, the interpolation step is
not zero, and there is a first pass. -/
def CanSurface (eng : SurfaceEngine) (args : SurfaceArgs) (poly : List Pt) : Prop :=
  ∃ lines, ScansTo eng.scan poly (args.toolDiameter * args.stepover) lines ∧ lines ≠ [] ∧
    (∀ q ∈ lineEnds lines, NearOutline poly q) ∧ args.interpolationStep ≠ 0 ∧
    HasFirstPass args.stepdown args.topHeight eng.bottom

/-- Why the polygon cannot be surfaced, and the exception the user sees, in the order in which the reasons are found. -/
def CannotSurface (eng : SurfaceEngine) (args : SurfaceArgs) (poly : List Pt) (x : Err) : Prop :=
  args.toolDiameter * args.stepover = 0 ∧ x = .zeroDivision ∨
  (∃ templates, scanTemplates eng.scan [poly] (args.toolDiameter * args.stepover) = .ok templates ∧
    eng.scan.clip [poly] templates = .error x) ∨
  ∃ lines, ScansTo eng.scan poly (args.toolDiameter * args.stepover) lines ∧
    ((∃ q ∈ lineEnds lines, ¬ NearOutline poly q) ∧ x = .assertionError ∨
     lines = [] ∧ x = .indexError ∨
     lines ≠ [] ∧ (∀ q ∈ lineEnds lines, NearOutline poly q) ∧
       (args.interpolationStep = 0 ∧ x = .zeroDivision ∨
        args.interpolationStep ≠ 0 ∧ ¬ HasFirstPass args.stepdown args.topHeight eng.bottom ∧ x = .indexError))

/-- The drop cutter answers with one height for each point. -/
def AnswersAll (eng : SurfaceEngine) : Prop := ∀ ps, (eng.drop ps).length = ps.length

/-- The CAD kernel offsets all wires and makes faces of all wires. -/
def KernelWorks (k : FaceKernel) : Prop := (∀ w d, ∃ ws, k.offset2D w d = .ok ws) ∧ ∀ o hs, k.makeFace o hs = .ok ()

/-- The outlines that are surfaced: the wires the kernel offsets the outlines of the boundaries to. -/
def SurfacedOutline (k : FaceKernel) (outer : ℚ) (bs : List BoundaryFace) (w : List Edge) : Prop :=
  ∃ b ∈ bs, ∃ ws, k.offset2D b.outer outer = .ok ws ∧ w ∈ ws

/-- Straight, circular and offset edges. -/
def Flattenable (w : List Edge) : Prop := ∀ e ∈ w, e.geom = .line ∨ e.curved

end CQ
