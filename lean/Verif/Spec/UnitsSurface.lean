import Verif.Spec.Units
import Verif.Spec.SurfaceTotal

/-! # Specification: 3D surfacing in other units -/

namespace CQ

/-- A boundary in the new units. -/
def BoundaryFace.conv (κ : Units) (b : BoundaryFace) : BoundaryFace :=
  { b with outer := b.outer.map (Edge.conv κ), inners := b.inners.map (List.map (Edge.conv κ)) }

/-- The arguments of a 3D operation in the new units; the stepover is a part of the tool diameter. -/
def SurfaceArgs.conv (κ : Units) (a : SurfaceArgs) : SurfaceArgs where
  toolDiameter := κ.c * a.toolDiameter
  interpolationStep := κ.c * a.interpolationStep
  topHeight := κ.c * a.topHeight
  stepover := a.stepover
  stepdown := a.stepdown.map (κ.c * ·)

/-- An offset, a multiple of the tool diameter and a distance, in the new units. -/
def convOffset (κ : Units) (o : ℚ × ℚ) : ℚ × ℚ := (o.1, κ.c * o.2)

/-- A piece of a line in the new units. -/
def convLine (κ : Units) (l : Pt × Pt) : Pt × Pt := (l.1.conv κ, l.2.conv κ)

/-- A rectangle (left, top, right, bottom) in the new units. -/
def convBounds (κ : Units) (b : ℚ × ℚ × ℚ × ℚ) : ℚ × ℚ × ℚ × ℚ := (κ.c * b.1, κ.c * b.2.1, κ.c * b.2.2.1, κ.c * b.2.2.2)

/-- The answers of the CAD kernel in the new units are its answers, in the new units. -/
structure FaceKernelUnits (κ : Units) (k : FaceKernel) : Prop where
  offset2D : ∀ w o, k.offset2D (w.map (Edge.conv κ)) (κ.c * o) = (k.offset2D w o).map (List.map (List.map (Edge.conv κ)))
  makeFace : ∀ o is, k.makeFace (o.map (Edge.conv κ)) (is.map (List.map (Edge.conv κ))) = k.makeFace o is
  inside : ∀ i o, k.inside (i.map (Edge.conv κ)) (o.map (Edge.conv κ)) = k.inside i o

/-- `eng'` answers for the part in the new units what `eng` answers for the part, in the new units. -/
structure SurfaceUnits (κ : Units) (eng eng' : SurfaceEngine) : Prop where
  norm : ∀ v, eng'.norm (Pt.conv κ v) = κ.c * eng.norm v
  strict : eng'.strict = eng.strict
  bottom : eng'.bottom = κ.c * eng.bottom
  drop : ∀ ps, eng'.drop (ps.map (Pt.conv κ)) = (eng.drop ps).map (κ.c * ·)
  bounds : ∀ bs, eng'.scan.bounds (bs.map (List.map (Pt.conv κ))) = convBounds κ (eng.scan.bounds bs)
  diagonal : ∀ b, eng'.scan.diagonal (convBounds κ b) = κ.c * eng.scan.diagonal b
  clip : ∀ bs ls, eng'.scan.clip (bs.map (List.map (Pt.conv κ))) (ls.map (convLine κ)) = (eng.scan.clip bs ls).map (List.map (convLine κ))

/-- The edge becomes as many points in either units: it is straight, or it has as many tenths of a unit. -/
def TenthsAlike (κ : Units) (e : Edge) : Prop := e.geom = .line ∨ ⌈10 * (κ.c * e.length)⌉ = ⌈10 * e.length⌉

/-- The scanlines of the polygon are those of the polygon in the new units: the square around it (whose sides have the length of the
diagonal of the polygon's rectangle), enlarged to whole units, is the same in either units, and an end of a scanline is within the
fixed tolerance from a side of the polygon in both units or in none. -/
structure ScanAlike (κ : Units) (scan : ScanClipper) (step : ℚ) (poly : List Pt) : Prop where
  down : ∀ l t r b h, scan.bounds [poly] = (l, t, r, b) → scan.diagonal (l, t, r, b) = 2 * h → ∀ m ∈ [(l + r) / 2, (t + b) / 2],
    (⌊κ.c * (m - h)⌋ : ℚ) = κ.c * ⌊m - h⌋
  up : ∀ l t r b h, scan.bounds [poly] = (l, t, r, b) → scan.diagonal (l, t, r, b) = 2 * h → ∀ m ∈ [(l + r) / 2, (t + b) / 2],
    (⌈κ.c * (m + h)⌉ : ℚ) = κ.c * ⌈m + h⌉
  near : ∀ lines, ScansTo scan poly step lines → ∀ q ∈ lineEnds lines, ∀ seg ∈ segments poly,
    (NearSegment (convLine κ seg) (Pt.conv κ q) ↔ NearSegment seg q)

end CQ
