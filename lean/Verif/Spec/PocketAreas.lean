import Verif.Spec.Pocket

/-! # Specification: the areas of a pocket -/

namespace CQ

/-- The contours of the outline `p` offset by `o`: what the offset engine answers, without empty contours, each
closed. -/
def OffsetContours (eng : Clipper) (o : ℚ) (precision : ℕ) (p : List Pt) (qs : List (List Pt)) : Prop :=
  ∃ raw, eng.offset p o precision = .ok raw ∧ List.Forall₂ ClosedAs (raw.filter (fun q => decide (q ≠ []))) qs

/-- `gs` is the face `f` with its outline offset by `outer` and its holes offset by `inner`: without holes one face for
each contour of the outline, with holes the outline's contours minus the holes' contours; all at the same depth. -/
def OffsetFaces (eng : Clipper) (outer inner : ℚ) (precision : ℕ) (f : PathFace) (gs : List PathFace) : Prop :=
  ∃ outlines, OffsetContours eng outer precision f.outer outlines ∧
    if f.inners = [] then gs = outlines.map (fun o => ⟨o, [], f.depth⟩)
    else ∃ holes tree, List.Forall₂ (OffsetContours eng inner precision) f.inners holes ∧
      eng.difference outlines holes.flatten = .ok tree ∧
      List.Forall₂ (fun n g => ClosedAs n.contour g.outer ∧ g.depth = f.depth ∧
        List.Forall₂ (fun c q => ClosedAs c.contour q) n.childs g.inners) tree gs

/-- `f` is the flat face `c` as polygons: every wire polygonised, at the height of the face. -/
def FlatFace (veq : Vec → Vec → Bool) (precision : ℕ) (c : CqFace) (f : PathFace) : Prop :=
  pyRound c.zmin 3 = pyRound c.zmax 3 ∧ wireToPath veq c.outerWire precision = .ok f.outer ∧
    List.Forall₂ (fun w p => wireToPath veq w precision = .ok p) c.innerWires f.inners ∧ f.depth = c.zmax

/-- The distance meant by an offset argument for a tool of radius `r`, if not given `k` tool radii. -/
def offsetDistance (r k : ℚ) : Option OffsetInput → ℚ
  | none => k * r
  | some (.mult m) => m * r
  | some (.multDist m d) => m * r + d

end CQ
