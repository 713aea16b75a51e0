import Verif.Model.Op3dCall
import Verif.Spec.EdgePath

/-! # Specification: boundaries of 3D surfacing -/

namespace CQ

/-- `faces` (outlines with holes) is the boundary `b` with its outline offset by `outer` and its holes by `inner`: the outlines
are the offset outlines, and every offset hole that is inside an outline is a hole of the first such outline. -/
def OffsetBoundaryTo (k : FaceKernel) (outer inner : ℚ) (b : BoundaryFace) (faces : List (List Edge × List (List Edge))) : Prop :=
  ∃ outers holes, k.offset2D b.outer outer = .ok outers ∧
    List.Forall₂ (fun w hs => k.offset2D w inner = .ok hs) b.inners holes ∧
    faces.map Prod.fst = outers ∧
    ∀ before o hs after, faces = before ++ (o, hs) :: after →
      hs = holes.flatten.filter (fun h => k.inside h o && before.all (fun f => !k.inside h f.1))

/-- The distance meant by an offset argument of surfacing: a multiple of the tool diameter, or that and a constant. -/
def OffsetInput.ofDiameter (diameter : ℚ) : OffsetInput → ℚ
  | .mult m => m * diameter
  | .multDist m d => m * diameter + d

/-- `f` is made of the wires `ws`: the one with the largest area is its outline, all others are its holes. -/
def MadeOf {F : Type} (c : SurfaceCad F) (ws : List (List Edge)) (f : F) : Prop :=
  ∃ o hs, c.make o hs = .ok f ∧ (o :: hs).Perm ws ∧ ∀ h ∈ hs, ∃ a b, c.area o = .ok a ∧ c.area h = .ok b ∧ b ≤ a

/-- The points after the start of the edge, in travel direction, at equal distances along it, up to its end: only the end for
straight edges; for others at most 1/5 apart (measured along the edge). -/
def FlattenedEdge (e : Edge) (pts : List Vec) : Prop :=
  ∃ n : ℕ, 1 ≤ n ∧ pts = (List.range n).map (fun k : ℕ => e.travel ((k + 1 : ℚ) / n)) ∧
    (e.geom = .line → n = 1) ∧ (e.geom ≠ .line → e.length / n ≤ 1 / 5)

/-- Edges that are curved for the flattening. -/
def Edge.curved (e : Edge) : Prop := e.geom = .arc ∨ e.geom = .circle ∨ e.geom = .offset

end CQ
