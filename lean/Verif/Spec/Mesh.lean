import Verif.Model.Mesh
import Verif.Spec.Surface

/-!
# Specification: the part as the tool meets it

Points of meshed faces, and a tool standing clear of them.  Nothing here mentions the operation.
-/

namespace CQ

/-- `v` is a point of the triangle. -/
def OnTriangle (t : Tri) (v : Vec) : Prop :=
  ∃ α β γ : ℚ, 0 ≤ α ∧ 0 ≤ β ∧ 0 ≤ γ ∧ α + β + γ = 1 ∧
    v = ⟨α * t.a.x + β * t.b.x + γ * t.c.x, α * t.a.y + β * t.b.y + γ * t.c.y, α * t.a.z + β * t.b.z + γ * t.c.z⟩

/-- `v` is a point of the face, where the face is: a point of a triangle of its mesh, put in its place. -/
def OnFace (f : MeshedFace) (v : Vec) : Prop :=
  ∃ t a b c p q r u, f.mesh = some t ∧ (a + 1, b + 1, c + 1) ∈ t.triangles ∧ t.nodes[a]? = some p ∧ t.nodes[b]? = some q ∧
    t.nodes[c]? = some r ∧ OnTriangle ⟨p, q, r⟩ u ∧ v = f.place u

/-- The faces of a shape. -/
def CadShape.faces : CadShape → List MeshedFace
  | .face f => [f]
  | .compound fs => fs
  | .other fs => fs

/-- `v` is a point of a face of the shape. -/
def OnShape (s : CadShape) (v : Vec) : Prop := ∃ f ∈ s.faces, OnFace f v

/-- The face is where its geometry is. -/
def Unplaced (f : MeshedFace) : Prop := ∀ v, f.place v = v

/-- A tool, as the set of points in it, relative to its tip.  It reaches up without end. -/
structure Cutter where
  body : Vec → Prop
  up : ∀ v h, 0 ≤ h → body v → body ⟨v.x, v.y, v.z + h⟩

/-- With its tip over `p` at the height `z`, the tool has none of the points in it. -/
def ClearAt (c : Cutter) (points : Vec → Prop) (p : Pt) (z : ℚ) : Prop :=
  ∀ v, points v → ¬ c.body ⟨v.x - p.x, v.y - p.y, v.z - z⟩

/-- What a drop cutter does: for each point a height, not below the given one, at which the tool is clear of all triangles. -/
def DropsClear (c : Cutter) (drop : List Tri → ℚ → List Pt → List ℚ) : Prop :=
  ∀ tris z, ∃ h : Pt → ℚ, (∀ ps, drop tris z ps = ps.map h) ∧
    ∀ p, z ≤ h p ∧ ClearAt c (fun v => ∃ t ∈ tris, OnTriangle t v) p (h p)

/-- The mesh of a face is there and its triangles have corners. -/
def ProperMesh (f : MeshedFace) : Prop :=
  ∃ t, f.mesh = some t ∧ ∀ n ∈ t.triangles, ∀ i ∈ [n.1, n.2.1, n.2.2], 1 ≤ i ∧ i ≤ t.nodes.length

/-- A cylindrical cutter (`ocl.CylCutter`) of radius `r`. -/
def cylinder (r : ℚ) : Cutter where
  body v := v.x ^ 2 + v.y ^ 2 < r ^ 2 ∧ 0 < v.z
  up v h hh hb := ⟨hb.1, by have := hb.2; simp only; linarith⟩

end CQ
