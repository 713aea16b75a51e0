import Verif.Spec.EdgePath
import Verif.Model.Profile

/-! # Specification: passes of a profile -/

namespace CQ

/-- `e'` is the edge `e` moved up by `dz`. -/
structure RaisedEdge (dz : ℚ) (e e' : Edge) : Prop where
  travel : ∀ t, e'.travel t = ⟨(e.travel t).x, (e.travel t).y, (e.travel t).z + dz⟩
  param : ∀ p, e'.posParam p = ⟨(e.posParam p).x, (e.posParam p).y, (e.posParam p).z + dz⟩
  center : e'.center = ⟨e.center.x, e.center.y, e.center.z + dz⟩
  params : e'.fromParam = e.fromParam ∧ e'.toParam = e.toParam
  same : e'.geom = e.geom ∧ e'.basis = e.basis ∧ e'.reversed = e.reversed ∧ e'.closed = e.closed ∧
    e'.normal = e.normal ∧ e'.length = e.length

/-- The wire `w'` is the wire `w` moved up by `dz`. -/
def RaisedBy (dz : ℚ) (w w' : List Edge) : Prop := List.Forall₂ (RaisedEdge dz) w w'

/-- The bounding box moves with the wire. -/
def BoxMoves (cad : Cad) : Prop := ∀ dz w w', w ≠ [] → RaisedBy dz w w' → cad.zmin w' = cad.zmin w + dz

/-- Cutting with the top plane leaves something of every wire that reaches below the surface (by more than the
tolerance). -/
def KeepsBelow (cad : Cad) (top : Frame) : Prop :=
  ∀ w, cad.zmin w < -1 / 1000 → ∃ e ∈ cad.cutPlane top w, cad.centerZ e < 0

/-- The outer wires of a selection. -/
def outerWires : List Shape → List (List Edge)
  | [] => []
  | .wire w :: ss => w :: outerWires ss
  | .face o _ :: ss => o :: outerWires ss
  | .other :: ss => outerWires ss

/-- The inner wires of a selection. -/
def innerWires : List Shape → List (List Edge)
  | [] => []
  | .face _ i :: ss => i ++ innerWires ss
  | _ :: ss => innerWires ss

/-- The passes for the wire `base` with stepdown `s`: copies raised by `n s`, …, `2 s`, `s`, `0`, in this order.  All but
the last reach more than 0.001 below the surface, and the first one at most `s + 0.001`. -/
def Passes (cad : Cad) (s : ℚ) (base : List Edge) (layers : List (List Edge)) : Prop :=
  ∃ n : ℕ, n ≤ 100 ∧ List.Forall₂ (fun (k : ℕ) w => RaisedBy (k * s) base w) (List.range (n + 1)).reverse layers ∧
    (∀ k : ℕ, 1 ≤ k → k ≤ n → cad.zmin base + k * s < -1 / 1000) ∧
    (∀ w, layers.head? = some w → -1 / 1000 - s ≤ cad.zmin w) ∧ layers.getLast? = some base

/-- Wherever the previous pass ended, the nearest point of the wire is one of its vertices. -/
def NearestIsVertex (cad : Cad) (w : List Edge) : Prop := ∀ v h, cad.search v w = some h → ∃ d q, h = .vertex d q

/-- The contours at distance `d` from the wire that enclose more than 0.1 square units, as the kernel finds them; it is
asked again with a distance larger by 0.000001 when it fails (`ValueError`). -/
def OffsetCurves (cad : Cad) (w : List Edge) (d : ℚ) (curves : List (List Edge)) : Prop :=
  ∃ found, (cad.offset2D w d = .ok found ∨
      cad.offset2D w d = .error .valueError ∧ cad.offset2D w (d + 1 / 1000000) = .ok found) ∧
    curves.Sublist found ∧ ∀ c ∈ found, c ∈ curves ↔ ∃ a, cad.area c = .ok a ∧ 1 / 10 < a

/-- All points of the edge (also those beyond its ends) have a height satisfying `P`. -/
structure EdgeAt (P : ℚ → Prop) (e : Edge) : Prop where
  start : P e.startPoint.z
  fin : P e.endPoint.z
  param : ∀ p, P (e.posParam p).z
  len : ∀ d, P (e.posLen d).z

/-- The move ends at a height satisfying `P`. -/
def EndsAt (P : ℚ → Prop) (c : Motion) : Prop := ∃ z, c.fin.z = some z ∧ P z

end CQ
