import Verif.Model.Pocket

/-!
# Model of the scaling around pyclipper (`src/cq_cam/utils/geometry_op.py`)

pyclipper works on integers.  Its helpers `scale_to_clipper` and `scale_from_clipper` (not part of `/repo`) multiply by
2³¹ and cut off the fraction (C's conversion of a double to an integer, towards zero), and divide by 2³¹.  The division is
exact for coordinates below 2²² mm, the multiplication always (a power of two); pyclipper's range check is one of the
errors its calls may raise.

`IntClipper.scaled` is the `Clipper` that the rest of the pocket uses.
-/

namespace CQ

/-- A point as pyclipper sees it. -/
structure IPt where
  x : ℤ
  y : ℤ
deriving DecidableEq, Repr

/-- `pc.scale_to_clipper` on a number. -/
def scaleTo (q : ℚ) : ℤ := if 0 ≤ q then ⌊q * 2 ^ 31⌋ else ⌈q * 2 ^ 31⌉

/-- `pc.scale_from_clipper` on a number. -/
def scaleFrom (n : ℤ) : ℚ := n / 2 ^ 31

/-- `pc.scale_to_clipper` on a point of a path. -/
def scalePt (p : Pt) : IPt := ⟨scaleTo p.x, scaleTo p.y⟩

/-- `pc.scale_from_clipper` on a point of a path. -/
def unscalePt (p : IPt) : Pt := ⟨scaleFrom p.x, scaleFrom p.y⟩

/-- A node of pyclipper's result tree, in integers. -/
inductive INode where
  | node (contour : List IPt) (childs : List INode)

mutual
/-- src/cq_cam/utils/geometry_op.py:185-189 `pc.scale_from_clipper(face.Contour)`, for a node and its children. -/
def INode.unscale : INode → PolyNode
  | .node c cs => .node (c.map unscalePt) (unscaleNodes cs)
/-- The same for a list of nodes. -/
def unscaleNodes : List INode → List PolyNode
  | [] => []
  | n :: ns => n.unscale :: unscaleNodes ns
end

/-- The answers of pyclipper, on integers.  All may raise. -/
structure IntClipper where
  /-- `CleanPolygons(PyclipperOffset(_, t).Execute(o), t)` of a closed polygon with round joins: path, offset `o`,
  tolerance `t` -/
  offset : List IPt → ℤ → ℤ → Except Err (List (List IPt))
  /-- `Execute2(CT_UNION)` -/
  union : List (List IPt) → List (List IPt) → Except Err (List INode)
  /-- `Execute2(CT_DIFFERENCE)` -/
  difference : List (List IPt) → List (List IPt) → Except Err (List INode)
  /-- shapely's `contains`, which is not scaled -/
  contains : PathFace → PathFace → Bool

/-- src/cq_cam/utils/geometry_op.py:120 `pc.scale_to_clipper(10**-precision / 2)`. -/
def scaledPrecision (precision : ℕ) : ℤ := scaleTo (1 / 10 ^ precision / 2)

/-- src/cq_cam/utils/geometry_op.py:102-134: scaling around the offset (without `close_path`, which is in
`offsetPath`). -/
def scaledOffset (e : IntClipper) (path : List Pt) (offset : ℚ) (precision : ℕ) : Except Err (List (List Pt)) :=
  match e.offset (path.map scalePt) (scaleTo offset) (scaledPrecision precision) with
  | .error er => .error er
  | .ok qs => .ok (qs.map (fun q => q.map unscalePt))

/-- src/cq_cam/utils/geometry_op.py:213-226, 236-241 `prepare_path_boolean_op`, `boolean_op_poly_tree`: scaling around a
boolean operation. -/
def scaledBoolean (op : List (List IPt) → List (List IPt) → Except Err (List INode)) (subjects clips : List (List Pt)) :
    Except Err (List PolyNode) :=
  match op (subjects.map (fun s => s.map scalePt)) (clips.map (fun c => c.map scalePt)) with
  | .error er => .error er
  | .ok tree => .ok (unscaleNodes tree)

/-- The engine used by the pocket. -/
def IntClipper.scaled (e : IntClipper) : Clipper where
  offset := scaledOffset e
  union := scaledBoolean e.union
  difference := scaledBoolean e.difference
  contains := e.contains

end CQ
