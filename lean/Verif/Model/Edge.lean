import Verif.Model.Geometry
import Verif.Model.Fluent
import Verif.Py.Float

/-!
# Model of CAD edges and of the edge helpers

cadquery/OpenCASCADE edges are not part of `/repo`; an `Edge` records the answers to the questions the code asks.
-/

namespace CQ

/-- `edge.geomType()`, as far as the code distinguishes. -/
inductive Geom | line | arc | circle | bspline | spline | offset | other
deriving DecidableEq, Repr

/-- An edge, through the methods the code calls on it. -/
structure Edge where
  /-- identity of the underlying shape (`==` on edges) -/
  id : ℕ
  /-- `geomType()` -/
  geom : Geom
  /-- for `OFFSET` edges the type of the basis curve (`get_underlying_geom_type`,
  src/cq_cam/utils/interpolation.py:31-33); `none` if it is not in the table (`KeyError`) -/
  basis : Option Geom := none
  /-- `wrapped.Orientation() == TopAbs_REVERSED` -/
  reversed : Bool := false
  /-- `startPoint()`, ignoring the orientation -/
  startPoint : Vec
  /-- `endPoint()`, ignoring the orientation -/
  endPoint : Vec
  /-- `positionAt(p, "parameter")` -/
  posParam : ℚ → Vec
  /-- `positionAt(d)`, `d` a fraction of the length -/
  posLen : ℚ → Vec
  /-- `paramAt(d)` -/
  paramAt : ℚ → ℚ
  /-- `Closed()` -/
  closed : Bool := false
  /-- `arcCenter()` -/
  center : Vec := ⟨0, 0, 0⟩
  /-- `normal()` -/
  normal : Vec := ⟨0, 0, 1⟩
  /-- `Length()` -/
  length : ℚ

/-- src/cq_cam/utils/utils.py:21-26 `edge_end_point`. -/
def edgeEndPoint (e : Edge) : Vec := if e.reversed then e.startPoint else e.endPoint

/-- src/cq_cam/utils/utils.py:29-34 `edge_start_point`. -/
def edgeStartPoint (e : Edge) : Vec := if e.reversed then e.endPoint else e.startPoint

/-- src/cq_cam/utils/utils.py:37-41 `edge_start_param`. -/
def edgeStartParam (e : Edge) : ℚ := if e.reversed then e.paramAt 1 else e.paramAt 0

/-- src/cq_cam/utils/utils.py:44-48 `edge_end_param`. -/
def edgeEndParam (e : Edge) : ℚ := if e.reversed then e.paramAt 0 else e.paramAt 1

/-- src/cq_cam/utils/utils.py:51-55 `edge_oriented_param`. -/
def edgeOrientedParam (e : Edge) (p1 p2 : ℚ) : ℚ × ℚ × Bool :=
  if e.reversed then (1 - p2, 1 - p1, true) else (p1, p2, false)

/-- src/cq_cam/utils/utils.py:58-63 `edge_start_end`. -/
def edgeStartEnd (e : Edge) : Vec × Vec := if e.reversed then (e.endPoint, e.startPoint) else (e.startPoint, e.endPoint)

/-- `np.linspace(a, b, n)` for `n ≥ 2` (the only use here). -/
def linspace (a b : ℚ) (n : ℕ) : List ℚ := (List.range n).map (fun i : ℕ => a + i * ((b - a) / (n - 1 : ℚ)))

/-- src/cq_cam/utils/interpolation.py:91-92 `edge_interpolation_count`. -/
def edgeInterpolationCount (e : Edge) (precision : ℕ) : ℕ := (max (pyInt (e.length * 10 ^ precision)) 2).toNat

/-- The fractions src/cq_cam/utils/interpolation.py:38-47 and src/cq_cam/routers.py:211-219 go through. -/
def interpolationSpace (e : Edge) (precision : ℕ) : List ℚ :=
  let n := edgeInterpolationCount e precision
  if e.reversed then linspace 1 0 n else linspace 0 1 n

/-- src/cq_cam/utils/interpolation.py:36-50 `interpolate_edge_to_vectors`. -/
def interpolateEdgeToVectors (e : Edge) (precision : ℕ) : List Vec := (interpolationSpace e precision).map e.posLen

/-- src/cq_cam/utils/interpolation.py:57-65 `edge_to_vectors`. -/
def edgeToVectors (e : Edge) (precision : ℕ) : Except Err (List Vec) :=
  if e.geom = .offset then
    match e.basis with
    | none => .error .keyError
    | some .line => .ok [(edgeStartEnd e).1, (edgeStartEnd e).2]
    | some _ => .ok (interpolateEdgeToVectors e precision)
  else if e.geom = .line then .ok [(edgeStartEnd e).1, (edgeStartEnd e).2]
  else .ok (interpolateEdgeToVectors e precision)

/-- The loop src/cq_cam/utils/interpolation.py:76-77. -/
def edgesToVectors (precision : ℕ) : List Vec → List Edge → Except Err (List Vec)
  | vs, [] => .ok vs
  | vs, e :: es =>
      match edgeToVectors e precision with
      | .error x => .error x
      | .ok ws => edgesToVectors precision (vs ++ ws.tail) es

/-- src/cq_cam/utils/interpolation.py:68-88 `wire_to_vectors` on the ordered edges of the wire
(`wire_to_ordered_edges`, src/cq_cam/utils/utils.py:130-147, walks OpenCASCADE's wire explorer).  `veq` is
cadquery's tolerant `==` on vectors. -/
def wireToVectors (veq : Vec → Vec → Bool) (edges : List Edge) (precision : ℕ) (close : Bool := true) :
    Except Err (List Vec) :=
  match edges with
  | [] => .ok []
  | e :: es =>
      match edgeToVectors e precision with
      | .error x => .error x
      | .ok vs =>
          match edgesToVectors precision vs es with
          | .error x => .error x
          | .ok vectors =>
              if vectors.length = 1 then .error .valueError
              else
                match vectors.head?, vectors.getLast? with
                | some a, some b =>
                    if close && !veq a b then .ok (vectors ++ [a])
                    else if !close && veq a b then .ok vectors.dropLast
                    else .ok vectors
                | _, _ => .error .indexError

/-- src/cq_cam/utils/interpolation.py:53-54 `vectors_to_2d_tuples`. -/
def vectorsTo2d (vs : List Vec) : List Pt := vs.map (fun v => ⟨v.x, v.y⟩)

/-- src/cq_cam/utils/geometry_op.py:138-139 `wire_to_path`. -/
def wireToPath (veq : Vec → Vec → Bool) (edges : List Edge) (precision : ℕ) : Except Err (List Pt) :=
  match wireToVectors veq edges precision with
  | .error x => .error x
  | .ok vs => .ok (vectorsTo2d vs)

end CQ
