import Verif.Spec.Toolpath
import Verif.Model.Edge

/-!
# Specification: moves along CAD edges and wires
-/

namespace CQ

/-- The edge's answers are consistent with each other. -/
structure EdgeOK (e : Edge) : Prop where
  param0 : e.posParam (e.paramAt 0) = e.startPoint
  param1 : e.posParam (e.paramAt 1) = e.endPoint
  len0 : e.posLen 0 = e.startPoint
  len1 : e.posLen 1 = e.endPoint

/-- The point at fraction `t` of the length in travel direction. -/
def Edge.travel (e : Edge) (t : ℚ) : Vec := e.posLen (if e.reversed then 1 - t else t)

/-- The parameters of the edge's ends in travel direction. -/
def Edge.fromParam (e : Edge) : ℚ := e.paramAt (if e.reversed then 1 else 0)
def Edge.toParam (e : Edge) : ℚ := e.paramAt (if e.reversed then 0 else 1)

/-- Circular edges. -/
def Edge.circular (e : Edge) : Prop := e.geom = .arc ∨ e.geom = .circle
/-- Edges that are interpolated. -/
def Edge.free (e : Edge) : Prop := e.geom = .bspline ∨ e.geom = .spline ∨ e.geom = .offset

/-- Edges of a supported kind; circular ones must not lie in a vertical plane. -/
def Routable (e : Edge) : Prop := e.geom ≠ .other ∧ (e.circular → e.normal.z ≠ 0)

/-- Seen from above: with the normal up the curve runs counterclockwise, and a reversed edge is travelled
backwards. -/
def Edge.travelKind (e : Edge) : MKind := if (e.normal.z < 0) = (e.reversed = true) then .ccw else .cw

/-- A straight feed move. -/
def StraightMove (feed : PyNum) (a b : Vec) (c : Motion) : Prop :=
  c.kind = .cut ∧ c.start = .fromVec a ∧ c.fin = .fromVec b ∧ c.feed = some feed

/-- An arc move along a circular edge from parameter `p` to parameter `r`. -/
def ArcMove (feed : PyNum) (e : Edge) (p r : ℚ) (c : Motion) : Prop :=
  c.kind = e.travelKind ∧ c.start = .fromVec (e.posParam p) ∧ c.fin = .fromVec (e.posParam r) ∧
    c.feed = some feed ∧ c.center = .fromVec e.center ∧ c.mid = .fromVec (e.posParam ((p + r) / 2))

/-- Straight moves through evenly spaced points of the edge in travel direction, the first point being reached
from `start`. -/
def InterpolatedMoves (feed : PyNum) (e : Edge) (start : Vec) (cs : List Motion) : Prop :=
  ∃ n : ℕ, 2 ≤ n ∧ cs.length = n ∧ ∀ (k : ℕ) (c : Motion), cs[k]? = some c →
    StraightMove feed (if k = 0 then start else e.travel ((k - 1 : ℚ) / (n - 1 : ℚ))) (e.travel (k / (n - 1 : ℚ))) c

/-- The moves follow the edge from parameter `p` to parameter `r`: one straight move for a line; for a circular
edge one arc, two arcs meeting halfway when the edge is a closed circle, or a straight move when the two ends are
equal up to the tolerance `veq`; interpolation for other curves (whole edges only). -/
def MovesAlong (veq : Vec → Vec → Bool) (feed : PyNum) (e : Edge) (p r : ℚ) (cs : List Motion) : Prop :=
  (e.geom = .line ∧ ∃ c, cs = [c] ∧ StraightMove feed (e.posParam p) (e.posParam r) c) ∨
  (e.circular ∧ e.closed = true ∧ ∃ c1 c2, cs = [c1, c2] ∧ ArcMove feed e p ((p + r) / 2) c1 ∧
    ArcMove feed e ((p + r) / 2) r c2) ∨
  (e.circular ∧ e.closed = false ∧ ((veq (e.posParam p) (e.posParam r) = true ∧
      ∃ c, cs = [c] ∧ StraightMove feed (e.posParam p) (e.posParam r) c) ∨
    (veq (e.posParam p) (e.posParam r) = false ∧ ∃ c, cs = [c] ∧ ArcMove feed e p r c))) ∨
  (e.free ∧ p = e.fromParam ∧ r = e.toParam ∧ InterpolatedMoves feed e (e.travel 0) cs)

/-- The moves follow the whole edge in travel direction. -/
def MovesAlongEdge (veq : Vec → Vec → Bool) (feed : PyNum) (e : Edge) (cs : List Motion) : Prop :=
  MovesAlong veq feed e e.fromParam e.toParam cs

/-- The edges follow each other. -/
def Chained : List Edge → Prop
  | a :: b :: es => a.travel 1 = b.travel 0 ∧ Chained (b :: es)
  | _ => True

/-- The last edge ends where the first one starts. -/
def Closes (edges : List Edge) : Prop :=
  ∀ a b, edges.head? = some a → edges.getLast? = some b → b.travel 1 = a.travel 0

/-- A wire that can be routed. -/
structure WireOK (edges : List Edge) : Prop where
  nonempty : edges ≠ []
  edgeOK : ∀ e ∈ edges, EdgeOK e
  routable : ∀ e ∈ edges, Routable e
  distinct : edges.Pairwise (fun a b => a.id ≠ b.id)

/-- Another starting edge. -/
def rotateEdges (k : ℕ) (edges : List Edge) : List Edge := edges.drop k ++ edges.take k

/-- An approach: rapids and vertical feed moves only. -/
def IsApproach (cs : List Motion) : Prop := ∀ c ∈ cs, c.kind.mot = .rapid ∨ (c.kind = .plungeCut ∧ ¬ Lateral c)

/-- Squared length. -/
def Vec.sq (v : Vec) : ℚ := v.x * v.x + v.y * v.y + v.z * v.z

/-- A straight cut to a point that is (up to the tolerance `veq`) at distance at most `s` from its start. -/
def IsShortLink (veq : Vec → Vec → Bool) (feed : PyNum) (s : ℚ) (c : Motion) : Prop :=
  c.kind = .cut ∧ c.feed = some feed ∧ ∃ v q t : Vec, c.start = .fromVec v ∧ c.fin = .fromVec t ∧
    (t = q ∨ veq t q = true) ∧ (v.sub q).sq ≤ s * s

/-- The moves for one wire when it is entered at the start of an edge: an approach to the start of the wire, or a
straight link to the start of edge `k`; then all edges in order, from that edge on. -/
def WholeWire (veq : Vec → Vec → Bool) (feed : PyNum) (stepover : Option ℚ) (edges : List Edge) (cs : List Motion) :
    Prop :=
  ∃ k entry parts, cs = entry ++ List.flatten parts ∧ (IsApproach entry ∧ k = 0 ∨
      ∃ c e s, entry = [c] ∧ edges[k]? = some e ∧ c.fin = .fromVec (e.travel 0) ∧ stepover = some s ∧
        IsShortLink veq feed s c) ∧
    List.Forall₂ (MovesAlongEdge veq feed) (rotateEdges k edges) parts

/-- The moves for one wire when it is entered inside edge `e`, at parameter `p`: a straight link to that point; the
rest of that edge; the other edges in order; the first part of the edge. -/
def SplitWire (veq : Vec → Vec → Bool) (feed : PyNum) (stepover : Option ℚ) (edges : List Edge) (cs : List Motion) :
    Prop :=
  ∃ l e r p c s first parts last, edges = l ++ e :: r ∧ cs = c :: (first ++ List.flatten parts ++ last) ∧
    c.fin = .fromVec (e.posParam p) ∧ stepover = some s ∧ IsShortLink veq feed s c ∧
    MovesAlong veq feed e p e.toParam first ∧ List.Forall₂ (MovesAlongEdge veq feed) (r ++ l) parts ∧
    MovesAlong veq feed e e.fromParam p last

/-- Edges that are exactly straight for the polygoniser: lines and offsets of lines. -/
def Edge.straight (e : Edge) : Prop := e.geom = .line ∨ (e.geom = .offset ∧ e.basis = some .line)

/-- The edge's points after its start, in travel direction, at equal distances along it, up to its end: only the end
for straight edges; for others less than `3 / 10^precision` apart (measured along the edge). -/
def EdgePoints (precision : ℕ) (e : Edge) (pts : List Vec) : Prop :=
  ∃ n : ℕ, 1 ≤ n ∧ pts = (List.range n).map (fun k : ℕ => e.travel ((k + 1 : ℚ) / n)) ∧
    (e.straight → n = 1) ∧ (¬ e.straight → 0 ≤ e.length → e.length / n < 3 / 10 ^ precision)

/-- A step along an edge. -/
def EdgeStep (edges : List Edge) (p : Vec × Vec) : Prop :=
  ∃ e ∈ edges, ∃ (n k : ℕ), k < n ∧ p = (e.travel ((k : ℚ) / n), e.travel ((k + 1 : ℚ) / n))

end CQ
