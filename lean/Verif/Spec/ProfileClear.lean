import Verif.Spec.EdgePath
import Verif.Spec.Drill
import Verif.Spec.Tabs
import Verif.Spec.EndToEnd
import Verif.Model.Profile

/-! # Specification: the points a move passes over, and keeping off a part

Everything is seen from above (x and y in the coordinates of the job). -/

namespace CQ

/-- Twice the signed area of the triangle `c a b`: positive when `b` is to the left of the ray from `c` to `a`. -/
def leftOf (c a b : Pt) : ℚ := (a.x - c.x) * (b.y - c.y) - (a.y - c.y) * (b.x - c.x)

/-- Going counterclockwise around `c` from `a` to `b` (two different points at the same distance from `c`), one passes the direction of
`p`: at most half a turn, from `a` on the left and before `b`; or more than half a turn, and `p` is not in the rest. -/
def PassesBetween (c a b p : Pt) : Prop :=
  if 0 ≤ leftOf c a b then 0 ≤ leftOf c a p ∧ 0 ≤ leftOf c p b else ¬ (0 < leftOf c b p ∧ 0 < leftOf c p a)

/-- `p` lies on the circular arc around `c` from `a` to `b`. -/
def OnArc (ccw : Bool) (c a b p : Pt) : Prop :=
  sqDist c p = sqDist c a ∧ if ccw then PassesBetween c a b p else PassesBetween c b a p

/-- The x and y of an address, when it has both. -/
def AddrVec.AtXY (v : AddrVec) (p : Pt) : Prop := v.x = some p.x ∧ v.y = some p.y

/-- The move says where it starts and ends seen from above, and an arc also where its centre is. -/
def Located (m : Motion) : Prop :=
  (∃ a, m.start.AtXY a) ∧ (∃ b, m.fin.AtXY b) ∧ (m.kind.isArc = true → ∃ o, m.center.AtXY o)

/-- The move passes over `p`. -/
def Sweeps (m : Motion) (p : Pt) : Prop :=
  ∃ a b, m.start.AtXY a ∧ m.fin.AtXY b ∧ match m.kind.mot with
    | .cw => ∃ c, m.center.AtXY c ∧ OnArc false c a b p
    | .ccw => ∃ c, m.center.AtXY c ∧ OnArc true c a b p
    | _ => OnSegment a b p

/-- The edge passes over `p`: straight lines, whole circles, arcs, and curves given by their points. -/
def Edge.covers (e : Edge) (p : Pt) : Prop :=
  (e.geom = .line ∧ OnSegment (e.travel 0).xy (e.travel 1).xy p) ∨
  (e.circular ∧ e.closed = true ∧ sqDist e.center.xy p = sqDist e.center.xy (e.travel 0).xy) ∨
  (e.circular ∧ e.closed = false ∧ OnArc (e.travelKind = .ccw) e.center.xy (e.travel 0).xy (e.travel 1).xy p) ∨
  (e.free ∧ ∃ t, 0 ≤ t ∧ t ≤ 1 ∧ p = (e.travel t).xy)

/-- A circular edge lies on a circle seen from above (it is not tilted), and the points of a free curve are where its length says. -/
structure TrueShape (e : Edge) : Prop where
  round : e.circular → ∀ p, sqDist e.center.xy (e.posParam p).xy = sqDist e.center.xy (e.travel 0).xy
  rectified : e.free → 0 ≤ e.length ∧ ∀ s t, 0 ≤ s → s ≤ 1 → 0 ≤ t → t ≤ 1 →
    sqDist (e.travel s).xy (e.travel t).xy ≤ (e.length * (s - t)) ^ 2

/-- What a part of the edge passes over, the edge passes over too: fractions of a line are proportional, and a part of an arc is on it. -/
structure Divisible (e : Edge) : Prop where
  line : e.geom = .line → ∀ t, (e.travel t).xy = (e.travel 0).xy.lerp (e.travel 1).xy t
  arc : e.circular → e.closed = false → ∀ s t, 0 ≤ s → s < t → t ≤ 1 → ∀ p,
    OnArc (e.travelKind = .ccw) e.center.xy (e.travel s).xy (e.travel t).xy p → e.covers p

/-- `p` is at least `s` away from every point of the part. -/
def Away (part : Pt → Prop) (s : ℚ) (p : Pt) : Prop := ∀ q, part q → s ^ 2 ≤ sqDist p q

/-- The contours the kernel finds at the distance `d` of the wire are that far from the part (also with the slightly larger distance of
the second attempt). -/
def OffsetsAway (cad : Cad) (part : Pt → Prop) (w : List Edge) (d : ℚ) : Prop :=
  ∀ d', (d' = d ∨ d' = d + 1 / 1000000) → ∀ found, cad.offset2D w d' = .ok found →
    ∀ c ∈ found, ∀ e ∈ c, ∀ p, e.covers p → Away part d' p

/-- These contours can be cut, and the kernel's searches between their passes find vertices. -/
def OffsetsSound (cad : Cad) (w : List Edge) (d : ℚ) : Prop :=
  ∀ d', (d' = d ∨ d' = d + 1 / 1000000) → ∀ found, cad.offset2D w d' = .ok found → ∀ c ∈ found,
    WireOK c ∧ (∀ e ∈ c, TrueShape e) ∧ ∀ dz v h, cad.search v (c.map (Edge.up dz)) = some h → ∃ x q, h = .vertex x q

/-- The contours are flat, and can be divided by tabs. -/
def OffsetsDivisible (cad : Cad) (w : List Edge) (d : ℚ) : Prop :=
  ∀ d', (d' = d ∨ d' = d + 1 / 1000000) → ∀ found, cad.offset2D w d' = .ok found → ∀ c ∈ found,
    ∀ e ∈ c, FlatEdge (cad.zmin c) e ∧ Divisible e

/-- The tabs of all passes of the contours are in order: along each edge the transitions go from one end to the other. -/
def OffsetsTabbed (cad : Cad) (tabs : Tabs) (w : List Edge) (d : ℚ) : Prop :=
  ∀ d', (d' = d ∨ d' = d + 1 / 1000000) → ∀ found, cad.offset2D w d' = .ok found → ∀ c ∈ found,
    ∀ dz tss, tabs.transitions (cad.wireLength (c.map (Edge.up dz))) (c.map (Edge.up dz)) = .ok tss → ∀ ts ∈ tss, Increasing ts ∧ FullEdge ts

/-- The kernel assembles wires from the given edges only. -/
def AssemblesFrom (cad : Cad) : Prop := ∀ es w, cad.assemble es = .ok w → ∀ e ∈ w, ∃ e' ∈ es, ∃ i, e = { e' with id := i }

/-- `τ` is a bound for the errors: at least one and a half units of the job's precision, and points that are the same for the kernel are at
most `2 * τ` apart. -/
structure Tolerance (cad : Cad) (precision : ℕ) (τ : ℚ) : Prop where
  unit : 3 / (2 * 10 ^ precision) ≤ τ
  same : ∀ a b, cad.veq a b = true → sqDist a.xy b.xy ≤ (2 * τ) ^ 2

/-- Tabs for which all passes of the contours are cut as C102 says: along the edges, more than one and a half times their width apart; or
around the contours, where they fit. -/
def TabsUsable (cad : Cad) (j : Job) (offset : ℚ) (wire : List Edge) : Tabs → Prop
  | .edge t => EdgeTabs.new t.spacing t.width t.height t.only = .ok t ∧ 0 < t.width ∧ 3 * t.width < 2 * t.spacing ∧
      EachContour cad j offset wire (FlatContour cad j t.height)
  | .none => False
  | .wire t => ∃ n : ℕ, 0 < n ∧ t.count = n ∧ 0 < t.width ∧
      EachContour cad j offset wire (fun b => FlatContour cad j t.height b ∧ ZonesFit cad n t.width b)

/-- Seen from above, the machine feeds straight over points only that are at least `s` away from the part; or it runs an arc whose ends are
within half a thousandth and whose centre is within a thousandth (in X and in Y) of those of an arc that keeps `s + 1/1000` away from it. -/
def KeepsOff (part : Pt → Prop) (s : ℚ) (e : Event) : Prop :=
  ∃ k tgt ctr, ∃ a b : Pt, e.act = .move k tgt ctr ∧ e.st.pos.x = some a.x ∧ e.st.pos.y = some a.y ∧ tgt.x = some b.x ∧ tgt.y = some b.y ∧
    ((k = .linear ∧ ∀ p, OnSegment a b p → Away part s p) ∨
      ((k = .cw ∨ k = .ccw) ∧ ∃ a' b' o o' : Pt, ctr.x = some (o.x - a.x) ∧ ctr.y = some (o.y - a.y) ∧
        a.Near (1 / 2000) a' ∧ b.Near (1 / 2000) b' ∧ o.Near (1 / 1000) o' ∧
        ∀ p, OnArc (k = .ccw) o' a' b' p → Away part (s + 1 / 1000) p))

end CQ
