import Verif.Spec.Toolpath
import Verif.Spec.History
import Verif.Spec.Profile
import Verif.Spec.Surface
import Verif.Spec.Tabs
import Verif.Spec.Region

/-!
# Specification: what the machine does to the material

Statements about the events of a run (`runText`), not about the commands of the library.
-/

namespace CQ

/-- The machine is where `p` says, as far as `p` says anything (coordinates as printed). -/
def Agrees (p : AddrVec) (m : Pos) : Prop :=
  (∀ v, p.x = some v → m.x = some (rnd 3 v)) ∧ (∀ v, p.y = some v → m.y = some (rnd 3 v)) ∧
    ∀ v, p.z = some v → m.z = some (rnd 3 v)

/-- What `p` knows, `q` knows as well. -/
def AddrVec.Le (p q : AddrVec) : Prop :=
  (∀ v, p.x = some v → q.x = some v) ∧ (∀ v, p.y = some v → q.y = some v) ∧ ∀ v, p.z = some v → q.z = some v

/-- Every move starts where the previous one ended (the first at `p`), as far as it says where it starts. -/
def Tracks : AddrVec → List Motion → Prop
  | _, [] => True
  | p, c :: cs => c.start.Le p ∧ Tracks c.fin cs

/-- The machine performs the move from where the library takes the tool to be. -/
def FollowsMove (e : Event) (c : Motion) : Prop := Performs e c ∧ Agrees c.start e.st.pos

/-- A position of the machine over a point of the plane. -/
def Pt.pos (p : Pt) (z : ℚ) : Pos := ⟨some p.x, some p.y, some z⟩

/-- With the spindle running clockwise the machine feeds straight over the point `q` at height `z`. -/
def MillsOver (z : ℚ) (q : Pt) (e : Event) : Prop :=
  e.st.spindle = .cw ∧ ∃ a b : Pt, ∃ ctr, e.st.pos = a.pos z ∧ e.act = .move .linear (b.pos z) ctr ∧ OnSegment a b q

/-- With the spindle running clockwise the machine feeds straight down from height `top` to `bottom` at the point `q`. -/
def Bores (top bottom : ℚ) (q : Pt) (e : Event) : Prop :=
  e.st.spindle = .cw ∧ ∃ ctr, e.st.pos = q.pos top ∧ e.act = .move .linear (q.pos bottom) ctr

/-- The square roots of `s` and `s'` differ by at most `ε`. -/
def RootsNear (ε s s' : ℚ) : Prop := ∀ ρ, 0 ≤ ρ → (s ≤ ρ ^ 2 → s' ≤ (ρ + ε) ^ 2) ∧ (s' ≤ ρ ^ 2 → s ≤ (ρ + ε) ^ 2)

/-- An arc of the machine whose distances from the centre to the start and to the end differ by at most `ε`.  (Controllers refuse
an arc or run it wrongly if these distances differ too much; grbl for example accepts a difference of 0.005.) -/
def RoundArc (ε : ℚ) (e : Event) : Prop :=
  ∀ k tgt ctr, e.act = .move k tgt ctr → k = .cw ∨ k = .ccw →
    ∃ a b o : Pt, e.st.pos.x = some a.x ∧ e.st.pos.y = some a.y ∧ tgt.x = some b.x ∧ tgt.y = some b.y ∧
      ctr.x = some (o.x - a.x) ∧ ctr.y = some (o.y - a.y) ∧ RootsNear ε (sqDist a o) (sqDist b o)

/-- An arc of the machine that ends over the point where it starts: controllers run it as a full circle. -/
def FullTurn (e : Event) : Prop :=
  ∃ k tgt ctr, e.act = .move k tgt ctr ∧ (k = .cw ∨ k = .ccw) ∧ tgt.x = e.st.pos.x ∧ tgt.y = e.st.pos.y

/-- An arc command with start, end and centre, start and end at the same distance from the centre seen from above. -/
def CircularArc (c : Motion) : Prop :=
  ∃ a b o : Vec, c.start = .fromVec a ∧ c.fin = .fromVec b ∧ c.center = .fromVec o ∧
    sqDist ⟨a.x, a.y⟩ ⟨o.x, o.y⟩ = sqDist ⟨b.x, b.y⟩ ⟨o.x, o.y⟩

/-- Moves that continue each other (as far as they say where they start) and whose arcs are circular. -/
def ArcsFit (cs : List Motion) : Prop := Tracks {} cs ∧ ∀ c ∈ cs, c.kind.isArc = true → CircularArc c

/-- If the edge is circular, it is part of a horizontal circle around its centre: all its points have the same distance from the
centre, seen from above. -/
def LevelCircle (e : Edge) : Prop :=
  e.circular → ∃ s, ∀ v, v = e.startPoint ∨ v = e.endPoint ∨ (∃ p, v = e.posParam p) →
    sqDist ⟨v.x, v.y⟩ ⟨e.center.x, e.center.y⟩ = s

/-- The points are more than a thousandth apart in X or in Y. -/
def FarApart (a b : Vec) : Prop := 1 / 1000 < |a.x - b.x| ∨ 1 / 1000 < |a.y - b.y|

/-- If the edge is circular, its ends are apart; if it is closed, both of its halves have ends that are apart. -/
def SpreadOut (e : Edge) : Prop :=
  e.circular → if e.closed then FarApart (e.travel 0) (e.posParam ((e.fromParam + e.toParam) / 2)) ∧
      FarApart (e.posParam ((e.fromParam + e.toParam) / 2)) (e.travel 1)
    else FarApart (e.travel 0) (e.travel 1)

/-- Moves that continue each other (as far as they say where they start) and whose arcs have ends that are apart. -/
def ArcsOpen (cs : List Motion) : Prop :=
  Tracks {} cs ∧ ∀ c ∈ cs, c.kind.isArc = true → ∃ a b, c.start = .fromVec a ∧ c.fin = .fromVec b ∧ FarApart a b

/-- The contours of a profile: whole wires of edges that follow each other, at one height below the safe height, whose nearest
points are vertices. -/
structure PlainContour (cad : Cad) (j : Job) (b : List Edge) : Prop where
  ok : WireOK b
  chained : Chained b
  vertex : ∀ dz, NearestIsVertex cad (b.map (Edge.up dz))
  level : ∀ e ∈ b, EdgeAt (· = cad.zmin b) e
  low : cad.zmin b ≤ j.opSafeHeight

/-- A position of the machine. -/
def Vec.pos (v : Vec) : Pos := ⟨some v.x, some v.y, some v.z⟩

/-- The machine rises straight to the rapid height `R`, or travels rapidly at it, or moves straight and nowhere more than `g` below
the height `h`. -/
def ClearOf (h : Pt → ℚ) (g R : ℚ) (e : Event) : Prop :=
  ∃ k tgt ctr, e.act = .move k tgt ctr ∧
    ((k = .rapid ∧ tgt = ⟨e.st.pos.x, e.st.pos.y, some R⟩) ∨ (k = .rapid ∧ e.st.pos.z = some R ∧ tgt.z = some R) ∨
      ((k = .rapid ∨ k = .linear) ∧ ∃ a b : Vec, e.st.pos = a.pos ∧ tgt = b.pos ∧ ClearWay h g a b))

/-- The points differ by at most `ε` along every axis. -/
def Vec.Within (ε : ℚ) (a b : Vec) : Prop := |a.x - b.x| ≤ ε ∧ |a.y - b.y| ≤ ε ∧ |a.z - b.z| ≤ ε

/-- With the spindle running clockwise and at feed rate `F` the machine moves straight from `a` to `b` (up to half a thousandth). -/
def RunsStraight (F : ℚ) (a b : Vec) (e : Event) : Prop :=
  e.st.spindle = .cw ∧ e.st.feed = some F ∧ ∃ a' b' : Vec, ∃ ctr, e.st.pos = a'.pos ∧ e.act = .move .linear b'.pos ctr ∧
    a'.Within (1 / 2000) a ∧ b'.Within (1 / 2000) b

/-- With the spindle running clockwise and at feed rate `F` the machine runs an arc in direction `k` from `a` to `b` (up to half a
thousandth) around `o` (up to a thousandth in X and Y). -/
def RunsArc (F : ℚ) (k : Mot) (a b o : Vec) (e : Event) : Prop :=
  e.st.spindle = .cw ∧ e.st.feed = some F ∧ ∃ a' b' : Vec, ∃ ctr, ∃ o' : Pt, e.st.pos = a'.pos ∧ e.act = .move k b'.pos ctr ∧
    ctr.x = some (o'.x - a'.x) ∧ ctr.y = some (o'.y - a'.y) ∧ a'.Within (1 / 2000) a ∧ b'.Within (1 / 2000) b ∧
    |o'.x - o.x| ≤ 1 / 1000 ∧ |o'.y - o.y| ≤ 1 / 1000

/-- The point of the edge at the middle of its parameters. -/
def Edge.halfway (E : Edge) : Vec := E.posParam ((E.fromParam + E.toParam) / 2)

/-- The machine runs along the whole edge in travel direction: straight for a line; for a circular edge an arc around its centre in
the edge's direction, two arcs if it is closed, or a straight move if its ends are equal up to the tolerance `veq`; straight moves
through evenly spaced points for other curves. -/
def RunsEdge (veq : Vec → Vec → Bool) (F : ℚ) (E : Edge) (evs : List Event) : Prop :=
  (E.geom = .line ∧ ∃ e, evs = [e] ∧ RunsStraight F (E.travel 0) (E.travel 1) e) ∨
  (E.circular ∧ E.closed = true ∧ ∃ e1 e2, evs = [e1, e2] ∧ RunsArc F E.travelKind.mot (E.travel 0) E.halfway E.center e1 ∧
    RunsArc F E.travelKind.mot E.halfway (E.travel 1) E.center e2) ∨
  (E.circular ∧ E.closed = false ∧ ∃ e, evs = [e] ∧
    if veq (E.travel 0) (E.travel 1) then RunsStraight F (E.travel 0) (E.travel 1) e
    else RunsArc F E.travelKind.mot (E.travel 0) (E.travel 1) E.center e) ∨
  (E.free ∧ ∃ n : ℕ, 2 ≤ n ∧ evs.length = n ∧ ∀ (k : ℕ) (e : Event), evs[k]? = some e →
    RunsStraight F (if k = 0 then E.travel 0 else E.travel ((k - 1 : ℚ) / (n - 1 : ℚ))) (E.travel (k / (n - 1 : ℚ))) e)

/-- The machine moves rapidly, or feeds straight up or down. -/
def Approaches (e : Event) : Prop :=
  ∃ k tgt ctr, e.act = .move k tgt ctr ∧ (k = .rapid ∨ (k = .linear ∧ tgt.x = e.st.pos.x ∧ tgt.y = e.st.pos.y))

/-- The moves of the machine for one contour: an approach, then along all edges in order. -/
def RunsWire (veq : Vec → Vec → Bool) (F : ℚ) (w : List Edge) (evs : List Event) : Prop :=
  ∃ entry parts, evs = entry ++ List.flatten parts ∧ (∀ e ∈ entry, Approaches e) ∧ List.Forall₂ (RunsEdge veq F) w parts

/-- The passes of a contour: those of the stepdown, or only the contour itself without one (or with stepdown 0). -/
def PassesOf (cad : Cad) (stepdown : Option ℚ) (base : List Edge) (layers : List (List Edge)) : Prop :=
  (stepdown.getD 0 = 0 ∧ layers = [base]) ∨ ∃ s, stepdown = some s ∧ 0 < s ∧ Passes cad s base layers

/-- The moves of the machine for the profile of one wire: for each contour at the given distance (of the tool's radius) its passes, one
after the other. -/
def RunsProfile (cad : Cad) (top : Frame) (F r offset : ℚ) (stepdown : Option ℚ) (wire : List Edge) (evs : List Event) : Prop :=
  ∃ bases, offsetWire cad (wire.map (Edge.toLocal top)) (offset * r) = .ok bases ∧
    ∃ blocks : List (List (List Event)), evs = blocks.flatten.flatten ∧
      List.Forall₂ (fun base block => ∃ layers, PassesOf cad stepdown base layers ∧
        List.Forall₂ (RunsWire cad.veq F) layers block) bases blocks

/-- All contours at the given distance (of the tool's radius) from the wire are plain. -/
def PlainContours (cad : Cad) (j : Job) (offset : ℚ) (wire : List Edge) : Prop :=
  ∀ r bases, j.toolRadius = some r → offsetWire cad (wire.map (Edge.toLocal j.top)) (offset * r) = .ok bases →
    ∀ b ∈ bases, PlainContour cad j b

/-- The moves of the machine for the profiles of several wires; none if no offset is given. -/
def RunsProfiles (cad : Cad) (top : Frame) (F r : ℚ) (offset : Option ℚ) (stepdown : Option ℚ) (wires : List (List Edge))
    (evss : List (List Event)) : Prop :=
  match offset with
  | none => evss = []
  | some o => List.Forall₂ (RunsProfile cad top F r o stepdown) wires evss

/-- A flat contour, at one height; it and tabs of the given height on it are below the safe height. -/
structure FlatContour (cad : Cad) (j : Job) (height : ℚ) (b : List Edge) : Prop where
  ok : WireOK b
  chained : Chained b
  length : ∀ e ∈ b, 0 < e.length
  flat : ∀ e ∈ b, FlatEdge (cad.zmin b) e
  low : cad.zmin b ≤ j.opSafeHeight
  top : cad.zmin b + height ≤ j.opSafeHeight

/-- `n` tabs of width `w` around the contour: they fit on it, no edge reaches from before the last tab into the first one, and no tab
begins or ends exactly at a corner; the kernel measures the contour right at all heights. -/
structure ZonesFit (cad : Cad) (n : ℕ) (w : ℚ) (b : List Edge) : Prop where
  length : ∀ dz, cad.wireLength (b.map (Edge.up dz)) = (b.map Edge.length).sum
  fit : w * n < (b.map Edge.length).sum
  last : ∀ pre e post, b = pre ++ e :: post → n = 1 ∨ (pre.map Edge.length).sum + e.length + w / 2 < (b.map Edge.length).sum ∨
    (n - 1 : ℚ) * ((b.map Edge.length).sum / n) + w / 2 ≤ (pre.map Edge.length).sum
  corner : ∀ pre post, b = pre ++ post → ∀ k : ℤ, (pre.map Edge.length).sum ≠ k * ((b.map Edge.length).sum / n) - w / 2 ∧
    (pre.map Edge.length).sum ≠ k * ((b.map Edge.length).sum / n) + w / 2

/-- The moves of the machine for the profile of one wire with tabs: for each contour its passes, one after the other, which are raised to
the top of the tabs where `marks` says so. -/
def RunsTabProfile (cad : Cad) (top : Frame) (F r offset : ℚ) (stepdown : Option ℚ) (height : ℚ)
    (marks : List Edge → List Edge → List (List (ℚ × Transition)) → Prop) (wire : List Edge) (evs : List Event) : Prop :=
  ∃ bases, offsetWire cad (wire.map (Edge.toLocal top)) (offset * r) = .ok bases ∧
    ∃ blocks : List (List (List Event)), evs = blocks.flatten.flatten ∧
      List.Forall₂ (fun base block => ∃ layers passes, PassesOf cad stepdown base layers ∧
        List.Forall₂ (TabbedPass cad (cad.zmin base + height) (marks base)) layers passes ∧
        List.Forall₂ (RunsWire cad.veq F) passes block) bases blocks

/-- All contours at the given distance (of the tool's radius) from the wire have the property. -/
def EachContour (cad : Cad) (j : Job) (offset : ℚ) (wire : List Edge) (P : List Edge → Prop) : Prop :=
  ∀ r bases, j.toolRadius = some r → offsetWire cad (wire.map (Edge.toLocal j.top)) (offset * r) = .ok bases → ∀ b ∈ bases, P b

/-- The moves of the machine for the profiles of several wires with tabs; none if no offset is given. -/
def RunsTabProfiles (cad : Cad) (top : Frame) (F r : ℚ) (offset : Option ℚ) (stepdown : Option ℚ) (height : ℚ)
    (marks : List Edge → List Edge → List (List (ℚ × Transition)) → Prop) (wires : List (List Edge)) (evss : List (List Event)) : Prop :=
  match offset with
  | none => evss = []
  | some o => List.Forall₂ (RunsTabProfile cad top F r o stepdown height marks) wires evss

/-- On the outline of the region, or in the region (next to its holes up to `δ`). -/
def InRegion (δ : ℚ) (r : PathFace) (p : Pt) : Prop :=
  OnOutline r.outer p ∨ (Inside r.outer p ∧ ((∀ i ∈ r.inners, FarFrom δ i p) → FaceRegion r p))

/-- The points differ by at most `ε` along every axis. -/
def Pt.Near (ε : ℚ) (a b : Pt) : Prop := |a.x - b.x| ≤ ε ∧ |a.y - b.y| ≤ ε

/-- With the spindle running clockwise the machine feeds straight, sideways at height `z` from over `a` to over `b`, or straight down to
height `z` at `b` (up to half a thousandth). -/
def FeedsFromTo (a b : Pt) (z : ℚ) (e : Event) : Prop :=
  e.st.spindle = .cw ∧ ∃ a' b' : Pt, ∃ z' ctr, e.st.pos = a'.pos z' ∧ e.act = .move .linear (b'.pos z) ctr ∧
    a'.Near (1 / 2000) a ∧ b'.Near (1 / 2000) b ∧ (z' = z ∨ (a' = b' ∧ z ≤ z'))

/-- With any two points of the set the points between them are in the set. -/
def ConvexSet (K : Pt → Prop) : Prop := ∀ a b q, K a → K b → OnSegment a b q → K q

/-- The machine moves straight, and every point it passes over is within half a thousandth of a point of the set. -/
def StaysOver (K : Pt → Prop) (e : Event) : Prop :=
  ∃ a b : Pt, ∃ z z' k ctr, e.st.pos = a.pos z ∧ e.act = .move k (b.pos z') ctr ∧ (k = .rapid ∨ k = .linear) ∧
    ∀ q, OnSegment a b q → ∃ p, K p ∧ q.Near (1 / 2000) p

end CQ
