import Verif.Spec.Profile

/-! # Specification: tabs -/

namespace CQ

/-- The position `x` lies in a part that the list of transitions (positions with the state that begins there) marks as
tab. -/
def MarkedTab : List (ℚ × Transition) → ℚ → Prop
  | p :: q :: ts, x => (p.2 = .tab ∧ p.1 ≤ x ∧ x < q.1) ∨ MarkedTab (q :: ts) x
  | _, _ => False

/-- The positions are strictly increasing. -/
def Increasing (ts : List (ℚ × Transition)) : Prop := ts.Pairwise (fun a b => a.1 < b.1)

/-- The transitions cover a whole edge. -/
def FullEdge (ts : List (ℚ × Transition)) : Prop := ts.head?.map Prod.fst = some 0 ∧ ts.getLast?.map Prod.fst = some 1

/-- Position `s` along a closed wire of length `L` lies in one of `n` zones of width `w`, evenly spaced from the start of
the wire (the zone with number `k + n` is the zone with number `k`, once around). -/
def InZone (n : ℕ) (w L s : ℚ) : Prop := ∃ k : ℤ, k * (L / n) - w / 2 ≤ s ∧ s < k * (L / n) + w / 2

/-- The edge is at height `z`, below its ends too, and its answers fit together everywhere. -/
structure FlatEdge (z : ℚ) (e : Edge) : Prop where
  flat : EdgeAt (· = z) e
  consistent : ∀ d, e.posParam (e.paramAt d) = e.posLen d
  start : e.posLen 0 = e.startPoint
  fin : e.posLen 1 = e.endPoint

/-- The edge `p` runs along `e` from position `a` to position `b` (fractions in travel direction): at the height of `e`,
or at height `z` if it is part of a tab. -/
structure IsPiece (z : ℚ) (e : Edge) (a b : ℚ) (tab : Prop) (p : Edge) : Prop where
  path : ∀ u, ((p.travel u).x, (p.travel u).y) = ((e.travel (a + u * (b - a))).x, (e.travel (a + u * (b - a))).y)
  tabHeight : tab → ∀ u, (p.travel u).z = z
  ownHeight : ¬ tab → ∀ u, (p.travel u).z = (e.travel (a + u * (b - a))).z
  tabParam : tab → ∀ q, p.posParam q = ⟨(e.posParam q).x, (e.posParam q).y, z⟩
  ownParam : ¬ tab → ∀ q, p.posParam q = e.posParam q
  params : p.fromParam = e.paramAt (if e.reversed then 1 - a else a) ∧ p.toParam = e.paramAt (if e.reversed then 1 - b else b)
  center : (p.center.x, p.center.y) = (e.center.x, e.center.y)
  ok : EdgeOK p
  kind : p.geom = e.geom ∧ p.reversed = e.reversed ∧ p.normal = e.normal ∧ p.basis = e.basis

/-- A vertical straight edge from `a` to `b`. -/
structure IsConnector (a b : Vec) (c : Edge) : Prop where
  line : c.geom = .line
  vertical : a.x = b.x ∧ a.y = b.y
  path : ∀ u, c.travel u = ⟨a.x, a.y, a.z + u * (b.z - a.z)⟩
  ok : EdgeOK c

/-- The edges follow `e` from transition to transition, at height `z` from every transition to `tab` to the next
transition, and at the height of `e` otherwise; consecutive pieces are joined by vertical connectors. -/
def TabPath (z : ℚ) (e : Edge) : List (ℚ × Transition) → List Edge → Prop
  | [], es => es = []
  | [_], es => es = []
  | [t1, t2], es => ∃ p, es = [p] ∧ IsPiece z e t1.1 t2.1 (t1.2 = .tab) p
  | t1 :: t2 :: t3 :: ts, es => ∃ p c p' rest, es = p :: c :: p' :: rest ∧ IsPiece z e t1.1 t2.1 (t1.2 = .tab) p ∧
      IsConnector (p.travel 1) (p'.travel 0) c ∧ TabPath z e (t2 :: t3 :: ts) (p' :: rest)

/-- States alternate between tab and no tab (the state of the last transition, where the edge ends, does not matter). -/
def Alternates : List (ℚ × Transition) → Prop
  | a :: b :: c :: ts => (a.2 = .tab ↔ b.2 ≠ .tab) ∧ Alternates (b :: c :: ts)
  | _ => True

/-- The same curves, up to the identity of the edges. -/
def SameCurves (es es' : List Edge) : Prop := List.Forall₂ (fun a b => ∃ i, b = { a with id := i }) es es'

/-- The kernel assembles edges that follow each other to a wire of these edges, with distinct identities. -/
def Assembles (cad : Cad) : Prop :=
  ∀ es, es ≠ [] → Chained es → ∃ w, cad.assemble es = .ok w ∧ SameCurves es w ∧ w.Pairwise (fun a b => a.id ≠ b.id)

/-- The edge starts inside a tab. -/
def StartsTab : List (ℚ × Transition) → Prop
  | a :: _ => a.2 = .tab
  | [] => False

/-- The edge ends inside a tab. -/
def EndsTab : List (ℚ × Transition) → Prop
  | [a, _] => a.2 = .tab
  | _ :: b :: c :: ts => EndsTab (b :: c :: ts)
  | _ => False

/-- In order, from one end of the edge to the other, alternating. -/
structure ProperTransitions (ts : List (ℚ × Transition)) : Prop where
  increasing : Increasing ts
  full : FullEdge ts
  alternates : Alternates ts

/-- Where one edge ends inside a tab the next one starts inside a tab, and conversely; also from the last edge to the
first one. -/
def TabsMeet (tss : List (List (ℚ × Transition))) : Prop :=
  List.IsChain (fun a b => EndsTab a ↔ StartsTab b) tss ∧
    ∀ a b, tss.head? = some a → tss.getLast? = some b → (EndsTab b ↔ StartsTab a)

/-- The edges of a pass made from one edge: the edge itself if it has no tab, or pieces of it. -/
def TabbedEdge (z : ℚ) (e : Edge) (ts : List (ℚ × Transition)) (es : List Edge) : Prop :=
  (es = [e] ∧ ∀ t ∈ ts, t.2 ≠ .tab) ∨ TabPath z e ts es

/-- The wire `w` is the wire `base`, at height `z` in the tabs and at its own height elsewhere. -/
def TabbedWire (z : ℚ) (base : List Edge) (tss : List (List (ℚ × Transition))) (w : List Edge) : Prop :=
  tss.length = base.length ∧ ∃ blocks : List (List Edge),
    List.Forall₂ (fun p b => TabbedEdge z p.1 p.2 b) (base.zip tss) blocks ∧ SameCurves blocks.flatten w

/-- The pass `w'` is the pass `w` with tabs up to height `z`: the same if it does not reach below that height, and tabbed
as `marks` says otherwise. -/
def TabbedPass (cad : Cad) (z : ℚ) (marks : List Edge → List (List (ℚ × Transition)) → Prop) (w w' : List Edge) : Prop :=
  (z ≤ cad.zmin w ∧ w' = w) ∨ (cad.zmin w < z ∧ ∃ tss, marks w tss ∧ TabbedWire z w tss w' ∧ Chained w')

/-- The transitions mark the tabs of the edges. -/
def EdgeMarks (t : EdgeTabs) (w : List Edge) (tss : List (List (ℚ × Transition))) : Prop :=
  List.Forall₂ (fun e ts => ∃ ds, t.edgeDs e = .ok ds ∧ ∀ x, MarkedTab ts x ↔ ∃ d ∈ ds, d.1 ≤ x ∧ x < d.2) w tss

/-- The transitions mark `n` zones of width `w`, evenly spaced around the wire of length `L` from its start. -/
def WireMarks (n : ℕ) (w L : ℚ) (edges : List Edge) (tss : List (List (ℚ × Transition))) : Prop :=
  ∀ pre e post, edges = pre ++ e :: post → ∃ ts, tss[pre.length]? = some ts ∧ ∀ x, 0 ≤ x → x < 1 →
    (MarkedTab ts x ↔ InZone n w L ((pre.map Edge.length).sum + x * e.length))

end CQ
