import Verif.Model.Edge

/-!
# Model of `src/cq_cam/operations/tabs.py`
-/

namespace CQ

/-- src/cq_cam/operations/tabs.py:9-12 `Transition`. -/
inductive Transition | normal | tab | ignore
deriving DecidableEq, Repr

/-- src/cq_cam/operations/tabs.py:38-45 `EdgeTabs`; `only` is a geometry type (or `None`). -/
structure EdgeTabs where
  spacing : ℚ
  width : ℚ
  height : ℚ
  only : Option Geom := none
deriving DecidableEq, Repr

/-- src/cq_cam/operations/tabs.py:39-45 `EdgeTabs.__init__`. -/
def EdgeTabs.new (spacing width height : ℚ) (only : Option Geom := none) : Except Err EdgeTabs :=
  if spacing ≤ width then .error .valueError else .ok ⟨spacing, width, height, only⟩

/-- src/cq_cam/operations/tabs.py:51-64, one round of the loop of `EdgeTabs.load_ordered_edges`: the tabs of one edge as
fractions of its length.  `length // spacing` is the floor of the quotient. -/
def EdgeTabs.edgeDs (t : EdgeTabs) (e : Edge) : Except Err (List (ℚ × ℚ)) :=
  if t.only.isSome && decide (t.only ≠ some e.geom) then .ok []
  else if t.spacing = 0 then .error .zeroDivision
  else
    let count := ⌊e.length / t.spacing⌋
    if count ≤ 0 then .ok []
    else
      let halfD := 1 / e.length * (t.width / 2)
      .ok ((linspace 0 1 (count.toNat + 2)).tail.dropLast.map (fun d => (d - halfD, d + halfD)))

/-- src/cq_cam/operations/tabs.py:66-73 `EdgeTabs.edge_tab_transitions`, from the tabs of the edge. -/
def edgeTransitions (ds : List (ℚ × ℚ)) : List (ℚ × Transition) :=
  (0, .normal) :: (ds.flatMap (fun d => [(d.1, .tab), (d.2, .normal)]) ++ [(1, .normal)])

/-- src/cq_cam/operations/tabs.py:76-83 `WireTabs`. -/
structure WireTabs where
  count : ℤ
  width : ℚ
  height : ℚ
deriving DecidableEq, Repr

/-- One round of the loop src/cq_cam/operations/tabs.py:92-100. -/
def wireTabRange (halfD d : ℚ) : List (ℚ × ℚ) :=
  [(d - halfD, d + halfD)] ++ (if d - halfD < 0 then [(d - halfD + 1, d + halfD + 1)] else []) ++
    (if d + halfD > 1 then [(d - halfD - 1, d + halfD - 1)] else [])

/-- src/cq_cam/operations/tabs.py:85-102 `WireTabs.load_wire`: the tabs as fractions of the wire's length (numpy refuses a
negative count). -/
def WireTabs.tabDs (t : WireTabs) (wireLength : ℚ) : Except Err (List (ℚ × ℚ)) :=
  if wireLength = 0 then .error .zeroDivision
  else if t.count < 0 then .error .valueError
  else .ok ((List.range t.count.toNat).flatMap (fun k : ℕ =>
    wireTabRange (1 / wireLength * (t.width / 2)) (k / t.count.toNat)))

/-- The loop src/cq_cam/operations/tabs.py:108-113; `prev` is `previous_range_end`. -/
def edgeRangesFrom (wireLength : ℚ) : ℚ → List ℚ → List (ℚ × ℚ)
  | _, [] => []
  | prev, l :: ls => (prev, min (prev + l / wireLength) 1) :: edgeRangesFrom wireLength (prev + l / wireLength) ls

/-- src/cq_cam/operations/tabs.py:104-116 `WireTabs.load_ordered_edges`. -/
def edgeRanges (lengths : List ℚ) : Except Err (List (ℚ × ℚ)) :=
  if lengths ≠ [] ∧ lengths.sum = 0 then .error .zeroDivision
  else .ok (edgeRangesFrom lengths.sum 0 lengths)

/-- src/cq_cam/operations/tabs.py:160-161 `wire_d_to_edge_d`, and the clamp around its uses. -/
def wireDToEdgeD (d : ℚ) (range : ℚ × ℚ) : ℚ := min (max ((d - range.1) / (range.2 - range.1)) 0) 1

/-- One round of the loop src/cq_cam/operations/tabs.py:122-135. -/
def tabTransitions (range : ℚ × ℚ) (tab : ℚ × ℚ) : List (ℚ × Transition) :=
  (if tab.1 ≤ range.1 ∧ range.1 < tab.2 then [(0, .tab)] else []) ++
    (if range.1 < tab.1 ∧ tab.1 ≤ range.2 then [(wireDToEdgeD tab.1 range, .tab)] else []) ++
    (if range.1 < tab.2 ∧ tab.2 ≤ range.2 then [(wireDToEdgeD tab.2 range, .normal)] else [])

/-- src/cq_cam/operations/tabs.py:138-139. -/
def padFront (ts : List (ℚ × Transition)) : List (ℚ × Transition) :=
  if (ts.head?.map Prod.fst) = some 0 then ts else (0, .normal) :: ts

/-- src/cq_cam/operations/tabs.py:140-141. -/
def padBack (ts : List (ℚ × Transition)) : List (ℚ × Transition) :=
  if (ts.getLast?.map Prod.fst) = some 1 then ts else ts ++ [(1, .ignore)]

/-- src/cq_cam/operations/tabs.py:118-142 `WireTabs.edge_tab_transitions`. -/
def wireTransitions (range : ℚ × ℚ) (tabDs : List (ℚ × ℚ)) : List (ℚ × Transition) :=
  padBack (padFront (tabDs.flatMap (tabTransitions range)))

/-- The tab objects (src/cq_cam/operations/tabs.py:15-35 for the base class and `NoTabs`). -/
inductive Tabs
  | none
  | edge (t : EdgeTabs)
  | wire (t : WireTabs)
deriving DecidableEq, Repr

/-- `tabs.height`. -/
def Tabs.height : Tabs → ℚ
  | .none => 0
  | .edge t => t.height
  | .wire t => t.height

/-- What src/cq_cam/operations/profile.py:103-110 asks of the tabs for a wire with these edges and this length: for each
edge its transitions. -/
def Tabs.transitions (t : Tabs) (wireLength : ℚ) (edges : List Edge) : Except Err (List (List (ℚ × Transition))) :=
  match t with
  | .none => .ok (edges.map (fun _ => [(0, .normal), (1, .normal)]))
  | .edge t => do
      let ds ← mapE t.edgeDs edges
      .ok (ds.map edgeTransitions)
  | .wire t => do
      let tabDs ← t.tabDs wireLength
      let ranges ← edgeRanges (edges.map Edge.length)
      .ok (ranges.map (fun r => wireTransitions r tabDs))

end CQ
