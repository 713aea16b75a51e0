import Verif.Model.Binary64
import Verif.Model.Profile

/-!
# Tabs around a wire in floating point

The exact versions are in `Model/Tabs` and `Model/Profile`.
-/

namespace CQ

/-- One round of the loop src/cq_cam/operations/tabs.py:92-100 on floats. -/
def wireTabRange64 (halfD d : ℚ) : List (ℚ × ℚ) :=
  let a := b64 (d - halfD)
  let b := b64 (d + halfD)
  [(a, b)] ++ (if a < 0 then [(b64 (a + 1), b64 (b + 1))] else []) ++ (if b > 1 then [(b64 (a - 1), b64 (b - 1))] else [])

/-- src/cq_cam/operations/tabs.py:85-102 `WireTabs.load_wire` on floats.  `np.linspace` without its endpoint multiplies the rounded step with
the numbers from 0 on. -/
def WireTabs.tabDs64 (t : WireTabs) (wireLength : ℚ) : Except Err (List (ℚ × ℚ)) :=
  if wireLength = 0 then .error .zeroDivision
  else if t.count < 0 then .error .valueError
  else .ok ((List.range t.count.toNat).flatMap (fun k : ℕ =>
    wireTabRange64 (b64 (b64 (1 / wireLength) * b64 (t.width / 2))) (b64 (k * b64 (1 / t.count.toNat)))))

/-- The loop src/cq_cam/operations/tabs.py:108-113 on floats; `prev` is `previous_range_end`. -/
def edgeRangesFrom64 (total : ℚ) : ℚ → List ℚ → List (ℚ × ℚ)
  | _, [] => []
  | prev, l :: ls => (prev, min (b64 (prev + b64 (l / total))) 1) :: edgeRangesFrom64 total (b64 (prev + b64 (l / total))) ls

/-- src/cq_cam/operations/tabs.py:104-116 `WireTabs.load_ordered_edges` on floats; `total` is the answer of Python's `sum`, whose
rounding depends on the version of Python. -/
def edgeRanges64 (total : ℚ) (lengths : List ℚ) : Except Err (List (ℚ × ℚ)) :=
  if lengths ≠ [] ∧ total = 0 then .error .zeroDivision
  else .ok (edgeRangesFrom64 total 0 lengths)

/-- src/cq_cam/operations/tabs.py:160-161 `wire_d_to_edge_d` on floats, and the clamp around its uses. -/
def wireDToEdgeD64 (d : ℚ) (range : ℚ × ℚ) : ℚ := min (max (b64 (b64 (d - range.1) / b64 (range.2 - range.1))) 0) 1

/-- One round of the loop src/cq_cam/operations/tabs.py:122-135 on floats. -/
def tabTransitions64 (range : ℚ × ℚ) (tab : ℚ × ℚ) : List (ℚ × Transition) :=
  (if tab.1 ≤ range.1 ∧ range.1 < tab.2 then [(0, .tab)] else []) ++
    (if range.1 < tab.1 ∧ tab.1 ≤ range.2 then [(wireDToEdgeD64 tab.1 range, .tab)] else []) ++
    (if range.1 < tab.2 ∧ tab.2 ≤ range.2 then [(wireDToEdgeD64 tab.2 range, .normal)] else [])

/-- src/cq_cam/operations/tabs.py:118-142 `WireTabs.edge_tab_transitions` on floats. -/
def wireTransitions64 (range : ℚ × ℚ) (tabDs : List (ℚ × ℚ)) : List (ℚ × Transition) :=
  padBack (padFront (tabDs.flatMap (tabTransitions64 range)))

/-- src/cq_cam/operations/profile.py:103-110 on floats, for tabs around a wire: for each edge its transitions. -/
def WireTabs.transitions64 (t : WireTabs) (wireLength total : ℚ) (edges : List Edge) :
    Except Err (List (List (ℚ × Transition))) := do
  let tabDs ← t.tabDs64 wireLength
  let ranges ← edgeRanges64 total (edges.map Edge.length)
  .ok (ranges.map (fun r => wireTransitions64 r tabDs))

/-- src/cq_cam/operations/profile.py:94-177 `apply_tabs` with tabs around a wire whose positions are floats; `total` is the sum of the
lengths of the edges as Python computes it.  The geometry of the pieces stays exact. -/
def applyTabs64 (cad : Cad) (total tabZ : ℚ) (tabs : WireTabs) (wire : List Edge) : Except Err (List Edge) :=
  if tabZ ≤ cad.zmin wire then .ok wire
  else do
    let tss ← tabs.transitions64 (cad.wireLength wire) total wire
    let new ← tabEdges tabZ wire tss
    match cad.assemble new with
    | .ok w => .ok w
    | .error _ => .ok wire

end CQ
