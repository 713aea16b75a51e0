import Verif.Model.Binary64
import Verif.Model.Profile

/-! # Tabs along edges in floating point -/

namespace CQ

/-- Python's `x // y` on positive floats, used at src/cq_cam/operations/tabs.py:58: the remainder is exact, the difference and the quotient are
rounded, and the result is the nearest integer (Objects/floatobject.c `_float_div_mod`). -/
def floorDiv64 (x y : ℚ) : ℤ :=
  let mod := x - y * ⌊x / y⌋
  let div := b64 (b64 (x - mod) / y)
  if div = 0 then 0
  else if b64 (div - ⌊div⌋) > 1 / 2 then ⌊div⌋ + 1
  else ⌊div⌋

/-- src/cq_cam/operations/tabs.py:51-64 on floats, one round of the loop of `EdgeTabs.load_ordered_edges`; `len` is the answer of
`edge.Length()`.  `np.linspace` multiplies the rounded step with the numbers from 0 on; its ends are dropped. -/
def EdgeTabs.edgeDs64 (t : EdgeTabs) (len : Edge → ℚ) (e : Edge) : Except Err (List (ℚ × ℚ)) :=
  if t.only.isSome && decide (t.only ≠ some e.geom) then .ok []
  else if t.spacing = 0 then .error .zeroDivision
  else
    let count := floorDiv64 (len e) t.spacing
    if count ≤ 0 then .ok []
    else
      let halfD := b64 (b64 (1 / len e) * b64 (t.width / 2))
      .ok ((List.range count.toNat).map (fun k : ℕ =>
        let d := b64 ((k + 1 : ℕ) * b64 (1 / (count.toNat + 1 : ℕ)))
        (b64 (d - halfD), b64 (d + halfD))))

/-- src/cq_cam/operations/profile.py:94-177 `apply_tabs` with tabs along edges whose positions are floats.  The geometry of the pieces stays
exact. -/
def applyEdgeTabs64 (cad : Cad) (len : Edge → ℚ) (tabZ : ℚ) (tabs : EdgeTabs) (wire : List Edge) : Except Err (List Edge) :=
  if tabZ ≤ cad.zmin wire then .ok wire
  else do
    let dss ← mapE (tabs.edgeDs64 len) wire
    let new ← tabEdges tabZ wire (dss.map edgeTransitions)
    match cad.assemble new with
    | .ok w => .ok w
    | .error _ => .ok wire

end CQ
