import Verif.Model.Binary64
import Verif.Model.Profile

/-! # The passes of a profile in floating point -/

namespace CQ

/-- The loop src/cq_cam/operations/profile.py:61-79 on floats, as `stepLayers`.  `cq.Vector(0, 0, 1) * stepdown` is exact; the product with
`i + 1` and the literal `-0.001` are rounded.  How the kernel rounds the bounding box of the moved wire is up to the kernel, whose answer is
the parameter `cad.zmin`. -/
def stepLayers64 (cad : Cad) (top : Frame) (base : List Edge) (stepdown : ℚ) : ℕ → ℕ → Except Err (List (List Edge))
  | 0, _ => .error .runtimeError
  | n + 1, i =>
      let op := base.map (Edge.up (b64 (stepdown * (i + 1))))
      if b64 (-1 / 1000) ≤ cad.zmin op then .ok []
      else if leftBelow cad top op then do
        let rest ← stepLayers64 cad top base stepdown n (i + 1)
        .ok (op :: rest)
      else .ok []

/-- src/cq_cam/operations/profile.py:55-81 on floats: the layers of one base wire, in cutting order. -/
def profileLayers64 (cad : Cad) (top : Frame) (base : List Edge) (stepdown : Option ℚ) : Except Err (List (List Edge)) :=
  match stepdown with
  | none => .ok [base]
  | some s =>
      if s = 0 then .ok [base]
      else do
        let ls ← stepLayers64 cad top base s 101 0
        .ok (base :: ls).reverse

/-- src/cq_cam/utils/geometry_op.py:74-84 on floats, as `tryOffset`: the literal `0.000001` and the sum are rounded. -/
def tryOffset64 (cad : Cad) (wire : List Edge) (offset : ℚ) : Except Err (List (List Edge)) :=
  match cad.offset2D wire offset with
  | .error .valueError =>
      match cad.offset2D wire (b64 (offset + b64 (1 / 1000000))) with
      | .error .valueError => .ok []
      | r => r
  | r => r

/-- src/cq_cam/utils/geometry_op.py:87-97 on floats, as `offsetValid`: the literal `0.1` is rounded. -/
def offsetValid64 (cad : Cad) (w : List Edge) : Bool :=
  match cad.area w with
  | .ok a => decide (a > b64 (1 / 10))
  | .error _ => false

/-- src/cq_cam/utils/geometry_op.py:71-100 `offset_wire` on floats, as `offsetWire`. -/
def offsetWire64 (cad : Cad) (wire : List Edge) (offset : ℚ) : Except Err (List (List Edge)) := do
  let ws ← tryOffset64 cad wire offset
  .ok (circleBugWorkaround cad (ws.getLast?.getD wire) (ws.filter (offsetValid64 cad)))

/-- src/cq_cam/operations/profile.py:30-88 `profile` without tabs, on floats: the product of offset and tool radius and the heights of the
passes are rounded; the geometry of the wires and the routing stay exact. -/
def profile64 (cad : Cad) (j : Job) (wire : List Edge) (offset : ℚ) (stepdown : Option ℚ) : Except Err (List Motion) :=
  match j.toolRadius with
  | none => .error .typeError
  | some r => do
      let base ← offsetWire64 cad (wire.map (Edge.toLocal j.top)) (b64 (offset * r))
      let ls ← mapE (fun b => profileLayers64 cad j.top b stepdown) base
      routeWires cad.veq cad.search j ls.flatten none none

/-- The loops src/cq_cam/fluent.py:167-175 and 202-209 on floats: profiles (without tabs) one after the other. -/
def profiles64 (cad : Cad) (j : Job) (offset : ℚ) (stepdown : Option ℚ) (wires : List (List Edge)) : Except Err (List Motion) := do
  let cs ← mapE (fun w => profile64 cad j w offset stepdown) wires
  .ok cs.flatten

/-- The loops src/cq_cam/fluent.py:167-185 on floats, skipped for an offset `None`. -/
def profilesOpt64 (cad : Cad) (j : Job) (offset : Option ℚ) (stepdown : Option ℚ) (wires : List (List Edge)) :
    Except Err (List Motion) :=
  match offset with
  | none => .ok []
  | some o => profiles64 cad j o stepdown wires

/-- src/cq_cam/fluent.py:148-187 `Job.profile` without tabs on floats, as `profileRequest`. -/
def profileRequest64 (cad : Cad) (shapes : List Shape) (outerOffset innerOffset : Option ℚ) (stepdown : Option ℚ)
    (tool : Option Tool) : Request where
  opName := "Profile".toList
  tool := tool
  pre := fun j =>
    if j.toolDiameter = none then .error .valueError
    else if outerOffset = none ∧ innerOffset = none then .error .valueError
    else do
      let _ ← extractWires shapes
      .ok ()
  gen := fun j => do
    let (outers, inners) ← extractWires shapes
    let a ← profilesOpt64 cad j innerOffset stepdown inners
    let b ← profilesOpt64 cad j outerOffset stepdown outers
    .ok (a ++ b)

/-- src/cq_cam/fluent.py:189-210 `Job.wire_profile` without tabs on floats, as `wireProfileRequest`. -/
def wireProfileRequest64 (cad : Cad) (wires : List (List Edge)) (offset : ℚ) (stepdown : Option ℚ) (tool : Option Tool) : Request where
  opName := "Wire Profile".toList
  tool := tool
  gen := fun j => profiles64 cad j offset stepdown wires

end CQ
