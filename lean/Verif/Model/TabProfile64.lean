import Verif.Model.Profile64
import Verif.Model.Tabs64
import Verif.Model.EdgeTabs64

/-! # Profiles with tabs in floating point -/

namespace CQ

/-- src/cq_cam/operations/profile.py:94-177 `apply_tabs` on floats, for the two kinds of tabs; `len` is the answer of `edge.Length()`, and
`total` the sum of the lengths as Python computes it. -/
def Tabs.apply64 (cad : Cad) (len : Edge → ℚ) (total : List Edge → ℚ) (tabZ : ℚ) : Tabs → List Edge → Except Err (List Edge)
  | .none, w => applyTabs cad tabZ .none w
  | .edge t, w => applyEdgeTabs64 cad len tabZ t w
  | .wire t, w => applyTabs64 cad (total w) tabZ t w

/-- The body of the loop src/cq_cam/operations/profile.py:54-85 for one base wire, with tabs, on floats: `base_zmin + tabs.height` is
rounded, and so are the heights of the passes and the positions of the tabs. -/
def profileFeature64 (cad : Cad) (len : Edge → ℚ) (total : List Edge → ℚ) (top : Frame) (stepdown : Option ℚ) (tabs : Tabs)
    (base : List Edge) : Except Err (List (List Edge)) := do
  let layers ← profileLayers64 cad top base stepdown
  mapE (tabs.apply64 cad len total (b64 (cad.zmin base + tabs.height))) layers

/-- src/cq_cam/operations/profile.py:30-88 `profile` with tabs, on floats. -/
def tabProfile64 (cad : Cad) (len : Edge → ℚ) (total : List Edge → ℚ) (j : Job) (wire : List Edge) (offset : ℚ) (stepdown : Option ℚ)
    (tabs : Tabs) : Except Err (List Motion) :=
  match j.toolRadius with
  | none => .error .typeError
  | some r => do
      let base ← offsetWire64 cad (wire.map (Edge.toLocal j.top)) (b64 (offset * r))
      let ls ← mapE (profileFeature64 cad len total j.top stepdown tabs) base
      routeWires cad.veq cad.search j ls.flatten none none

/-- The loops src/cq_cam/fluent.py:167-175 and 202-209 on floats: profiles with tabs one after the other. -/
def tabProfiles64 (cad : Cad) (len : Edge → ℚ) (total : List Edge → ℚ) (j : Job) (offset : ℚ) (stepdown : Option ℚ) (tabs : Tabs)
    (wires : List (List Edge)) : Except Err (List Motion) := do
  let cs ← mapE (fun w => tabProfile64 cad len total j w offset stepdown tabs) wires
  .ok cs.flatten

/-- The loops src/cq_cam/fluent.py:167-185 on floats, skipped for an offset `None`. -/
def tabProfilesOpt64 (cad : Cad) (len : Edge → ℚ) (total : List Edge → ℚ) (j : Job) (offset : Option ℚ) (stepdown : Option ℚ) (tabs : Tabs)
    (wires : List (List Edge)) : Except Err (List Motion) :=
  match offset with
  | none => .ok []
  | some o => tabProfiles64 cad len total j o stepdown tabs wires

/-- src/cq_cam/fluent.py:148-187 `Job.profile` with tabs on floats, as `profileRequest`. -/
def tabProfileRequest64 (cad : Cad) (len : Edge → ℚ) (total : List Edge → ℚ) (shapes : List Shape) (outerOffset innerOffset : Option ℚ)
    (stepdown : Option ℚ) (tabs : Tabs) (tool : Option Tool) : Request where
  opName := "Profile".toList
  tool := tool
  pre := fun j =>
    if j.toolDiameter = none then .error .valueError
    else if outerOffset = none ∧ innerOffset = none then .error .valueError
    else do
      let _ ← extractWires shapes
      .ok ()
  gen := fun j => do
    let (outers, inners) ← extractWires shapes
    let a ← tabProfilesOpt64 cad len total j innerOffset stepdown tabs inners
    let b ← tabProfilesOpt64 cad len total j outerOffset stepdown tabs outers
    .ok (a ++ b)

/-- src/cq_cam/fluent.py:189-210 `Job.wire_profile` with tabs on floats, as `wireProfileRequest`. -/
def tabWireProfileRequest64 (cad : Cad) (len : Edge → ℚ) (total : List Edge → ℚ) (wires : List (List Edge)) (offset : ℚ)
    (stepdown : Option ℚ) (tabs : Tabs) (tool : Option Tool) : Request where
  opName := "Wire Profile".toList
  tool := tool
  gen := fun j => tabProfiles64 cad len total j offset stepdown tabs wires

end CQ
