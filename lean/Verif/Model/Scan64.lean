import Verif.Model.Binary64
import Verif.Model.ZigZag
import Verif.Model.Op3d

/-!
# The scanlines and the sample points of 3D surfacing in floating point

The exact versions are in `Model/ZigZag` and `Model/Op3d`.
-/

namespace CQ

/-- src/cq_cam/utils/utils.py:229-241 `max_bounds` on floats: left, top, right, bottom.  `math.floor` and `math.ceil` are exact. -/
def maxBounds64 (b : ℚ × ℚ × ℚ × ℚ) (diagonal : ℚ) : ℤ × ℤ × ℤ × ℤ :=
  let half := b64 (diagonal / 2)
  let xc := b64 (b64 (b.1 + b.2.2.1) / 2)
  let yc := b64 (b64 (b.2.1 + b.2.2.2) / 2)
  (⌊b64 (xc - half)⌋, ⌈b64 (yc + half)⌉, ⌈b64 (xc + half)⌉, ⌊b64 (yc - half)⌋)

/-- src/cq_cam/operations/strategy.py:80-92 on floats: the lines to clip.  The ends of the range are integers, which are their own doubles
(as long as they are below 2^53). -/
def scanTemplates64 (eng : ScanClipper) (boundaries : List (List Pt)) (toolDiameter stepover : ℚ) :
    Except Err (List (Pt × Pt)) :=
  let b := eng.bounds boundaries
  let m := maxBounds64 b (eng.diagonal b)
  let step := b64 (toolDiameter * stepover)
  if step = 0 then .error .zeroDivision
  else .ok ((arange64 m.2.2.2 m.2.1 step).map (fun y => (⟨m.1, y⟩, ⟨m.2.2.1, y⟩)))

/-- The loop src/cq_cam/operations/op3d.py:66-75 on floats: `Vector.sub`, `Vector.normalized`, `Vector.multiply` and `Vector.add` work on
the coordinates one by one; the length is that of the engine. -/
def interpolateFrom64 (eng : SurfaceEngine) (step : ℚ) : Pt → List Pt → Except Err (List Pt)
  | _, [] => .ok []
  | v1, p2 :: ps =>
      let v : Pt := ⟨b64 (p2.x - v1.x), b64 (p2.y - v1.y)⟩
      if eng.strict && decide (v = ⟨0, 0⟩) then .error .stdFail
      else if step = 0 then .error .zeroDivision
      else do
        let l := eng.norm v
        let u : Pt := ⟨b64 (v.x / l), b64 (v.y / l)⟩
        let rest ← interpolateFrom64 eng step p2 ps
        .ok ((arange64 0 l step).map (fun s => (⟨b64 (v1.x + b64 (u.x * s)), b64 (v1.y + b64 (u.y * s))⟩ : Pt)) ++ p2 :: rest)

/-- src/cq_cam/operations/op3d.py:63-76 `interpolate_cut_sequence` on floats. -/
def interpolateSequence64 (eng : SurfaceEngine) (step : ℚ) : List Pt → Except Err (List Pt)
  | [] => .error .indexError
  | p :: ps => do
      let rest ← interpolateFrom64 eng step p ps
      .ok (p :: rest)

end CQ
