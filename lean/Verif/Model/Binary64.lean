import Verif.Py.Binary64
import Verif.Model.Pocket
import Verif.Model.Op3d

/-!
# The passes of pockets and of 3D surfacing in floating point

The functions that compute the depths of the passes, with the arithmetic of doubles (`Py/Binary64`) in place of exact arithmetic.
The exact versions are in `Model/Pocket` and `Model/Op3d`.
-/

namespace CQ

/-- numpy's `arange(start, stop, step)` on floats (`step ≠ 0`): the number of values is `ceil((stop - start) / step)`, the first two
values are `start` and `start + step`, and the others are `start + i * delta` where `delta = (start + step) - start`
(`PyArray_Arange`, `DOUBLE_fill`; without contraction to fused operations). -/
def arange64 (start stop step : ℚ) : List ℚ :=
  (List.range ⌈b64 (b64 (stop - start) / step)⌉.toNat).map (fun i : ℕ =>
    if i = 0 then start
    else if i = 1 then b64 (start + step)
    else b64 (start + b64 (i * b64 (b64 (start + step) - start))))

/-- src/cq_cam/operations/pocket.py:130-148 `apply_stepdown`, on floats. -/
def applyStepdown64 (sequences : List (List PathFace)) (startDepth : Option ℚ) (stepdown : ℚ) :
    Except Err (List (List PathFace)) :=
  let start := match startDepth with | none => -stepdown | some d => b64 (d - stepdown)
  match (sequences.flatten.map PathFace.depth).dedup with
  | [endDepth] =>
      .ok ((arange64 start endDepth (-stepdown)).flatMap (fun d =>
        sequences.map (fun s => s.map (fun f => f.cloneToDepth d))))
  | _ => .error .runtimeError

/-- One round of the loop src/cq_cam/operations/pocket.py:256-265, on floats: the sequences of one pocket region. -/
def opSequences64 (eng : Clipper) (fuel : ℕ) (stepover : ℚ) (stepdown : Option ℚ) (precision : ℕ)
    (shallower : List PathFace) (op : PathFace) : Except Err (List (List PathFace)) := do
  let fill ← fillPocket eng fuel op stepover precision
  match stepdown with
  | none => .ok fill
  | some s =>
      if s = 0 then .ok fill
      else
        let stepped ← applyStepdown64 fill (determineStepdownStartDepth eng op shallower) s
        .ok (stepped ++ fill)

/-- src/cq_cam/operations/op3d.py:114-124: the depths of the passes, on floats. -/
def surfaceDepths64 (stepdown : Option ℚ) (top bottom : ℚ) : Except Err (List ℚ) :=
  match stepdown with
  | none => .ok [bottom]
  | some s =>
      if s = 0 then .ok [bottom]
      else
        match (arange64 (b64 (top + s)) bottom s).getLast? with
        | none => .error .indexError
        | some last =>
            if last ≠ bottom then .ok (arange64 (b64 (top + s)) bottom s ++ [bottom])
            else .ok (arange64 (b64 (top + s)) bottom s)

/-- The model with doubles of `optimize_float(round(q, p))` (src/cq_cam/address.py:131-134, src/cq_cam/utils/utils.py:392-395) and of the
digits that printing the result finds: `round` gives the double nearest to the rounded decimal (CPython `double_round`: `_Py_dg_dtoa` in
mode 3 followed by `_Py_dg_strtod`). -/
def AxisNumber64 (q : ℚ) (p : ℕ) (n : PyNum) : Prop :=
  let y := b64 ((pyRound q p : ℚ) / 10 ^ p)
  if y = (pyInt y : ℚ) then n = .int (pyInt y) else ∃ d, ReprDigits d y ∧ n = .flt d

end CQ
