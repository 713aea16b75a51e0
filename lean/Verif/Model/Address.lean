import Verif.Py.Float

/-!
# Model of `src/cq_cam/address.py` and `optimize_float`
-/

namespace CQ

/-- src/cq_cam/utils/utils.py:392-395 `optimize_float`: drop the fraction of a float that is
exactly an integer.  On an `int` argument `int(v)` is `v` itself. -/
def optimizeFloat : PyNum → PyNum
  | .int n => .int n
  | .flt d => if d.value = (pyInt d.value : ℚ) then .int (pyInt d.value) else .flt d

/-- src/cq_cam/address.py:54-84 `AddressVector`: each axis is a number or `None`. -/
@[ext] structure AddrVec where
  x : Option ℚ := none
  y : Option ℚ := none
  z : Option ℚ := none
deriving DecidableEq, Repr

/-- A fully known vector (`cq.Vector`). -/
@[ext] structure Vec where
  x : ℚ
  y : ℚ
  z : ℚ
deriving DecidableEq, Repr

/-- src/cq_cam/address.py:71-73 `AddressVector.from_vector`. -/
def AddrVec.fromVec (v : Vec) : AddrVec := ⟨some v.x, some v.y, some v.z⟩

/-- One axis of src/cq_cam/address.py:76-79 (`relative=True`): `0` when the own axis is `None`,
`self - origin` otherwise; subtracting a `None` origin is a Python `TypeError` (`none` here). -/
def relAxis : Option ℚ → Option ℚ → Option ℚ
  | none, _ => some 0
  | some a, some o => some (a - o)
  | some _, none => none

/-- src/cq_cam/address.py:75-84 `to_vector(origin, relative=True)`; `none` is the `TypeError`
raised when an axis is known here but `None` in the origin. -/
def AddrVec.toVecRel (a o : AddrVec) : Option Vec :=
  match relAxis a.x o.x, relAxis a.y o.y, relAxis a.z o.z with
  | some x, some y, some z => some ⟨x, y, z⟩
  | _, _, _ => none

/-- src/cq_cam/address.py:80-84 `to_vector(origin)` (absolute): own axis if known, else the
origin's axis. -/
def AddrVec.toVecAbs (a : AddrVec) (o : Vec) : Vec :=
  ⟨a.x.getD o.x, a.y.getD o.y, a.z.getD o.z⟩

/-- src/cq_cam/address.py:131-135 `GCodeWordPrecision.__str__`, and the subclasses
`XAxis … ArcZAxis` (lines 138-165): empty for `None`, else the letter followed by the optimised
rounded value. -/
def axisWord (letter : Char) (a : Option ℚ) (precision : ℕ := 3) : Text :=
  match a with
  | none => []
  | some q => letter :: (optimizeFloat (.flt (decOf (pyRound q precision) precision))).str

/-- src/cq_cam/address.py:118-121 `GCodeWord.__str__`, used by `Feed`, `Speed`, `DwellTime`,
`ToolNumber`, `ToolLengthOffset`, `ToolRadiusOffset` (lines 168-195): unrounded `str(value)`. -/
def plainWord (letter : Char) (a : Option PyNum) : Text :=
  match a with
  | none => []
  | some n => letter :: n.str

/-- Python `" ".join(parts)`. -/
def joinSpace : List Text → Text
  | [] => []
  | [w] => w
  | w :: ws => w ++ ' ' :: joinSpace ws

/-- Python `"\n".join(parts)`. -/
def joinNL : List Text → Text
  | [] => []
  | [w] => w
  | w :: ws => w ++ '\n' :: joinNL ws

/-- src/cq_cam/address.py:209-222 `GCodeAxisGroup.__str__`: the non-empty words joined by blanks. -/
def axisGroup (w1 w2 w3 : Text) : Text := joinSpace ([w1, w2, w3].filter (· ≠ []))

/-- src/cq_cam/address.py:225-231 `XYZ`. -/
def xyzText (e : AddrVec) (precision : ℕ := 3) : Text :=
  axisGroup (axisWord 'X' e.x precision) (axisWord 'Y' e.y precision) (axisWord 'Z' e.z precision)

/-- src/cq_cam/address.py:234-240 `IJK`. -/
def ijkText (c : Vec) (precision : ℕ := 3) : Text :=
  axisGroup (axisWord 'I' (some c.x) precision) (axisWord 'J' (some c.y) precision)
    (axisWord 'K' (some c.z) precision)

end CQ
