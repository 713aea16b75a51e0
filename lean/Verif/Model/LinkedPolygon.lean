import Verif.Model.Geometry
import Mathlib.Data.List.Sort

/-!
# Model of `src/cq_cam/utils/linked_polygon.py`
-/

namespace CQ

/-- `list.index(p)`. -/
def pyIndex (l : List Pt) (p : Pt) : Except Err ℕ := if p ∈ l then .ok (l.idxOf p) else .error .valueError

/-- `list.remove(p)`: the first occurrence. -/
def pyRemove (l : List Pt) (p : Pt) : Except Err (List Pt) := if p ∈ l then .ok (l.erase p) else .error .valueError

/-- `list.insert(i, p)` for `i ≥ 0`. -/
def pyInsert (l : List Pt) (i : ℕ) (p : Pt) : List Pt := l.take i ++ p :: l.drop i

/-- src/cq_cam/utils/linked_polygon.py:7-10 `LinkedPolygon`; `avail` is `_linked_points`. -/
structure LinkedPolygon where
  polygon : List Pt
  linked : List Pt := []
  avail : List Pt := []
deriving DecidableEq, Repr

/-- src/cq_cam/utils/linked_polygon.py:12-34 `link_point`. -/
def LinkedPolygon.linkPoint (lp : LinkedPolygon) (point segStart segEnd : Pt) : Except Err LinkedPolygon :=
  if point ∈ lp.linked then .error .assertionError
  else do
    let i ← pyIndex lp.polygon segStart
    let j ← pyIndex lp.polygon segEnd
    if i + 1 = j then .ok { lp with polygon := pyInsert lp.polygon (i + 1) point, linked := lp.linked ++ [point] }
    else do
      let range := (lp.polygon.drop (i + 1)).take (j - (i + 1)) ++ [point]
      let sorted := range.insertionSort (fun a b => dist2 a segStart ≤ dist2 b segStart)
      let k ← pyIndex sorted point
      .ok { lp with polygon := pyInsert lp.polygon (i + 1 + k) point, linked := lp.linked ++ [point] }

/-- src/cq_cam/utils/linked_polygon.py:36-46 `reset` without a start point. -/
def LinkedPolygon.reset (lp : LinkedPolygon) : LinkedPolygon := { lp with avail := lp.linked }

/-- src/cq_cam/utils/linked_polygon.py:48-49 `drop`. -/
def LinkedPolygon.drop (lp : LinkedPolygon) (p : Pt) : Except Err LinkedPolygon := do
  let avail ← pyRemove lp.avail p
  .ok { lp with avail }

/-- The loops src/cq_cam/utils/linked_polygon.py:71-75 and 81-86: the distance and the sequence.  `dist` is the distance that
is added for each point: `last_point` is never updated, so it is the squared distance from the entry point. -/
def searchLinked (avail : List Pt) (dist : Pt → ℚ) : List Pt → ℚ × List Pt
  | [] => (0, [])
  | q :: qs =>
      if q ∈ avail then (dist q, [q])
      else (dist q + (searchLinked avail dist qs).1, q :: (searchLinked avail dist qs).2)

/-- src/cq_cam/utils/linked_polygon.py:88-93: the sequence taken. -/
def chooseLink (forward reverse : ℚ × List Pt) : List Pt := if forward.1 < reverse.1 then forward.2 else reverse.2

/-- `self._linked_points.remove(sequence[-1])`, src/cq_cam/utils/linked_polygon.py:88-93. -/
def takeLink (lp : LinkedPolygon) (avail : List Pt) (sequence : List Pt) :
    Except Err (Option (List Pt) × LinkedPolygon) :=
  match sequence.getLast? with
  | none => .error .indexError
  | some q => do
      let avail ← pyRemove avail q
      .ok (some sequence, { lp with avail })

/-- src/cq_cam/utils/linked_polygon.py:51-93 `nearest_linked`: the result and the polygon afterwards. -/
def LinkedPolygon.nearestLinked (lp : LinkedPolygon) (point : Pt) :
    Except Err (Option (List Pt) × LinkedPolygon) := do
  let avail ← pyRemove lp.avail point
  if avail = [] then .ok (none, { lp with avail })
  else do
    let i ← pyIndex lp.polygon point
    let search := lp.polygon.drop (i + 1) ++ lp.polygon.take i
    takeLink lp avail (chooseLink (searchLinked avail (fun q => dist2 point q) search)
      (searchLinked avail (fun q => dist2 q point) search.reverse))

end CQ
