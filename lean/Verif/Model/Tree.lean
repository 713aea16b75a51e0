import Mathlib.Data.List.Sort

/-!
# Model of `src/cq_cam/utils/tree.py`

A node is identified by its position in `Tree.nodes` (nodes are appended when they are created and never removed, so
positions are identities; `Node` has no `__eq__`).
-/

namespace CQ

/-- src/cq_cam/utils/tree.py:4-13 `Node`: the wrapped object, the parent (a position) and the lock. -/
structure TNode (α : Type) where
  obj : α
  parent : Option ℕ := none
  locked : Bool := false
deriving DecidableEq, Repr

/-- src/cq_cam/utils/tree.py:41-44 `Tree`: its nodes in order of creation; the root is the first. -/
abbrev CTree (α : Type) := List (TNode α)

/-- src/cq_cam/utils/tree.py:42-44. -/
def CTree.init {α : Type} (root : α) : CTree α := [{ obj := root }]

/-- src/cq_cam/utils/tree.py:12-13 `Node.lock`, for the node at position `i`. -/
def CTree.lock {α : Type} (t : CTree α) (i : ℕ) : CTree α := t.modify i (fun n => { n with locked := true })

/-- src/cq_cam/utils/tree.py:15-22 `Node.branch`, for the node at position `i` and a list of objects (the `TypeError`
branch for a single object is `branch [x]`). -/
def CTree.branch {α : Type} (t : CTree α) (i : ℕ) (objs : List α) : CTree α :=
  t ++ objs.map (fun o => { obj := o, parent := some i })

def CTree.parentOf {α : Type} (t : CTree α) (i : ℕ) : Option ℕ := (t[i]?).bind TNode.parent

/-- src/cq_cam/utils/tree.py:24-26 `Node.parents`, with fuel (a parent is older than its child, so the number of nodes is
enough).  Python's recursion limit is not modelled. -/
def CTree.ancestorsF {α : Type} (t : CTree α) : ℕ → ℕ → List ℕ
  | 0, _ => []
  | f + 1, i =>
      match t.parentOf i with
      | none => []
      | some p => p :: CTree.ancestorsF t f p

/-- src/cq_cam/utils/tree.py:28-30 `Node.traverse`. -/
def CTree.traverse {α : Type} (t : CTree α) (i : ℕ) : List ℕ := i :: t.ancestorsF t.length i

/-- src/cq_cam/utils/tree.py:32-35 `Node.traverse_and_unwrap`. -/
def CTree.unwrap {α : Type} (t : CTree α) (i : ℕ) : List α := (t.traverse i).filterMap (fun k => (t[k]?).map TNode.obj)

/-- src/cq_cam/utils/tree.py:46-48 `Tree.parents`. -/
def CTree.parents {α : Type} (t : CTree α) : List ℕ := t.filterMap TNode.parent

/-- src/cq_cam/utils/tree.py:50-53 `Tree.leaves`. -/
def CTree.leaves {α : Type} (t : CTree α) : List ℕ := (List.range t.length).filter (fun i => decide (i ∉ t.parents))

/-- src/cq_cam/utils/tree.py:55-58 `Tree.next_unlocked`; `none` is `StopIteration`. -/
def CTree.nextUnlocked {α : Type} (t : CTree α) : Option ℕ :=
  t.leaves.find? (fun i => match t[i]? with | some n => !n.locked | none => false)

/-- The loop src/cq_cam/utils/tree.py:66-74 of `sequences`, with fuel (each round consumes one candidate). Python's
`sort(key=len, reverse=True)` is stable. -/
def sequencesFrom {α : Type} [DecidableEq α] : ℕ → List (List α) → List α → List (List α)
  | 0, _, _ => []
  | n + 1, cands, used =>
      match cands.insertionSort (fun a b => b.length ≤ a.length) with
      | [] => []
      | s :: rest => s :: sequencesFrom n (rest.map (List.filter (fun x => decide (x ∉ used ++ s)))) (used ++ s)

/-- src/cq_cam/utils/tree.py:60-75 `Tree.sequences`.  `in` compares the wrapped objects with `==`. -/
def CTree.sequences {α : Type} [DecidableEq α] (t : CTree α) : List (List α) :=
  let cands := t.leaves.map t.unwrap
  sequencesFrom cands.length cands []

/-- The tree of the repository's own test gives the expected sequences. -/
example : (((((((CTree.init "root").branch 0 ["L1", "M1", "R1"]).branch 1 ["L2"]).branch 4 ["L3A", "L3B"]).branch 3
    ["R1A", "R1B", "R1C"]).branch 8 ["R2A", "R2B"]).branch 11 ["R3"]).sequences =
    [["R3", "R2B", "R1B", "R1", "root"], ["L3A", "L2", "L1"], ["L3B"], ["R2A"], ["R1A"], ["R1C"], ["M1"]] := by
  decide +kernel

end CQ
