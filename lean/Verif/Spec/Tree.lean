import Verif.Model.Tree

/-! # Specification vocabulary for contour trees -/

namespace CQ

/-- Trees built with the operations of the class. -/
inductive Built {α : Type} : CTree α → Prop where
  | init (root : α) : Built (CTree.init root)
  | lock (t : CTree α) (i : ℕ) : Built t → Built (t.lock i)
  | branch (t : CTree α) (i : ℕ) (objs : List α) : Built t → i < t.length → Built (t.branch i objs)

/-- The objects of all nodes. -/
def CTree.objs {α : Type} (t : CTree α) : List α := t.map TNode.obj

/-- `y` is wrapped by the parent of a node that wraps `x`. -/
def IsParentObj {α : Type} (t : CTree α) (x y : α) : Prop :=
  ∃ (i p : ℕ) (a b : TNode α), t[i]? = some a ∧ a.parent = some p ∧ t[p]? = some b ∧ a.obj = x ∧ b.obj = y

/-- `x` is wrapped by a node without children. -/
def IsLeafObj {α : Type} (t : CTree α) (x : α) : Prop :=
  ∃ (i : ℕ) (a : TNode α), t[i]? = some a ∧ a.obj = x ∧ ∀ b ∈ t, b.parent ≠ some i

end CQ
