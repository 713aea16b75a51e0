import Verif.Spec.Plane
import Mathlib.Data.List.Rotate

/-! # Specification: clipping wires and sorting contours -/

namespace CQ

/-- A path that ends where it begins. -/
def Loop (path ring : List Pt) : Prop := ∃ p ps, ring = p :: ps ∧ path = p :: ps ++ [p]

/-- `p` is a vertex nearest to `a`. -/
def NearestVertex (a : Pt) (ring : List Pt) (p : Pt) : Prop := p ∈ ring ∧ ∀ q ∈ ring, sqDist a p ≤ sqDist a q

/-- `path'` is the same closed curve as `path`, run through the same way, begun at a vertex nearest to `a`. -/
def SameLoopFrom (a : Pt) (path path' : List Pt) : Prop :=
  ∃ ring ring', Loop path ring ∧ Loop path' ring' ∧ ring ~r ring' ∧ ∃ p, ring'.head? = some p ∧ NearestVertex a ring p

/-- A closed path begun at a vertex nearest to `a`; an open one with its vertices from such a vertex on before the others. -/
def Restarted (a : Pt) (path path' : List Pt) : Prop :=
  SameLoopFrom a path path' ∨ (path.head? ≠ path.getLast? ∧ path ~r path' ∧ ∃ p, path'.head? = some p ∧ NearestVertex a path p)

/-- The paths in their order, the first as it is, each of the others the same closed curve begun at a vertex nearest to the end
of the path before it. -/
def BegunNear (paths paths' : List (List Pt)) : Prop :=
  paths'.length = paths.length ∧ paths'.head? = paths.head? ∧
    ∀ (i : ℕ) p q r, paths'[i]? = some p → paths[i + 1]? = some q → paths'[i + 1]? = some r →
      ∃ a, p.getLast? = some a ∧ SameLoopFrom a q r

/-- The `n`-th generation of what the wires `ws` are turned into by `off`. -/
def generation {W : Type} (off : W → List W) (ws : List W) : ℕ → List W
  | 0 => ws
  | n + 1 => (generation off ws n).flatMap off

/-- The generations 1 to `n`, one after the other. -/
def generations {W : Type} (off : W → List W) (ws : List W) (n : ℕ) : List W :=
  (List.range n).flatMap (fun i => generation off ws (i + 1))

end CQ
