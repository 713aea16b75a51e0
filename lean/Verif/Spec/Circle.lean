import Verif.Spec.Placement
import Verif.Model.Profile

/-! # Specification: offsets of circles that have been placed somewhere

A shape of the CAD kernel is geometry together with a location (a rigid motion); what one sees is the moved geometry.  The wires of the
model are what one sees; `loc` tells the location of a wire. -/

namespace CQ

/-- The motion that leaves everything in place. -/
def Rigid.still : Rigid := Rigid.translation ⟨0, 0, 0⟩

/-- `h` undoes `g`. -/
def Undoes (h g : Rigid) : Prop := ∀ v, h.point (g.point v) = v ∧ h.dir (g.dir v) = v

/-- A wire of a single edge that ends where it starts, in the sense of the kernel's `==`. -/
def OneLoop (cad : Cad) (w : List Edge) : Prop := ∃ e, w = [e] ∧ cad.veq e.startPoint e.endPoint = true

/-- Setting the location of a wire to the inverse of the location of another one: it loses its own location and gets that one. -/
def Relocates (cad : Cad) (loc : List Edge → Rigid) : Prop :=
  ∀ src tgt h k, Undoes h (loc src) → Undoes k (loc tgt) → cad.relocate src tgt = tgt.map (fun e => h.edge (k.edge e))

/-- cadquery issue 896, the fault of the kernel for which there is the workaround: the offsets of a circle are moved by the location of the
circle once too often (and have no location of their own).  `right w o` are the curves at the distance `o` from `w`. -/
def CircleFault (cad : Cad) (loc : List Edge → Rigid) (right : List Edge → ℚ → List (List Edge)) : Prop :=
  ∀ w o ws, OneLoop cad w → cad.offset2D w o = .ok ws →
    ws = (right w o).map (List.map (loc w).edge) ∧ ∀ t ∈ ws, loc t = Rigid.still

end CQ
