import Verif.Spec.Heights
import Verif.Spec.Profile
import Mathlib.Data.List.Forall2

/-! # Specification for C127: stepdown only adds passes -/

namespace CQ

/-- All feed moves of `cs` occur, in the same order, among those of `cs'`. -/
def MoreCuts (cs cs' : List Motion) : Prop :=
  List.SublistForall₂ SameCut (cs.filter (fun c => c.kind.isFeed)) (cs'.filter (fun c => c.kind.isFeed))

/-- Whenever the call `r'` is accepted, so is `r` (after whatever other operations), and `r'` makes all feed moves of `r`, in the same
order, and possibly others between them. -/
structure AddsOnly (top : Frame) (safe : ℚ) (r r' : Request) : Prop where
  tool : r'.tool = r.tool
  pre : ∀ (j : Job) (old : List Operation), j.opSafeHeight = safe → r'.pre j = .ok () → r.pre { j with operations := old } = .ok ()
  gen : ∀ (j : Job) (old : List Operation) cs', j.top = top → j.opSafeHeight = safe → r'.gen j = .ok cs' →
    ∃ cs, r.gen { j with operations := old } = .ok cs ∧ MoreCuts cs cs'

/-- The passes of a profile have edges, start below the safe height, and are entered at their first vertex (the kernel's search
from the end of the pass before finds a vertex). -/
def PlainPasses (cad : Cad) (top : Frame) (offset : ℚ) (stepdown : Option ℚ) (tabs : Option Tabs) (safe : ℚ) (wire : List Edge) : Prop :=
  ∀ (j : Job) ws, j.top = top → profileWires cad j wire offset stepdown tabs = .ok ws →
    ∀ w ∈ ws, w ≠ [] ∧ (∀ e, w.head? = some e → (edgeStartPoint e).z < safe) ∧ NearestIsVertex cad w

end CQ
