import Verif.Spec.Feeds
import Verif.Model.Profile

/-! # Specification for C126: jobs that differ in their rapid and safe heights only -/

namespace CQ

/-- The job with other heights (and, as the calls so far were made at these heights too, with other operations so far). -/
def Job.atHeights (j : Job) (rapid safe : ℚ) (old : List Operation) : Job :=
  { j with rapidHeight := rapid, opSafeHeight := safe, operations := old }

/-- Two feed moves that are the same; a plunge may start at another height (above the same point). -/
structure SameCut (c c' : Motion) : Prop where
  kind : c'.kind = c.kind
  fin : c'.fin = c.fin
  center : c'.center = c.center
  mid : c'.mid = c.mid
  feed : c'.feed = c.feed
  startX : c'.start.x = c.start.x
  startY : c'.start.y = c.start.y
  startZ : c.kind ≠ .plungeCut → c'.start.z = c.start.z

/-- Two lists of motions with the same feed moves, in the same order. -/
def SameCuts (cs cs' : List Motion) : Prop :=
  List.Forall₂ SameCut (cs.filter (fun c => c.kind.isFeed)) (cs'.filter (fun c => c.kind.isFeed))

/-- A call that, made on jobs that differ in their heights only (`safe` or `safe'` for the safe height), is accepted or refused
alike and makes the same feed moves. -/
structure FreeOfHeights (top : Frame) (safe safe' : ℚ) (r : Request) : Prop where
  pre : ∀ (j : Job) (R : ℚ) (old : List Operation), r.pre (j.atHeights R safe' old) = r.pre j
  gen : ∀ (j : Job) (R : ℚ) (old : List Operation), j.top = top → j.opSafeHeight = safe →
    Alike SameCuts (r.gen j) (r.gen (j.atHeights R safe' old))

/-- All contours made from a wire, whatever the tool, start below the height `h`. -/
def StartsBelow (cad : Cad) (top : Frame) (offset : ℚ) (stepdown : Option ℚ) (tabs : Option Tabs) (h : ℚ) (wire : List Edge) : Prop :=
  ∀ (j : Job) ws, j.top = top → profileWires cad j wire offset stepdown tabs = .ok ws →
    ∀ w ∈ ws, ∀ e, w.head? = some e → (edgeStartPoint e).z < h

end CQ
