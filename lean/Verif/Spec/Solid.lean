import Verif.Spec.ProfileClear
import Verif.Spec.Gouge
import Verif.Spec.Library
import Verif.Spec.Machining
import Verif.Spec.Surface

/-!
# Specification: the finished part as a solid, and moves that leave it alone

The solid is given in the coordinates of the job: `S q ζ` says that the point at height `ζ` over `q` belongs to it.  The tool is an
upright cylinder that stands on its tip and is as long as can be, so that it reaches everything above the tip.
-/

namespace CQ

/-- A solid: which heights over which points of the plane belong to it. -/
abbrev Solid := Pt → ℚ → Prop

/-- A cylinder of radius `R` with its tip at height `z` over `p` contains no point of the solid that is more than `ε` above the tip. -/
def Spares (S : Solid) (R ε : ℚ) (p : Pt) (z : ℚ) : Prop := ∀ q ζ, S q ζ → z + ε < ζ → R ^ 2 ≤ sqDist p q

/-- Whether the motion is an arc, and if so, whether it is counterclockwise. -/
def arcTurns : Mot → Option Bool
  | .cw => some false
  | .ccw => some true
  | _ => none

/-- On its whole way the move spares the solid: on a straight way at each point at the height it has there, on an arc at the lower
of its two heights. -/
def MoveSpares (S : Solid) (R ε : ℚ) (c : Motion) : Prop :=
  ∃ a b : Pt, ∃ za zb : ℚ, c.start = a.at za ∧ c.fin = b.at zb ∧
    match arcTurns c.kind.mot with
    | some ccw => ∃ o, c.center.AtXY o ∧ ∀ p, OnArc ccw o a b p → Spares S R ε p (min za zb)
    | none => ∀ t, 0 ≤ t → t ≤ 1 → Spares S R ε (a.lerp b t) (za + t * (zb - za))

/-- On its whole way the machine spares the solid: straight, or on an arc whose ends are within half a thousandth and whose centre is within
a thousandth (in X and in Y) of those of an arc that keeps a thousandth more away from it. -/
def RunSpares (S : Solid) (R ε : ℚ) (e : Event) : Prop :=
  ∃ k tgt ctr, ∃ a b : Pt, ∃ za zb : ℚ, e.act = .move k tgt ctr ∧ e.st.pos = a.pos za ∧ tgt = b.pos zb ∧
    match arcTurns k with
    | some ccw => ∃ a' b' o o' : Pt, ctr.x = some (o.x - a.x) ∧ ctr.y = some (o.y - a.y) ∧
        a.Near (1 / 2000) a' ∧ b.Near (1 / 2000) b' ∧ o.Near (1 / 1000) o' ∧
        ∀ p, OnArc ccw o' a' b' p → Spares S (R + 1 / 1000) ε p (min za zb)
    | none => ∀ t, 0 ≤ t → t ≤ 1 → Spares S R ε (a.lerp b t) (za + t * (zb - za))

/-- A rapid that cannot touch anything below the top plane on its way, except where it stood already: it stays at or above the top plane, or
it goes straight up to it or higher. -/
def RapidHarmless (e : Event) : Prop :=
  ∀ tgt ctr, e.act = .move .rapid tgt ctr → ∃ z', tgt.z = some z' ∧ 0 ≤ z' ∧
    ((∃ z, e.st.pos.z = some z ∧ 0 ≤ z) ∨ (tgt.x = e.st.pos.x ∧ tgt.y = e.st.pos.y))

/-- The moves of the call continue each other and its feed moves spare the solid, with a cylinder that is `σ` thinner than the tool, and up to
`ε` above its tip. -/
def CallSpares (S : Solid) (σ ε : ℚ) (j : Job) (r : Request) : Prop :=
  ∀ cs, r.gen j = .ok cs → Tracks {} cs ∧ ∀ R, j.toolRadius = some R → ∀ ρ, 0 ≤ ρ → ρ + σ ≤ R →
    ∀ c ∈ cs, c.kind.mot ≠ .rapid → MoveSpares S ρ ε c

/-- All calls of a chain spare the solid. -/
def EachSpares (S : Solid) (σ ε : ℚ) : Job → List Request → Prop
  | _, [] => True
  | j, r :: rs => CallSpares S σ ε (j.updateTool r.tool).2 r ∧ ∀ j', (j.call r).2 = .ok j' → EachSpares S σ ε j' rs

/-- What of the solid rises above the depth `d` over a given face that is at least as deep is in one of the holes of the face, or in an
avoid face that reaches this depth. -/
def LeavesFree (S : Solid) (faces avoids : List PathFace) (d : ℚ) : Prop :=
  ∀ f ∈ faces, f.depth ≤ d → ∀ z ζ, S z ζ → d < ζ → Inside f.outer z →
    (∃ h ∈ f.inners, InOn h z) ∨ ∃ a ∈ avoids, d ≤ a.depth ∧ InOn a.outer z ∧ ∀ i ∈ a.inners, ¬ Inside i z

/-- A pocket that can be milled without touching the solid.  The outlines of the given faces are shrunk, their holes and the avoid faces grown
by the radius `R` of the tool (up to `σ`); grown holes do not overlap, and the areas enclose no void.  At the depth of every region the solid
leaves the given faces free, and straight ways between two places where the tool can be lead over such places, or at least spare the solid. -/
structure OpenPocket (S : Solid) (σ ε δ R : ℚ) (eng : Clipper) (precision : ℕ) (outer inner avoidOuter avoidInner : ℚ)
    (faces avoidFaces : List PathFace) (areas avoids : List (List PathFace)) (regions : List PathFace) : Prop where
  inset : R + 5 * δ ≤ -outer + σ
  outset : R + 5 * δ ≤ inner + σ
  around : avoidFaces ≠ [] → R + 5 * δ ≤ avoidOuter + σ
  shrunk : outer ≤ 0
  rings : ∀ f ∈ avoidFaces, f.inners = [] ∨ avoidOuter ≤ -avoidInner
  holes : HolesApart eng δ inner precision faces
  void : ∀ r ∈ regions, NoVoid eng areas r.depth
  separate : ∀ r ∈ regions, Separate (2 * δ) (cutAway areas avoids r.depth)
  free : ∀ r ∈ regions, LeavesFree S faces avoidFaces (r.depth + ε)
  links : ∀ r ∈ regions, ∀ p q x, OnSegment p q x →
    ToolIn faces avoidFaces (5 * δ) (-outer - 5 * δ) (inner - 5 * δ) (avoidOuter - 5 * δ) r.depth p →
    ToolIn faces avoidFaces (5 * δ) (-outer - 5 * δ) (inner - 5 * δ) (avoidOuter - 5 * δ) r.depth q →
    ToolIn faces avoidFaces (5 * δ) (-outer - 5 * δ) (inner - 5 * δ) (avoidOuter - 5 * δ) r.depth x ∨ Spares S (R - σ) ε x r.depth

end CQ
