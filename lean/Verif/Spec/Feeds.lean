import Verif.Model.Op3d
import Verif.Spec.Program

/-!
# Specification for C124: programs that differ in feeds, speeds, coolant, tool numbers and names only
-/

namespace CQ

/-- The settings of a job that say where the tool goes: work plane, tool diameter, heights, precision. -/
structure SameGeometry (j j' : Job) : Prop where
  top : j'.top = j.top
  diameter : j'.toolDiameter = j.toolDiameter
  rapid : j'.rapidHeight = j.rapidHeight
  safe : j'.opSafeHeight = j.opSafeHeight
  precision : j'.precision = j.precision

/-- Two motions that differ at most in their feed. -/
structure SameWay (c c' : Motion) : Prop where
  kind : c'.kind = c.kind
  start : c'.start = c.start
  fin : c'.fin = c.fin
  center : c'.center = c.center
  mid : c'.mid = c.mid
  feed : c'.feed.isSome = c.feed.isSome

/-- Two results: both values, related by `R`, or the same exception. -/
def Alike {α β : Type} (R : α → β → Prop) : Except Err α → Except Err β → Prop
  | .ok a, .ok b => R a b
  | .error e, .error e' => e = e'
  | _, _ => False

/-- Two calls with tools of the same diameter (or none) that, made on jobs of the same geometry, are accepted or refused alike and
generate motions that differ in their feeds only. -/
structure SamePath (r r' : Request) : Prop where
  diameter : r'.tool.bind Tool.toolDiameter = r.tool.bind Tool.toolDiameter
  pre : ∀ j j', SameGeometry j j' → r'.pre j' = r.pre j
  gen : ∀ j j', SameGeometry j j' → Alike (List.Forall₂ SameWay) (r.gen j) (r'.gen j')

/-- All motion commands of a job, in order. -/
def Job.motions (j : Job) : List Motion := j.operations.flatMap (fun o => motionsOf o.commands)

/-- An axis goes to the same place in both, or moves in neither. -/
def AxisAlike (before after before' after' : Option ℚ) : Prop :=
  (∃ v, after = some v ∧ after' = some v) ∨ (after = before ∧ after' = before')

/-- Two events are the same move: of the same kind, to the same place, on arcs around the same centre. -/
def MovesAlike (e e' : Event) : Prop :=
  ∃ kind tgt tgt' ctr, e.act = .move kind tgt ctr ∧ e'.act = .move kind tgt' ctr ∧ AxisAlike e.st.pos.x tgt.x e'.st.pos.x tgt'.x ∧
    AxisAlike e.st.pos.y tgt.y e'.st.pos.y tgt'.y ∧ AxisAlike e.st.pos.z tgt.z e'.st.pos.z tgt'.z

end CQ
