import Verif.Spec.Program

/-!
# Specification: job histories

Which jobs a user can have in hand: a freshly constructed job, the result of an operation call on such a job, or
such a job after it was used as a receiver (also of a failing call).
-/

namespace CQ

/-- A constructor call with printable numbers and a harmless name. -/
structure InitOK (j : Job) : Prop where
  fresh : j.operations = []
  name : SafeName j.name
  feed : NumOK j.feed
  speed : ∀ v, j.speed = some v → NumOK v

/-- A tool with printable numbers. -/
structure ToolOK (t : Tool) : Prop where
  number : ∀ v, t.toolNumber = some v → NumOK v
  feed : ∀ v, t.feed = some v → NumOK v
  speed : ∀ v, t.speed = some v → NumOK v

/-- An operation call on the job `j` whose generated moves are printable. -/
structure RequestOK (j : Job) (r : Request) : Prop where
  name : SafeName r.opName
  tool : ∀ t, r.tool = some t → ToolOK t
  gen : ∀ cs, r.gen (j.updateTool r.tool).2 = .ok cs → ∀ c ∈ cs, MotionOK c

/-- A chain of such calls. -/
def ChainOK : Job → List Request → Prop
  | _, [] => True
  | j, r :: rs => RequestOK j r ∧ ∀ j', (j.call r).2 = .ok j' → ChainOK j' rs

/-- Jobs reachable from constructor `j0` by any tree of operation calls. -/
inductive Reach (j0 : Job) : Job → Prop where
  | init : Reach j0 j0
  | result {j j' : Job} (r : Request) (h : Reach j0 j) (hr : RequestOK j r) (e : (j.call r).2 = .ok j') : Reach j0 j'
  | receiver {j : Job} (r : Request) (h : Reach j0 j) (hr : RequestOK j r) : Reach j0 (j.call r).1

/-- The settings one operation is supposed to run with. -/
structure Settings where
  toolNumber : Option PyNum
  toolDiameter : Option ℚ
  feed : PyNum
  speed : Option PyNum
deriving DecidableEq, Repr

/-- Settings of a job. -/
def Job.settings (j : Job) : Settings := ⟨j.toolNumber, j.toolDiameter, j.feed, j.speed⟩

/-- Field-by-field inheritance: what the tool argument leaves out is inherited. -/
def Settings.inherit (s : Settings) : Option Tool → Settings
  | none => s
  | some t =>
      { toolNumber := t.toolNumber.or s.toolNumber
        toolDiameter := t.toolDiameter.or s.toolDiameter
        feed := t.feed.getD s.feed
        speed := t.speed.or s.speed }

/-- The settings of each operation of a chain of calls. -/
def requestSettings (s : Settings) : List Request → List Settings
  | [] => []
  | r :: rs => s.inherit r.tool :: requestSettings (s.inherit r.tool) rs

/-- Same number, as Python compares them. -/
def SameNum (a b : Option PyNum) : Prop := a.map PyNum.value = b.map PyNum.value

/-- For each operation of a chain: its settings, and whether a change of kind `p` (from the settings before an
operation to its own) was made for this or an earlier operation of the chain. -/
def changeHistory (p : Settings → Settings → Prop) (s : Settings) (changed : Prop) :
    List Request → List (Settings × Prop)
  | [] => []
  | r :: rs =>
      let s' := s.inherit r.tool
      let c' := changed ∨ p s s'
      (s', c') :: changeHistory p s' c' rs

/-- Another tool number. -/
def ToolChanged (s s' : Settings) : Prop := ¬ SameNum s'.toolNumber s.toolNumber

/-- Another tool number or another speed. -/
def ToolOrSpeedChanged (s s' : Settings) : Prop :=
  ¬ SameNum s'.toolNumber s.toolNumber ∨ ¬ SameNum s'.speed s.speed

/-- The moves each call of a chain generates. -/
def chainMoves (j : Job) : List Request → List (List Motion)
  | [] => []
  | r :: rs =>
      match r.gen (j.updateTool r.tool).2, (j.call r).2 with
      | .ok cs, .ok j' => cs :: chainMoves j' rs
      | _, _ => []

end CQ
