import Verif.Model.Command
import Verif.Model.Frame

/-!
# Model of `src/cq_cam/fluent.py` and `src/cq_cam/tool.py`
-/

namespace CQ

/-- src/cq_cam/fluent.py:31-35 `Operation`.  Of the `job` reference only `job.name` is ever used. -/
structure Operation where
  jobName : Text
  name : Text
  commands : List Command
deriving DecidableEq, Repr

/-- src/cq_cam/tool.py:1-12 `Tool`. -/
structure Tool where
  toolDiameter : Option ℚ := none
  toolNumber : Option PyNum := none
  feed : Option PyNum := none
  speed : Option PyNum := none
deriving DecidableEq, Repr

/-- The attributes of a `Job` (src/cq_cam/fluent.py:74-101).  `top_plane_face` is derived from `top`, and
`max_stepdown_count` is the constant 100. -/
structure Job where
  top : Frame := Frame.xy
  feed : PyNum
  speed : Option PyNum := none
  toolDiameter : Option ℚ := none
  toolNumber : Option PyNum := none
  name : Text := "Job".toList
  plungeFeed : PyNum
  rapidHeight : ℚ
  opSafeHeight : ℚ
  precision : ℕ := 3
  unit : JUnit := .metric
  plane : WorkPlane := .xy
  coordinate : WorkOffset := .o1
  distance : DistMode := .absolute
  arcDistance : ArcMode := .absolute
  controllerMotion : PlannerMode := .continuous
  coolant : Option Coolant := none
  operations : List Operation := []
deriving DecidableEq, Repr

/-- src/cq_cam/fluent.py:261-265 `_default_rapid_height`. -/
def defaultRapidHeight : JUnit → ℚ
  | .metric => 10
  | .imperial => 4 / 10

/-- src/cq_cam/fluent.py:267-271 `_default_op_safe_height`. -/
def defaultOpSafeHeight : JUnit → ℚ
  | .metric => 1
  | .imperial => 4 / 100

/-- src/cq_cam/fluent.py:54-101 `Job.__init__`. -/
def Job.init (top : Frame) (feed : PyNum) (speed : Option PyNum := none) (toolDiameter : Option ℚ := none)
    (toolNumber : Option PyNum := none) (name : Text := "Job".toList) (plungeFeed : Option PyNum := none)
    (rapidHeight : Option ℚ := none) (opSafeHeight : Option ℚ := none) (precision : ℕ := 3)
    (unit : JUnit := .metric) (plane : WorkPlane := .xy) (coordinate : WorkOffset := .o1)
    (distance : DistMode := .absolute) (arcDistance : ArcMode := .absolute)
    (controllerMotion : PlannerMode := .continuous) (coolant : Option Coolant := none) : Job :=
  { top, feed, speed, toolDiameter, toolNumber, name
    plungeFeed := match plungeFeed with | none => feed | some f => f
    rapidHeight := match rapidHeight with | none => defaultRapidHeight unit | some h => h
    opSafeHeight := match opSafeHeight with | none => defaultOpSafeHeight unit | some h => h
    precision, unit, plane, coordinate, distance, arcDistance, controllerMotion, coolant, operations := [] }

/-- Python `a == b` for numbers or `None` (`1 == 1.0`). -/
def pyEq (a b : Option PyNum) : Bool := decide (a.map PyNum.value = b.map PyNum.value)

/-- src/cq_cam/fluent.py:330-333 `_add_operation`: a shallow copy with one more operation. -/
def Job.addOperation (j : Job) (name : Text) (cmds : List Command) : Job :=
  { j with operations := j.operations ++ [⟨j.name, name, cmds⟩] }

/-- src/cq_cam/fluent.py:117-143 `update_tool`.  Returns the receiver as it is afterwards and the returned job: when
no change block is inserted, `self` itself is written to and returned. -/
def Job.updateTool (j : Job) (tool : Option Tool) : Job × Job :=
  match tool with
  | none => (j, j)
  | some t =>
      let toolDiameter := match t.toolDiameter with | none => j.toolDiameter | some d => some d
      let toolNumber := match t.toolNumber with | none => j.toolNumber | some n => some n
      let feed := match t.feed with | none => j.feed | some f => f
      let speed := match t.speed with | none => j.speed | some s => some s
      if toolNumber.isSome && !pyEq toolNumber j.toolNumber then
        let j' := j.addOperation "Tool Change".toList [.toolChange toolNumber speed j.coolant]
        (j, { j' with toolNumber, toolDiameter, feed, speed })
      else if speed.isSome && !pyEq speed j.speed then
        let j' := j.addOperation "Speed Change".toList [.start speed j.coolant]
        (j, { j' with toolNumber, toolDiameter, feed, speed })
      else
        let j' := { j with toolNumber, toolDiameter, feed, speed }
        (j', j')

/-- A fluent call: which operation, with which `tool` argument, a check made before `update_tool`
(src/cq_cam/fluent.py:157-162, `profile` only), and the commands the operation generates for the job it finds
after `update_tool` (the operations themselves are modelled in other files). -/
structure Request where
  opName : Text
  tool : Option Tool
  pre : Job → Except Err Unit := fun _ => .ok ()
  gen : Job → Except Err (List Motion)

/-- The fluent methods src/cq_cam/fluent.py:148-259: check, `update_tool`, generate, `_add_operation`.  Returns the
receiver afterwards and the result. -/
def Job.call (j : Job) (r : Request) : Job × Except Err Job :=
  match r.pre j with
  | .error e => (j, .error e)
  | .ok _ =>
      let u := j.updateTool r.tool
      match r.gen u.2 with
      | .error e => (u.1, .error e)
      | .ok cs => (u.1, .ok (u.2.addOperation r.opName (cs.map .motion)))

/-- A chain of fluent calls `job.op1(...).op2(...)…`. -/
def Job.chain (j : Job) : List Request → Except Err Job
  | [] => .ok j
  | r :: rs =>
      match (j.call r).2 with
      | .error e => .error e
      | .ok j' => j'.chain rs

/-- Texts of commands, empty ones skipped: src/cq_cam/fluent.py:41-48. -/
def commandTexts : List Command → Except Err (List Text)
  | [] => .ok []
  | c :: cs =>
      match c.str with
      | .error e => .error e
      | .ok t =>
          match commandTexts cs with
          | .error e => .error e
          | .ok ts => .ok (if t = [] then ts else t :: ts)

/-- src/cq_cam/fluent.py:37-50 `Operation.to_gcode`. -/
def Operation.toGcode (o : Operation) : Except Err Text :=
  match commandTexts o.commands with
  | .error e => .error e
  | .ok ts => .ok (joinNL (('(' :: (o.jobName ++ " - ".toList ++ o.name) ++ [')']) :: ts))

/-- Texts of the operations, joined by `task_break` (src/cq_cam/fluent.py:274, 279). -/
def opTexts : List Operation → Except Err Text
  | [] => .ok []
  | o :: os =>
      match o.toGcode with
      | .error e => .error e
      | .ok t =>
          match os with
          | [] => .ok t
          | _ :: _ =>
              match opTexts os with
              | .error e => .error e
              | .ok ts => .ok (t ++ "\n\n\n".toList ++ ts)

/-- src/cq_cam/fluent.py:276: the header comment. -/
def headerText (j : Job) : Text :=
  '(' :: (j.name ++ " - Feedrate: ".toList ++ j.feed.str ++ " - Unit: ".toList ++ j.unit.repr) ++ [')']

/-- src/cq_cam/fluent.py:273-283 `Job.to_gcode`. -/
def Job.toGcode (j : Job) : Except Err Text :=
  match opTexts j.operations with
  | .error e => .error e
  | .ok ops =>
      .ok (headerText j ++ '\n' :: (safetyBlock ++ '\n' :: (startSequence j.speed j.coolant ++ '\n' ::
        (ops ++ '\n' :: (safetyBlock ++ '\n' :: (stopSequence j.coolant ++ '\n' :: endReset))))))

/-- `str(job)`: `Job` defines no `__str__`, so this is `object.__repr__`, which has the form
`<cq_cam.fluent.Job object at 0x…>`; `addr` is the text of the address. -/
def Job.str (_ : Job) (addr : Text) : Text := "<cq_cam.fluent.Job object at ".toList ++ addr ++ ['>']

/-- src/cq_cam/fluent.py:285-288 `save_gcode`: the text written to the file. -/
def Job.saveGcode (j : Job) (addr : Text) : Text := j.str addr

/-- src/cq_cam/fluent.py:335-337 `tool_radius` (a diameter of 0 is falsy). -/
def Job.toolRadius (j : Job) : Option ℚ :=
  match j.toolDiameter with
  | none => none
  | some d => if d = 0 then none else some (d / 2)

end CQ
