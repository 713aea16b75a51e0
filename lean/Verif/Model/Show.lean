import Verif.Model.Visualize

/-!
# Model of `Job.show` (`src/cq_cam/fluent.py`)
-/

namespace CQ

/-- What is handed to `show_object`: a group of coloured shapes, or a list of edges. -/
inductive Picture where
  | group (shapes : List (Drawn × String))
  | edges (shapes : List Drawn)
deriving DecidableEq, Repr

/-- `show_object.__module__.split(".")[0]`. -/
def firstPart (module : Text) : Text := module.takeWhile (· ≠ '.')

/-- src/cq_cam/fluent.py:301-310: `visualize_f(self.top, commands)` for a `show_object` from the module with this first part. -/
def pictureFor (k : DrawKernel) (part : Text) (top : Frame) (cs : List Command) : Except Err Picture :=
  if part = "cq_editor".toList then (visualizeGroup k top cs).map .group
  else (visualizeEdges k top cs).map .edges

/-- The name at src/cq_cam/fluent.py:314. -/
def entryName (job : Text) (i : ℕ) (operation : Text) : Text :=
  job ++ " #".toList ++ natText i ++ " ".toList ++ operation

/-- The loop src/cq_cam/fluent.py:311-315 from operation number `i` on: the calls of `show_object` and how the loop ends. -/
def showFrom (k : DrawKernel) (part : Text) (j : Job) (i : ℕ) : List Operation → List (Picture × Text) × Except Err Unit
  | [] => ([], .ok ())
  | o :: os =>
      match pictureFor k part j.top (o.commands.drop 1) with
      | .error e => ([], .error e)
      | .ok p =>
          let rest := showFrom k part j (i + 1) os
          ((p, entryName j.name i o.name) :: rest.1, rest.2)

/-- src/cq_cam/fluent.py:290-315 `Job.show`; `viewer` is the module of the `show_object` that was given or found, if any.  The
logged warning (lines 307-309) is left out; `show_object` itself is taken not to raise. -/
def Job.show (k : DrawKernel) (viewer : Option Text) (j : Job) : List (Picture × Text) × Except Err Unit :=
  match viewer with
  | none => ([], .error .valueError)
  | some m => showFrom k (firstPart m) j 0 j.operations

end CQ
