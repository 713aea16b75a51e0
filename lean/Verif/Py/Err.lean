/-!
# Python exceptions as values
-/

namespace CQ

/-- The exceptions the modelled code can raise.  `outOfFuel` is no exception: it marks a loop that has not finished
within the number of rounds granted to the model.  `stdFail` is OpenCASCADE's `StdFail_NotDone`. -/
inductive Err where
  | typeError | runtimeError | valueError | indexError | assertionError | attributeError
  | operationError | zeroDivision | keyError | notImplemented | outOfFuel | stdFail
deriving DecidableEq, Repr

/-- A list comprehension whose body may raise. -/
def mapE {α β : Type} (f : α → Except Err β) : List α → Except Err (List β)
  | [] => .ok []
  | a :: as => do
      let b ← f a
      let bs ← mapE f as
      .ok (b :: bs)

end CQ
