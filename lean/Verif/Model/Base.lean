/-!
Shared vocabulary of the model: Python exceptions as values.
-/
namespace EvoTorch

/-- The kinds of Python exceptions that the modelled functions raise (messages are not modelled). -/
inductive PyErr where
  | valueError
  | typeError
  | indexError
  | keyError
  | runtimeError
  | attributeError
  | assertionError
  | notImplementedError
  | zeroDivisionError
  | recursionError
  | otherError
  deriving DecidableEq, Repr

/-- Outcome of a mutating method: the state the object is left in, and the returned value or the exception raised.
Keeping the state also in the exceptional case lets theorems speak about what a failed call leaves behind. -/
structure Outcome (σ β : Type _) where
  state : σ
  result : Except PyErr β

end EvoTorch
