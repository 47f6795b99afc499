import Mathlib.Algebra.Order.Field.Basic
import Mathlib.Data.List.Perm.Basic
/-!
What the observation statistics should be: the mean and the variance of a list of observation vectors, and what a history of
updates has shown to the normaliser.
-/
namespace EvoTorch.RunningNorm.Spec
variable {K : Type} [Field K] {d : Nat}

/-- The mean of coordinate `j`. -/
def mean (xs : List (Fin d → K)) (j : Fin d) : K := (xs.map fun x => x j).sum / xs.length

/-- The (biased) variance of coordinate `j`: the mean squared distance from the mean. -/
def variance (xs : List (Fin d → K)) (j : Fin d) : K := (xs.map fun x => (x j - mean xs j) ^ 2).sum / xs.length

/-- Keep the items whose mask item is true. -/
def select {α : Type} : List α → List Bool → List α
  | x :: xs, b :: bs => if b then x :: select xs bs else select xs bs
  | _, _ => []

/-- How a normaliser came to its state: starting empty, shown one observation, a batch, a batch with a mask, the data of another
normaliser with its own history, or reset. -/
inductive History (K : Type) (d : Nat) where
  | empty
  | single (h : History K d) (x : Fin d → K)
  | batch (h : History K d) (rows : List (Fin d → K))
  | masked (h : History K d) (rows : List (Fin d → K)) (mask : List Bool)
  | merge (h other : History K d)
  | reset (h : History K d)

/-- All the observations shown since the last reset. -/
def History.seen : History K d → List (Fin d → K)
  | .empty => []
  | .single h x => h.seen ++ [x]
  | .batch h rows => h.seen ++ rows
  | .masked h rows mask => h.seen ++ select rows mask
  | .merge h other => h.seen ++ other.seen
  | .reset _ => []

/-- Masks have the length of their batches, and no batch is (effectively) empty while nothing has been seen before it. -/
def History.WellFormed : History K d → Prop
  | .empty => True
  | .single h _ => h.WellFormed
  | .batch h rows => h.WellFormed ∧ (rows ≠ [] ∨ h.seen ≠ [])
  | .masked h rows mask => h.WellFormed ∧ mask.length = rows.length ∧ (select rows mask ≠ [] ∨ h.seen ≠ [])
  | .merge h other => h.WellFormed ∧ other.WellFormed
  | .reset h => h.WellFormed

end EvoTorch.RunningNorm.Spec
