import Verif.Model.BestWorst
/-!
Specification: what the extremes of a history of evaluations are.
-/
namespace EvoTorch.BestWorst
variable {V K : Type} {m : Nat} [LinearOrder K]

/-- `a` is strictly better than `b` (never true of a NaN). -/
def Better (s : Sense) (a b : Flt K) : Prop :=
  match s with
  | .min => Flt.lt a b = true
  | .max => Flt.lt b a = true

/-- The opposite sense. -/
def Sense.flip : Sense → Sense
  | .min => .max
  | .max => .min

/-- The infinitely bad evaluation of a sense. -/
def Sense.bad : Sense → Flt K
  | .min => .pinf
  | .max => .ninf

/-- In this batch no solution has a NaN as evaluation of objective `o`. -/
def Complete (o : Fin m) (batch : List (Row V K m)) : Prop := ∀ r ∈ batch, (r.evals o).isNan = false

/-- `x` is the extreme of the history w.r.t. sense `s` on objective `o`: an evaluated solution with a proper evaluation, such that no
solution of a NaN-free batch is strictly better; `none` only if all of these are infinitely bad. -/
def Extreme (s : Sense) (o : Fin m) (hist : List (List (Row V K m))) : Option (Row V K m) → Prop
  | some r => r ∈ hist.flatten ∧ (r.evals o).isNan = false ∧
      ∀ batch ∈ hist, Complete o batch → ∀ r' ∈ batch, ¬ Better s (r'.evals o) (r.evals o)
  | none => ∀ batch ∈ hist, Complete o batch → ∀ r' ∈ batch, r'.evals o = s.bad

end EvoTorch.BestWorst
