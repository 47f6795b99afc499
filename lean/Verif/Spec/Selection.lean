import Verif.Model.BestWorst
import Mathlib.Data.List.Sort
/-!
Specification: sorting permutations, dominance, Pareto ranks.
-/
namespace EvoTorch.Selection
open BestWorst (Sense)

/-- `p` is an argsort of `l` for the order `r`: every index once, elements in order. -/
def IsArgsort {α : Type} (r : α → α → Prop) (l : List α) (p : List Nat) : Prop :=
  p.Perm (List.range l.length) ∧
  p.Pairwise fun i j => ∀ x y, l[i]? = some x → l[j]? = some y → r x y

variable {K : Type} {n m : Nat} [LinearOrder K]

/-- For this sense, evaluation `a` is at least as good as `b`. -/
def NotWorse (s : Sense) (a b : K) : Prop :=
  match s with
  | .min => a ≤ b
  | .max => b ≤ a

/-- For this sense, evaluation `a` is strictly better than `b`. -/
def StrictlyBetter (s : Sense) (a b : K) : Prop :=
  match s with
  | .min => a < b
  | .max => b < a

/-- Solution `a` dominates solution `b`: nowhere worse, somewhere better. -/
def Dominates (senses : Fin m → Sense) (a b : Fin m → K) : Prop :=
  (∀ o, NotWorse (senses o) (a o) (b o)) ∧ ∃ o, StrictlyBetter (senses o) (a o) (b o)

/-- Pareto ranks: a solution has rank `r` exactly when it is not of a rank below `r` and is not dominated by any solution left
after removing the ranks below `r`. -/
def IsParetoRank (senses : Fin m → Sense) (evals : Fin n → Fin m → K) (rank : Fin n → Nat) : Prop :=
  ∀ i r, rank i = r ↔ r ≤ rank i ∧ ∀ j, r ≤ rank j → ¬ Dominates senses (evals j) (evals i)

end EvoTorch.Selection
