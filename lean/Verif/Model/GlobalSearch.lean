import Verif.Model.GA
import Verif.Model.Operators
import Mathlib.Data.Real.Basic
/-!
One generation of a `GeneticAlgorithm` whose last operator is `GaussianMutation`, on a bounded continuous problem.
-/
namespace EvoTorch.GlobalSearch
open GA (Row Cfg State)
variable {n l : Nat}

/-- The settings of the operators: what comes before the mutation (any operators, with their draws `ω`; it gives `n` children) and the
arguments of `GaussianMutation` (`operators/real.py 31-58`; `mutation_probability=None` stands for 1). -/
structure Ops (Ω : Type) (n l : Nat) where
  before : Ω → List (Row (Fin l → ℝ) ℝ) → Fin n → Fin l → ℝ
  lb : Fin l → ℝ
  ub : Fin l → ℝ
  prob : ℝ
  stdev : ℝ

/-- The children of one generation: `_use_operator` for every operator in turn, the last one being `GaussianMutation._do`
(`ga.py:26-53`, 197-212, `operators/real.py 60-66`). Children are not evaluated yet. -/
noncomputable def children {Ω : Type} (o : Ops Ω n l) (ω : Ω) (u g : Fin n → Fin l → ℝ) (rows : List (Row (Fin l → ℝ) ℝ)) :
    List (Row (Fin l → ℝ) ℝ) :=
  List.ofFn fun i => ⟨Operators.gaussianMutation (fun j => some (o.lb j)) (fun j => some (o.ub j)) o.prob o.stdev u g (o.before ω rows) i, none⟩

/-- One `_step` (`ga.py:652-688`) with a deterministic fitness function. -/
noncomputable def generation {Ω : Type} (cfg : Cfg ℝ) (o : Ops Ω n l) (f : (Fin l → ℝ) → ℝ) (ω : Ω) (u g : Fin n → Fin l → ℝ)
    (st : State (Fin l → ℝ) ℝ) : State (Fin l → ℝ) ℝ :=
  GA.step cfg ⟨f, f, children o ω u g⟩ st

end EvoTorch.GlobalSearch
