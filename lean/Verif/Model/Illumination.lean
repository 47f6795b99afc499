import Verif.Model.MapElites
import Verif.Model.Operators
import Mathlib.Data.Real.Basic
/-!
One generation of `MAPElites` whose last operator is `GaussianMutation`, on a bounded continuous problem with a deterministic fitness and deterministic finite features.
-/
namespace EvoTorch.Illumination
open EvoTorch.GA (Row)
open EvoTorch.MapElites (Ev Cfg State)
variable {n l : Nat}

/-- The settings of the operators: what comes before the mutation (any operators, with their draws `ω`; it gives `n` children) and the arguments of `GaussianMutation`
(`operators/real.py 31-58`; `mutation_probability=None` stands for 1). -/
structure Ops (Ω : Type) (n l : Nat) where
  before : Ω → List (Row (Fin l → ℝ) (Ev ℝ)) → Fin n → Fin l → ℝ
  lb : Fin l → ℝ
  ub : Fin l → ℝ
  prob : ℝ
  stdev : ℝ

/-- The children of one generation: `_use_operator` for every operator in turn, the last one being `GaussianMutation._do` (`ga.py:26-53`, 197-212, `operators/real.py 60-66`).
Children are not evaluated yet. -/
noncomputable def children {Ω : Type} (o : Ops Ω n l) (ω : Ω) (u g : Fin n → Fin l → ℝ) (rows : List (Row (Fin l → ℝ) (Ev ℝ))) : List (Row (Fin l → ℝ) (Ev ℝ)) :=
  List.ofFn fun i => ⟨Operators.gaussianMutation (fun j => some (o.lb j)) (fun j => some (o.ub j)) o.prob o.stdev u g (o.before ω rows) i, none⟩

/-- The row of `evals` which the problem stores for a solution (`core.py 2527-2566`): the fitness and the features. -/
def evalRow (fit : (Fin l → ℝ) → ℝ) (feats : List ((Fin l → ℝ) → ℝ)) (v : Fin l → ℝ) : Ev ℝ := ⟨.fin (fit v), feats.map fun p => .fin (p v)⟩

/-- One `MAPElites._step` (`mapelites.py 380-401`). -/
noncomputable def generation {Ω : Type} (cfg : Cfg ℝ) (o : Ops Ω n l) (fit : (Fin l → ℝ) → ℝ) (feats : List ((Fin l → ℝ) → ℝ)) (ω : Ω) (u g : Fin n → Fin l → ℝ)
    (st : State (Fin l → ℝ) ℝ) : State (Fin l → ℝ) ℝ :=
  MapElites.step cfg st ⟨evalRow fit feats, evalRow fit feats, children o ω u g⟩

end EvoTorch.Illumination
