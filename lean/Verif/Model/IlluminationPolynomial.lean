import Verif.Model.Illumination
import Verif.Model.GlobalPolynomial
/-!
One generation of `MAPElites` whose last operator is `PolynomialMutation`, on a bounded continuous problem with a deterministic fitness and deterministic finite features.
-/
namespace EvoTorch.IlluminationPolynomial
open EvoTorch
open EvoTorch.GA (Row)
open EvoTorch.MapElites (Ev Cfg State)
variable {n l : Nat}

/-- The settings of the operators: what comes before the mutation (any operators, with their draws `ω`; it gives `n` children), the bounds of the problem, and the arguments of `PolynomialMutation`
(`operators/real.py 501-544`). -/
structure Ops (Ω : Type) (n l : Nat) where
  before : Ω → List (Row (Fin l → ℝ) (Ev ℝ)) → Fin n → Fin l → ℝ
  lb : Fin l → ℝ
  ub : Fin l → ℝ
  prob : Option ℝ
  eta : ℝ

/-- The children of one generation: `_use_operator` for every operator in turn, the last one being `PolynomialMutation._do` (`ga.py:26-53`, `ga.py 197-212`, `operators/real.py 546-603`). `d.1` are the uniform numbers
of the mask, `d.2` those of the mutation. The code draws the latter for the selected genes only. Where the mutation would give NaN (coinciding bounds) this model has the lower bound. Children are not evaluated yet. -/
noncomputable def children {Ω : Type} (o : Ops Ω n l) (ω : Ω) (d : (Fin n → Fin l → ℝ) × (Fin n → Fin l → ℝ)) (rows : List (Row (Fin l → ℝ) (Ev ℝ))) : List (Row (Fin l → ℝ) (Ev ℝ)) :=
  List.ofFn fun i => ⟨fun j => (Operators.polynomialMutation o.eta o.lb o.ub (fun i j => GlobalPolynomial.selects o.prob (d.1 i j)) d.2 (o.before ω rows) i j).getD (o.lb j), none⟩

/-- One `MAPElites._step` (`mapelites.py 380-401`). -/
noncomputable def generation {Ω : Type} (cfg : Cfg ℝ) (o : Ops Ω n l) (fit : (Fin l → ℝ) → ℝ) (feats : List ((Fin l → ℝ) → ℝ)) (ω : Ω) (d : (Fin n → Fin l → ℝ) × (Fin n → Fin l → ℝ))
    (st : State (Fin l → ℝ) ℝ) : State (Fin l → ℝ) ℝ :=
  MapElites.step cfg st ⟨Illumination.evalRow fit feats, Illumination.evalRow fit feats, children o ω d⟩

end EvoTorch.IlluminationPolynomial
