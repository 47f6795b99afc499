import Verif.Model.ReportedBest
/-!
Generations of a `GeneticAlgorithm` (or `SteadyStateGA`) whose last operator is `PolynomialMutation`, on a bounded continuous problem, with what the problem stores about everything it evaluated.
-/
namespace EvoTorch.GlobalPolynomial
open EvoTorch
open EvoTorch.GA (Row)
open EvoTorch.BestWorst (Args)
open EvoTorch.ReportedBest (St)
variable {n l : Nat}

/-- The settings of the operators: what comes before the mutation (any operators, with their draws `ω`; it gives `n` children), the bounds of the problem, and the arguments of `PolynomialMutation`
(`operators/real.py 501-544`). -/
structure Ops (Ω : Type) (n l : Nat) where
  before : Ω → List (Row (Fin l → ℝ) ℝ) → Fin n → Fin l → ℝ
  lb : Fin l → ℝ
  ub : Fin l → ℝ
  prob : Option ℝ
  eta : ℝ

open Classical in
/-- Whether a gene is mutated (`operators/real.py 557-564`). -/
noncomputable def selects (prob : Option ℝ) (u : ℝ) : Bool :=
  match prob with
  | none => true
  | some p => decide (u < p)

/-- The children of one generation: `_use_operator` for every operator in turn, the last one being `PolynomialMutation._do` (`ga.py:26-53`, `ga.py 197-212`, `operators/real.py 546-603`). `d.1` are the uniform numbers of the
mask, `d.2` those of the mutation. The code draws the latter for the selected genes only. Where the mutation would give NaN (coinciding bounds) this model has the lower bound. -/
noncomputable def children {Ω : Type} (o : Ops Ω n l) (ω : Ω) (d : (Fin n → Fin l → ℝ) × (Fin n → Fin l → ℝ)) (rows : List (Row (Fin l → ℝ) ℝ)) : List (Row (Fin l → ℝ) ℝ) :=
  List.ofFn fun i => ⟨fun j => (Operators.polynomialMutation o.eta o.lb o.ub (fun i j => selects o.prob (d.1 i j)) d.2 (o.before ω rows) i j).getD (o.lb j), none⟩

/-- One `_step` (`ga.py:652-688`) with a deterministic fitness function, and the statistics of the problem (`core.py 2527-2566`, `core.py 2330-2395`). -/
noncomputable def generation {Ω : Type} (A : Args ℝ) (cfg : GA.Cfg ℝ) (o : Ops Ω n l) (f : (Fin l → ℝ) → ℝ) (ω : Ω) (d : (Fin n → Fin l → ℝ) × (Fin n → Fin l → ℝ)) (st : St l) : St l :=
  ⟨GA.step cfg ⟨f, f, children o ω d⟩ st.search, ReportedBest.track A cfg.sense f (Budget.events cfg ⟨f, f, children o ω d⟩ st.search) st.stats⟩

end EvoTorch.GlobalPolynomial
