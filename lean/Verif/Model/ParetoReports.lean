import Verif.Model.BestWorst
import Verif.Model.ParetoRuns
import Verif.Model.Operators
import Verif.Model.GlobalPolynomial
/-!
Generations of a `GeneticAlgorithm` (or `SteadyStateGA`) on a bounded continuous problem with several objectives and a deterministic fitness, whose last operator is `GaussianMutation` or `PolynomialMutation`, with what
the problem stores about everything it evaluated (`store_solution_stats`), which is what a search reports as `status["obj0_best"]`, `status["obj1_best"]`, ...
-/
namespace EvoTorch.ParetoReports
open EvoTorch
open EvoTorch.BestWorst (Sense Args)
variable {n l m : Nat}

/-- The last operator: `GaussianMutation` (`operators/real.py 31-58`; `mutation_probability=None` stands for 1) or `PolynomialMutation` (`operators/real.py 501-544`). -/
inductive Mutation where
  | gaussian (prob stdev : ℝ)
  | polynomial (prob : Option ℝ) (eta : ℝ)

/-- A solution of a population: its values, and whether it has been evaluated. With a deterministic fitness its evaluations are given by these. -/
abbrev Row (l : Nat) := (Fin l → ℝ) × Bool

/-- Evaluated solutions. -/
def marked (vals : List (Fin l → ℝ)) : List (Row l) := vals.map fun v => (v, true)

/-- The values of a population. -/
def values (pop : List (Row l)) : List (Fin l → ℝ) := pop.map Prod.fst

/-- The operators: what comes before the mutation (any operators, with their draws `ω`; it gives `n` children) and the mutation. -/
structure Ops (Ω : Type) (n l : Nat) where
  before : Ω → List (Row l) → Fin n → Fin l → ℝ
  lb : Fin l → ℝ
  ub : Fin l → ℝ
  mutation : Mutation

/-- The draws of the mutation for all genes of all children: the uniform numbers of the mask, and the normal or uniform numbers of the mutated values. The code draws the latter for the selected genes only. -/
abbrev Draws (n l : Nat) := (Fin n → Fin l → ℝ) × (Fin n → Fin l → ℝ)

/-- The children of one generation: `_use_operator` for every operator in turn, the last one being `GaussianMutation._do` (`operators/real.py 60-66`) or `PolynomialMutation._do` (`operators/real.py 546-603`); `ga.py:26-53`,
`ga.py 197-212`. Where the polynomial mutation would give NaN (coinciding bounds) this model has the lower bound. -/
noncomputable def children {Ω : Type} (o : Ops Ω n l) (ω : Ω) (d : Draws n l) (pop : List (Row l)) : List (Fin l → ℝ) :=
  List.ofFn fun i j =>
    match o.mutation with
    | .gaussian prob stdev => Operators.gaussianMutation (fun j => some (o.lb j)) (fun j => some (o.ub j)) prob stdev d.1 d.2 (o.before ω pop) i j
    | .polynomial prob eta => (Operators.polynomialMutation eta o.lb o.ub (fun i j => GlobalPolynomial.selects prob (d.1 i j)) d.2 (o.before ω pop) i j).getD (o.lb j)

/-- The settings of the search. `sortAsc`, `cs`: as in `ParetoRuns.step`. `keep`: `take_best` in the non-elitist mode, where solutions may be unevaluated (NaN); any choice. -/
structure Cfg (l m : Nat) where
  senses : Fin m → Sense
  popsize : Nat
  elitist : Bool
  reEvaluate : Bool
  parentsFirst : Bool
  sortAsc : List ℝ → List Nat
  cs : List (Fin m → ℝ) → List Nat
  keep : Nat → List (Row l) → List (Row l)

/-- A search and the statistics of its problem. -/
structure St (l m : Nat) where
  population : List (Row l)
  first : Bool
  stats : BestWorst.State (Fin l → ℝ) ℝ m

/-- After the construction of the search with a new problem (`core.py 1601-1605`): no statistics yet, nothing evaluated. -/
def start (vals : List (Fin l → ℝ)) : St l m := ⟨vals.map fun v => (v, false), true, none⟩

/-- The population as the operators get it: evaluated in place beforehand, unless parents and children are evaluated in one go or the parents count as evaluated already (`ga.py 164-234`). -/
def parents (cfg : Cfg l m) (first : Bool) (pop : List (Row l)) : List (Row l) :=
  if cfg.reEvaluate then
    if cfg.parentsFirst then marked (values pop) else pop
  else if first then marked (values pop) else pop

/-- The batches given to `problem.evaluate` in one generation (`ga.py 145-244`). -/
def batches (cfg : Cfg l m) (first : Bool) (pop kids : List (Fin l → ℝ)) : List (List (Fin l → ℝ)) :=
  if cfg.reEvaluate then
    if cfg.parentsFirst then [pop, kids] else [pop ++ kids]
  else if first then [pop, kids] else [kids]

/-- `_get_best_and_worst` after each evaluation (`core.py 2330-2395`, called in `core.py 2562-2564`). -/
noncomputable def track (A : Args ℝ) (senses : Fin m → Sense) (f : (Fin l → ℝ) → Fin m → ℝ) (bs : List (List (Fin l → ℝ))) (t : BestWorst.State (Fin l → ℝ) ℝ m) : BestWorst.State (Fin l → ℝ) ℝ m :=
  (bs.map fun b => b.map fun v => (⟨v, fun o => .fin (f v o)⟩ : BestWorst.Row (Fin l → ℝ) ℝ m)).foldl (fun t b => (BestWorst.getBestAndWorst A senses t b).state) t

/-- The next population (`ga.py 652-688`), from the population as the operators got it and the values of the children. -/
noncomputable def next (cfg : Cfg l m) (f : (Fin l → ℝ) → Fin m → ℝ) (pop : List (Row l)) (kids : List (Fin l → ℝ)) : List (Row l) :=
  if cfg.elitist then marked (ParetoRuns.step cfg.sortAsc cfg.cs cfg.senses f cfg.popsize (fun _ => kids) (values pop))
  else if kids.length < cfg.popsize then cfg.keep (cfg.popsize - kids.length) pop ++ marked kids
  else if kids.length = cfg.popsize then marked kids
  else cfg.keep cfg.popsize (marked kids)

/-- One generation (`ga.py 652-688`). -/
noncomputable def generation {Ω : Type} (A : Args ℝ) (cfg : Cfg l m) (o : Ops Ω n l) (f : (Fin l → ℝ) → Fin m → ℝ) (ω : Ω) (d : Draws n l) (st : St l m) : St l m :=
  let pop := parents cfg st.first st.population
  let kids := children o ω d pop
  ⟨next cfg f pop kids, false, track A cfg.senses f (batches cfg st.first (values pop) kids) st.stats⟩

end EvoTorch.ParetoReports
