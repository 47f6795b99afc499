import Verif.Model.BestWorst
import Verif.Model.Budget
import Verif.Model.GlobalSearch
/-!
Generations of `GeneticAlgorithm`/`SteadyStateGA` and `Cosyne`, with Gaussian mutation as the last operator that makes children, together with what the problem stores about everything it evaluated
(`store_solution_stats`), which is what a search reports as `status["best"]`. The pieces are the models of C22, C25, C09, C11 and C169.
-/
namespace EvoTorch.ReportedBest
open EvoTorch
open EvoTorch.GlobalSearch (Ops children)
open EvoTorch.BestWorst (Sense Args)
variable {n l : Nat}

/-- The batches that a record hands to `problem.evaluate`, as evaluated: one objective, no NaN (`core.py 2527-2566`). -/
def batches {V : Type} (f : V → ℝ) (es : List (Budget.Event V ℝ)) : List (List (BestWorst.Row V ℝ 1)) :=
  es.filterMap fun
    | .evaluate vals => some (vals.map fun v => ⟨v, fun _ => .fin (f v)⟩)
    | .operators _ => none

/-- `_get_best_and_worst` after each evaluation (`core.py 2330-2395`, called in `core.py 2562-2564`). -/
noncomputable def track {V : Type} (A : Args ℝ) (s : Sense) (f : V → ℝ) (es : List (Budget.Event V ℝ)) (t : BestWorst.State V ℝ 1) : BestWorst.State V ℝ 1 :=
  (batches f es).foldl (fun t b => (BestWorst.getBestAndWorst A (fun _ => s) t b).state) t

/-- A search and the statistics of its problem. -/
structure St (l : Nat) where
  search : GA.State (Fin l → ℝ) ℝ
  stats : BestWorst.State (Fin l → ℝ) ℝ 1

/-- After the construction of the search with a new problem (`core.py 1601-1605`): no statistics yet. -/
def start (vals : List (Fin l → ℝ)) : St l := ⟨GA.init vals, none⟩

/-- One generation of `GeneticAlgorithm` (`ga.py 652-688`). -/
noncomputable def generation {Ω : Type} (A : Args ℝ) (cfg : GA.Cfg ℝ) (o : Ops Ω n l) (f : (Fin l → ℝ) → ℝ) (ω : Ω) (u g : Fin n → Fin l → ℝ) (st : St l) : St l :=
  ⟨GA.step cfg ⟨f, f, children o ω u g⟩ st.search, track A cfg.sense f (Budget.events cfg ⟨f, f, children o ω u g⟩ st.search) st.stats⟩

/-- What one step of `Cosyne` does (`ga.py 1022-1027`): cross-over and mutation make the children, `permute` is the permutation of the whole population. -/
noncomputable def cosyneEnv {Ω : Type} (o : Ops Ω n l) (permute : Ω → List (GA.Row (Fin l → ℝ) ℝ) → List (GA.Row (Fin l → ℝ) ℝ)) (f : (Fin l → ℝ) → ℝ) (ω : Ω) (u g : Fin n → Fin l → ℝ) :
    Budget.CosyneEnv (Fin l → ℝ) ℝ := ⟨f, f, children o ω u g, permute ω⟩

/-- One generation of `Cosyne` (`ga.py 1006-1033`). -/
noncomputable def cosyneGeneration {Ω : Type} (A : Args ℝ) (cfg : GA.CosyneCfg ℝ) (o : Ops Ω n l) (permute : Ω → List (GA.Row (Fin l → ℝ) ℝ) → List (GA.Row (Fin l → ℝ) ℝ))
    (f : (Fin l → ℝ) → ℝ) (ω : Ω) (u g : Fin n → Fin l → ℝ) (st : St l) : St l :=
  ⟨Budget.cosyneStep cfg (cosyneEnv o permute f ω u g) st.search, track A cfg.sense f (Budget.cosyneEvents cfg (cosyneEnv o permute f ω u g) st.search) st.stats⟩

end EvoTorch.ReportedBest
