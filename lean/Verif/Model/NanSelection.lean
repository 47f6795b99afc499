import Verif.Model.Distribution
import Verif.Model.Flt
/-!
Selection and ranking in the presence of solutions whose evaluation is NaN (failed or diverged evaluations). Sorting, ranking and the choice of elites are `Selection.argsort`, `Selection.takeBestIndices`,
`Ranking.centered`, `Ranking.linear` and `Distribution.elites`, with columns of floats.
-/
namespace EvoTorch.NanSelection
open Selection (Sorter)
open BestWorst (Sense)
variable {K V : Type}

/-- `raw` (`tools/ranking.py:181-183`) on floats. -/
def raw [Neg K] (hib : Bool) (x : List (Flt K)) : List (Flt K) := if hib then x else x.map Flt.neg

/-- One elitist step of `GeneticAlgorithm` (`ga.py:656-663`) with a deterministic fitness: parents and children, all evaluated (`ga.py:145-244`; in which order does not matter then), of which the best
`popsize` are kept (`core.py:4413-4415`). `ops`: the operators. -/
def elitistStep (sort : Sorter (Flt K)) (s : Sense) (f : V → Flt K) (popsize : Nat) (ops : List V → List V) (pop : List V) : List V :=
  let candidates := pop ++ ops pop
  (Selection.takeBestIndices sort s (candidates.map f) popsize).filterMap fun i => candidates[i]?

/-- Several steps. -/
def elitistRun (sort : Sorter (Flt K)) (s : Sense) (f : V → Flt K) (popsize : Nat) : List (List V → List V) → List V → List V
  | [], pop => pop
  | ops :: rest, pop => elitistRun sort s f popsize rest (elitistStep sort s f popsize ops pop)

end EvoTorch.NanSelection
