import Verif.Model.Selection
/-!
Elitist multi-objective runs of `GeneticAlgorithm` (`src/evotorch/algorithms/ga.py`), with a deterministic fitness.
-/
namespace EvoTorch.ParetoRuns
open Selection
open BestWorst (Sense)
variable {K V : Type} [Field K] [LinearOrder K] {m : Nat}

/-- One elitist step (`ga.py:656-663`) on a problem with several objectives: parents and children, all evaluated (`ga.py:145-244`; with a deterministic fitness it does not matter when), of which
`take_best(popsize)` are kept (`core.py:4408-4412`, 4415). `ops`: the operators; `sortAsc` is `torch.argsort`, `cs` the sorting of a front by its crowding distances. -/
def step (sortAsc : List K → List Nat) (cs : List (Fin m → K) → List Nat) (senses : Fin m → Sense) (f : V → Fin m → K) (popsize : Nat) (ops : List V → List V) (pop : List V) : List V :=
  let candidates := pop ++ ops pop
  (takeBestMulti sortAsc cs (utils senses fun i : Fin candidates.length => f candidates[i]) popsize).filterMap fun i => candidates[i]?

/-- Several steps. -/
def run (sortAsc : List K → List Nat) (cs : List (Fin m → K) → List Nat) (senses : Fin m → Sense) (f : V → Fin m → K) (popsize : Nat) : List (List V → List V) → List V → List V
  | [], pop => pop
  | ops :: rest, pop => run sortAsc cs senses f popsize rest (step sortAsc cs senses f popsize ops pop)

end EvoTorch.ParetoRuns
