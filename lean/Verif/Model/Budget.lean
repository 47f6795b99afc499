import Verif.Model.GA
import Verif.Model.MapElites
/-!
What the evolutionary searches evaluate, and what their operators are shown: the steps of `Verif/Model/GA.lean` and `Verif/Model/MapElites.lean` with a record of every call of
`problem.evaluate` and of the operators, and the settings that `ExtendedPopulationMixin`, `GeneticAlgorithm`, `SteadyStateGA` and `MAPElites` derive from their arguments.

Simplification. An operator yields solutions without evaluations: the operators of the library clear them (C13, C100); an own subclass of `Operator` could keep them.
-/
namespace EvoTorch.Budget
open EvoTorch
open EvoTorch.GA (Row Env State evaluate takeBest)
variable {V K : Type}

/-! ### Settings -/

/-- Arguments of the constructors. `givenCross`: there is a `CrossOver` among the given operators; `steady`: the class is `SteadyStateGA`. -/
structure Args where
  steady : Bool
  numOps : Nat
  givenCross : Bool
  reEvaluate : Bool
  parentsFirst : Option Bool
deriving DecidableEq, Repr

/-- The settings `_re_evaluate` and `_re_evaluate_parents_first`. -/
structure Flags where
  reEvaluate : Bool
  parentsFirst : Bool
deriving DecidableEq, Repr

/-- `SteadyStateGA.__init__` (`ga.py 787-788`). -/
def steadyDefault (a : Args) : Option Bool :=
  if a.steady && a.numOps == 0 && a.reEvaluate && a.parentsFirst.isNone then some true else a.parentsFirst

/-- `ExtendedPopulationMixin.__init__` (`ga.py 118-141`), called by `GeneticAlgorithm.__init__` (`ga.py 636-642`; `SteadyStateGA` allows an empty list of operators, 797) and by
`MAPElites.__init__` (`mapelites.py 339-345`). -/
def settle (a : Args) : Except PyErr Flags :=
  if !a.steady && a.numOps == 0 then .error .valueError
  else match steadyDefault a with
    | none => .ok ⟨a.reEvaluate, a.givenCross⟩
    | some b => if !a.reEvaluate then .error .valueError else .ok ⟨a.reEvaluate, b⟩

/-- The properties `re_evaluate` and `re_evaluate_parents_first` (`ga.py 246-263`). -/
def Flags.reported (f : Flags) : Bool × Option Bool := (f.reEvaluate, if f.reEvaluate then some f.parentsFirst else none)

/-! ### Operators -/

/-- An operator: the values it makes of a batch. -/
abbrev Operator (V K : Type) := List (Row V K) → List V

/-- `_use_operators` (`ga.py 24-58`): every operator gets what the previous one gave; the first gets the parents. -/
def useOperators (ops : List (Operator V K)) (rows : List (Row V K)) : List (Row V K) := ops.foldl (fun rows o => (o rows).map fun v => ⟨v, none⟩) rows

/-! ### Steps with a record -/

/-- A call of `problem.evaluate` with these values, or of the operators with these parents. -/
inductive Event (V K : Type) where
  | evaluate (vals : List V)
  | operators (parents : List (Row V K))

/-- `_make_extended_population` (`ga.py 145-244`) with the record. -/
def makeExtended (cfg : GA.Cfg K) (env : Env V K) (st : State V K) : (State V K × List (Row V K) × List (Row V K)) × List (Event V K) :=
  let eval (f : V → K) (rows : List (Row V K)) : List (Row V K) × Event V K := (evaluate f rows, .evaluate (rows.map (·.val)))
  let use (rows : List (Row V K)) : List (Row V K) × Event V K := (env.ops rows, .operators rows)
  if cfg.reEvaluate then
    if cfg.parentsFirst then
      let (pop, e1) := eval env.f1 st.population
      let (children, e2) := use pop
      let (children, e3) := eval env.f2 children
      ((⟨pop, false⟩, pop, children), [e1, e2, e3])
    else
      let (children, e1) := use st.population
      let (ext, e2) := eval env.f1 (st.population ++ children)
      ((⟨st.population, false⟩, ext.take st.population.length, ext.drop st.population.length), [e1, e2])
  else
    let (pop, es) := if st.firstIter then let (pop, e) := eval env.f1 st.population; (pop, [e]) else (st.population, [])
    let (children, e2) := use pop
    let (children, e3) := eval env.f2 children
    ((⟨pop, false⟩, pop, children), es ++ [e2, e3])

/-- The record of a step of `GeneticAlgorithm` (`ga.py 652-688`) or `MAPElites` (`mapelites.py 380-401`): nothing else is evaluated. -/
def events (cfg : GA.Cfg K) (env : Env V K) (st : State V K) : List (Event V K) := (makeExtended cfg env st).2

/-- The record of several steps of `GeneticAlgorithm` or `SteadyStateGA`. -/
def record (cfg : GA.Cfg K) : List (Env V K) → State V K → List (Event V K)
  | [], _ => []
  | e :: es, st => events cfg e st ++ record cfg es (GA.step cfg e st)

/-- The record of several steps of `MAPElites`. -/
def recordMap [LinearOrder K] (cfg : MapElites.Cfg K) : List (Env V (MapElites.Ev K)) → MapElites.State V K → List (Event V (MapElites.Ev K))
  | [], _ => []
  | e :: es, st => events cfg.ga e ⟨st.population, st.firstIter⟩ ++ recordMap cfg es (MapElites.step cfg st e)

/-- What one step of `Cosyne` draws from outside. -/
structure CosyneEnv (V K : Type) where
  f0 : V → K
  f : V → K
  breed : List (Row V K) → List (Row V K)
  permute : List (Row V K) → List (Row V K)

/-- The record of a step of `Cosyne` (`ga.py 1006-1033`); what `breed` is shown are the best quarter of the population. -/
def cosyneEvents (cfg : GA.CosyneCfg K) (d : CosyneEnv V K) (st : State V K) : List (Event V K) :=
  let pop := if st.firstIter then evaluate d.f0 st.population else st.population
  let numParents := cfg.popsize / 4
  let numRelevant := max (cfg.numElites.getD 0) numParents
  let relevant := takeBest cfg.sort cfg.sense numRelevant pop
  let elites := match cfg.numElites with
    | some e => if e ≥ 1 then relevant.take e else []
    | none => []
  (if st.firstIter then [.evaluate (st.population.map (·.val))] else []) ++
    [.operators (relevant.take numParents), .operators pop, .evaluate ((elites ++ (d.breed (relevant.take numParents) ++ d.permute pop)).map (·.val))]

/-- A step of `Cosyne`. -/
def cosyneStep (cfg : GA.CosyneCfg K) (d : CosyneEnv V K) (st : State V K) : State V K := GA.cosyneStep cfg d.f0 d.f d.breed d.permute st

/-- The record of several steps of `Cosyne`. -/
def cosyneRecord (cfg : GA.CosyneCfg K) : List (CosyneEnv V K) → State V K → List (Event V K)
  | [], _ => []
  | d :: ds, st => cosyneEvents cfg d st ++ cosyneRecord cfg ds (cosyneStep cfg d st)

end EvoTorch.Budget
