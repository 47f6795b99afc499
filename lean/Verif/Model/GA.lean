import Verif.Model.Base
import Verif.Model.Selection
/-!
`GeneticAlgorithm`, `SteadyStateGA` and `Cosyne` (`src/evotorch/algorithms/ga.py`), single objective.

A row is a decision value with its stored evaluation (`none`: NaN, not evaluated). Operators are arbitrary functions from batches to
batches (they include their random draws); by `_use_operator` (`ga.py:26-53`) they work on a copy, so they cannot change the parents.
-/
namespace EvoTorch.GA
open BestWorst (Sense)
open Selection (Sorter)

/-- A solution of a `SolutionBatch`. -/
structure Row (V K : Type) where
  val : V
  ev : Option K
deriving DecidableEq, Repr

variable {V K : Type}

/-- `problem.evaluate(batch)`: stores an evaluation for every row (`core.py:2527-2566`); `f` is this call's fitness function. -/
def evaluate (f : V → K) (rows : List (Row V K)) : List (Row V K) := rows.map fun r => { r with ev := some (f r.val) }

/-- `batch.take_best(n)` for one objective (`core.py:4413-4415`): indices by `argsort`, rows copied. -/
def takeBest (sort : Sorter (Option K)) (s : Sense) (n : Nat) (rows : List (Row V K)) : List (Row V K) :=
  ((sort (s == .max) (rows.map (·.ev))).take n).filterMap fun i => rows[i]?

/-- Constructor arguments, `ga.py:564-645`. -/
structure Cfg (K : Type) where
  sort : Sorter (Option K)
  sense : Sense
  popsize : Nat
  elitist : Bool
  reEvaluate : Bool
  /-- `_re_evaluate_parents_first` after its default is resolved, `ga.py:132-141`. -/
  parentsFirst : Bool

/-- The mutable state. -/
structure State (V K : Type) where
  population : List (Row V K)
  firstIter : Bool

/-- What one step draws from outside: the fitness functions of its (at most two) evaluation calls and the composed operators. -/
structure Env (V K : Type) where
  f1 : V → K
  f2 : V → K
  ops : List (Row V K) → List (Row V K)

/-- `_make_extended_population`, `ga.py:145-244`: the state after it (the population may have been evaluated in place), the parents and the
children it returns (with `split=False` their concatenation). -/
def makeExtended (cfg : Cfg K) (env : Env V K) (st : State V K) : State V K × List (Row V K) × List (Row V K) :=
  if cfg.reEvaluate then
    if cfg.parentsFirst then
      let pop := evaluate env.f1 st.population
      let children := evaluate env.f2 (env.ops pop)
      (⟨pop, false⟩, pop, children)
    else
      let children := env.ops st.population
      let ext := evaluate env.f1 (st.population ++ children)
      (⟨st.population, false⟩, ext.take st.population.length, ext.drop st.population.length)
  else
    let pop := if st.firstIter then evaluate env.f1 st.population else st.population
    let children := evaluate env.f2 (env.ops pop)
    (⟨pop, false⟩, pop, children)

/-- `GeneticAlgorithm._step`, `ga.py:652-688`. -/
def step (cfg : Cfg K) (env : Env V K) (st : State V K) : State V K :=
  let (st', parents, children) := makeExtended cfg env st
  if cfg.elitist then
    { st' with population := takeBest cfg.sort cfg.sense cfg.popsize (parents ++ children) }
  else if children.length < cfg.popsize then
    { st' with population := takeBest cfg.sort cfg.sense (cfg.popsize - children.length) st'.population ++ children }
  else if children.length = cfg.popsize then
    { st' with population := children }
  else
    { st' with population := takeBest cfg.sort cfg.sense cfg.popsize children }

/-- The state after construction, `ga.py:633-643` and 143: `popsize` unevaluated solutions. -/
def init (vals : List V) : State V K := ⟨vals.map fun v => ⟨v, none⟩, true⟩

/-- Several steps. -/
def run (cfg : Cfg K) : List (Env V K) → State V K → State V K
  | [], st => st
  | e :: es, st => run cfg es (step cfg e st)

/-! ### `SteadyStateGA` -/

/-- An operator, as far as `use` is concerned: an instance of `CrossOver` or not (`ga.py:852`). -/
structure Op where
  isCross : Bool
  name : Nat
deriving DecidableEq, Repr

/-- Fields of `SteadyStateGA`, `ga.py:782-785` and 120. -/
structure SSState where
  operators : List Op
  crossOp : Option Op
  mutOp : Option Op
  forbidUse : Bool
  prepareOps : Bool
deriving DecidableEq, Repr

/-- `SteadyStateGA.__init__`, `ga.py:779-798`. -/
def ssInit (ops : List Op) : SSState := ⟨ops, none, none, false, false⟩

/-- `SteadyStateGA.use`, `ga.py:800-871`. -/
def ssUse (st : SSState) (op : Op) : Outcome SSState Unit :=
  if st.forbidUse then ⟨st, .error .runtimeError⟩
  else if st.operators.length > 0 then ⟨st, .error .runtimeError⟩
  else if op.isCross then
    if st.crossOp.isSome then ⟨st, .error .valueError⟩
    else ⟨{ st with crossOp := some op, prepareOps := true }, .ok ()⟩
  else
    if st.mutOp.isSome then ⟨st, .error .valueError⟩
    else ⟨{ st with mutOp := some op, prepareOps := true }, .ok ()⟩

/-- The operator handling of `SteadyStateGA._step`, `ga.py:873-888`; the result is the operator list used by `super()._step()`. -/
def ssStep (st : SSState) : Outcome SSState (List Op) :=
  let st := { st with forbidUse := true }
  if st.prepareOps then
    let st := { st with prepareOps := false, operators := st.operators ++ st.crossOp.toList ++ st.mutOp.toList }
    ⟨st, .ok st.operators⟩
  else if st.operators.length = 0 then ⟨st, .error .runtimeError⟩
  else ⟨st, .ok st.operators⟩

/-! ### `Cosyne` -/

/-- Constructor arguments of `Cosyne` as used by `_step`, `ga.py:983-997`. -/
structure CosyneCfg (K : Type) where
  sort : Sorter (Option K)
  sense : Sense
  popsize : Nat
  numElites : Option Nat

/-- `Cosyne._step`, `ga.py:1006-1033`. `breed`: cross-over followed by mutation (arbitrary); `permute`: `CosynePermutation` (any function
here; see C31). `f0` and `f` are the fitness functions of the two evaluation calls. -/
def cosyneStep (cfg : CosyneCfg K) (f0 f : V → K) (breed permute : List (Row V K) → List (Row V K)) (st : State V K) : State V K :=
  let pop := if st.firstIter then evaluate f0 st.population else st.population
  let numParents := cfg.popsize / 4
  let numRelevant := max (cfg.numElites.getD 0) numParents
  let relevant := takeBest cfg.sort cfg.sense numRelevant pop
  let elites := match cfg.numElites with
    | some e => if e ≥ 1 then relevant.take e else []
    | none => []
  let children := breed (relevant.take numParents)
  let permuted := permute pop
  let ext := evaluate f (elites ++ (children ++ permuted))
  ⟨takeBest cfg.sort cfg.sense cfg.popsize ext, false⟩

/-- Several steps of `Cosyne` with a deterministic fitness. -/
def cosyneRun (cfg : CosyneCfg K) (f : V → K) :
    List ((List (Row V K) → List (Row V K)) × (List (Row V K) → List (Row V K))) → State V K → State V K
  | [], st => st
  | e :: es, st => cosyneRun cfg f es (cosyneStep cfg f f e.1 e.2 st)

end EvoTorch.GA
