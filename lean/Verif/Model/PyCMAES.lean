import Verif.Model.Base
import Verif.Model.Flt
import Verif.Model.BatchAccess
/-!
The wrapper around the external package `cma` (`src/evotorch/algorithms/pycmaes.py`): the options handed to the external optimiser, and its ask/tell loop. The external optimiser itself is an
arbitrary state machine.
-/
namespace EvoTorch.PyCMAES
open EvoTorch

/-! ### The options -/

/-- A Python dictionary with string keys, in insertion order. -/
abbrev Opts (W : Type) := List (String × W)

/-- `key in opts`. -/
def has {W : Type} (o : Opts W) (key : String) : Bool := o.any fun e => e.1 == key

/-- `opts.get(key)`. -/
def get {W : Type} (o : Opts W) (key : String) : Option W := (o.find? fun e => e.1 == key).map Prod.snd

/-- `opts[key] = value`: replaces the value of an existing key, appends a new key. -/
def put {W : Type} (o : Opts W) (key : String) (v : W) : Opts W :=
  if has o key then o.map fun e => if e.1 == key then (e.1, v) else e else o ++ [(key, v)]

/-- `store_opt` (pycmaes.py 179-204). The converters (`int`, `float`, `bool`, copying to numpy) are left out. -/
def storeOpt {W : Type} (o : Opts W) (key : String) : Option W → Except PyErr (Opts W)
  | none => .ok o
  | some v => if has o key then .error .valueError else .ok (put o key v)

/-- The named arguments of the constructor which become options (pycmaes.py 59-80). `separable` is `some True` if the flag is set. -/
structure Named (W : Type) where
  popsize : Option W := none
  centerLearningRate : Option W := none
  covLearningRate : Option W := none
  rankmuLearningRate : Option W := none
  rankoneLearningRate : Option W := none
  stdevMin : Option W := none
  stdevMax : Option W := none
  separable : Option W := none

/-- The named options in the order in which they are stored (pycmaes.py 215-223). -/
def Named.entries {W : Type} (a : Named W) : List (String × Option W) :=
  [("popsize", a.popsize), ("CMA_cmean", a.centerLearningRate), ("CMA_on", a.covLearningRate), ("CMA_rankmu", a.rankmuLearningRate),
    ("CMA_rankone", a.rankoneLearningRate), ("minstd", a.stdevMin), ("maxstd", a.stdevMax), ("CMA_diagonal", a.separable)]

/-- The values which the constructor supplies itself: `inf`, the vectors of `-inf` and `inf` of solution length, the pair `[lb, ub]`, and the seed drawn from the problem. -/
structure Lib (W : Type) where
  inf : W
  noLower : W
  noUpper : W
  pair : W → W → W
  drawnSeed : W

/-- The `bounds` entry (pycmaes.py 226-250): `none` if the problem has no bounds. -/
def boundsEntry {W : Type} (L : Lib W) : Option W → Option W → Option W
  | some lb, none => some (L.pair lb L.noUpper)
  | none, some ub => some (L.pair L.noLower ub)
  | some lb, some ub => some (L.pair lb ub)
  | none, none => none

/-- `if register_bounds: inopts["bounds"] = [lb, ub]` (pycmaes.py 249-250). -/
def putBounds {W : Type} (o : Opts W) : Option W → Opts W
  | some b => put o "bounds" b
  | none => o

/-- The dictionary passed to the external optimiser (pycmaes.py 166-254), and whether a seed was drawn from the generator of the problem. -/
def options {W : Type} (L : Lib W) (user : Opts W) (a : Named W) (lower upper : Option W) : Except PyErr (Opts W × Bool) := do
  let o := if has user "maxiter" then user else put user "maxiter" L.inf
  let o ← a.entries.foldlM (fun o e => storeOpt o e.1 e.2) o
  let o := putBounds o (boundsEntry L lower upper)
  if has o "seed" then return (o, false) else return (put o "seed" L.drawnSeed, true)

/-! ### The loop -/

section
variable {S V K : Type} [Field K] [LinearOrder K]

/-- The external optimiser (`es.ask()`, `es.tell(solutions, costs)`): an arbitrary state machine. -/
structure Es (S V K : Type) where
  ask : S → S × List V
  tell : S → List V → List (Flt K) → S

/-- The searcher: the state of the external optimiser and the population (values and evaluation rows). -/
structure State (S V K : Type) where
  es : S
  values : List V
  evals : List (List (Flt K))

/-- The problem: senses (`true` for "max"), the conversion of a solution to its dtype, and the row of evaluation results of a solution. -/
structure Prob (V K : Type) where
  descending : List Bool
  cast : V → V
  fitness : V → List (Flt K)

/-- `_step` (pycmaes.py 270-278). The assignment into the population fails with a RuntimeError if the number of asked vectors is not the number of its rows. -/
def step (E : Es S V K) (P : Prob V K) (obj : Int) (s : State S V K) : Outcome (State S V K) Unit :=
  let asked := (E.ask s.es).2
  let es1 := (E.ask s.es).1
  if asked.length ≠ s.values.length then ⟨{ s with es := es1 }, .error .runtimeError⟩
  else
    let values := asked.map P.cast
    let evals := values.map P.fitness
    match BatchAccess.utilityOf P.descending evals none true obj with
    | .error e => ⟨⟨es1, values, evals⟩, .error e⟩
    | .ok scores => ⟨⟨E.tell es1 asked (scores.map Flt.neg), values, evals⟩, .ok ()⟩

/-- `run(n)`: steps until one of them raises. -/
def run (E : Es S V K) (P : Prob V K) (obj : Int) : ℕ → State S V K → Outcome (State S V K) Unit
  | 0, s => ⟨s, .ok ()⟩
  | n + 1, s =>
    match (step E P obj s).result with
    | .ok () => run E P obj n (step E P obj s).state
    | .error e => ⟨(step E P obj s).state, .error e⟩

end
end EvoTorch.PyCMAES
