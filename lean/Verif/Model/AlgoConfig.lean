import Verif.Model.Base
import Verif.Model.Optimizers
import Mathlib.Analysis.SpecialFunctions.Log.Basic
import Mathlib.Algebra.Order.Floor.Ring
import Mathlib.Algebra.Order.Archimedean.Basic
import Mathlib.Algebra.Order.Archimedean.Real.Basic
/-!
How the distribution-based search algorithms `PGPE`, `SNES`, `CEM` and `XNES` are configured
(`src/evotorch/algorithms/distributed/gaussian.py`), and how an optimiser is made from its name and its configuration
(`src/evotorch/optimizers.py` 421-458, `src/evotorch/algorithms/functional/misc.py` 26-75).

Simplifications: real arithmetic; an optimiser object is its hyper-parameters (what torch's own constructors check is left out); the values of an
`optimizer_config` are `None` or numbers, a flag being true when its number is not zero; a vector argument is a scalar or a one-dimensional
vector; the draw of a random initial center is a value carried by the problem; dtype and device are left out.
-/
namespace EvoTorch.AlgoConfig
open EvoTorch.Optimizers (Stdev toStdevInit)

/-! ### Optimisers -/

/-- The optimiser classes (`optimizers.py` 101-165, 168-228, 231-307). -/
inductive Cls where
  | clipup | adam | sgd
deriving DecidableEq, Repr

/-- The first part of `get_optimizer_class` (`optimizers.py 438-445`). -/
def classOf (s : String) : Except PyErr Cls :=
  if s ∈ ["clipsgd", "clipsga", "clipup"] then .ok .clipup
  else if s = "adam" then .ok .adam
  else if s ∈ ["sgd", "sga"] then .ok .sgd
  else .error .valueError

/-- `get_functional_optimizer` for a name (`algorithms/functional/misc.py 60-67`). -/
def functionalOf (s : String) : Except PyErr Cls :=
  if s = "adam" then .ok .adam
  else if s = "clipup" then .ok .clipup
  else if s ∈ ["sgd", "sga", "momentum"] then .ok .sgd
  else .error .valueError

/-- A keyword value: `None`, a number, or a dtype, a device or a length. -/
inductive V where
  | none | num (x : ℝ) | opaque

/-- Keyword arguments. -/
abbrev Kwargs := List (String × V)

/-- `conf.update(new)` (`optimizers.py 453-455`); the order of the keys is left out. -/
def update (base new : Kwargs) : Kwargs := new ++ base.filter fun kv => !(new.map (·.1)).contains kv.1

/-- The names in the signatures of the constructors (`optimizers.py 112-123`, `optimizers.py 185-195`, `optimizers.py 247-256`). -/
def signature : Cls → List String
  | .clipup => ["solution_length", "dtype", "stepsize", "momentum", "max_speed", "device"]
  | .adam => ["solution_length", "dtype", "device", "stepsize", "beta1", "beta2", "epsilon", "amsgrad"]
  | .sgd => ["solution_length", "dtype", "stepsize", "device", "momentum", "dampening", "nesterov"]

/-- An optimiser: its hyper-parameters, or the object that the user passed. -/
inductive Opt where
  | clipup (stepsize momentum maxSpeed : ℝ)
  | adam (lr : Option ℝ) (betas : Option (ℝ × ℝ)) (eps : Option ℝ) (amsgrad : Option Bool)
  | sgd (lr : ℝ) (momentum dampening : Option ℝ) (nesterov : Option Bool)
  | given (object : ℕ)

/-- `float(x)`. -/
def V.float : V → Except PyErr ℝ
  | .num x => .ok x
  | _ => .error .typeError

/-- `float(x)` of a parameter with a default; a parameter without one is missing. -/
def V.floatOr (default : Except PyErr ℝ) : Option V → Except PyErr ℝ
  | some v => v.float
  | Option.none => default

/-- `None if x is None else float(x)`. -/
def V.float? : Option V → Except PyErr (Option ℝ)
  | Option.none => .ok Option.none
  | some .none => .ok Option.none
  | some v => v.float.map some

open Classical in
/-- `None if x is None else bool(x)`. -/
noncomputable def V.bool? : Option V → Option Bool
  | Option.none => Option.none
  | some .none => Option.none
  | some (.num x) => some (decide (x ≠ 0))
  | some .opaque => some true

open Classical in
/-- `ClipUp.__init__` (`optimizers.py 272-298`). -/
noncomputable def newClipUp (conf : Kwargs) : Except PyErr Opt := do
  let stepsize ← V.floatOr (.error .typeError) (conf.lookup "stepsize")
  let momentum ← V.floatOr (.ok (9/10)) (conf.lookup "momentum")
  let given ← V.float? (conf.lookup "max_speed")
  let maxSpeed := given.getD (stepsize * 2)
  if stepsize < 0 then .error .valueError
  else if momentum < 0 ∨ momentum > 1 then .error .valueError
  else if maxSpeed < 0 then .error .valueError
  else .ok (.clipup stepsize momentum maxSpeed)

/-- Both betas or none (`optimizers.py 147-157`). -/
def bothBetas : Option ℝ → Option ℝ → Except PyErr (Option (ℝ × ℝ))
  | some a, some b => .ok (some (a, b))
  | none, none => .ok none
  | _, _ => .error .valueError

/-- `Adam.__init__` (`optimizers.py 142-165`). -/
noncomputable def newAdam (conf : Kwargs) : Except PyErr Opt := do
  let lr ← V.float? (conf.lookup "stepsize")
  let beta1 ← V.float? (conf.lookup "beta1")
  let beta2 ← V.float? (conf.lookup "beta2")
  let betas ← bothBetas beta1 beta2
  let eps ← V.float? (conf.lookup "epsilon")
  .ok (.adam lr betas eps (V.bool? (conf.lookup "amsgrad")))

/-- `SGD.__init__` (`optimizers.py 215-228`). -/
noncomputable def newSGD (conf : Kwargs) : Except PyErr Opt := do
  let lr ← V.floatOr (.error .typeError) (conf.lookup "stepsize")
  let momentum ← V.float? (conf.lookup "momentum")
  let dampening ← V.float? (conf.lookup "dampening")
  .ok (.sgd lr momentum dampening (V.bool? (conf.lookup "nesterov")))

/-- Calling a class with keyword arguments: a name that is not in the signature raises a TypeError. -/
noncomputable def instantiate (cls : Cls) (conf : Kwargs) : Except PyErr Opt :=
  if conf.all (fun kv => (signature cls).contains kv.1) then
    match cls with
    | .clipup => newClipUp conf
    | .adam => newAdam conf
    | .sgd => newSGD conf
  else .error .typeError

/-- What is given as `optimizer_config`: `None` or numbers by name. -/
abbrev Config := List (String × Option ℝ)

/-- The configuration as keyword arguments. -/
def Config.kwargs (c : Config) : Kwargs := c.map fun kv => (kv.1, match kv.2 with | some x => V.num x | none => V.none)

/-- The keyword arguments that the algorithm passes (`gaussian.py 187-192`). -/
def algoKwargs (lr : ℝ) : Kwargs := [("stepsize", .num lr), ("dtype", .opaque), ("solution_length", .opaque), ("device", .opaque)]

/-- The argument `optimizer`. -/
inductive OptArg where
  | none | name (s : String) | object (id : ℕ)

/-- `_initialize_optimizer` (`gaussian.py 180-194`) with the second part of `get_optimizer_class` (`optimizers.py 447-458`). -/
noncomputable def initOptimizer (lr : ℝ) (optimizer : OptArg) (config : Option Config) : Except PyErr (Option Opt) :=
  match optimizer with
  | .none => .ok Option.none
  | .object id => .ok (some (.given id))
  | .name s => do
    let cls ← classOf s
    match config with
    | Option.none => (instantiate cls (algoKwargs lr)).map some
    | some c => (instantiate cls (update c.kwargs (algoKwargs lr))).map some

/-! ### The constructors -/

/-- What the constructors look at in a problem: is its dtype numeric, has it strict bounds, its solution length (`None` for a problem that is not
numeric), its number of actors, its number of objectives, and the center it would generate (`core.py 2636-2704`, `core.py 2130-2137`). -/
structure Problem where
  numeric : Bool
  bounded : Bool
  len : Option ℕ
  numActors : ℕ
  numObjs : ℕ
  generated : List ℝ

/-- The classes of search distributions (`gaussian.py 715-718`, `gaussian.py 760`, `gaussian.py 1020`, `gaussian.py 1198`): `SeparableGaussian`,
`SymmetricSeparableGaussian`, `ExpSeparableGaussian` and `ExpGaussian`. -/
inductive Dist where
  | separable | symmetric | expSeparable | exponential
deriving DecidableEq, Repr

/-- The arguments of `GaussianSearchAlgorithm.__init__` (`gaussian.py 43-65`), with the class attributes that name the distribution and its
parameters (`gaussian.py 40-41`). -/
structure Args where
  popsize : ℤ
  centerRate : ℝ
  stdevRate : ℝ
  stdev : Option Stdev := none
  radius : Option ℝ := none
  numInteractions : Option ℤ := none
  popsizeMax : Option ℤ := none
  optimizer : OptArg := .none
  config : Option Config := none
  ranking : Option String := none
  center : Option Stdev := none
  stdevMin : Option Stdev := none
  stdevMax : Option Stdev := none
  stdevMaxChange : Option Stdev := none
  objIndex : Option ℤ := none
  distributed : Bool := false
  weighted : Option Bool := none
  even : Bool := false
  dist : Dist := .separable
  divideBy : Option String := none
  parenthood : Option ℝ := none

/-- A configured search algorithm (`gaussian.py 82-178`). `remote` tells whether a step is `_step_distributed`; `reportsPopsize` and
`reportsPopulation` tell whether the status has `popsize`, and `best`, `pop_best` and so on. -/
structure Search where
  center : List ℝ
  stdev : List ℝ
  dist : Dist
  divideBy : Option String
  parenthood : Option ℝ
  popsize : ℤ
  popsizeMax : Option ℤ
  numInteractions : Option ℤ
  centerRate : ℝ
  stdevRate : ℝ
  optimizer : Option Opt
  ranking : Option String
  stdevMin : Option Stdev
  stdevMax : Option Stdev
  stdevMaxChange : Option Stdev
  objIndex : ℕ
  remote : Bool
  weighted : Bool
  reportsPopsize : Bool
  reportsPopulation : Bool

/-- `ensure_tensor_length_and_dtype(x, allow_scalar=True)`, `misc.py 651-671`: a scalar stays one. -/
def keepScalar (n : ℕ) : Option Stdev → Except PyErr (Option Stdev)
  | none => .ok none
  | some (.scalar x) => .ok (some (.scalar x))
  | some (.vector v) => if v.length ≠ n then .error .valueError else .ok (some (.vector v))

/-- `Problem.normalize_obj_index` (`core.py 2690-2704`). -/
def normalizeObjIndex (numObjs : ℕ) : Option ℤ → Except PyErr ℕ
  | none => if numObjs = 1 then .ok 0 else .error .valueError
  | some i =>
    let j := if i < 0 then (numObjs : ℤ) + i else i
    if j < 0 ∨ j ≥ numObjs then .error .indexError else .ok j.toNat

/-- The initial center (`gaussian.py 94-102`): what the problem generates, or what is given, a scalar being repeated. -/
def startCenter (p : Problem) (n : ℕ) : Option Stdev → Except PyErr (List ℝ)
  | none => .ok p.generated
  | some c => c.expand n

/-- Are the gradients of the actors weighted by their sub-population sizes (`gaussian.py 157-166`)? -/
def weightedAverage (distributed : Bool) (numInteractions : Option ℤ) : Option Bool → Except PyErr Bool
  | none => .ok numInteractions.isNone
  | some w => if !distributed then .error .valueError else .ok w

/-- `GaussianSearchAlgorithm.__init__` (`gaussian.py 66-178`). -/
noncomputable def construct (p : Problem) (a : Args) : Except PyErr Search := do
  if !p.numeric then .error .valueError
  if p.bounded then .error .valueError
  if !a.distributed && a.even && a.popsize % 2 != 0 then .error .valueError
  let n := p.len.getD 0
  let center ← startCenter p n a.center
  let given ← toStdevInit n a.stdev a.radius
  let stdev ← given.expand n
  let optimizer ← initOptimizer a.centerRate a.optimizer a.config
  let stdevMin ← keepScalar n a.stdevMin
  let stdevMax ← keepScalar n a.stdevMax
  let stdevMaxChange ← keepScalar n a.stdevMaxChange
  let objIndex ← normalizeObjIndex p.numObjs a.objIndex
  let weighted ← weightedAverage a.distributed a.numInteractions a.weighted
  .ok {
    center := center, stdev := stdev, dist := a.dist, divideBy := a.divideBy, parenthood := a.parenthood, popsize := a.popsize
    popsizeMax := a.popsizeMax, numInteractions := a.numInteractions, centerRate := a.centerRate, stdevRate := a.stdevRate
    optimizer := optimizer, ranking := a.ranking, stdevMin := stdevMin, stdevMax := stdevMax, stdevMaxChange := stdevMaxChange
    objIndex := objIndex, remote := a.distributed && decide (p.numActors > 0), weighted := weighted
    reportsPopsize := !a.distributed && a.numInteractions.isSome, reportsPopulation := !a.distributed }

/-- The arguments of `PGPE.__init__` (`gaussian.py 543-565`). -/
structure PGPEArgs where
  popsize : ℤ
  centerRate : ℝ
  stdevRate : ℝ
  stdev : Option Stdev := none
  radius : Option ℝ := none
  numInteractions : Option ℤ := none
  popsizeMax : Option ℤ := none
  optimizer : OptArg := .name "clipup"
  config : Option Config := none
  ranking : Option String := some "centered"
  center : Option Stdev := none
  stdevMin : Option Stdev := none
  stdevMax : Option Stdev := none
  stdevMaxChange : Option Stdev := some (.scalar (2/10))
  symmetric : Bool := true
  objIndex : Option ℤ := none
  distributed : Bool := false
  weighted : Option Bool := none

/-- `PGPE.__init__` (`gaussian.py 714-743`). -/
noncomputable def pgpe (p : Problem) (a : PGPEArgs) : Except PyErr Search :=
  let by_ := if a.symmetric then "num_directions" else "num_solutions"
  construct p {
    popsize := a.popsize, centerRate := a.centerRate, stdevRate := a.stdevRate, stdev := a.stdev, radius := a.radius
    numInteractions := a.numInteractions, popsizeMax := a.popsizeMax, optimizer := a.optimizer, config := a.config, ranking := a.ranking
    center := a.center, stdevMin := a.stdevMin, stdevMax := a.stdevMax, stdevMaxChange := a.stdevMaxChange, objIndex := a.objIndex
    distributed := a.distributed, weighted := a.weighted, even := a.symmetric
    dist := if a.symmetric then .symmetric else .separable, divideBy := some by_ }

/-- `math.log(problem.solution_length)`: a TypeError for `None`, a ValueError for 0. -/
noncomputable def logLen (p : Problem) : Except PyErr ℝ :=
  match p.len with
  | none => .error .typeError
  | some n => if n = 0 then .error .valueError else .ok (Real.log n)

/-- The arguments of `SNES.__init__` and of `XNES.__init__` (`gaussian.py 763-785`, `gaussian.py 1201-1220`); `XNES` has no limits on the
standard deviation. -/
structure NESArgs where
  stdev : Option Stdev := none
  radius : Option ℝ := none
  popsize : Option ℤ := none
  centerRate : Option ℝ := none
  stdevRate : Option ℝ := none
  scale : Bool := true
  numInteractions : Option ℤ := none
  popsizeMax : Option ℤ := none
  optimizer : OptArg := .none
  config : Option Config := none
  ranking : Option String := some "nes"
  center : Option Stdev := none
  stdevMin : Option Stdev := none
  stdevMax : Option Stdev := none
  stdevMaxChange : Option Stdev := none
  objIndex : Option ℤ := none
  distributed : Bool := false
  weighted : Option Bool := none

/-- The default population size (`gaussian.py 947-948`, `gaussian.py 1369-1370`). -/
noncomputable def nesPopsize (p : Problem) : Option ℤ → Except PyErr ℤ
  | some k => .ok k
  | none => do
    let l ← logLen p
    .ok (4 + ⌊3 * l⌋)

/-- The effective learning rate of the standard deviation (`gaussian.py 953-962`, `gaussian.py 1372-1384`). -/
noncomputable def nesRate (default : Except PyErr ℝ) (scale : Bool) : Option ℝ → Except PyErr ℝ
  | none => default
  | some r => if scale then default.map (r * ·) else .ok r

/-- `default_stdev_lr` of `SNES` (`gaussian.py 953-955`). -/
noncomputable def snesDefault (p : Problem) : Except PyErr ℝ := (logLen p).map fun l => 2/10 * (3 + l) / Real.sqrt (p.len.getD 0)

/-- `default_stdev_lr` of `XNES` (`gaussian.py 1375-1377`). -/
noncomputable def xnesDefault (p : Problem) : Except PyErr ℝ :=
  (logLen p).map fun l => 6/10 * (3 + l) / ((p.len.getD 0 : ℕ) * Real.sqrt (p.len.getD 0))

/-- `SNES.__init__` (`gaussian.py 947-983`). -/
noncomputable def snes (p : Problem) (a : NESArgs) : Except PyErr Search := do
  let popsize ← nesPopsize p a.popsize
  let stdevRate ← nesRate (snesDefault p) a.scale a.stdevRate
  construct p {
    popsize := popsize, centerRate := a.centerRate.getD 1, stdevRate := stdevRate, stdev := a.stdev, radius := a.radius
    numInteractions := a.numInteractions, popsizeMax := a.popsizeMax, optimizer := a.optimizer, config := a.config, ranking := a.ranking
    center := a.center, stdevMin := a.stdevMin, stdevMax := a.stdevMax, stdevMaxChange := a.stdevMaxChange, objIndex := a.objIndex
    distributed := a.distributed, weighted := a.weighted, dist := .expSeparable }

/-- `XNES.__init__` (`gaussian.py 1369-1405`). -/
noncomputable def xnes (p : Problem) (a : NESArgs) : Except PyErr Search := do
  let popsize ← nesPopsize p a.popsize
  let stdevRate ← nesRate (xnesDefault p) a.scale a.stdevRate
  construct p {
    popsize := popsize, centerRate := a.centerRate.getD 1, stdevRate := stdevRate, stdev := a.stdev, radius := a.radius
    numInteractions := a.numInteractions, popsizeMax := a.popsizeMax, optimizer := a.optimizer, config := a.config, ranking := a.ranking
    center := a.center, objIndex := a.objIndex, distributed := a.distributed, weighted := a.weighted, dist := .exponential }

/-- The arguments of `CEM.__init__` (`gaussian.py 1023-1040`). -/
structure CEMArgs where
  popsize : ℤ
  parenthood : ℝ
  stdev : Option Stdev := none
  radius : Option ℝ := none
  numInteractions : Option ℤ := none
  popsizeMax : Option ℤ := none
  center : Option Stdev := none
  stdevMin : Option Stdev := none
  stdevMax : Option Stdev := none
  stdevMaxChange : Option Stdev := none
  objIndex : Option ℤ := none
  distributed : Bool := false
  weighted : Option Bool := none

/-- `CEM.__init__` (`gaussian.py 1159-1180`). -/
noncomputable def cem (p : Problem) (a : CEMArgs) : Except PyErr Search :=
  construct p {
    popsize := a.popsize, centerRate := 1, stdevRate := 1, stdev := a.stdev, radius := a.radius, numInteractions := a.numInteractions
    popsizeMax := a.popsizeMax, center := a.center, stdevMin := a.stdevMin, stdevMax := a.stdevMax, stdevMaxChange := a.stdevMaxChange
    objIndex := a.objIndex, distributed := a.distributed, weighted := a.weighted, dist := .separable, parenthood := some a.parenthood }

/-- Drawing the first population in the main process: a symmetric distribution cannot fill an odd number of rows (`distributions.py 703-704`,
`misc.py 1725-1731`). -/
def drawFirst (s : Search) : Except PyErr Unit :=
  if s.dist = .symmetric ∧ s.popsize % 2 ≠ 0 then .error .valueError else .ok ()

end EvoTorch.AlgoConfig
