import Verif.Model.Base
import Verif.Model.Flt
import Verif.Model.RandomTensors
import Mathlib.Algebra.Order.Field.Rat
import Mathlib.Data.Rat.Floor
import Mathlib.Algebra.Order.Floor.Ring
/-!
Model of the constructor of `Problem` (`src/evotorch/core.py`), of `generate_values`, of the default `_fill` and of `generate_batch`.

Simplifications. A dtype is a Lean constructor (the aliases accepted by `to_torch_dtype` are already resolved), a device is its name. Numbers passed for lengths and
counts are integers (`int(...)` of them is the identity). The log messages, hooks, seeds and statistics fields, which the constructor only initialises, are left out.
The ray cluster is the pair of its available CPUs and GPUs, each possibly missing.
-/
namespace EvoTorch.ProblemConfig
open EvoTorch

/-- A dtype: the dtype object, the four float dtypes of torch, or another (an integer or boolean dtype). -/
inductive DT where
  | object | float16 | bfloat16 | float32 | float64
  | other (name : String)
deriving DecidableEq, Repr

/-- A bound after `make_tensor`: a scalar, a vector, or a tensor with more dimensions. -/
inductive Bound (K : Type) where
  | scalar (x : K)
  | vec (xs : List K)
  | higher
deriving DecidableEq, Repr

/-- What the user passes as the objective sense: one value, or a sequence (core.py 1167-1174). -/
inductive SenseArg where
  | single (s : String)
  | many (ss : List String)
deriving DecidableEq, Repr

/-- What the user passes as `num_actors` (core.py 1319-1437). -/
inductive ActorsArg where
  | none
  | str (s : String)
  | num (n : Int)
deriving DecidableEq, Repr

/-- What the user passes as `num_gpus_per_actor` (core.py 1543-1585), and what is stored. -/
inductive Gpus where
  | none
  | str (s : String)
  | int (n : Int)
  | float (x : ℚ)
deriving DecidableEq, Repr

/-- The fitness function: absent, or present and decorated with `@vectorized` or not (core.py 1200-1251). -/
inductive Func where
  | absent
  | plain
  | decorated
deriving DecidableEq, Repr

/-- The arguments of `Problem(...)` (core.py 792-815). -/
structure Args (K : Type) where
  sense : SenseArg
  func : Func := .absent
  initialBounds : Option (Bound K × Bound K) := none
  bounds : Option (Bound K × Bound K) := none
  solutionLength : Option Int := none
  dtype : Option DT := none
  evalDtype : Option DT := none
  device : Option String := none
  evalDataLength : Option Int := none
  numActors : ActorsArg := .none
  actorConfigHasGpus : Bool := false
  gpusPerActor : Gpus := .none
  numSubbatches : Option Int := none
  subbatchSize : Option Int := none
  vectorized : Option Bool := none

/-- What ray reports as available (core.py 1304-1313). -/
structure Cluster where
  cpu : Option ℚ
  gpu : Option ℚ

/-- The attributes of a constructed problem. -/
structure Config (K : Type) where
  dtype : DT
  evalDtype : DT
  device : String
  solutionLength : Option Int
  bounds : Option (Bound K × Bound K)
  initialBounds : Option (Bound K × Bound K)
  senses : List String
  vectorized : Option Bool
  evalDataLength : Int
  numSubbatches : Option Int
  subbatchSize : Option Int
  numActors : Int
  gpusPerActor : Gpus
deriving DecidableEq, Repr

/-- The dtype of the problem (core.py 997-1002). -/
def dtypeOf (d : Option DT) : DT := d.getD .float32

/-- The dtype of the evaluations (core.py 1007-1019). `to_torch_dtype(object)` is a TypeError (it is not a torch dtype). -/
def evalDtypeOf (d : DT) : Option DT → Except PyErr DT
  | some .object => .error .typeError
  | some e => .ok e
  | none => .ok (if d = .float16 ∨ d = .bfloat16 ∨ d = .float64 then d else .float32)

/-- The checks on one bound in `process_bounds` (core.py 1117-1136). -/
def checkBound {K : Type} (len : Int) : Bound K → Except PyErr Unit
  | .scalar _ => .ok ()
  | .vec xs => if (xs.length : Int) ≠ len then .error .valueError else .ok ()
  | .higher => .error .valueError

/-- `process_bounds` (core.py 1103-1139). -/
def processBounds {K : Type} (len : Int) (b : Bound K × Bound K) : Except PyErr (Bound K × Bound K) := do
  checkBound len b.1
  checkBound len b.2
  return b

/-- Solution length and bounds (core.py 1044-1153): the length, the initial bounds and the strict bounds. -/
def lengthAndBounds {K : Type} (dtype : DT) (device : String) (solutionLength : Option Int) (initialBounds bounds : Option (Bound K × Bound K)) :
    Except PyErr (Option Int × Option (Bound K × Bound K) × Option (Bound K × Bound K)) :=
  if dtype = .object then
    if bounds.isSome || initialBounds.isSome then .error .valueError
    else if solutionLength.isSome then .error .valueError
    else if device ≠ "cpu" then .error .valueError
    else .ok (none, none, none)
  else
    match solutionLength with
    | none => .error .valueError
    | some len =>
      let initial := match bounds, initialBounds with
        | some b, none => some b
        | _, i => i
      match initial with
      | none => .ok (some len, none, none)
      | some i => do
        let i ← processBounds len i
        match bounds with
        | none => return (some len, some i, none)
        | some b =>
          let b ← processBounds len b
          return (some len, some i, some b)

/-- The objective senses (core.py 1160-1190): a sequence is validated, a single value is not. -/
def sensesOf : SenseArg → Except PyErr (List String)
  | .single s => .ok [s]
  | .many ss =>
    if ss.all (fun s => s = "min" || s = "max") then
      if ss.length = 0 then .error .valueError else .ok ss
    else .error .valueError

/-- Whether the fitness function is vectorised (core.py 1200-1251). -/
def vectorizedOf (f : Func) (v : Option Bool) : Except PyErr (Option Bool) :=
  match f with
  | .absent => if v.isSome then .error .valueError else .ok none
  | .decorated => if v.isSome then .error .valueError else .ok (some true)
  | .plain => .ok (some (v.getD false))

/-- `math.ceil` of what ray reports: of None it is a TypeError. -/
def ceilOf : Option ℚ → Except PyErr Int
  | none => .error .typeError
  | some x => .ok ⌈x⌉

/-- The number of actors as first computed, and the GPUs per actor after the possible overriding (core.py 1319-1437). The count `none` is Python's None. -/
def rawActors (device : String) (hasGpus : Bool) (c : Cluster) (n : ActorsArg) (g : Gpus) : Except PyErr (Option Int × Gpus) :=
  match n with
  | .none => .ok (some 0, g)
  | .num n => .ok (some n, g)
  | .str s =>
    if s = "max" ∨ s = "num_cpus" then do return (some (← ceilOf c.cpu), g)
    else if s = "num_gpus" then
      match c.gpu with
      | none => .error .valueError
      | some gpus =>
        if gpus < 1 / 10000 then .error .valueError
        else if hasGpus then .error .valueError
        else if g ≠ .none then .error .valueError
        else .ok (some ⌈gpus⌉, .float (gpus / ⌈gpus⌉))
    else if s = "num_devices" then
      if hasGpus then .error .valueError
      else if g ≠ .none then .error .valueError
      else if device ≠ "cpu" then .ok (none, .none)
      else
        match c.gpu with
        | none => do return (some (← ceilOf c.cpu), .none)
        | some gpus =>
          if gpus < 1 / 10000 then do return (some (← ceilOf c.cpu), .none)
          else
            match c.cpu with
            | none => .error .typeError
            | some cpus =>
              let n := ⌈min cpus gpus⌉
              .ok (some n, if (n : ℚ) ≤ gpus then .int 1 else .float (gpus / n))
    else .error .valueError

/-- One actor is no actor (core.py 1439-1457), and several actors need the cpu as the main device (core.py 1465-1527). Comparing None with 2 is a TypeError. -/
def settleActors (device : String) : Option Int × Gpus → Except PyErr (Int × Gpus)
  | (none, _) => .error .typeError
  | (some n, g) =>
    let r : Int × Gpus := if n = 1 then (0, .none) else (n, g)
    if 2 ≤ r.1 ∧ device ≠ "cpu" then .error .valueError else .ok r

/-- The GPUs per actor (core.py 1532-1585). -/
def gpusOf (hasGpus : Bool) (c : Cluster) (n : Int) (g : Gpus) : Except PyErr Gpus :=
  if hasGpus ∧ g ≠ .none then .error .valueError
  else
    match g with
    | .none => .ok .none
    | .str s =>
      if s = "max" then
        match c.gpu with
        | none => .ok .none
        | some gpus => if n = 0 then .error .zeroDivisionError else .ok (.float (gpus / n))
      else if s = "all" then .ok (.str "all")
      else .error .valueError
    | .int k => .ok (.int k)
    | .float x => .ok (.float x)

/-- The actors and the GPUs of each (core.py 1319-1585). -/
def actorsOf (device : String) (hasGpus : Bool) (c : Cluster) (n : ActorsArg) (g : Gpus) : Except PyErr (Int × Gpus) := do
  let (n, g) ← settleActors device (← rawActors device hasGpus c n g)
  return (n, ← gpusOf hasGpus c n g)

/-- `Problem.__init__` (core.py 992-1609). -/
def construct {K : Type} (c : Cluster) (a : Args K) : Except PyErr (Config K) := do
  let dtype := dtypeOf a.dtype
  let evalDtype ← evalDtypeOf dtype a.evalDtype
  let device := a.device.getD "cpu"
  let (len, ib, b) ← lengthAndBounds dtype device a.solutionLength a.initialBounds a.bounds
  let senses ← sensesOf a.sense
  let vectorized ← vectorizedOf a.func a.vectorized
  if a.numSubbatches.isSome ∧ a.subbatchSize.isSome then .error .valueError
  let (n, g) ← actorsOf device a.actorConfigHasGpus c a.numActors a.gpusPerActor
  return { dtype := dtype, evalDtype := evalDtype, device := device, solutionLength := len, bounds := b, initialBounds := ib, senses := senses, vectorized := vectorized, evalDataLength := a.evalDataLength.getD 0, numSubbatches := a.numSubbatches, subbatchSize := a.subbatchSize, numActors := n, gpusPerActor := g }

/-- `get_obj_order_descending` (core.py 1751-1770): whether larger is better, for each objective. -/
def descending (senses : List String) : Except PyErr (List Bool) :=
  match senses with
  | [] => .ok []
  | s :: rest =>
    if s = "min" then do return false :: (← descending rest)
    else if s = "max" then do return true :: (← descending rest)
    else .error .valueError

/-! ### Generation of solutions -/

/-- The bound for column `j`: scalars are broadcast over the columns. -/
def Bound.at {K : Type} [Zero K] : Bound K → ℕ → K
  | .scalar x, _ => x
  | .vec xs, j => xs.getD j 0
  | .higher, _ => 0

/-- The generated values: `rows` rows of `cols` numbers. -/
abbrev Values (K : Type) (rows cols : ℕ) := Fin rows → Fin cols → K

/-- `generate_values` with the default `_fill` for a float dtype (core.py 1860-1867, core.py 1885-1904): `raw` are drawn by `uniform_` from `[0, 1)`. The bounds, of
shape `(cols,)` or `()`, are broadcast over the rows. -/
def generateValues {K : Type} [Field K] (cfg : Config K) (rows cols : ℕ) (raw : Values K rows cols) : Except PyErr (Values K rows cols) :=
  if cfg.dtype = .object then .error .notImplementedError
  else
    match cfg.initialBounds with
    | none => .error .runtimeError
    | some (lb, ub) => do
      let out ← RandomTensors.uniformFloat (ι := Fin rows × Fin cols) (some fun p => lb.at p.2) (some fun p => ub.at p.2) (fun p => raw p.1 p.2)
      return fun i j => out (i, j)

/-- The same for an integer dtype `t` (core.py 1860-1867, core.py 1885-1904): `raw` are the words drawn by `random_`; rows are drawn one after the other. -/
def generateIntValues (t : RandomTensors.IntType) (cfg : Config ℤ) (rows cols : ℕ) (raw : Values ℤ rows cols) : Except PyErr (List (Fin cols → ℤ)) :=
  if cfg.dtype = .object then .error .notImplementedError
  else
    match cfg.initialBounds with
    | none => .error .runtimeError
    | some (lb, ub) =>
      (List.finRange rows).mapM fun i => RandomTensors.uniformInt t (some fun j => lb.at j) (some fun j => ub.at j) (raw i)

/-- A batch: its values (none: uninitialised memory), and its evaluations (core.py 3744-3770). -/
structure Batch (K : Type) (rows cols : ℕ) where
  values : Option (Values K rows cols)
  evals : List (List (Flt K))
  descending : List Bool

/-- The evaluation data of a new batch: NaN everywhere (core.py 3767-3769). -/
def nanEvals (K : Type) (rows width : ℕ) : List (List (Flt K)) := List.replicate rows (List.replicate width Flt.nan)

/-- `SolutionBatch(problem, popsize, empty=...)` (core.py 3744-3770). -/
def newBatch {K : Type} [Field K] (cfg : Config K) (rows cols : ℕ) (empty : Bool) (raw : Values K rows cols) : Except PyErr (Batch K rows cols) := do
  let values ← if empty then pure none else do pure (some (← generateValues cfg rows cols raw))
  let desc ← descending cfg.senses
  return ⟨values, nanEvals K rows (cfg.senses.length + cfg.evalDataLength.toNat), desc⟩

/-- `generate_batch` (core.py 1949-1970): `uraw` are the uniform draws, `graw` the normal draws. `center` and `stdev` are given for each column (scalars are broadcast). -/
def generateBatch {K : Type} [Field K] (cfg : Config K) (rows cols : ℕ) (empty symmetric : Bool) (center stdev : Option (Fin cols → K))
    (uraw : Values K rows cols) (graw : ℕ → Fin cols → K) : Except PyErr (Batch K rows cols) :=
  match center, stdev with
  | none, none => if symmetric then .error .valueError else newBatch cfg rows cols empty uraw
  | some c, some s =>
    if empty then .error .valueError
    else do
      let result ← newBatch cfg rows cols true uraw
      let v ← RandomTensors.gaussian rows symmetric (some fun _ => c) (some fun _ => s) graw
      return { result with values := some v }
  | _, _ => .error .valueError

end EvoTorch.ProblemConfig
