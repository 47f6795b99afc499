import Verif.Model.Base
import Verif.Model.DistributionObjects
import Verif.Model.ExpectsNdim
import Mathlib.Data.Nat.Notation
/-!
The functional samplers and gradient estimators (`src/evotorch/distributions.py` 1017-1360): how a call binds its arguments, and what is computed from them. Python values are elements of a type `V`.
-/
namespace EvoTorch.FunctionalCalls
open EvoTorch EvoTorch.DistributionObjects

variable {V : Type}

/-- `self.__required_param_pos[name]` (distributions.py 1038-1040, distributions.py 1238-1240): the dictionary keeps the last position of a name. -/
def posOf (required : List String) (name : String) : Option ℕ :=
  match required with
  | [] => none
  | r :: rs =>
    match posOf rs name with
    | some i => some (i + 1)
    | none => if r = name then some 0 else none

/-- The loop over the keyword arguments (distributions.py 1062-1065, distributions.py 1339-1342); `none` is Python's `None` in a place not yet filled. -/
def fillKw (required : List String) : List (String × V) → List (Option V) → Except PyErr (List (Option V))
  | [], acc => .ok acc
  | (k, v) :: kw, acc =>
    match posOf required k with
    | none => .error .keyError
    | some i => fillKw required kw (acc.set i (some v))

/-- The binding of the parameters (distributions.py 1059-1078, distributions.py 1336-1355). -/
def bindParams (required : List String) (args : List V) (kw : List (String × V)) : Except PyErr (List (Option V)) :=
  if args.length = 0 ∧ kw.length = required.length then fillKw required kw (List.replicate required.length none)
  else if args.length = required.length ∧ kw.length = 0 then .ok (args.map some)
  else .error .typeError

/-- `FunctionalSampler.__init__` (distributions.py 1034-1048): what it refuses. -/
def samplerInit (required : List String) : Except PyErr (List String) := if required.length = 0 then .error .typeError else .ok required

/-- `{**dict(zip(required, values)), **fixed}` (distributions.py 1051, distributions.py 1281). -/
def merged {W : Type} (required : List String) (values : List W) (fixed : List (String × W)) : List (String × W) :=
  updateDict (updateDict [] (required.zip values)) fixed

/-- `FunctionalSampler.__call__` (distributions.py 1058-1079): `batch` is the batched function made by `expects_ndim` (see `Verif.Model.ExpectsNdim`). -/
def samplerCall {R : Type} (required : List String) (batch : V → List (Option V) → Except PyErr R) (num : V) (args : List V) (kw : List (String × V)) : Except PyErr R :=
  (bindParams required args kw).bind (batch num)

/-- `self.__sample_batch` (distributions.py 1044-1048): `expects_ndim` around `fn`, with the declared numbers of dimensions of the parameters. No place is unfilled when it is called. -/
def sampleBatch {K O R : Type} (ndims : List (Option ℕ)) (fn : List (ExpectsNdim.Arg K O) → R) (num : ExpectsNdim.Arg K O) (ps : List (Option (ExpectsNdim.Arg K O))) :
    Except PyErr (ExpectsNdim.Tree R) :=
  ExpectsNdim.decorated (none :: ndims) false fn (num :: ps.filterMap id)

/-! ### Gradient estimators -/

/-- The settings of a gradient estimator (distributions.py 1218-1261). -/
structure Estimator (V : Type) where
  hasFunction : Bool
  sense : Option V
  ranking : Option V
  required : List String

/-- What `__grad_batch` is called with (distributions.py 1357-1360). -/
structure Call (V : Type) where
  sense : V
  ranking : Option V
  lead : List V
  params : List (Option V)
deriving DecidableEq

/-- The keyword arguments other than `objective_sense` and `ranking_method` (distributions.py 1320-1323). -/
def otherKw (kw : List (String × V)) : List (String × V) := kw.filter fun p => !(p.1 == "objective_sense" || p.1 == "ranking_method")

/-- `args[0]`, `args[1]` (distributions.py 1325-1334): the leading arguments and the rest. -/
def leading (hasFunction : Bool) (args : List V) : Except PyErr (List V × List V) :=
  if hasFunction then
    match args with
    | n :: rest => .ok ([n], rest)
    | _ => .error .indexError
  else
    match args with
    | s :: f :: rest => .ok ([s, f], rest)
    | _ => .error .indexError

/-- `FunctionalGradEstimator.__call__` (distributions.py 1301-1360), up to the call of `__grad_batch`. A keyword `ranking_method=None` is not modelled. -/
def gradCall (e : Estimator V) (args : List V) (kw : List (String × V)) : Except PyErr (Call V) :=
  match (kw.lookup "objective_sense").or e.sense with
  | none => .error .valueError
  | some sense =>
    (leading e.hasFunction args).bind fun lr =>
      (bindParams e.required lr.2 (otherKw kw)).bind fun ps => .ok ⟨sense, (kw.lookup "ranking_method").or e.ranking, lr.1, ps⟩

/-- What is needed from the distribution class and the fitness function; `S` are tensors of samples and fitnesses. -/
structure Lib (D S G : Type) (P : Type) where
  construct : List (String × P) → Except PyErr D
  sample : D → ℕ → S
  function : S → S
  rows : S → ℕ
  gradients : D → S → S → String → Option String → Except PyErr G

/-- What is returned (distributions.py 1292-1299). -/
structure Result (G S : Type) where
  grads : G
  samples : Option S
  fitnesses : Option S
deriving DecidableEq

/-- `__grad` for given samples and fitnesses (distributions.py 1263-1299, `function` is None). -/
def gradGiven {D S G P : Type} (lib : Lib D S G P) (retS retF : Bool) (required : List String) (fixed : List (String × P)) (sense : String) (ranking : Option String) (samples fitnesses : S)
    (values : List P) : Except PyErr (Result G S) :=
  if lib.rows samples ≠ lib.rows fitnesses then .error .valueError
  else
    (lib.construct (merged required values fixed)).bind fun d =>
      (lib.gradients d samples fitnesses sense ranking).bind fun g => .ok ⟨g, if retS then some samples else none, if retF then some fitnesses else none⟩

/-- `__grad` with a function (distributions.py 1263-1299). -/
def gradSampled {D S G P : Type} (lib : Lib D S G P) (retS retF : Bool) (required : List String) (fixed : List (String × P)) (sense : String) (ranking : Option String) (num : ℕ)
    (values : List P) : Except PyErr (Result G S) :=
  (lib.construct (merged required values fixed)).bind fun d =>
    let samples := lib.sample d num
    let fitnesses := lib.function samples
    (lib.gradients d samples fitnesses sense ranking).bind fun g => .ok ⟨g, if retS then some samples else none, if retF then some fitnesses else none⟩

end EvoTorch.FunctionalCalls
