import Verif.Model.ExpectsNdim
/-!
Batched functional searches: `cem_ask`, `cem_tell` (`src/evotorch/algorithms/functional/funccem.py` 192-289), `pgpe_ask`, `pgpe_tell` (`src/evotorch/algorithms/functional/funcpgpe.py` 301-384) and the functional
optimisers (`funcadam.py`, `funcclipup.py`, `funcsgd.py`), as compositions of functions decorated with `expects_ndim`.

What the decorated functions compute for a single search (their kernels) is a parameter: see `Verif.Model.SearchAgree`, `Verif.Model.Modify` and `Verif.Model.Optimizers` for it. A function which returns a tuple is
modelled by one function for each component. Random draws (`randomness="different"`: other ones for each search) are an additional argument with the batch dimensions of the searches.
-/
namespace EvoTorch.BatchedSearch
open EvoTorch EvoTorch.ExpectsNdim

variable {K O : Type} [Inhabited K]

/-- Tensors stacked along a new leftmost dimension (the results of `torch.func.vmap`). -/
def stackNode (ts : List (Ten K)) : Ten K where
  shape := ts.length :: (match ts with | t :: _ => t.shape | [] => [])
  dtype := match ts with | t :: _ => t.dtype | [] => 0
  device := match ts with | t :: _ => t.device | [] => 0
  val := fun idx => match idx with
    | i :: rest => (match ts[i]? with | some t => t.val rest | none => default)
    | [] => default

mutual
/-- The tensor which nested `vmap`s make from the results for the single items. -/
def stack : Tree (Ten K) → Ten K
  | .leaf t => t
  | .node ts => stackNode (stackAll ts)
/-- The same for a list. -/
def stackAll : List (Tree (Ten K)) → List (Ten K)
  | [] => []
  | t :: ts => stack t :: stackAll ts
end

/-- What a kernel is. -/
abbrev Kernel (K O : Type) := List (Arg K O) → Ten K

/-- A call of a function decorated with `expects_ndim` (decorators.py 697-870) which returns a tensor. -/
def call (expected : List (Option ℕ)) (allowSmaller : Bool) (fn : Kernel K O) (args : List (Arg K O)) : Except PyErr (Ten K) :=
  (decorated expected allowSmaller fn args).map stack

/-! ### CEM -/

/-- `CEMState` (funccem.py 24-31). -/
structure Cem (K O : Type) where
  center : Ten K
  stdev : Ten K
  stdevMin : Ten K
  stdevMax : Ten K
  stdevMaxChange : Ten K
  ratio : O
  maximize : O

/-- The kernels: `_cem_ask`, and the two results of `_cem_tell` (funccem.py 192-232). -/
structure CemKernels (K O : Type) where
  sample : Kernel K O
  newCenter : Kernel K O
  newStdev : Kernel K O

/-- `cem_ask` with `_cem_ask` (funccem.py 192-194, funccem.py 235-246); `draws` are the normal draws. -/
def cemAsk (k : CemKernels K O) (s : Cem K O) (popsize : O) (draws : Ten K) : Except PyErr (Ten K) :=
  call [some 1, some 1, none, none, some 2] false k.sample [.tensor s.center, .tensor s.stdev, .other s.ratio, .other popsize, .tensor draws]

/-- `cem_tell` with `_cem_tell` (funccem.py 197-232, funccem.py 249-289). -/
def cemTell (k : CemKernels K O) (s : Cem K O) (values evals : Ten K) : Except PyErr (Cem K O) :=
  let expected := [some 1, some 1, some 1, none, none, some 1, some 1, some 2, some 1]
  let args := [.tensor s.stdevMin, .tensor s.stdevMax, .tensor s.stdevMaxChange, .other s.ratio, .other s.maximize, .tensor s.center, .tensor s.stdev, .tensor values, .tensor evals]
  (call expected false k.newCenter args).bind fun center =>
    (call expected false k.newStdev args).bind fun stdev =>
      .ok ⟨center, stdev, s.stdevMin, s.stdevMax, s.stdevMaxChange, s.ratio, s.maximize⟩

/-- Successive `cem_tell`s. -/
def cemTells (k : CemKernels K O) : Cem K O → List (Ten K × Ten K) → Except PyErr (Cem K O)
  | s, [] => .ok s
  | s, (v, e) :: rest => (cemTell k s v e).bind fun s' => cemTells k s' rest

/-- Whole generations: ask, evaluate, tell. The fitness function takes a population, or a batch of populations (it is written with `vmap`, `expects_ndim` or `rowwise`). -/
def cemRun (k : CemKernels K O) (fitness : Kernel K O) (popsize : O) : Cem K O → List (Ten K) → Except PyErr (Cem K O)
  | s, [] => .ok s
  | s, z :: rest =>
    (cemAsk k s popsize z).bind fun values =>
      (call [some 2] false fitness [.tensor values]).bind fun evals =>
        (cemTell k s values evals).bind fun s' => cemRun k fitness popsize s' rest

/-! ### Functional optimisers -/

/-- A functional optimiser: for each field of its state, the number of dimensions of that field, and how a step computes the new value (`none`: the field is kept). The first field is the center. -/
abbrev Optimizer (K O : Type) := List (ℕ × Option (Kernel K O))

/-- `AdamState`, `_adam_step`, `adam_tell` (funcadam.py 23-31, funcadam.py 104-123, funcadam.py 139-172). -/
def adam (center m v t : Kernel K O) : Optimizer K O :=
  [(1, some center), (0, none), (0, none), (0, none), (0, none), (1, some m), (1, some v), (0, some t)]

/-- `ClipUpState`, `_clipup_step`, `clipup_tell` (funcclipup.py 23-28, funcclipup.py 94-108, funcclipup.py 124-151). -/
def clipup (center velocity : Kernel K O) : Optimizer K O := [(1, some center), (1, some velocity), (0, none), (0, none), (0, none)]

/-- `SGDState`, `_sgd_step`, `sgd_tell` (funcsgd.py 23-27, funcsgd.py 78-88, funcsgd.py 104-130). -/
def sgd (center velocity : Kernel K O) : Optimizer K O := [(1, some center), (1, some velocity), (0, none), (0, none)]

/-- The new fields: the step function gets the gradient and all fields. -/
def newFields (expected : List (Option ℕ)) (args : List (Arg K O)) : Optimizer K O → List (Ten K) → Except PyErr (List (Ten K))
  | (_, some fn) :: o, _ :: fs => (call expected false fn args).bind fun t => (newFields expected args o fs).bind fun ts => .ok (t :: ts)
  | (_, none) :: o, f :: fs => (newFields expected args o fs).bind fun ts => .ok (f :: ts)
  | _, _ => .ok []

/-- `adam_tell`, `clipup_tell`, `sgd_tell` (funcadam.py 139-172, funcclipup.py 124-151, funcsgd.py 104-130). -/
def optTell (o : Optimizer K O) (fields : List (Ten K)) (grad : Ten K) : Except PyErr (List (Ten K)) :=
  newFields (some 1 :: o.map fun p => some p.1) (.tensor grad :: fields.map .tensor) o fields

/-- Successive steps. -/
def optTells (o : Optimizer K O) : List (Ten K) → List (Ten K) → Except PyErr (List (Ten K))
  | s, [] => .ok s
  | s, g :: gs => (optTell o s g).bind fun s' => optTells o s' gs

/-! ### PGPE -/

/-- `PGPEState` (funcpgpe.py 54-64) without the optimiser's name and the symmetry flag, which select kernels. -/
structure Pgpe (K O : Type) where
  optimizer : List (Ten K)
  stdev : Ten K
  stdevLr : Ten K
  stdevMin : Ten K
  stdevMax : Ten K
  stdevMaxChange : Ten K
  ranking : O
  sense : O

/-- The kernels: sampling and the two gradients (distributions.py 1050-1056, distributions.py 1263-1299), `_follow_stdev_grad` (funcpgpe.py 321-327) and the two parts of `modify_vector` (misc.py 819-865). -/
structure PgpeKernels (K O : Type) where
  sample : Kernel K O
  muGrad : Kernel K O
  sigmaGrad : Kernel K O
  follow : Kernel K O
  maxChange : Kernel K O
  bounds : Kernel K O

/-- `optimizer_ask`: the center (funcadam.py 126-136, funcclipup.py 111-121, funcsgd.py 91-101). -/
def optAsk (fields : List (Ten K)) : Except PyErr (Ten K) :=
  match fields with
  | c :: _ => .ok c
  | [] => .error .attributeError

/-- `pgpe_ask` (funcpgpe.py 301-318). -/
def pgpeAsk (k : PgpeKernels K O) (s : Pgpe K O) (popsize : O) (draws : Ten K) : Except PyErr (Ten K) :=
  (optAsk s.optimizer).bind fun center => call [none, some 1, some 1, some 2] false k.sample [.other popsize, .tensor center, .tensor s.stdev, .tensor draws]

/-- `modify_vector` with all bounds (misc.py 868-908). -/
def modify (k : PgpeKernels K O) (original target lb ub maxChange : Ten K) : Except PyErr (Ten K) :=
  (call [some 1, some 1, some 1] true k.maxChange [.tensor original, .tensor target, .tensor maxChange]).bind fun r =>
    call [some 1, some 1, some 1] true k.bounds [.tensor r, .tensor lb, .tensor ub]

/-- `pgpe_tell` (funcpgpe.py 330-384). -/
def pgpeTell (k : PgpeKernels K O) (o : Optimizer K O) (s : Pgpe K O) (values evals : Ten K) : Except PyErr (Pgpe K O) :=
  (optAsk s.optimizer).bind fun center =>
    let expected := [none, none, some 2, some 1, some 1, some 1]
    let args := [.other s.sense, .other s.ranking, .tensor values, .tensor evals, .tensor center, .tensor s.stdev]
    (call expected false k.muGrad args).bind fun mu =>
      (call expected false k.sigmaGrad args).bind fun sigma =>
        (optTell o s.optimizer mu).bind fun optimizer =>
          (call [some 1, some 0, some 1] false k.follow [.tensor s.stdev, .tensor s.stdevLr, .tensor sigma]).bind fun target =>
            (modify k s.stdev target s.stdevMin s.stdevMax s.stdevMaxChange).bind fun stdev =>
              .ok ⟨optimizer, stdev, s.stdevLr, s.stdevMin, s.stdevMax, s.stdevMaxChange, s.ranking, s.sense⟩

/-- Successive `pgpe_tell`s. -/
def pgpeTells (k : PgpeKernels K O) (o : Optimizer K O) : Pgpe K O → List (Ten K × Ten K) → Except PyErr (Pgpe K O)
  | s, [] => .ok s
  | s, (v, e) :: rest => (pgpeTell k o s v e).bind fun s' => pgpeTells k o s' rest

/-- Whole generations. -/
def pgpeRun (k : PgpeKernels K O) (o : Optimizer K O) (fitness : Kernel K O) (popsize : O) : Pgpe K O → List (Ten K) → Except PyErr (Pgpe K O)
  | s, [] => .ok s
  | s, z :: rest =>
    (pgpeAsk k s popsize z).bind fun values =>
      (call [some 2] false fitness [.tensor values]).bind fun evals =>
        (pgpeTell k o s values evals).bind fun s' => pgpeRun k o fitness popsize s' rest

end EvoTorch.BatchedSearch
