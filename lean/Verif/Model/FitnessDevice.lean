import Verif.Model.SetEvals
/-!
Where a fitness function is evaluated: the decorators `on_device`, `on_cuda`, `on_aux_device` (`src/evotorch/decorators.py`) and `Problem._evaluate_all` without actors
(`src/evotorch/core.py`).
-/
namespace EvoTorch.FitnessDevice
open EvoTorch.SetEvals

/-- `torch.device`: its type and its index, if it has one. -/
structure Device where
  type : String
  index : Option Nat
deriving DecidableEq

/-- The attributes which the decorators set on a function. -/
structure Attrs where
  onAux : Bool := false
  device : Option Device := none

/-- `on_device(device)(fn)`, `decorators.py 320-327`. -/
def onDevice (d : Device) (fn : Attrs) : Attrs := { fn with device := some d }

/-- `on_cuda` and `on_cuda(index)`, `decorators.py 377-437`. -/
def onCuda (index : Option Nat) (fn : Attrs) : Attrs := onDevice ⟨"cuda", index⟩ fn

/-- `on_aux_device(fn)`, `decorators.py 546`, `decorators.py 129-136`. -/
def onAuxDevice (fn : Attrs) : Attrs := { fn with onAux := true }

/-- What `Problem` knows about devices. `actorIndex` is None for the main instance. -/
structure Config where
  device : Device
  numGpusAll : Bool
  actorIndex : Option Nat

/-- `Problem.aux_device`, `core.py 1677-1687`; `cuda` says whether cuda is available. -/
def auxDevice (cuda : Bool) (c : Config) : Device :=
  if c.device = ⟨"cpu", none⟩ then
    if cuda then
      match c.numGpusAll, c.actorIndex with
      | true, some i => ⟨"cuda", some i⟩
      | _, _ => ⟨"cuda", none⟩
    else ⟨"cpu", none⟩
  else c.device

/-- The four functions which are asked, `core.py 2509`; the objective function may be None. `evaluateAllIsStable` says whether reading `self._evaluate_all` twice gives the same object:
for a method it does not, Python makes a new bound method object each time. -/
structure Functions where
  objective : Option Attrs
  evaluateAll : Attrs
  evaluateBatch : Attrs
  evaluate : Attrs
  evaluateAllIsStable : Bool := false

/-- `device_of_fn`, `core.py 2498-2507`. -/
def deviceOfFn (aux : Device) : Option Attrs → Option Device
  | none => none
  | some fn => if fn.onAux then some aux else fn.device

/-- The loop of `_device_of_fitness_function`, `core.py 2509-2525`; the flag of a candidate says whether `candidate_fn is self._evaluate_all`. -/
def deviceLoop (aux : Device) : List (Option Attrs × Bool) → Except PyErr (Option Device)
  | [] => .ok none
  | (fn, isAll) :: rest =>
    match deviceOfFn aux fn with
    | none => deviceLoop aux rest
    | some d => if isAll then .error .runtimeError else .ok (some d)

/-- `Problem._device_of_fitness_function`, `core.py 2497-2525`. -/
def deviceOfFitness (aux : Device) (F : Functions) : Except PyErr (Option Device) :=
  deviceLoop aux [(F.objective, false), (some F.evaluateAll, F.evaluateAllIsStable), (some F.evaluateBatch, false), (some F.evaluate, false)]

/-- A batch of solutions: its device, whether its values are objects, its values and its evaluation results. -/
structure Batch (V E : Type) where
  device : Device
  isObject : Bool
  values : List V
  evals : List (List E)

/-- `SolutionBatch.to`, `core.py 4457-4468`. -/
def Batch.to {V E : Type} (b : Batch V E) (d : Device) : Except PyErr (Batch V E) :=
  if b.isObject then .error .valueError else .ok { b with device := d }

/-- `Problem._evaluate_all` without actors, `core.py 2569-2577`. `run` is `_evaluate_batch`: what it leaves in the evaluation results of the batch it gets, or the exception it raises.
The second component lists the batches with which it was called. -/
def evaluateAll {V E : Type} (nan : E) (m q : Nat) (aux : Device) (F : Functions) (run : Batch V E → Except PyErr (List (List E))) (b : Batch V E) : Outcome (Batch V E) Unit × List (Batch V E) :=
  match deviceOfFitness aux F with
  | .error e => (⟨b, .error e⟩, [])
  | .ok none =>
    match run b with
    | .error e => (⟨b, .error e⟩, [b])
    | .ok ev => (⟨{ b with evals := ev }, .ok ()⟩, [b])
  | .ok (some d) =>
    match b.to d with
    | .error e => (⟨b, .error e⟩, [])
    | .ok moved =>
      match run moved with
      | .error e => (⟨b, .error e⟩, [moved])
      | .ok ev =>
        let o := setEvals nan m q b.evals (.mat (m + q) ev) none none
        (⟨{ b with evals := o.state }, o.result⟩, [moved])

end EvoTorch.FitnessDevice
