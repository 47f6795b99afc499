import Verif.Model.BatchAccess
import Mathlib.Data.Nat.Notation
import Mathlib.Data.Int.Notation
/-!
Model of a request for gradients: `Problem.sample_and_compute_gradients`, `_gradient_computation_helper`, `_grad_device` and the parts of `_sample_and_compute_gradients`
which deal with the objective, devices and dtypes (`src/evotorch/core.py`). How many solutions are sampled and how the answers are combined is the subject of `GradSampling`.

Simplifications. Dtypes and devices are names. A distribution is of an arbitrary type with a dtype, a device and conversions; sampling, evaluating, and computing gradients are
arbitrary functions. The synchronisation with the actors is left out.
-/
namespace EvoTorch.GradRequest
open EvoTorch EvoTorch.BatchAccess

/-- What the model takes from elsewhere: distributions of type `D`, evaluated solutions of type `β`, gradients of type `G`, evaluation results of type `K`. -/
structure World (D β G K : Type) where
  dtype : D → String
  device : D → String
  /-- `distribution.to(device)`. -/
  moveTo : String → D → D
  /-- `distribution.modified_copy(dtype=..., device=...)`. -/
  cast : String → String → D → D
  /-- Sampling and evaluating, with all the evaluation data of each solution. -/
  sample : D → List β
  evals : β → List K
  /-- `distribution.compute_gradients(samples, fitnesses, objective_sense=..., ranking_method=...)`. -/
  compute : D → List β → List K → String → Option String → G
  /-- `cast_tensors_in_container(grads, device=...)`. -/
  moveGrads : String → G → G
  /-- `torch.mean`. -/
  mean : List K → K

/-- The problem: its senses, dtype, device, and the device of its fitness function, if there is one. -/
structure Problem where
  senses : List String
  dtype : String
  device : String
  fitnessDevice : Option String

/-- `_grad_device` (core.py 3113-3149). -/
def Problem.gradDevice (p : Problem) : String := p.fitnessDevice.getD p.device

/-- An answer with its statistics. -/
structure Answer (G K : Type) where
  gradients : G
  numSolutions : ℕ
  meanEval : K

/-- An element of a list at a Python index. -/
def pyGet {α : Type} (l : List α) (i : ℤ) : Except PyErr α :=
  let j := if i < 0 then (l.length : ℤ) + i else i
  if j < 0 then .error .indexError
  else match l[j.toNat]? with
    | none => .error .indexError
    | some x => .ok x

/-- `resulting_batch.access_evals(obj_index)` (core.py 4144-4147) with an index: one number for each solution. -/
def column {β K : Type} (numObjs : ℕ) (evals : β → List K) (rows : List β) (i : ℤ) : Except PyErr (List K) := do
  let j ← normObj numObjs i
  rows.mapM fun r => match (evals r)[j]? with
    | none => .error .indexError
    | some x => .ok x

/-- `_sample_and_compute_gradients` (core.py 3217-3233, core.py 3279-3296). With `obj_index=None`, `self.senses[None]` is a TypeError. -/
def work {D β G K : Type} (w : World D β G K) (p : Problem) (d : D) (objIndex : Option ℤ) (ranking : Option String) : Except PyErr (Answer G K) := do
  let d := w.moveTo p.gradDevice d
  let rows := w.sample d
  match objIndex with
  | none => .error .typeError
  | some i =>
    let fitnesses ← column p.senses.length w.evals rows i
    let sense ← pyGet p.senses i
    let grads := w.compute d rows fitnesses sense ranking
    let grads := if p.gradDevice ≠ p.device then w.moveGrads p.device grads else grads
    .ok ⟨grads, rows.length, w.mean fitnesses⟩

/-- One result: with or without statistics. -/
inductive Result (G K : Type)
  | stats (a : Answer G K)
  | bare (g : G)

/-- `_gradient_computation_helper` (core.py 3070-3111). -/
def helper {D β G K : Type} (w : World D β G K) (p : Problem) (d : D) (objIndex : Option ℤ) (ranking : Option String) (withStats : Bool) : Except PyErr (Result G K) := do
  let j ← normProblemObj p.senses.length objIndex
  let d := if w.dtype d ≠ p.dtype ∨ w.device d ≠ p.device then w.cast p.dtype p.device d else d
  let a ← work w p d (some (j : ℤ)) ranking
  .ok (if withStats then .stats a else .bare a.gradients)

/-- What `sample_and_compute_gradients` returns: one result, or a list of results. -/
inductive Returned (G K : Type)
  | one (r : Result G K)
  | many (l : List (Result G K))

/-- What happens in the main process, in order. -/
inductive Event (G K : Type)
  | beforeHook
  | afterHook (r : Returned G K)

/-- The answers of the actors (core.py 2951-2978): `sampled` are the tasks in the order in which they finish, each with its way to sample (each actor has its own
generator). If the problem is not on the cpu, the results are moved to its device. -/
def remote {D β G K : Type} (w : World D β G K) (p : Problem) (d : D) (objIndex : Option ℤ) (ranking : Option String) (sampled : List (D → List β)) :
    Except PyErr (Returned G K) := do
  let d := w.moveTo "cpu" d
  let answers ← sampled.mapM fun s => work { w with sample := s } p d objIndex ranking
  let answers := if p.device ≠ "cpu" then answers.map fun a => { a with gradients := w.moveGrads p.device a.gradients } else answers
  .ok (.many (answers.map .stats))

/-- `sample_and_compute_gradients` (core.py 2866-3068): `main` says whether this is the main instance, `tasks` the tasks of the actors, none if there are no actors. The trace
of hooks comes along. -/
def request {D β G K : Type} (w : World D β G K) (p : Problem) (main : Bool) (tasks : Option (List (D → List β))) (numInteractions popsizeMax : Option ℕ) (d : D) (objIndex : Option ℤ)
    (ranking : Option String) (withStats : Bool) : Except PyErr (Returned G K) × List (Event G K) :=
  if numInteractions.isNone && popsizeMax.isSome then (.error .valueError, [])
  else
    let before := if main then [Event.beforeHook] else []
    let result := match main, tasks with
      | true, some ts => remote w p d objIndex ranking ts
      | _, _ => (helper w p d objIndex ranking withStats).map .one
    match result with
    | .error e => (.error e, before)
    | .ok r => (.ok r, before ++ (if main then [.afterHook r] else []))

end EvoTorch.GradRequest
