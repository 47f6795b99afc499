import Verif.Model.Workload
import Mathlib.Algebra.Field.Rat
import Mathlib.Algebra.Order.Field.Rat
import Mathlib.Data.Rat.Floor
import Mathlib.Algebra.BigOperators.Group.List.Basic
/-!
Model of gradient sampling: `Problem.sample_and_compute_gradients` (`src/evotorch/core.py` 2757-3068),
`Problem._sample_and_compute_gradients` (core.py 3151-3296) and the steps of the Gaussian search algorithms
(`src/evotorch/algorithms/distributed/gaussian.py` 199-349).

Simplifications: exact arithmetic; solutions are of an arbitrary type `β`, a `SolutionBatch` is the list of its rows; devices,
hooks and synchronisation are left out; sampling and evaluation are arguments (the rows of the `k`-th sampled batch, and the
interaction counter after `k` evaluations).
-/
namespace EvoTorch.GradSampling
open Workload

/-- Sizes of the tasks before `ensure_even_popsize` (core.py 2890-2912). -/
def taskSizes (popsize : Nat) (subbatchSize numSubbatches : Option Nat) (numActors : Nat) : Except PyErr (List Nat) :=
  match subbatchSize, numSubbatches with
  | some k, _ =>
    if k = 0 then .error .zeroDivisionError
    else if popsize % k ≠ 0 then .error .valueError
    else .ok (List.replicate (popsize / k) k)
  | none, some n => splitWorkload popsize n
  | none, none => splitWorkload popsize numActors

/-- `ensure_even_popsize` (core.py 2914-2920). -/
def makeEven (sizes : List Nat) : List Nat := sizes.map fun n => if n % 2 ≠ 0 then n + 1 else n

/-- `popsize_per_task` (core.py 2890-2920). -/
def popsizePerTask (popsize : Nat) (subbatchSize numSubbatches : Option Nat) (numActors : Nat) (ensureEven : Bool) :
    Except PyErr (List Nat) := do
  let sizes ← taskSizes popsize subbatchSize numSubbatches numActors
  return if ensureEven then makeEven sizes else sizes

/-- `math.ceil((popsize_per_task[i] / popsize) * limit)`, used for `num_interactions` and `popsize_max` (core.py 2925-2945).
Exact division instead of floating point. -/
def limitPerTask (popsize limit size : Nat) : Nat := ⌈((size : ℚ) / (popsize : ℚ)) * (limit : ℚ)⌉.toNat

/-- The whole request to the actors: one triple (popsize, num_interactions, popsize_max) per task (core.py 2869-2945, 2970). -/
def tasks (popsize : Nat) (numInteractions popsizeMax : Option Nat) (subbatchSize numSubbatches : Option Nat)
    (numActors : Nat) (ensureEven : Bool) : Except PyErr (List (Nat × Option Nat × Option Nat)) :=
  if numInteractions.isNone && popsizeMax.isSome then .error .valueError
  else do
    let sizes ← popsizePerTask popsize subbatchSize numSubbatches numActors ensureEven
    return sizes.map fun n => (n, numInteractions.map fun l => limitPerTask popsize l n, popsizeMax.map fun l => limitPerTask popsize l n)

/-- All requests of a call of `sample_and_compute_gradients`: without actors the problem itself does everything, and
`ensure_even_popsize` is not looked at (core.py 2869-2880, 2886, 3051-3061). -/
def request (popsize : Nat) (numInteractions popsizeMax : Option Nat) (subbatchSize numSubbatches : Option Nat)
    (numActors : Nat) (ensureEven : Bool) : Except PyErr (List (Nat × Option Nat × Option Nat)) :=
  if numActors = 0 then
    if numInteractions.isNone && popsizeMax.isSome then .error .valueError else .ok [(popsize, numInteractions, popsizeMax)]
  else tasks popsize numInteractions popsizeMax subbatchSize numSubbatches numActors ensureEven

/-! ### Adaptive sampling -/

variable {β : Type}

/-- Is the `popsize_max` threshold reached? (gaussian.py 337, core.py 3266) -/
def maxReached (popsizeMax : Option Nat) (total : Nat) : Bool :=
  match popsizeMax with
  | none => false
  | some m => decide (m ≤ total)

/-- The loop of `_step_non_distributed` (gaussian.py 305-349). `batch k` is the `k`-th sampled sub-population, `counts k` the
status item `total_interaction_count` after `k` evaluations (absent: `none`). `none`: out of fuel. -/
def stepLoop (popsizeMax : Option Nat) (numInteractions : Nat) (counts : Nat → Option Nat) (batch : Nat → List β) :
    Nat → Nat → List (List β) → Nat → Option (Except PyErr (List β))
  | 0, _, _, _ => none
  | fuel + 1, k, populations, total =>
    let newpop := batch k
    let total := total + newpop.length
    let populations := populations ++ [newpop]
    if maxReached popsizeMax total then some (.ok populations.flatten)
    else match counts (k + 1) with
      | none => some (.error .keyError)
      | some c =>
        let made : Int := (c : Int) - ((counts 0).getD 0 : Nat)
        if made > (numInteractions : Int) then some (.ok populations.flatten)
        else stepLoop popsizeMax numInteractions counts batch fuel (k + 1) populations total

/-- `fill_and_eval_pop` in the adaptive mode, with a bound on the number of iterations. -/
def adaptiveStep (popsizeMax : Option Nat) (numInteractions : Nat) (counts : Nat → Option Nat) (batch : Nat → List β)
    (fuel : Nat) : Option (Except PyErr (List β)) :=
  stepLoop popsizeMax numInteractions counts batch fuel 0 [] 0

/-- The loop of `_sample_and_compute_gradients` (core.py 3238-3277); `counts k` is the local interaction counter after `k`
evaluations, or `none` if the problem does not implement it (core.py 2742). -/
def taskLoop (popsize : Nat) (popsizeMax : Option Nat) (numInteractions : Nat) (counts : Nat → Option Nat) (batch : Nat → List β) :
    Nat → Nat → List (List β) → Nat → Option (Except PyErr (List β))
  | 0, _, _, _ => none
  | fuel + 1, k, batches, current =>
    let batches := batches ++ [batch k]
    let current := current + popsize
    match counts (k + 1), counts 0 with
    | some c, some c0 =>
      if (c : Int) - (c0 : Int) > (numInteractions : Int) then some (.ok batches.flatten)
      else if maxReached popsizeMax current then some (.ok batches.flatten)
      else taskLoop popsize popsizeMax numInteractions counts batch fuel (k + 1) batches current
    | _, _ => some (.error .notImplementedError)

/-- The batch on which an actor computes its gradients (core.py 3229-3277). -/
def taskBatch (popsize : Nat) (numInteractions popsizeMax : Option Nat) (counts : Nat → Option Nat) (batch : Nat → List β)
    (fuel : Nat) : Option (Except PyErr (List β)) :=
  match numInteractions with
  | none => some (.ok (batch 0))
  | some n => taskLoop popsize popsizeMax n counts batch fuel 0 [] 0

/-! ### Combining the answers -/

variable {K : Type} [Field K] {d : Nat}

/-- A gradient: a vector, or a matrix (the `M` of XNES). -/
inductive Grad (K : Type) (d : Nat) where
  | vec (v : Fin d → K)
  | mat (m : Fin d → Fin d → K)

/-- One answer (core.py 3292-3296); `meanEval = none` is NaN. -/
structure Answer (K : Type) (d : Nat) where
  gradients : List (String × Grad K d)
  numSolutions : Nat
  meanEval : Option K

/-- The answer computed from a batch (core.py 3279-3296): `evals` gives the fitness, `grads` the gradient computation. The mean
of no numbers is NaN. -/
def answer (evals : β → K) (grads : List β → List (String × Grad K d)) (b : List β) : Answer K d :=
  { gradients := grads b
    numSolutions := b.length
    meanEval := if b.length = 0 then none else some ((b.map evals).sum / (b.length : K)) }

/-- `total_weighted_eval += float(num_solutions * mean_eval)` (gaussian.py 241-243); NaN absorbs. -/
def weightedEvals (fetched : List (Answer K d)) : Option K :=
  fetched.foldl (fun acc a => do
    let t ← acc
    let m ← a.meanEval
    return t + (a.numSolutions : K) * m) (some 0)

/-- `avg_gradients[key] += weight * grad` into a vector of zeros (gaussian.py 246-269): an in-place addition of a matrix to a
vector is a `RuntimeError` of torch; a missing key is a `KeyError`. -/
def accumulate (key : String) : List (K × Answer K d) → (Fin d → K) → Except PyErr (Fin d → K)
  | [], acc => .ok acc
  | (w, a) :: rest, acc =>
    match a.gradients.lookup key with
    | none => .error .keyError
    | some (.mat _) => .error .runtimeError
    | some (.vec g) => accumulate key rest fun j => acc j + w * g j

/-- The weights of the answers (gaussian.py 257-266). -/
def answerWeights (weighted : Bool) (fetched : List (Answer K d)) : List K :=
  fetched.map fun a =>
    if weighted then (a.numSolutions : K) / (((fetched.map Answer.numSolutions).sum : Nat) : K) else 1 / (fetched.length : K)

/-- The part of `_step_distributed` that combines the answers (gaussian.py 227-272): the averaged gradients given to
`_update_distribution`, and the reported `mean_eval`. No answers: `list_of.gradients[0]` is an `IndexError`. No solutions:
division by zero. The order in which keys are visited decides only which error is raised first. -/
def combine (weighted : Bool) (fetched : List (Answer K d)) : Except PyErr (List (String × (Fin d → K)) × Option K) :=
  match fetched with
  | [] => .error .indexError
  | first :: _ =>
    let total := (fetched.map Answer.numSolutions).sum
    if total = 0 then .error .zeroDivisionError
    else do
      let avgEval := (weightedEvals fetched).map fun t => t / (total : K)
      let ws := answerWeights weighted fetched
      let grads ← (first.gradients.map Prod.fst).mapM fun key => do
        let g ← accumulate key (ws.zip fetched) fun _ => 0
        return (key, g)
      return (grads, avgEval)

end EvoTorch.GradSampling
