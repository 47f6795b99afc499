import Verif.Model.Base
import Mathlib.Algebra.Field.Basic
/-!
Model of `src/evotorch/neuroevolution/supervisedne.py`: how minibatches are drawn and how a loss is computed from them.

A data loader is a sequence of passes: `passes k` is the list of minibatches which the iterator made by the `k`-th call of `iter(dataloader)` yields (each pass may be shuffled anew).
The move of a batch to the device of the network is not modelled. The losses are numbers of a field.
-/
namespace EvoTorch.SupervisedNE
open EvoTorch

/-- `dataloader_iterator` (the minibatches it will still yield) and the number of passes begun. -/
structure Loader (B : Type) where
  iterator : Option (List B)
  begun : ℕ

/-- After `__init__` (supervisedne.py 210-211). -/
def initial {B : Type} : Loader B := ⟨none, 0⟩

variable {B S K : Type}

/-- `if self.dataloader_iterator is None: self.dataloader_iterator = iter(self.dataloader)` (supervisedne.py 318-319). -/
def ensureIterator (passes : ℕ → List B) (s : Loader B) : Loader B :=
  match s.iterator with
  | none => ⟨some (passes s.begun), s.begun + 1⟩
  | some _ => s

/-- `get_minibatch` (supervisedne.py 311-332): the next minibatch; if there is none, the first one of a new pass; an empty pass then raises StopIteration. -/
def getMinibatch (passes : ℕ → List B) (s : Loader B) : Outcome (Loader B) B :=
  let s := ensureIterator passes s
  match s.iterator with
  | some (b :: rest) => ⟨⟨some rest, s.begun⟩, .ok b⟩
  | _ =>
    match passes s.begun with
    | b :: rest => ⟨⟨some rest, s.begun + 1⟩, .ok b⟩
    | [] => ⟨⟨some [], s.begun + 1⟩, .error .otherError⟩

/-- `[self.get_minibatch() for _ in range(n)]` (supervisedne.py 347). -/
def getMinibatches (passes : ℕ → List B) : ℕ → Loader B → Outcome (Loader B) (List B)
  | 0, s => ⟨s, .ok []⟩
  | n + 1, s =>
    let r := getMinibatch passes s
    match r.result with
    | .error e => ⟨r.state, .error e⟩
    | .ok b =>
      let q := getMinibatches passes n r.state
      ⟨q.state, q.result.map (b :: ·)⟩

/-- `loss += evaluate(network, minibatch) / num_minibatches` over the minibatches (supervisedne.py 335-342). -/
def accumulate [Field K] (loss : S → B → K) (num : ℕ) (net : S) : K → List B → K
  | acc, [] => acc
  | acc, b :: bs => accumulate loss num net (acc + loss net b / num) bs

/-- `_evaluate_network` without common minibatches (supervisedne.py 334-342): a minibatch is fetched in each round. -/
def evaluateSeparate [Field K] (passes : ℕ → List B) (loss : S → B → K) (num : ℕ) (net : S) : ℕ → K → Loader B → Outcome (Loader B) K
  | 0, acc, s => ⟨s, .ok acc⟩
  | n + 1, acc, s =>
    let r := getMinibatch passes s
    match r.result with
    | .error e => ⟨r.state, .error e⟩
    | .ok b => evaluateSeparate passes loss num net n (acc + loss net b / num) r.state

/-- All solutions of the batch, one after the other (`Problem._evaluate_batch`, core.py 2597-2606; `NEProblem._evaluate`, neproblem.py 407-429), without common minibatches. -/
def evaluateAllSeparate [Field K] (passes : ℕ → List B) (loss : S → B → K) (num : ℕ) : List S → Loader B → Outcome (Loader B) (List K)
  | [], s => ⟨s, .ok []⟩
  | net :: nets, s =>
    let r := evaluateSeparate passes loss num net num 0 s
    match r.result with
    | .error e => ⟨r.state, .error e⟩
    | .ok f =>
      let q := evaluateAllSeparate passes loss num nets r.state
      ⟨q.state, q.result.map (f :: ·)⟩

/-- `_evaluate_batch` (supervisedne.py 344-348): with common minibatches they are fetched first and used for every solution. -/
def evaluateBatch [Field K] (passes : ℕ → List B) (loss : S → B → K) (common : Bool) (num : ℕ) (nets : List S) (s : Loader B) :
    Outcome (Loader B) (List K) :=
  if common then
    let r := getMinibatches passes num s
    ⟨r.state, r.result.map fun batches => nets.map fun net => accumulate loss num net 0 batches⟩
  else evaluateAllSeparate passes loss num nets s

/-- Evaluation with actors: every actor has its own loader and evaluates the pieces assigned to it (core.py 2577-2595). -/
def evaluatePieces [Field K] (passes : ℕ → ℕ → List B) (loss : S → B → K) (num : ℕ) (pieces : List (ℕ × List S)) (loaders : ℕ → Loader B) :
    Except PyErr (List (List K)) :=
  match pieces with
  | [] => .ok []
  | (actor, nets) :: rest =>
    let r := evaluateBatch (passes actor) loss true num nets (loaders actor)
    r.result.bind fun f => (evaluatePieces passes loss num rest (fun a => if a = actor then r.state else loaders a)).bind fun fs => .ok (f :: fs)

end EvoTorch.SupervisedNE
