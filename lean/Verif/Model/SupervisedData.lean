import Verif.Model.Base
import Verif.Model.SupervisedNE
import Mathlib.Data.Nat.Notation
import Mathlib.Data.Int.Notation
/-!
The data of a `SupervisedNE` (`src/evotorch/neuroevolution/supervisedne.py`): which data loader is made, what its minibatches contain, and how a minibatch becomes a loss.
`torch.utils.data.DataLoader` with `shuffle=True` is modelled by what its documentation says: each pass goes through a permutation of the data set (any permutation; here
the passes are an argument), cut into minibatches of the requested size, the last one possibly smaller; the samples of a minibatch are collated.
-/
namespace EvoTorch.SupervisedData
open EvoTorch

variable {T Y K : Type}

/-- What an element of the data set can be: a tuple of tensors (as in a `TensorDataset`), a tensor, or a dictionary. -/
inductive Sample (T : Type) where
  | tuple (l : List T)
  | bare (t : T)
  | mapping
deriving DecidableEq, Repr

/-- One tensor of a minibatch: tensors of several samples stacked, or a row of such a stack. -/
inductive Var (T : Type) where
  | stacked (l : List T)
  | row (t : T)
deriving DecidableEq, Repr

/-- A collated minibatch. -/
inductive Collated (T : Type) where
  | columns (l : List (List T))
  | stack (l : List T)
  | mapping
deriving DecidableEq, Repr

/-- The tensors of the samples if all are tuples with `n` elements. -/
def tuples (n : ℕ) : List (Sample T) → Option (List (List T))
  | [] => some []
  | .tuple l :: rest => if l.length = n then (tuples n rest).map (l :: ·) else none
  | _ :: _ => none

/-- The tensors of the samples if none of them is in a tuple. -/
def bares : List (Sample T) → Option (List T)
  | [] => some []
  | .bare t :: rest => (bares rest).map (t :: ·)
  | _ :: _ => none

/-- Column `i` of the samples. -/
def column (rows : List (List T)) (i : ℕ) : List T := rows.filterMap (·[i]?)

/-- `default_collate` of PyTorch (used by `DataLoader`, supervisedne.py 251): the kind of the first sample decides; samples of different kinds or lengths are refused (stacking tensors of different shapes is not modelled). -/
def collate : List (Sample T) → Except PyErr (Collated T)
  | [] => .error .indexError
  | .tuple l :: rest =>
    match tuples l.length (.tuple l :: rest) with
    | some rows => .ok (.columns ((List.range l.length).map (column rows)))
    | none => .error .runtimeError
  | .bare t :: rest =>
    match bares (.bare t :: rest) with
    | some ts => .ok (.stack ts)
    | none => .error .typeError
  | .mapping :: _ => .ok .mapping

/-- `[var.to(self.network_device) for var in batch]` (supervisedne.py 331-332): iterating over a stacked tensor gives its rows, iterating over a dictionary gives its keys, which are strings. The device is not modelled. -/
def toDevice : Collated T → Except PyErr (List (Var T))
  | .columns l => .ok (l.map .stacked)
  | .stack l => .ok (l.map .row)
  | .mapping => .error .attributeError

/-- The arguments of `SupervisedNE` which matter here, and the methods which a subclass may define: `_make_dataloader` (here: the passes of the loader which it returns) and `_loss`. -/
structure Setup (T Y K : Type) where
  dataset : List (Sample T)
  minibatchSize : Option ℤ
  ownLoader : Option (ℕ → List (List (Sample T)))
  lossFunc : Option (Y → Var T → K)
  ownLoss : Option (Y → Var T → K)

/-- One pass cut into minibatches: `BatchSampler` of PyTorch with `drop_last=False` (used by supervisedne.py 251). -/
def chunks (n : ℕ) : ℕ → List α → List (List α)
  | 0, _ => []
  | fuel + 1, l => if l.isEmpty then [] else l.take n :: chunks n fuel (l.drop n)

/-- `DataLoader(dataset, shuffle=True, batch_size=n)` (supervisedne.py 251): `RandomSampler` refuses an empty data set, and `BatchSampler` refuses a size which is not positive, both with ValueError. -/
def shuffledLoader (dataset : List (Sample T)) (n : ℤ) (shuffle : ℕ → List (Sample T)) : Except PyErr (ℕ → List (List (Sample T))) :=
  if dataset.isEmpty then .error .valueError
  else if n ≤ 0 then .error .valueError
  else .ok fun k => chunks n.toNat (shuffle k).length (shuffle k)

/-- `make_dataloader` and `_make_dataloader` (supervisedne.py 219-251). -/
def makeDataloader (s : Setup T Y K) (shuffle : ℕ → List (Sample T)) : Except PyErr (ℕ → List (List (Sample T))) :=
  match s.minibatchSize with
  | none =>
    match s.ownLoader with
    | none => .error .notImplementedError
    | some l => .ok l
  | some n => shuffledLoader s.dataset n shuffle

/-- `loss` and `_loss` (supervisedne.py 268-306). -/
def loss (s : Setup T Y K) (yhat : Y) (y : Var T) : Except PyErr K :=
  match s.lossFunc with
  | none =>
    match s.ownLoss with
    | none => .error .notImplementedError
    | some f => .ok (f yhat y)
  | some f => .ok (f yhat y)

/-- `_evaluate_using_minibatch` (supervisedne.py 253-266): `x, y = batch` raises ValueError unless there are two. -/
def evaluateUsing (s : Setup T Y K) (network : Var T → Y) : List (Var T) → Except PyErr K
  | [x, y] => loss s (network x) y
  | _ => .error .valueError

/-- What happens to the samples which the loader has put into a minibatch: they are collated and moved (supervisedne.py 321-332), and the loss is computed (supervisedne.py 253-266). -/
def lossOf (s : Setup T Y K) (network : Var T → Y) (samples : List (Sample T)) : Except PyErr K := do
  let c ← collate samples
  let b ← toDevice c
  evaluateUsing s network b

end EvoTorch.SupervisedData
