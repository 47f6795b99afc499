import Verif.Model.MapElites
import Mathlib.Data.Nat.Notation
/-!
Model of the arguments of `MAPElites.make_feature_grid` and of the comparison of features with the cells of a grid, shapes included (`src/evotorch/algorithms/mapelites.py`).

Simplifications. Dtypes and devices are names; the rounding that comes with a dtype is left out (C34 is about exact numbers). A tensor is its shape and, if it has one dimension, its members.
-/
namespace EvoTorch.GridArgs
open EvoTorch EvoTorch.MapElites

variable {K : Type}

/-- A tensor: shape, members (of a one-dimensional tensor), dtype, device. -/
structure Tensor (K : Type) where
  shape : List ℕ
  vals : List K
  dtype : String
  device : String

/-- An argument: a tensor, or something that `torch.as_tensor` makes a tensor from, on the cpu, with the dtype it infers. -/
inductive Arg (K : Type)
  | tensor (t : Tensor K)
  | other (t : Tensor K)

/-- `torch.as_tensor(x, **cast_args)` (mapelites.py 447-457). -/
def Arg.cast (dtype device : Option String) : Arg K → Tensor K
  | .tensor t => { t with dtype := dtype.getD t.dtype, device := device.getD t.device }
  | .other t => { t with dtype := dtype.getD t.dtype, device := device.getD "cpu" }

/-- The conversion of both bounds (mapelites.py 453-465). -/
def tensors (lower upper : Arg K) (dtype device : Option String) : Except PyErr (Tensor K × Tensor K) :=
  if dtype.isSome || device.isSome then .ok (lower.cast dtype device, upper.cast dtype device)
  else
    match lower, upper with
    | .tensor l, .tensor u => .ok (l, u)
    | _, _ => .error .typeError

/-- The checks (mapelites.py 467-487). -/
def check (l u : Tensor K) : Except PyErr Unit :=
  if l.device ≠ u.device then .error .valueError
  else if l.dtype ≠ u.dtype then .error .valueError
  else if l.shape ≠ u.shape then .error .valueError
  else if l.shape.length ≠ 1 then .error .valueError
  else .ok ()

/-- `num_bins`: one number for all features, or a vector. -/
inductive Bins
  | all (n : ℕ)
  | each (l : List ℕ)

/-- `num_bins.expand(lower_bounds.size())` (mapelites.py 492-494). -/
def Bins.expand (n : ℕ) : Bins → List ℕ
  | .all k => List.replicate n k
  | .each l => l

/-- The features of the grid (mapelites.py 504): `zip(lower_bounds, upper_bounds, num_bins)`. -/
def features (lower upper : Arg K) (bins : Bins) (dtype device : Option String) : Except PyErr (List (K × K × ℕ)) := do
  let (l, u) ← tensors lower upper dtype device
  check l u
  .ok (l.vals.zip (u.vals.zip (bins.expand l.vals.length)))

/-- `make_feature_grid` (mapelites.py 403-505). -/
def grid [Field K] (lower upper : Arg K) (bins : Bins) (dtype device : Option String) : Except PyErr (List (Cell K)) := do
  makeFeatureGrid (← features lower upper bins dtype device)

/-- `features >= feature_lb` (mapelites.py 30-31, 43-45): PyTorch aligns the two vectors, repeating a vector of one element. -/
def align (cell : Cell K) (feats : List (Flt K)) : Except PyErr (List ((Flt K × Flt K) × Flt K)) :=
  if cell.length = feats.length then .ok (cell.zip feats)
  else
    match cell, feats with
    | cell, [f] => .ok (cell.map fun c => (c, f))
    | [c], feats => .ok (feats.map fun f => (c, f))
    | _, _ => .error .runtimeError

/-- `suitable` (mapelites.py 18-21, 45, 56-67) for the features of one solution and one cell. -/
def fits [LinearOrder K] (cell : Cell K) (feats : List (Flt K)) : Except PyErr Bool :=
  (align cell feats).map fun l => l.all fun bf => Flt.le bf.1.1 bf.2 && Flt.le bf.2 bf.1.2

end EvoTorch.GridArgs
