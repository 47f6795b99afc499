import Verif.Model.Base
import Mathlib.Data.Nat.Notation
import Mathlib.Data.List.Dedup
/-!
Model of `expects_ndim` and `rowwise` (`src/evotorch/decorators.py` 613-965).

A tensor is a shape, a function from index lists, a dtype and a device. The decorated function is an arbitrary total function of its arguments (functions which raise or which use random numbers are not
modelled). `torch.func.vmap` is modelled by its meaning: the function is applied to each slice and the results are stacked; the stacked results form a tree. Where a batch dimension has size zero, torch still
traces the inner function once; this is not modelled.
-/
namespace EvoTorch.ExpectsNdim
open EvoTorch

/-- A tensor. -/
structure Ten (K : Type) where
  shape : List ℕ
  val : List ℕ → K
  dtype : ℕ
  device : ℕ

/-- A positional argument: a tensor, a Python number (or numpy bool), a numpy array, something else. -/
inductive Arg (K O : Type) where
  | tensor (t : Ten K)
  | number (x : K) (isBool : Bool)
  | array (t : Ten K)
  | other (o : O)

variable {K O R : Type}

/-- Stacked results. -/
inductive Tree (R : Type) where
  | leaf (r : R)
  | node (ts : List (Tree R))

/-- The dtype number of `torch.bool`. -/
def boolDtype : ℕ := 0

/-- The tensors among the arguments (decorators.py 714-720: because of a misspelt name the test looks at the argument being converted, whose expected number of dimensions is never None, so that all tensors are
considered). -/
def tensorsOf : List (Option ℕ × Arg K O) → List (Ten K)
  | [] => []
  | (_, .tensor t) :: rest => t :: tensorsOf rest
  | _ :: rest => tensorsOf rest

/-- `convert_scalar_to_tensor` (decorators.py 743-784). -/
def scalarToTensor (all : List (Option ℕ × Arg K O)) (x : K) (isBool : Bool) : Except PyErr (Ten K) :=
  match ((tensorsOf all).map Ten.device).dedup with
  | [device] =>
    if isBool then .ok ⟨[], fun _ => x, boolDtype, device⟩
    else match ((tensorsOf all).map Ten.dtype).dedup with
      | [dtype] => .ok ⟨[], fun _ => x, dtype, device⟩
      | _ => .error .typeError
  | _ => .error .typeError

/-- Conversion of one argument (decorators.py 792-809). -/
def convert (all : List (Option ℕ × Arg K O)) (expected : Option ℕ) (a : Arg K O) : Except PyErr (Arg K O) :=
  match expected, a with
  | none, a => .ok a
  | _, .tensor t => .ok (.tensor t)
  | _, .number x isBool => (scalarToTensor all x isBool).map .tensor
  | _, .array t => .ok (.tensor t)
  | _, .other _ => .error .typeError

/-- `arg.ndim`. -/
def Arg.ndim : Arg K O → ℕ
  | .tensor t => t.shape.length
  | _ => 0

/-- `(expected_arg_ndims is not None) and (arg.ndim < expected_arg_ndims) and (not allow_smaller_ndim)` (decorators.py 811). -/
def tooSmall (allowSmaller : Bool) : Option ℕ → Arg K O → Bool
  | none, _ => false
  | some d, a => decide (a.ndim < d) && !allowSmaller

/-- The loop over the arguments (decorators.py 791-820); `zip` drops the arguments beyond the declared ones. -/
def convertAll (allowSmaller : Bool) (all : List (Option ℕ × Arg K O)) : List (Option ℕ × Arg K O) → Except PyErr (List (Arg K O))
  | [] => .ok []
  | (e, a) :: rest =>
    (convert all e a).bind fun a =>
      if tooSmall allowSmaller e a then .error .valueError
      else (convertAll allowSmaller all rest).bind fun as => .ok (a :: as)

/-- The slice of an argument along its leftmost dimension. -/
def Arg.slice (b : ℕ) : Arg K O → Arg K O
  | .tensor t => .tensor { t with shape := t.shape.tail, val := fun idx => t.val (b :: idx) }
  | a => a

/-- The sizes of the leftmost dimension of the arguments to be batched. -/
def sizes (inDims : List Bool) (args : List (Arg K O)) : List ℕ :=
  (inDims.zip args).filterMap fun p => match p with
    | (true, .tensor t) => some (t.shape.headD 0)
    | _ => none

/-- Results in order, or the first exception. -/
def collect : List (Except PyErr R) → Except PyErr (List R)
  | [] => .ok []
  | x :: xs => x.bind fun r => (collect xs).bind fun rs => .ok (r :: rs)

/-- `vmap(f, in_dims=...)`: the batched arguments must have the same size; the function is applied to each slice. -/
def vmap (f : List (Arg K O) → Except PyErr (Tree R)) (inDims : List Bool) (args : List (Arg K O)) : Except PyErr (Tree R) :=
  match sizes inDims args with
  | [] => .error .valueError
  | n :: rest =>
    if rest.all (· == n) then
      (collect ((List.range n).map fun b => f (List.zipWith (fun d a => if d then Arg.slice b a else a) inDims args))).map .node
    else .error .valueError

/-- `wrapped_ndims[i] is not None and wrapped_ndims[i] > expected_ndims[i]` (decorators.py 840). -/
def extraDim : Option ℕ × Option ℕ → Bool
  | (some e, some w) => decide (e < w)
  | _ => false

/-- `wrapped_ndims[i] -= 1` for the batched ones (decorators.py 853). -/
def dropDim (p : Option ℕ × Option ℕ) : Option ℕ := if extraDim p then p.2.map (· - 1) else p.2

/-- The `while` loop (decorators.py 830-867): each round wraps the function once more. -/
def wrapLoop (expected : List (Option ℕ)) : ℕ → List (Option ℕ) → (List (Arg K O) → Except PyErr (Tree R)) → Option (List (Arg K O) → Except PyErr (Tree R))
  | 0, _, _ => none
  | fuel + 1, wrapped, f =>
    let inDims := (expected.zip wrapped).map extraDim
    if inDims.any id then wrapLoop expected fuel ((expected.zip wrapped).map dropDim) (vmap f inDims)
    else some f

/-- `wrapped_ndims` (decorators.py 824-827). -/
def wrappedNdims (expected : List (Option ℕ)) (args : List (Arg K O)) : List (Option ℕ) :=
  (expected.zip args).map fun p => p.1.map fun _ => p.2.ndim

/-- Enough rounds: more than the number of dimensions of all arguments. -/
def rounds (args : List (Arg K O)) : ℕ := (args.map Arg.ndim).sum + 1

/-- The decorated function (decorators.py 697-870). The loop which does not end within `rounds` is reported as a RecursionError (this never happens). -/
def decorated (expected : List (Option ℕ)) (allowSmaller : Bool) (fn : List (Arg K O) → R) (args : List (Arg K O)) : Except PyErr (Tree R) :=
  (convertAll allowSmaller (expected.zip args) (expected.zip args)).bind fun newArgs =>
    match wrapLoop expected (rounds newArgs) (wrappedNdims expected newArgs) (fun as => .ok (.leaf (fn as))) with
    | none => .error .recursionError
    | some f => f newArgs

/-- `rowwise` (decorators.py 960-963). -/
def rowwise (fn : List (Arg K O) → R) (x : Arg K O) : Except PyErr (Tree R) := decorated [some 1] false fn [x]

end EvoTorch.ExpectsNdim
