import Verif.Model.Base
import Mathlib.Data.Nat.Notation
import Mathlib.Data.Rat.Floor
import Mathlib.Algebra.Order.Floor.Ring
import Mathlib.Algebra.Order.Ring.Rat
import Mathlib.Algebra.Field.Rat

/-!
The tensor utilities of `src/evotorch/tools/misc.py`: `clip_tensor`, `ensure_tensor_length_and_dtype`, `empty_tensor_like`, `make_tensor`, `numpy_copy`.
A tensor has an identity, a shape, a dtype, a device and its elements in row-major order. Elements are exact rational numbers (no rounding, no NaN); converting to an integer dtype truncates.
-/

namespace EvoTorch.TensorUtil
open EvoTorch

/-- Floating-point or integer dtypes, with a number to tell them apart. -/
inductive DT where
  | float (bits : ℕ)
  | int (bits : ℕ)
deriving DecidableEq, Repr

/-- A number converted to a dtype: integers are truncated towards zero. -/
def conv : DT → ℚ → ℚ
  | .float _, x => x
  | .int _, x => if 0 ≤ x then (⌊x⌋ : ℚ) else (⌈x⌉ : ℚ)

/-- A PyTorch tensor. -/
structure T where
  ident : ℕ
  shape : List ℕ
  dtype : DT
  device : String
  data : List ℚ
deriving DecidableEq

/-- Numbers as a user gives them: a tensor, a number, or a sequence of numbers. -/
inductive Data where
  | tensor (t : T)
  | scalar (x : ℚ)
  | seq (xs : List ℚ)
deriving DecidableEq

/-- `as_tensor` of misc.py with a numeric dtype (misc.py 1817-1876): a tensor which already has the dtype and the device is returned itself, everything else is copied. -/
def asTensor (fresh : ℕ) (x : Data) (dtype : DT) (device : Option String) : T :=
  match x with
  | .tensor t => if t.dtype = dtype ∧ (device = none ∨ device = some t.device) then t
    else ⟨fresh, t.shape, dtype, device.getD t.device, t.data.map (conv dtype)⟩
  | .scalar v => ⟨fresh, [], dtype, device.getD "cpu", [conv dtype v]⟩
  | .seq vs => ⟨fresh, [vs.length], dtype, device.getD "cpu", vs.map (conv dtype)⟩

/-- `t.repeat(length)` of a scalar tensor: a new tensor. -/
def repeatScalar (fresh : ℕ) (t : T) (length : ℕ) : T := ⟨fresh, [length], t.dtype, t.device, (List.replicate length t.data).flatten⟩

/-- `ensure_tensor_length_and_dtype` (misc.py 609-671). -/
def ensureLength (fresh : ℕ) (x : Data) (length : ℕ) (dtype : DT) (allowScalar : Bool) (device : Option String) : Except PyErr T :=
  let t := asTensor fresh x dtype device
  if t.shape.length = 0 then (if allowScalar then .ok t else .ok (repeatScalar fresh t length))
  else if t.shape.length ≠ 1 ∨ t.shape.head? ≠ some length then .error .valueError
  else .ok t

/-- The attributes of an object with the tensor-making methods: `none` is a missing attribute. The dtypes are numeric here. -/
structure Self where
  dtype : DT
  evalDtype : Option DT
  device : String
  solutionLength : Option ℕ

/-- The method `ensure_tensor_length_and_dtype` (tensormaker.py 783-864): the length, the dtype and the device default to those of the object. -/
def methodEnsure (fresh : ℕ) (self : Self) (x : Data) (length : Option ℕ) (dtype : Option DT) (allowScalar : Bool) (device : Option String) (useEval : Bool) : Except PyErr T :=
  match length <|> self.solutionLength with
  | none => .error .attributeError
  | some n =>
    match dtype, useEval with
    | some _, true => .error .valueError
    | some d, false => ensureLength fresh x n d allowScalar (some (device.getD self.device))
    | none, true => match self.evalDtype with
      | none => .error .attributeError
      | some d => ensureLength fresh x n d allowScalar (some (device.getD self.device))
    | none, false => ensureLength fresh x n self.dtype allowScalar (some (device.getD self.device))

/-- A bound: a number, or a number per column. -/
inductive Bound where
  | scalar (x : ℚ)
  | vector (xs : List ℚ)
deriving DecidableEq

/-- `torch.max(x, b)` or `torch.min(x, b)` after `b` has become a tensor of the dtype of `x`: a scalar, or a vector as long as there are columns (or of length one). Other vectors are an error here;
PyTorch would repeat the single column of a tensor that has only one, which is not modelled. -/
def elementwise (fresh : ℕ) (f : ℚ → ℚ → ℚ) (x : T) : Bound → Except PyErr T
  | .scalar b => .ok { x with ident := fresh, data := x.data.map fun v => f v (conv x.dtype b) }
  | .vector bs =>
    if bs.length = 1 ∨ x.shape.getLast? = some bs.length then
      .ok { x with ident := fresh, data := x.data.mapIdx fun i v => f v (conv x.dtype (bs.getD (i % bs.length) 0)) }
    else .error .runtimeError

/-- One of the two bounds of `clip_tensor`, if there is one (misc.py 699-701, misc.py 702-704). -/
def applyBound (fresh : ℕ) (f : ℚ → ℚ → ℚ) (x : T) : Option Bound → Except PyErr T
  | some b => elementwise fresh f x b
  | none => .ok x

/-- `clip_tensor` (misc.py 675-707); `fresh`, `fresh + 1` are the identities of new tensors. -/
def clipTensor (fresh : ℕ) (x : T) (lb ub : Option Bound) (ensureCopy : Bool) : Except PyErr T := do
  let r1 ← applyBound fresh max x lb
  let r2 ← applyBound (fresh + 1) min r1 ub
  if ensureCopy && decide (r2.ident = x.ident) then .ok { x with ident := fresh } else .ok r2

/-- What `empty_tensor_like` and `make_tensor` make: an object array with a number of elements, or a tensor. -/
inductive Empty where
  | objects (n : ℕ)
  | tensor (shape : List ℕ) (dtype : DT) (device : String)
deriving DecidableEq

/-- A source of `empty_tensor_like`. -/
inductive Source where
  | objects (n : ℕ)
  | tensor (t : T)
  | other

/-- A requested shape: a number or a sequence of numbers. -/
inductive Shape where
  | num (n : ℕ)
  | seq (l : List ℕ)

/-- A requested dtype. -/
inductive Dt where
  | numeric (d : DT)
  | object
deriving DecidableEq

/-- `n` for a source that is an object array (misc.py 956-971): a number as `shape` assigns nothing, so that `n` is an unbound variable when it is used at the end. -/
def objectLength (n0 : ℕ) (shape : Option Shape) (length : Option ℕ) : Except PyErr (Option ℕ) :=
  match length, shape with
  | some k, none => .ok (some k)
  | none, some (.num _) => .ok none
  | none, some (.seq [k]) => .ok (some k)
  | none, some (.seq _) => .error .valueError
  | none, none => .ok (some n0)
  | some _, some _ => .error .valueError

/-- The shape for a source that is a tensor (misc.py 986-993). -/
def newShape (t : T) (shape : Option Shape) (length : Option ℕ) : Except PyErr (List ℕ) :=
  match length, shape with
  | some _, some _ => .error .valueError
  | some k, none => if t.shape = [] then .error .valueError else .ok (k :: t.shape.tail)
  | none, some (.num k) => .ok [k]
  | none, some (.seq l) => .ok l
  | none, none => .ok t.shape

/-- The dtype and the device for a source that is a tensor (misc.py 995-1002). -/
def emptyOf (t : T) (s : List ℕ) (dtype : Option Dt) (device : Option String) : Except PyErr Empty :=
  match dtype with
  | some .object => .error .typeError
  | some (.numeric d) => .ok (.tensor s d (device.getD t.device))
  | none => .ok (.tensor s t.dtype (device.getD t.device))

/-- `empty_tensor_like` (misc.py 911-1003). -/
def emptyLike (source : Source) (shape : Option Shape) (length : Option ℕ) (dtype : Option Dt) (device : Option String) : Except PyErr Empty :=
  match source with
  | .objects n0 => (objectLength n0 shape length).bind fun n =>
    if device ≠ none ∧ device ≠ some "cpu" then .error .valueError
    else if dtype ≠ none ∧ dtype ≠ some .object then .error .valueError
    else match n with
      | none => .error .otherError
      | some n => .ok (.objects n)
  | .tensor t => (newShape t shape length).bind fun s => emptyOf t s dtype device
  | .other => .error .typeError

/-- A result of `make_tensor`: its elements (objects are numbers here), whether it is read-only, and where it is. -/
inductive Made where
  | objects (elems : List ℚ) (readOnly : Bool)
  | tensor (t : T) (readOnly : Bool)
deriving DecidableEq

/-- The device of a result; object arrays are always on the cpu (objectarray.py 299-308). -/
def Made.device : Made → String
  | .objects _ _ => "cpu"
  | .tensor t _ => t.device

/-- `torch.tensor(data, dtype=.., device=..)`: always a new tensor; `infer` is PyTorch's default dtype for numbers. -/
def torchTensor (fresh : ℕ) (infer : DT) (data : Data) (dtype : Option DT) (device : Option String) : T :=
  match data with
  | .tensor t => ⟨fresh, t.shape, dtype.getD t.dtype, device.getD t.device, t.data.map (conv (dtype.getD t.dtype))⟩
  | .scalar v => ⟨fresh, [], dtype.getD infer, device.getD "cpu", [conv (dtype.getD infer) v]⟩
  | .seq vs => ⟨fresh, [vs.length], dtype.getD infer, device.getD "cpu", vs.map (conv (dtype.getD infer))⟩

/-- The elements over which `list(data)` and `len(data)` go (for a tensor of one dimension). -/
def elems : Data → Except PyErr (List ℚ)
  | .tensor t => if t.shape = [] then .error .typeError else .ok t.data
  | .scalar _ => .error .typeError
  | .seq vs => .ok vs

/-- `make_tensor` (misc.py 1138-1206). -/
def makeTensor (fresh : ℕ) (infer : DT) (data : Data) (dtype : Option Dt) (device : Option String) (readOnly : Bool) : Except PyErr Made :=
  match dtype with
  | some .object => (elems data).bind fun es => .ok (.objects es readOnly)
  | some (.numeric d) => .ok (.tensor (torchTensor fresh infer data (some d) device) readOnly)
  | none => .ok (.tensor (torchTensor fresh infer data none device) readOnly)

/-- A numpy array: its identity, its elements, whether it can be written to. -/
structure Np where
  ident : ℕ
  data : List ℚ
  writable : Bool
deriving DecidableEq

/-- What `numpy_copy` copies; object arrays and numpy arrays may be read-only. -/
inductive Original where
  | objects (elems : List ℚ) (readOnly : Bool)
  | tensor (t : T) (requiresGrad : Bool)
  | numpy (a : Np)
  | iterable (xs : List ℚ)

/-- The elements of an original. -/
def Original.data : Original → List ℚ
  | .objects es _ => es
  | .tensor t _ => t.data
  | .numpy a => a.data
  | .iterable xs => xs

/-- A dtype for `numpy_copy`: something numpy understands (a numpy dtype, a native one, a name), or a PyTorch dtype. -/
inductive NpDt where
  | numpy (d : DT)
  | torch (d : DT)

/-- `array.astype(dtype)` and `np.array(x, dtype=dtype)`: numpy does not understand PyTorch dtypes. -/
def astype (d : NpDt) (xs : List ℚ) : Except PyErr (List ℚ) :=
  match d with
  | .numpy d => .ok (xs.map (conv d))
  | .torch _ => .error .typeError

/-- `numpy_copy` (misc.py 1051-1085). A tensor that requires gradients cannot be converted. -/
def numpyCopy (fresh : ℕ) (x : Original) (dtype : Option NpDt) : Except PyErr Np :=
  let copied : Except PyErr (List ℚ) := match x with
    | .tensor t g => if g then .error .runtimeError else .ok t.data
    | .objects es _ => .ok es
    | .numpy a => .ok a.data
    | .iterable xs => .ok xs
  copied.bind fun xs => match dtype with
    | none => .ok ⟨fresh, xs, true⟩
    | some d => (astype d xs).bind fun ys => .ok ⟨fresh, ys, true⟩

end EvoTorch.TensorUtil
