import Verif.Model.Base
import Mathlib.Data.Nat.Notation
/-!
The tensor-making methods of problems, distributions and search algorithms (`src/evotorch/tools/tensormaker.py`) and the functions behind them (`src/evotorch/tools/misc.py`): which shape, dtype,
device and generator the result has. What the random makers draw is the subject of `Verif.Model.RandomTensors`. The result of `to_torch_dtype` on a name of a dtype is a parameter; devices are names.
-/
namespace EvoTorch.TensorMaker
open EvoTorch

/-- A dtype as a user gives it: a PyTorch dtype, the name of one, or one of `object`, `Any`, "object", "O". -/
inductive DtSpec (Dt : Type) where
  | torch (d : Dt)
  | name (s : String)
  | obj
deriving DecidableEq

/-- A positional size argument: an integer or a tuple. -/
inductive SizeArg where
  | int (n : ℕ)
  | tuple (l : List ℕ)
deriving DecidableEq

/-- What the elements of a result are; `raw` are uninitialised ones, `random g` are drawn from the generator `g` (`none`: the global one). -/
inductive Content where
  | raw
  | zeros
  | ones
  | nan
  | eye
  | random (g : Option ℕ)
  | given
deriving DecidableEq

/-- A PyTorch tensor or an object array (`dtype = none`), with its identity. -/
structure Arr (Dt : Type) where
  ident : ℕ
  shape : List ℕ
  dtype : Option Dt
  device : String
  content : Content
deriving DecidableEq

/-- What a maker returns: an array, an element of an array of objects, or (an oversight in the code) an exception object. -/
inductive Made (Dt : Type) where
  | arr (a : Arr Dt)
  | element (c : Content)
  | exceptionObject
deriving DecidableEq

/-- The attributes of the object whose method is called, as far as they exist: `none` is a missing attribute. `solution_length` can also be None. -/
structure Self (Dt : Type) where
  dtype : DtSpec Dt
  evalDtype : Option (DtSpec Dt)
  device : String
  solutionLength : Option (Option ℕ)
  generator : Option (Option ℕ)

variable {Dt : Type}

/-- The arguments of a maker besides `out`. -/
structure Args (Dt : Type) where
  size : List SizeArg := []
  numSolutions : Option ℕ := none
  dtype : Option (DtSpec Dt) := none
  device : Option String := none
  useEval : Bool := false
  generator : Option (Option ℕ) := none

/-- `__get_dtype_and_device_kwargs` (tensormaker.py 28-65) without `out`; with `out` it returns nothing. -/
def dtypeAndDevice (self : Self Dt) (dtype : Option (DtSpec Dt)) (device : Option String) (useEval : Bool) : Except PyErr (DtSpec Dt × String) :=
  let dt : Except PyErr (DtSpec Dt) :=
    match dtype with
    | none => if useEval then (match self.evalDtype with | some d => .ok d | none => .error .attributeError) else .ok self.dtype
    | some d => if useEval then .error .valueError else .ok d
  dt.bind fun d => .ok (d, device.getD self.device)

/-- `__get_size_args` (tensormaker.py 67-94) without `out`; with `out` it returns `()`. -/
def sizeArgs (self : Self Dt) (size : List SizeArg) (numSolutions : Option ℕ) : Except PyErr (List SizeArg) :=
  match size, numSolutions with
  | [], none => .ok []
  | s :: ss, none => .ok (s :: ss)
  | [], some n =>
    match self.solutionLength with
    | none => .error .attributeError
    | some none => .ok [.int n]
    | some (some l) => .ok [.int n, .int l]
  | _ :: _, some _ => .error .valueError

/-- `__get_generator_kwargs` (tensormaker.py 96-103): the argument, or else the generator of the object (which may be None); an inner `none` is the global generator. -/
def generatorOf (self : Self Dt) (generator : Option (Option ℕ)) : Option ℕ :=
  match generator with
  | some g => g
  | none => self.generator.getD none

/-- `[.int a, .int b, ...]` as a shape. -/
def intsOf : List SizeArg → Option (List ℕ)
  | [] => some []
  | .int n :: l => (intsOf l).map (n :: ·)
  | .tuple _ :: _ => none

/-- How torch reads positional sizes: integers, or one tuple. No size at all is a TypeError. -/
def shapeOfArgs : List SizeArg → Except PyErr (List ℕ)
  | [] => .error .typeError
  | [.tuple l] => .ok l
  | l => match intsOf l with | some s => .ok s | none => .error .typeError

/-- The shape of an `ObjectArray` (misc.py 1242-1244, objectarray.py 63-90): one integer, or a tuple with one integer. -/
def objShape : List SizeArg → Except PyErr (List ℕ)
  | [.int n] => .ok [n]
  | [.tuple [n]] => .ok [n]
  | _ => .error .valueError

/-- `to_torch_dtype` (misc.py 75-96) for a dtype which is not an object dtype; `parse` knows the names. -/
def toTorch (parse : String → Option Dt) : DtSpec Dt → Except PyErr Dt
  | .torch d => .ok d
  | .name s => match parse s with | some d => .ok d | none => .error .typeError
  | .obj => .error .typeError

/-- `make_empty` of misc.py (misc.py 1209-1255). -/
def miscEmpty (parse : String → Option Dt) (fresh : ℕ) (size : List SizeArg) (dt : DtSpec Dt) (dev : String) : Except PyErr (Made Dt) :=
  match dt with
  | .obj => if dev = "cpu" then (objShape size).bind fun s => .ok (.arr ⟨fresh, s, none, "cpu", .raw⟩) else .ok .exceptionObject
  | dt => (toTorch parse dt).bind fun d => (shapeOfArgs size).bind fun s => .ok (.arr ⟨fresh, s, some d, dev, .raw⟩)

/-- Filling what was made: `zero_` (misc.py 1356, misc.py 1518, followed by `fill_diagonal_`), which arrays of objects and exceptions do not have, or `out[:] = 1`, `out[:] = nan` (misc.py 1404, misc.py 1452),
which is a TypeError for an exception, and for an array of objects, which accepts only iterables (objectarray.py 371-372), an IndexError for a tensor without dimensions, and a RuntimeError for NaN in a
dtype that cannot represent it (`holdsNan`; PyTorch's integers). -/
def fill (holdsNan : Dt → Bool) (c : Content) : Made Dt → Except PyErr (Made Dt)
  | .arr a =>
    match a.dtype with
    | none => .error (if c = .zeros ∨ c = .eye then .attributeError else .typeError)
    | some d =>
      if c = .zeros ∨ c = .eye then .ok (.arr { a with content := c })
      else if a.shape = [] then .error .indexError
      else if c = .nan ∧ holdsNan d = false then .error .runtimeError
      else .ok (.arr { a with content := c })
  | _ => .error (if c = .zeros ∨ c = .eye then .attributeError else .typeError)

/-- `_scalar_requested` (misc.py 1295-1296). -/
def scalarRequested : List SizeArg → Bool
  | [.tuple []] => true
  | _ => false

/-- `_scalar_tensor` after `make_empty((1,), ...)` (misc.py 1308-1309): an element is assigned, and that element is returned; of an array of objects this is the number itself. -/
def scalarOf (holdsNan : Dt → Bool) (c : Content) : Made Dt → Except PyErr (Made Dt)
  | .arr a =>
    match a.dtype with
    | none => .ok (.element c)
    | some d => if c = .nan ∧ holdsNan d = false then .error .runtimeError else .ok (.arr { a with shape := [], content := c })
  | _ => .error .typeError

/-- `make_zeros`, `make_ones`, `make_nan` of misc.py without `out` (misc.py 1312-1357, misc.py 1360-1405, misc.py 1408-1453; `_scalar_tensor` misc.py 1299-1309). -/
def miscFilled (parse : String → Option Dt) (holdsNan : Dt → Bool) (fresh : ℕ) (c : Content) (size : List SizeArg) (dt : DtSpec Dt) (dev : String) : Except PyErr (Made Dt) :=
  if scalarRequested size then (miscEmpty parse fresh [.tuple [1]] dt dev).bind (scalarOf holdsNan c)
  else (miscEmpty parse fresh size dt dev).bind (fill holdsNan c)

/-- The methods `make_zeros`, `make_ones`, `make_nan` (tensormaker.py 245-425, tensormaker.py 105-118). With `out` all other arguments are dropped. -/
def makeFilled (parse : String → Option Dt) (holdsNan : Dt → Bool) (fresh : ℕ) (self : Self Dt) (c : Content) (a : Args Dt) (out : Option (Arr Dt)) : Except PyErr (Made Dt) :=
  match out with
  | some o => fill holdsNan c (.arr o)
  | none =>
    (sizeArgs self a.size a.numSolutions).bind fun s =>
      (dtypeAndDevice self a.dtype a.device a.useEval).bind fun dd => miscFilled parse holdsNan fresh c s dd.1 dd.2

/-- The method `make_empty` (tensormaker.py 186-243): with `out`, the function behind it gets a keyword argument which it does not have. -/
def makeEmpty (parse : String → Option Dt) (fresh : ℕ) (self : Self Dt) (a : Args Dt) (out : Option (Arr Dt)) : Except PyErr (Made Dt) :=
  match out with
  | some _ => .error .typeError
  | none =>
    (sizeArgs self a.size a.numSolutions).bind fun s =>
      (dtypeAndDevice self a.dtype a.device a.useEval).bind fun dd => miscEmpty parse fresh s dd.1 dd.2

/-- `_out_tensor_for_random_operation` (misc.py 1276-1292) without `out`: `torch.empty` is called directly with the dtype as it was given. Sizes `()` have been replaced by `(1,)`, of which the first element
is taken in the end (misc.py 1593-1595, misc.py 1657-1658). `draws`: the dtypes of which PyTorch can draw: all for `make_uniform` and `make_randint`, not integers and bools for `make_gaussian`. -/
def miscRandom (draws : Dt → Bool) (fresh : ℕ) (g : Option ℕ) (size : List SizeArg) (dt : DtSpec Dt) (dev : String) : Except PyErr (Made Dt) :=
  match dt with
  | .torch d => (shapeOfArgs size).bind fun s => if draws d then .ok (.arr ⟨fresh, s, some d, dev, .random g⟩) else .error .notImplementedError
  | _ => .error .typeError

/-- The methods `make_uniform` and `make_gaussian` (tensormaker.py 510-593, tensormaker.py 595-679, tensormaker.py 120-140). -/
def makeRandom (draws : Dt → Bool) (fresh : ℕ) (self : Self Dt) (a : Args Dt) (out : Option (Arr Dt)) : Except PyErr (Made Dt) :=
  match out with
  | some o =>
    match o.dtype with
    | none => .error .attributeError
    | some d => if draws d then .ok (.arr { o with content := .random (generatorOf self a.generator) }) else .error .notImplementedError
  | none =>
    (sizeArgs self a.size a.numSolutions).bind fun s =>
      (dtypeAndDevice self a.dtype a.device a.useEval).bind fun dd => miscRandom draws fresh (generatorOf self a.generator) s dd.1 dd.2

/-- The methods `make_uniform_shaped_like` and `make_gaussian_shaped_like` (tensormaker.py 866-891, tensormaker.py 893-920). -/
def makeShapedLike (draws : Dt → Bool) (fresh : ℕ) (self : Self Dt) (t : Arr Dt) : Except PyErr (Made Dt) := makeRandom draws fresh self { size := [.tuple t.shape] } none

/-- The method `make_randint` (tensormaker.py 681-751). -/
def makeRandint (int64 : Dt) (fresh : ℕ) (self : Self Dt) (a : Args Dt) (out : Option (Arr Dt)) : Except PyErr (Made Dt) :=
  let a := if a.dtype.isNone && out.isNone then { a with dtype := some (.torch int64) } else a
  makeRandom (fun _ => true) fresh self a out

/-- The method `make_I` (tensormaker.py 427-508) and `make_I` of misc.py (misc.py 1456-1520), without `out`. -/
def makeI (parse : String → Option Dt) (fresh : ℕ) (self : Self Dt) (size : Option SizeArg) (a : Args Dt) : Except PyErr (Made Dt) :=
  let n : Except PyErr (Option ℕ) :=
    match size with
    | none => (match self.solutionLength with | some l => .ok l | none => .error .attributeError)
    | some (.tuple [n]) => .ok (some n)
    | some (.tuple _) => .error .valueError
    | some (.int n) => .ok (some n)
  n.bind fun n =>
    (dtypeAndDevice self a.dtype a.device a.useEval).bind fun dd =>
      match n with
      | none => .error .valueError
      | some n => (miscEmpty parse fresh [.int n, .int n] dd.1 dd.2).bind (fill (fun _ => true) .eye)

/-- What `as_tensor` converts: a tensor or an object array, or some other object, of which torch would infer dtype `inferred`. -/
inductive Src (Dt : Type) where
  | arr (a : Arr Dt)
  | other (len : ℕ) (inferred : Dt)
deriving DecidableEq

/-- `torch.as_tensor(x, dtype=.., device=..)`: a tensor which has that dtype and device already is returned itself. An object array cannot be converted. -/
def torchAsTensor [DecidableEq Dt] (fresh : ℕ) (x : Src Dt) (dt : Dt) (dev : Option String) : Except PyErr (Arr Dt) :=
  match x with
  | .arr a =>
    match a.dtype with
    | none => .error .typeError
    | some d => if d = dt ∧ dev.getD a.device = a.device then .ok a else .ok ⟨fresh, a.shape, some dt, dev.getD a.device, a.content⟩
  | .other len _ => .ok ⟨fresh, [len], some dt, dev.getD "cpu", .given⟩

/-- `as_tensor` of misc.py (misc.py 1817-1876). `to_torch_dtype(None)` is numpy's default, `float64`. -/
def miscAsTensor [DecidableEq Dt] (parse : String → Option Dt) (float64 : Dt) (fresh : ℕ) (x : Src Dt) (dt : Option (DtSpec Dt)) (dev : Option String) : Except PyErr (Arr Dt) :=
  match dt with
  | none =>
    match x with
    | .arr a => if dev = none ∨ dev = some "cpu" then .ok a else .error .valueError
    | x => torchAsTensor fresh x float64 dev
  | some .obj =>
    if dev ≠ none ∧ dev ≠ some "cpu" then .error .valueError
    else
      match x with
      | .arr a => if a.dtype = none then .ok a else .ok ⟨fresh, [a.shape.headD 0], none, "cpu", a.content⟩
      | .other len _ => .ok ⟨fresh, [len], none, "cpu", .given⟩
  | some dt => (toTorch parse dt).bind fun d => torchAsTensor fresh x d dev

/-- The method `as_tensor` (tensormaker.py 753-781). -/
def asTensor [DecidableEq Dt] (parse : String → Option Dt) (float64 : Dt) (fresh : ℕ) (self : Self Dt) (x : Src Dt) (a : Args Dt) : Except PyErr (Arr Dt) :=
  (dtypeAndDevice self a.dtype a.device a.useEval).bind fun dd => miscAsTensor parse float64 fresh x (some dd.1) (some dd.2)

end EvoTorch.TensorMaker
