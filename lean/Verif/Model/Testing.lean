import Verif.Model.Base
import Verif.Model.Flt
import Mathlib.Data.Nat.Notation
import Mathlib.Algebra.Order.Ring.Rat
import Mathlib.Algebra.Order.Floor.Ring
import Mathlib.Data.Rat.Floor
/-!
Model of the assertions of `src/evotorch/testing.py`.

Simplifications: exact arithmetic (the rounding of a cast to a floating point dtype is left out); a tensor or an array is its shape and the list of its elements; what a cast of NaN or of an infinity to an integer dtype gives is
a parameter. `numpy.testing.assert_allclose`, `numpy.broadcast_to` and `numpy.all` are modelled after their documentation.
-/
namespace EvoTorch.Testing
open EvoTorch

/-- Kinds of dtypes. -/
inductive Kind where
  | float | int | bool
deriving DecidableEq

/-- A numpy array, or a tensor. -/
structure Arr where
  kind : Kind
  shape : List ℕ
  data : List (Flt ℚ)
deriving DecidableEq

/-- What the functions accept: arrays (also tensors, solutions and batches), or Python numbers and nested sequences of numbers with their shape. -/
inductive Input where
  | array (a : Arr)
  | plain (shape : List ℕ) (data : List (Flt ℚ))
deriving DecidableEq

/-- Rounding towards zero. -/
def trunc (x : ℚ) : ℚ := if 0 ≤ x then (⌊x⌋ : ℤ) else (⌈x⌉ : ℤ)

/-- The cast of a number; `junk` is what NaN and infinities become as integers. -/
def castTo (junk : Flt ℚ → ℚ) (k : Kind) (x : Flt ℚ) : Flt ℚ :=
  match k with
  | .float => x
  | .int => match x with
    | .fin y => .fin (trunc y)
    | y => .fin (junk y)
  | .bool => if x = .fin 0 then .fin 0 else .fin 1

/-- `_to_numpy(x, dtype=...)` (testing.py 51-74; `_to_numpy_dtype`, testing.py 38-41): without a dtype, what is not an array becomes float32. -/
def toNumpy (junk : Flt ℚ → ℚ) (x : Input) (kind : Option Kind) : Arr :=
  match x with
  | .array a => match kind with
    | none => a
    | some k => ⟨k, a.shape, a.data.map (castTo junk k)⟩
  | .plain shape data => ⟨kind.getD .float, shape, data.map (castTo junk (kind.getD .float))⟩

/-- `|a - d| <= atol + rtol * |d|` for one pair, with equal infinities, and NaN equal to NaN on request. -/
def close (rtol atol : ℚ) (equalNan : Bool) (a d : Flt ℚ) : Bool :=
  match a, d with
  | .nan, .nan => equalNan
  | .pinf, .pinf => true
  | .ninf, .ninf => true
  | .fin x, .fin y => decide (|x - y| ≤ atol + rtol * |y|)
  | _, _ => false

/-- `numpy.testing.assert_allclose`: the shapes are the same or one is a scalar's. -/
def npAllclose (rtol atol : ℚ) (equalNan : Bool) (actual desired : Arr) : Except PyErr Unit :=
  if actual.shape = desired.shape then
    if (List.zipWith (close rtol atol equalNan) actual.data desired.data).all id then .ok () else .error .assertionError
  else if actual.shape = [] then
    if desired.data.all fun d => actual.data.all fun a => close rtol atol equalNan a d then .ok () else .error .assertionError
  else if desired.shape = [] then
    if actual.data.all fun a => desired.data.all fun d => close rtol atol equalNan a d then .ok () else .error .assertionError
  else .error .assertionError

/-- `assert_allclose` (testing.py 100-154). `TestingError` is `otherError`. -/
def assertAllclose (junk : Flt ℚ → ℚ) (actual desired : Input) (rtol atol : Option ℚ) (equalNan : Bool) : Except PyErr Unit :=
  if rtol = none ∧ atol = none then .error .otherError
  else
    let desired := toNumpy junk desired none
    let actual := toNumpy junk actual (some desired.kind)
    npAllclose (rtol.getD 0) (atol.getD 0) equalNan actual desired

/-- `numpy.broadcast_to(b, shape)` for a bound which is a scalar or has the shape; other shapes are refused here (numpy would accept some of them). -/
def spread (b : Arr) (x : Arr) : Except PyErr (List (Flt ℚ)) :=
  if b.shape = x.shape then .ok b.data
  else if b.shape = [] then .ok (x.data.map fun _ => b.data.headD .nan)
  else .error .valueError

/-- `assert_almost_between` (testing.py 157-198). An integer array becomes a floating point array when the tolerance is added. -/
def assertAlmostBetween (junk : Flt ℚ → ℚ) (x lb ub : Input) (atol : Option ℚ) : Except PyErr Unit :=
  let x := toNumpy junk x none
  match spread (toNumpy junk lb none) x with
  | .error e => .error e
  | .ok lb =>
    match spread (toNumpy junk ub none) x with
    | .error e => .error e
    | .ok ub =>
      let lb := lb.map (castTo junk x.kind)
      let ub := ub.map (castTo junk x.kind)
      let t : Flt ℚ := .fin (atol.getD 0)
      if (List.zipWith (fun v b => (b.sub t).le v) x.data lb).all id ∧ (List.zipWith (fun v b => v.le (b.add t)) x.data ub).all id then .ok () else .error .assertionError

/-- `assert_eachclose` (testing.py 254-273): the desired array has the dtype of the given one. -/
def assertEachclose (junk : Flt ℚ → ℚ) (x : Input) (value : ℚ) (rtol atol : Option ℚ) : Except PyErr Unit :=
  let x := toNumpy junk x none
  let desired : Arr := ⟨x.kind, x.shape, x.data.map fun _ => castTo junk x.kind (.fin value)⟩
  assertAllclose junk (.array x) (.array desired) rtol atol true

/-- The expected shape as it is given: an integer, a tuple (or `torch.Size`), or a list. -/
inductive GivenShape where
  | int (n : ℕ)
  | tuple (s : List ℕ)
  | list (s : List ℕ)
deriving DecidableEq

/-- `assert_shape_matches` (testing.py 231-251): a `torch.Size` is a tuple, and a list is never equal to a tuple. -/
def assertShape (shape : List ℕ) (given : GivenShape) : Except PyErr Unit :=
  match given with
  | .int n => if shape = [n] then .ok () else .error .assertionError
  | .tuple s => if shape = s then .ok () else .error .assertionError
  | .list _ => .error .assertionError

/-- A dtype as it is given: of torch, or something which `numpy.dtype` understands (by its numpy dtype), or `"Any"`/`Any`. -/
inductive GivenDtype (T N : Type) where
  | torch (t : T)
  | numpy (n : N)
  | any
deriving DecidableEq

/-- The conversion of a dtype to numpy (testing.py 214-225); `toNp` fails for torch dtypes without a counterpart, such as bfloat16. -/
def npDtype {T N : Type} (toNp : T → Except PyErr N) (object : N) : GivenDtype T N → Except PyErr N
  | .torch t => toNp t
  | .numpy n => .ok n
  | .any => .ok object

/-- `assert_dtype_matches` (testing.py 201-228). -/
def assertDtype {T N : Type} [DecidableEq N] (toNp : T → Except PyErr N) (object : N) (actual given : GivenDtype T N) : Except PyErr Unit :=
  match npDtype toNp object actual with
  | .error e => .error e
  | .ok a =>
    match npDtype toNp object given with
    | .error e => .error e
    | .ok d => if d = a then .ok () else .error .assertionError

end EvoTorch.Testing
