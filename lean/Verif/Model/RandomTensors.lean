import Verif.Model.Base
import Mathlib.Data.Int.Basic
import Mathlib.Algebra.Order.Field.Basic
/-!
Model of the random tensor makers of `src/evotorch/tools/misc.py`: `make_uniform`, `make_gaussian`, `make_randint`.

The raw draws of the generator (`random_`, `uniform_`, `normal_`) are arguments. A tensor is a function from its indices; bounds, centers and
standard deviations have already been broadcast to the shape of the result (torch's in-place operators do this or fail). Integer tensors have a
width and wrap around. Float arithmetic is exact.
-/
namespace EvoTorch.RandomTensors
open EvoTorch

/-- An integer dtype: `uint8`, or `int8` to `int64`. -/
structure IntType where
  signed : Bool
  bits : ℕ

/-- The largest number of the type. -/
def IntType.max (t : IntType) : ℤ := if t.signed then 2 ^ (t.bits - 1) - 1 else 2 ^ t.bits - 1

/-- The smallest number of the type. -/
def IntType.min (t : IntType) : ℤ := if t.signed then - 2 ^ (t.bits - 1) else 0

/-- Wraparound of integer arithmetic. -/
def IntType.wrap (t : IntType) (x : ℤ) : ℤ := if t.signed then Int.bmod x (2 ^ t.bits) else x % 2 ^ t.bits

def int8 : IntType := ⟨true, 8⟩
def uint8 : IntType := ⟨false, 8⟩
def int64 : IntType := ⟨true, 64⟩

/-- `diff = (ub - lb) + 1` (misc.py 1639). -/
def diff (t : IntType) (lb ub : ℤ) : ℤ := t.wrap (t.wrap (ub - lb) + 1)

/-- `out -= lb; out %= diff; out += lb` for one element whose raw word is `raw` (misc.py 1640-1642); `%` rounds towards minus infinity. -/
def scale (t : IntType) (lb ub raw : ℤ) : ℤ := t.wrap (Int.fmod (t.wrap (raw - lb)) (diff t lb ub) + lb)

/-- `make_uniform` for an integer dtype (misc.py 1633-1644): `raw` are the words drawn by `random_`. A zero divisor is a RuntimeError. -/
def uniformInt (t : IntType) {k : ℕ} (lb ub : Option (Fin k → ℤ)) (raw : Fin k → ℤ) : Except PyErr (Fin k → ℤ) :=
  match lb, ub with
  | none, none => .ok fun i => Int.fmod (raw i) 2
  | some lb, some ub =>
    if ∃ i, diff t (lb i) (ub i) = 0 then .error .runtimeError
    else .ok fun i => scale t (lb i) (ub i) (raw i)
  | _, _ => .error .valueError

/-- `make_uniform` for dtype bool (misc.py 1613-1632): where both bounds are False or both True the raw bit is overwritten. -/
def uniformBool {ι : Type} (lb ub : Option (ι → Bool)) (raw : ι → Bool) : Except PyErr (ι → Bool) :=
  match lb, ub with
  | none, none => .ok raw
  | some lb, some ub => .ok fun i =>
    if lb i && ub i then true
    else if !(lb i) && !(ub i) then false
    else raw i
  | _, _ => .error .valueError

/-- `make_uniform` for a float dtype (misc.py 1645-1655): `raw` are drawn by `uniform_` from `[0, 1)`. -/
def uniformFloat {ι K : Type} [Field K] (lb ub : Option (ι → K)) (raw : ι → K) : Except PyErr (ι → K) :=
  match lb, ub with
  | none, none => .ok raw
  | some lb, some ub => .ok fun i => raw i * (ub i - lb i) + lb i
  | _, _ => .error .valueError

/-- `make_randint` (misc.py 1800-1814), for an integer `n` representable in the dtype. -/
def randint {ι : Type} (n : ℤ) (raw : ι → ℤ) : Except PyErr (ι → ℤ) :=
  if n = 0 then .error .runtimeError else .ok fun i => Int.fmod (raw i) n

/-- The rows of the symmetric draw (misc.py 1732-1734): `out[0::2].normal_(); out[1::2] = out[0::2]; out[1::2] *= -1`. -/
def mirrored {ι K : Type} [Field K] (raw : ℕ → ι → K) (i : ℕ) : ι → K :=
  if i % 2 = 0 then raw i else fun j => raw (i - 1) j * (-1)

/-- `make_gaussian` (misc.py 1718-1755) for a result with `n` rows: `raw` are drawn by `normal_` (rows beyond `n` are not used). -/
def gaussian {ι K : Type} [Field K] (n : ℕ) (symmetric : Bool) (center stdev : Option (ℕ → ι → K)) (raw : ℕ → ι → K) :
    Except PyErr (Fin n → ι → K) :=
  if symmetric && decide (n % 2 ≠ 0) then .error .valueError
  else
    let out := if symmetric then mirrored raw else raw
    match center, stdev with
    | none, none => .ok fun i => out i
    | some center, some stdev => .ok fun i j => out i j * stdev i j + center i j
    | _, _ => .error .valueError

end EvoTorch.RandomTensors
