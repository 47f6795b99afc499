import Verif.Model.Base
import Verif.Model.Flt
/-!
Model of `RunningNorm` (`src/evotorch/neuroevolution/net/runningnorm.py`) and of `RunningStat` (`runningstat.py`). An observation
is a vector of `d` floats (the observation shape, flattened). Finite arithmetic is exact. Devices and dtypes are not modelled.
-/
namespace EvoTorch.RunningNorm
variable {K : Type} [Field K] [LinearOrder K] {d : Nat}

/-- An observation. -/
abbrev Obs (K : Type) (d : Nat) := Fin d → Flt K

/-- The data: `_sum`, `_sum_of_squares`, `_count` (runningnorm.py 97-99). -/
structure RN (K : Type) (d : Nat) where
  sum : Option (Obs K d)
  sumSq : Option (Obs K d)
  count : Nat

/-- A new or reset `RunningNorm` (runningnorm.py 97-99, 220-226). -/
def RN.empty : RN K d := { sum := none, sumSq := none, count := 0 }

/-- `_has_no_data` (runningnorm.py 214-215). -/
def RN.hasNoData (s : RN K d) : Bool := s.sum.isNone && s.sumSq.isNone && s.count == 0

/-- `_has_data` (runningnorm.py 217-218). -/
def RN.hasData (s : RN K d) : Bool := s.sum.isSome && s.sumSq.isSome && decide (0 < s.count)

/-- Elementwise sum and square. -/
def addObs (a b : Obs K d) : Obs K d := fun j => Flt.add (a j) (b j)
def sqObs (a : Obs K d) : Obs K d := fun j => Flt.mul (a j) (a j)

/-- `torch.sum(x, dim=0)`. -/
def sumRows (rows : List (Obs K d)) : Obs K d := rows.foldl addObs fun _ => .fin 0

/-- Storing or adding the extracted sums (runningnorm.py 391-408, and 281-294 for merging). -/
def RN.absorb (s : RN K d) (sx sxx : Obs K d) (n : Nat) : Except PyErr (RN K d) :=
  if s.hasNoData then .ok { sum := some sx, sumSq := some sxx, count := n }
  else if s.hasData then
    .ok { sum := s.sum.map (addObs · sx), sumSq := s.sumSq.map (addObs · sxx), count := s.count + n }
  else .error .assertionError

/-- What is passed to `update`: one observation, a batch, or a tensor of a wrong shape, which `_verify` refuses
(runningnorm.py 190-212): with the number of dimensions of one observation (the error message then accesses an attribute
`x._shape` which tensors do not have), of a batch, or neither. -/
inductive Input (K : Type) (d : Nat) where
  | single (x : Obs K d)
  | batch (rows : List (Obs K d))
  | badSingle
  | badBatch
  | badNdim

/-- A mask item as a number (runningnorm.py 364). -/
def maskValue (b : Bool) : Flt K := .fin (if b then 1 else 0)

/-- `x * mask` for one row (runningnorm.py 368). -/
def maskRow (x : Obs K d) (b : Bool) : Obs K d := fun j => Flt.mul (x j) (maskValue b)

/-- `update` with observations (runningnorm.py 295-408), `verify=True`. The mask is 1-dimensional. -/
def RN.update (s : RN K d) (x : Input K d) (mask : Option (List Bool)) : Except PyErr (RN K d) :=
  match x with
  | .badSingle => .error .attributeError
  | .badBatch => .error .valueError
  | .badNdim => .error .valueError
  | .single x =>
    if mask.isSome then .error .valueError
    else s.absorb x (sqObs x) 1
  | .batch rows =>
    match mask with
    | none => s.absorb (sumRows rows) (sumRows (rows.map sqObs)) rows.length
    | some m =>
      if m.length != rows.length then .error .valueError
      else
        let masked := List.zipWith maskRow rows m
        s.absorb (sumRows masked) (sumRows (masked.map sqObs)) (m.count true)

/-- `update` with another `RunningNorm` (runningnorm.py 253-294); `sameShape`: whether the observation shapes agree. -/
def RN.merge (s other : RN K d) (mask : Option (List Bool)) (sameShape : Bool) : Except PyErr (RN K d) :=
  if other.count = 0 then .ok s
  else if mask.isSome then .error .valueError
  else if !sameShape then .error .valueError
  else match other.sum, other.sumSq with
    | some a, some b => s.absorb a b other.count
    | _, _ => .error .attributeError

/-- Division by an integer count. -/
def divCount (a : Flt K) (n : Nat) : Flt K :=
  match a with
  | .nan => .nan
  | .ninf => .ninf
  | .pinf => .pinf
  | .fin x => if n = 0 then (if x = 0 then .nan else if 0 < x then .pinf else .ninf) else .fin (x / n)

/-- `mean` (runningnorm.py 419-423, 440): `None / 0` is a `TypeError`. -/
def RN.mean (s : RN K d) : Except PyErr (Obs K d) :=
  s.sum.elim (.error .typeError) fun v => .ok fun j => divCount (v j) s.count

/-- `variance` within `stats` (runningnorm.py 419-427). -/
def RN.variance (minVariance : K) (s : RN K d) : Except PyErr (Obs K d) :=
  s.sum.elim (.error .typeError) fun v => s.sumSq.elim (.error .typeError) fun q => .ok fun j =>
    let ex := divCount (v j) s.count
    let ex2 := divCount (q j) s.count
    Flt.max2 (Flt.sub ex2 (Flt.mul ex ex)) (.fin minVariance)

/-- `_clamp(x, lb, ub)` (runningnorm.py 40-44). -/
def clampObs (lb ub : Option K) (x : Flt K) : Flt K :=
  let y := lb.elim x fun l => Flt.max2 x (.fin l)
  ub.elim y fun u => Flt.min2 y (.fin u)

/-- Division of floats by a positive finite number; the other cases do not arise in `normalize`. -/
def divPos (a : Flt K) (y : K) : Flt K :=
  match a with
  | .fin x => .fin (x / y)
  | a => a

/-- `normalize` (runningnorm.py 496-524) of one observation, for given standard deviations (the square roots of `variance`,
which are positive for a positive `min_variance`). -/
def RN.normalize (s : RN K d) (stdev : Fin d → K) (lb ub : Option K) (x : Obs K d) : Except PyErr (Obs K d) :=
  if s.count = 0 then .error .valueError
  else (s.mean).map fun mean j => clampObs lb ub (divPos (Flt.sub (x j) (mean j)) (stdev j))

/-- `torch.sqrt` of an element; the variances are not negative (runningnorm.py 430). -/
def sqrtFlt (sqrt : K → K) : Flt K → Flt K
  | .nan => .nan
  | .ninf => .nan
  | .pinf => .pinf
  | .fin x => .fin (sqrt x)

/-- `a / b` for a `b` which is not zero: the standard deviations are positive (runningnorm.py 514). -/
def divFlt (a b : Flt K) : Flt K :=
  match a, b with
  | .nan, _ => .nan
  | _, .nan => .nan
  | a, .fin y => divPos a y
  | .fin _, _ => .fin 0
  | _, _ => .nan

/-- `normalize` (runningnorm.py 470-524) with the standard deviations as they come out of `stats` (runningnorm.py 410-433), NaN
included. -/
def RN.normalizeStats (sqrt : K → K) (minVariance : K) (s : RN K d) (lb ub : Option K) (x : Obs K d) : Except PyErr (Obs K d) :=
  if s.count = 0 then .error .valueError
  else (s.mean).bind fun mean => (s.variance minVariance).map fun var j => clampObs lb ub (divFlt (Flt.sub (x j) (mean j)) (sqrtFlt sqrt (var j)))

/-! ### RunningStat -/

/-- `RunningStat`: nothing, or a `RunningNorm` (runningstat.py 39-50). -/
abbrev Stat (K : Type) (d : Nat) := Option (RN K d)

/-- `count` (runningstat.py 53-60). -/
def Stat.count (s : Stat K d) : Nat := s.elim 0 RN.count

/-- `update` with an observation (runningstat.py 105-109). -/
def Stat.update (s : Stat K d) (x : Obs K d) : Except PyErr (Stat K d) :=
  ((s.getD RN.empty).update (.single x) none).map some

/-- `update` with another `RunningStat` (runningstat.py 99-104). -/
def Stat.merge (s other : Stat K d) : Except PyErr (Stat K d) :=
  if Stat.count other = 0 then .ok s
  else match s, other with
    | none, o => .ok o
    | some a, some b => (a.merge b none true).map some
    | some a, none => .ok (some a)

/-! ### Which tensor is kept -/

/-- Where the sum is kept: in a tensor of its own, or in the tensor at an address of the caller. -/
inductive SumRef (K : Type) (d : Nat) where
  | none
  | own (v : Obs K d)
  | shared (addr : Nat)

/-- The tensors of the caller, the sum and the count. -/
structure Mem (K : Type) (d : Nat) where
  heap : Nat → Obs K d
  sum : SumRef K d
  count : Nat

/-- The current value of `_sum`. -/
def Mem.sumValue (m : Mem K d) : Option (Obs K d) :=
  match m.sum with
  | .none => Option.none
  | .own v => some v
  | .shared a => some (m.heap a)

/-- `self._sum += v` in place: in the caller's tensor, if that is where the sum is kept (runningnorm.py 400). -/
def Mem.addInPlace (m : Mem K d) (v : Obs K d) (n : Nat) : Mem K d :=
  match m.sum with
  | .none => { m with sum := .own v, count := n }
  | .own w => { m with sum := .own (addObs w v), count := m.count + n }
  | .shared a => { m with heap := Function.update m.heap a (addObs (m.heap a) v), count := m.count + n }

/-- `update` with the caller's tensor at address `a` as one observation (runningnorm.py 325, 391-402): `as_tensor` does not copy
a tensor of the right dtype and device, `sum_of_x = x` is the tensor itself, and the first update stores it. -/
def Mem.updateSingle (m : Mem K d) (a : Nat) : Mem K d :=
  match m.sum with
  | .none => { m with sum := .shared a, count := 1 }
  | _ => m.addInPlace (m.heap a) 1

/-- `update` with a non-empty batch (runningnorm.py 377, 391-402): `torch.sum` makes a new tensor. -/
def Mem.updateBatch (m : Mem K d) (rows : List (Obs K d)) : Mem K d := m.addInPlace (sumRows rows) rows.length

/-- The caller writes into its own tensor. -/
def Mem.write (m : Mem K d) (a : Nat) (v : Obs K d) : Mem K d := { m with heap := Function.update m.heap a v }

end EvoTorch.RunningNorm
