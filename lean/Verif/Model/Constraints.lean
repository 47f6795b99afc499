import Verif.Model.Base
import Verif.Model.Flt
import Mathlib.Analysis.SpecialFunctions.Pow.Real
/-!
Model of `src/evotorch/tools/constraints.py` for one pair of scalars (batching is `expects_ndim`, C60). Finite numbers are reals.
-/
namespace EvoTorch.Constraints
open EvoTorch

/-- The comparison operator as a string: `>=`, `<=`, `==`, anything else. -/
inductive Cmp where
  | ge | le | eq | unknown
  deriving DecidableEq

/-- The penalty sign as a string. -/
inductive Sign where
  | plus | minus | unknown
  deriving DecidableEq

/-- `relu`. -/
noncomputable def relu (x : Flt ℝ) : Flt ℝ := Flt.max2 x (.fin 0)

/-- `_violation` (constraints.py 6-19). -/
noncomputable def violation (lhs : Flt ℝ) (c : Cmp) (rhs : Flt ℝ) : Except PyErr (Flt ℝ) :=
  match c with
  | .ge => .ok (relu (Flt.sub rhs lhs))
  | .le => .ok (relu (Flt.sub lhs rhs))
  | .eq => .ok (Flt.abs (Flt.sub lhs rhs))
  | .unknown => .error .valueError

/-- `x ** p` for a non-negative `x` and a finite `p`. -/
noncomputable def pow (x : Flt ℝ) (p : ℝ) : Flt ℝ :=
  if p = 0 then .fin 1
  else match x with
    | .nan => .nan
    | .ninf => .nan
    | .pinf => if 0 < p then .pinf else .fin 0
    | .fin x => if x = 0 then (if 0 < p then .fin 0 else .pinf) else .fin (x ^ p)

/-- `torch.where(c, a, b)`. -/
noncomputable def whereF (c : Bool) (a b : Flt ℝ) : Flt ℝ := if c then a else b

/-- `_penalty` (constraints.py 148-192); `exp = none` is NaN, i.e. omitted. -/
noncomputable def penalty (lhs : Flt ℝ) (c : Cmp) (rhs : Flt ℝ) (sign : Sign) (linear step : ℝ) (exp : Option ℝ) (expInf : Flt ℝ) : Except PyErr (Flt ℝ) :=
  (violation lhs c rhs).bind fun v =>
    let p := Flt.mul (.fin linear) v
    let p := Flt.add p (whereF (Flt.lt (.fin 0) v) (.fin step) (.fin 0))
    -- the name `one` in the code holds zero; it is used only where `exp` is omitted, and then the power is not used
    let e := pow v (exp.getD 0)
    let e := whereF (Flt.lt expInf e) expInf e
    let p := Flt.add p (whereF exp.isSome e (.fin 0))
    match sign with
    | .plus => .ok p
    | .minus => .ok (Flt.neg p)
    | .unknown => .error .valueError

/-- `torch.log` of a non-negative number. -/
noncomputable def log (x : Flt ℝ) : Flt ℝ :=
  match x with
  | .nan => .nan
  | .ninf => .nan
  | .pinf => .pinf
  | .fin x => if x = 0 then .ninf else if x < 0 then .nan else .fin (Real.log x)

/-- Division by a positive number. -/
noncomputable def divPos (x : Flt ℝ) (y : ℝ) : Flt ℝ :=
  match x with
  | .fin x => .fin (x / y)
  | x => x

/-- The value whose logarithm is taken (constraints.py 62-70); an operator other than `>=` and `<=` is refused. -/
noncomputable def barrierInput (lhs : Flt ℝ) (c : Cmp) (rhs : Flt ℝ) : Except PyErr (Flt ℝ) :=
  match c with
  | .ge => .ok (relu (Flt.sub lhs rhs))
  | .le => .ok (relu (Flt.sub rhs lhs))
  | _ => .error .valueError

/-- `_log_barrier` (constraints.py 52-85), for a positive `sharpness`. -/
noncomputable def logBarrier (lhs : Flt ℝ) (c : Cmp) (rhs : Flt ℝ) (sharpness : ℝ) (sign : Sign) (inf : Flt ℝ) : Except PyErr (Flt ℝ) :=
  (barrierInput lhs c rhs).bind fun x =>
    let r := divPos (log x) sharpness
    let r := whereF (Flt.lt r (Flt.neg inf)) (Flt.neg inf) r
    match sign with
    | .minus => .ok r
    | .plus => .ok (Flt.neg r)
    | .unknown => .error .valueError

end EvoTorch.Constraints
