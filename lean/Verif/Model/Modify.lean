import Verif.Model.Base
import Verif.Model.Flt
/-!
Model of the limited updates of tensors and vectors (`tools/misc.py`), of the controlled standard deviation update of the
distribution-based search algorithms (`algorithms/distributed/gaussian.py`) and of the standard deviation part of the
functional PGPE and CEM (`algorithms/functional/funcpgpe.py`, `funccem.py`).

Simplifications: tensors are flat lists; finite arithmetic is exact. NaN and infinities are modelled.
-/
namespace EvoTorch.Modify

variable {K : Type} [Field K] [LinearOrder K]

/-- A limit given by the user: a scalar (0-dimensional tensor) or a tensor (here: a list). -/
inductive Limit (K : Type) where
  | scalar (x : Flt K)
  | tensor (xs : List (Flt K))

/-- Broadcasting of a 0-dimensional or equally shaped tensor: its element at position `i`. -/
def Limit.at : Limit K → Nat → Flt K
  | .scalar x, _ => x
  | .tensor xs, i => xs.getD i .nan

/-- Does a limit have the given length, or is it a scalar? -/
def Limit.fits (n : Nat) : Limit K → Bool
  | .scalar _ => true
  | .tensor xs => xs.length == n

/-- `convert_to_tensor` (tools/misc.py 762-774): an `IndexError` unless the limit is 0-dimensional or of the shape of the
original; `None` is replaced by `default` (776-786). -/
def convert (n : Nat) (dflt : Flt K) : Option (Limit K) → Except PyErr (Limit K)
  | none => .ok (.scalar dflt)
  | some l => if l.fits n then .ok l else .error .indexError

/-- The conversion of `max_change`, which may stay `None` (tools/misc.py 788-793). -/
def convertChange (n : Nat) : Option (Limit K) → Except PyErr (Option (Limit K))
  | none => .ok none
  | some l => if l.fits n then .ok (some l) else .error .indexError

/-- One element of the clipping (tools/misc.py 788-798, 809-810). -/
def modifyElem (o t lb ub : Flt K) (maxChange : Option (Flt K)) : Flt K :=
  match maxChange with
  | none => Flt.min2 (Flt.max2 t lb) ub
  | some c =>
    let allowed := Flt.mul (Flt.abs o) c
    let lb' := Flt.max2 lb (Flt.sub o allowed)
    let ub' := Flt.min2 ub (Flt.add o allowed)
    Flt.min2 (Flt.max2 t lb') ub'

/-- `modify_tensor(original, target, lb, ub, max_change, in_place)` (tools/misc.py 711-816). The result is the pair of the
returned tensor and of the contents of `original` after the call. Simplification: `target` must have as many elements as
`original` (a tensor that broadcasts against it is not modelled; a mismatch is a `RuntimeError` of torch). -/
def modifyTensor (original target : List (Flt K)) (lb ub maxChange : Option (Limit K)) (inPlace : Bool := false) :
    Except PyErr (List (Flt K) × List (Flt K)) := do
  if lb.isNone && ub.isNone && maxChange.isNone then
    if inPlace then
      if target.length ≠ original.length then throw .runtimeError
      return (target, target)
    else return (target, original)
  let lb' ← convert original.length .ninf lb
  let ub' ← convert original.length .pinf ub
  let mc ← convertChange original.length maxChange
  if target.length ≠ original.length then throw .runtimeError
  let result := (List.range original.length).map fun i =>
    modifyElem (original.getD i .nan) (target.getD i .nan) (lb'.at i) (ub'.at i) (mc.map (·.at i))
  return (result, if inPlace then result else original)

/-- `_modify_vector_using_bounds` (tools/misc.py 819-841). -/
def modifyVectorBounds (target : List (Flt K)) (lb ub : Limit K) : Except PyErr (List (Flt K)) :=
  if !lb.fits target.length then .error .valueError
  else if !ub.fits target.length then .error .valueError
  else .ok ((List.range target.length).map fun i => Flt.min2 (Flt.max2 (target.getD i .nan) (lb.at i)) (ub.at i))

/-- `_modify_vector_using_max_change` (tools/misc.py 844-865). -/
def modifyVectorMaxChange (original target : List (Flt K)) (mc : Limit K) : Except PyErr (List (Flt K)) :=
  if target.length ≠ original.length then .error .valueError
  else if !mc.fits original.length then .error .valueError
  else .ok ((List.range target.length).map fun i =>
    let o := original.getD i .nan
    let maxDiff := Flt.mul (Flt.abs o) (mc.at i)
    Flt.min2 (Flt.max2 (target.getD i .nan) (Flt.sub o maxDiff)) (Flt.add o maxDiff))

/-- The `max_change` part of `modify_vector` (tools/misc.py 892-897). -/
def modifyVectorChangePart (original target : List (Flt K)) : Option (Limit K) → Except PyErr (List (Flt K))
  | none => .ok target
  | some c => modifyVectorMaxChange original target c

/-- `modify_vector(original, target, lb, ub, max_change)` (tools/misc.py 868-908). Simplification: single vectors;
batches are handled by `expects_ndim`, which applies the same function to each vector. -/
def modifyVector (original target : List (Flt K)) (lb ub maxChange : Option (Limit K)) :
    Except PyErr (List (Flt K)) := do
  let result ← modifyVectorChangePart original target maxChange
  match lb, ub with
  | none, none => return result
  | some l, some u => modifyVectorBounds result l u
  | _, _ => throw .valueError

/-! ### The controlled update of the search distribution -/

/-- How the target standard deviation is obtained from the old one and the gradient. -/
inductive Rule (K : Type) where
  /-- `SeparableGaussian.update_parameters` (distributions.py 590-592): `sigma + lr * grad`. -/
  | additive (lr : Flt K)
  /-- `ExpSeparableGaussian.update_parameters` (distributions.py 804-806): `sigma * exp(0.5 * lr * grad)`; the factor
  function (exp) is a parameter. -/
  | multiplicative (lr : Flt K) (expHalf : Flt K → Flt K)

/-- The updated (not yet controlled) standard deviation (distributions.py 590-592, 804-806). -/
def Rule.target : Rule K → List (Flt K) → List (Flt K) → List (Flt K)
  | .additive lr, sigma, grad => List.zipWith (fun s g => Flt.add s (Flt.mul lr g)) sigma grad
  | .multiplicative lr e, sigma, grad => List.zipWith (fun s g => Flt.mul s (e (Flt.mul lr g))) sigma grad

/-- Settings `stdev_min`, `stdev_max`, `stdev_max_change` of a search algorithm (gaussian.py 129-145). -/
structure Control (K : Type) where
  stdevMin : Option (Limit K)
  stdevMax : Option (Limit K)
  stdevMaxChange : Option (Limit K)

/-- The standard deviation part of `_update_distribution` (gaussian.py 369-419). -/
def updateStdev (c : Control K) (rule : Rule K) (sigma grad : List (Flt K)) : Except PyErr (List (Flt K)) :=
  let target := rule.target sigma grad
  if c.stdevMin.isSome || c.stdevMax.isSome || c.stdevMaxChange.isSome then
    (modifyTensor sigma target c.stdevMin c.stdevMax c.stdevMaxChange).map (·.1)
  else .ok target

/-- The standard deviations along a run that receives the given gradients, the initial one first; the run ends at the
first error. -/
def stdevRun (c : Control K) (rule : Rule K) (sigma : List (Flt K)) : List (List (Flt K)) → List (List (Flt K))
  | [] => [sigma]
  | g :: gs => sigma :: (match updateStdev c rule sigma g with
    | .ok s => stdevRun c rule s gs
    | .error _ => [])

/-! ### Functional PGPE and CEM -/

/-- `as_vector_like_center` with the default for `None` (funcpgpe.py 239-250, 266-276; funccem.py 141-164). -/
def asVectorLikeCenter (n : Nat) (dflt : Flt K) : Option (Limit K) → Except PyErr (List (Flt K))
  | none => .ok (List.replicate n dflt)
  | some (.scalar x) => .ok (List.replicate n x)
  | some (.tensor xs) => if xs.length = n then .ok xs else .error .valueError

/-- The standard deviation related fields of `PGPEState` (funcpgpe.py 287-298) and of `CEMState` (funccem.py 24-31; the
CEM has no stdev learning rate, which is the same as a rate of 1). -/
structure FuncState (K : Type) where
  stdev : List (Flt K)
  stdevMin : List (Flt K)
  stdevMax : List (Flt K)
  stdevMaxChange : List (Flt K)

/-- Creation of the state (funcpgpe.py 266-298, funccem.py 154-184) from an initial standard deviation of the right
length. -/
def funcInit (stdevInit : List (Flt K)) (mn mx mc : Option (Limit K)) : Except PyErr (FuncState K) := do
  let a ← asVectorLikeCenter stdevInit.length (.fin 0) mn
  let b ← asVectorLikeCenter stdevInit.length .pinf mx
  let c ← asVectorLikeCenter stdevInit.length .pinf mc
  return ⟨stdevInit, a, b, c⟩

/-- The standard deviation update of `pgpe_tell` (funcpgpe.py 322-327, 368-384) and of `_cem_tell` (funccem.py 223-230)
with the given gradient. -/
def funcTell (lr : Flt K) (s : FuncState K) (grad : List (Flt K)) : Except PyErr (FuncState K) := do
  let target := List.zipWith (fun s g => Flt.add s (Flt.mul lr g)) s.stdev grad
  let new ← modifyVector s.stdev target (some (.tensor s.stdevMin)) (some (.tensor s.stdevMax))
    (some (.tensor s.stdevMaxChange))
  return { s with stdev := new }

/-- A history of tells. -/
def funcRun (lr : Flt K) (s : FuncState K) : List (List (Flt K)) → Except PyErr (FuncState K)
  | [] => .ok s
  | g :: gs => do funcRun lr (← funcTell lr s g) gs

end EvoTorch.Modify
