import Verif.Model.Constraints
import Verif.Model.ExpectsNdim
import Mathlib.Algebra.Order.Floor.Ring
import Mathlib.Algebra.Order.Archimedean.Real.Basic
/-!
The public functions of `src/evotorch/tools/constraints.py`: they fill in the omitted arguments and hand everything to `expects_ndim`, which turns numbers into tensors and applies the scalar functions of
`Verif.Model.Constraints` to a batch.
-/
namespace EvoTorch.ConstraintCalls
open EvoTorch
open EvoTorch.Constraints
open EvoTorch.ExpectsNdim

/-- The arguments which are strings. -/
inductive Word where
  | cmp (c : Cmp)
  | sign (s : Sign)

/-- An argument: a tensor, a number, a numpy array, or a string. -/
abbrev A := Arg (Flt ℝ) Word

/-- `torch.as_tensor(scalar, dtype=dtype, device=device)` (decorators.py 784) for an integer dtype: NaN raises ValueError, infinities raise OverflowError, fractions are dropped. -/
noncomputable def toInteger : Flt ℝ → Except PyErr (Flt ℝ)
  | .nan => .error .valueError
  | .ninf => .error .otherError
  | .pinf => .error .otherError
  | .fin x => .ok (.fin (if 0 ≤ x then (⌊x⌋ : ℤ) else (⌈x⌉ : ℤ)))

/-- The conversion of a number, if the tensors among the arguments have the same integer dtype (decorators.py 758-784). -/
noncomputable def castNumbers (whole : Bool) : List (Option ℕ × A) → Except PyErr (List (Option ℕ × A))
  | [] => .ok []
  | (some d, .number x false) :: rest =>
    if whole then (toInteger x).bind fun y => (castNumbers whole rest).map ((some d, .number y false) :: ·)
    else (castNumbers whole rest).map ((some d, .number x false) :: ·)
  | p :: rest => (castNumbers whole rest).map (p :: ·)

/-- Whether numbers become integers: the tensors have one device and one dtype, which is an integer one (decorators.py 749-784). -/
def wholeNumbers (integer : ℕ → Bool) (slots : List (Option ℕ × A)) : Bool :=
  match ((tensorsOf slots).map Ten.device).dedup, ((tensorsOf slots).map Ten.dtype).dedup with
  | [_], [d] => integer d
  | _, _ => false

/-- A call of a function decorated by `expects_ndim` (decorators.py 697-870), with the conversion of numbers to integer dtypes. `integer` says which dtypes are integer ones. The results of the decorated function
form a tree; the exception of one position is kept at this position (the strings which cause exceptions are the same everywhere). -/
noncomputable def call (integer : ℕ → Bool) (slots : List (Option ℕ × A)) (fn : List A → Except PyErr (Flt ℝ)) : Except PyErr (ExpectsNdim.Tree (Except PyErr (Flt ℝ))) :=
  (castNumbers (wholeNumbers integer slots) slots).bind fun slots => decorated (slots.map Prod.fst) false fn (slots.map Prod.snd)

/-- `_violation` on tensors without dimensions (constraints.py 6-19). -/
noncomputable def violationFn : List A → Except PyErr (Flt ℝ)
  | [.tensor l, .other (.cmp c), .tensor r] => violation (l.val []) c (r.val [])
  | _ => .error .typeError

/-- `violation` (constraints.py 22-49). -/
noncomputable def violationCall (integer : ℕ → Bool) (lhs : A) (c : Cmp) (rhs : A) : Except PyErr (ExpectsNdim.Tree (Except PyErr (Flt ℝ))) :=
  call integer [(some 0, lhs), (none, .other (.cmp c)), (some 0, rhs)] violationFn

/-- `_log_barrier` on tensors without dimensions (constraints.py 52-85); a sharpness which is not a positive number is not modelled. -/
noncomputable def logBarrierFn : List A → Except PyErr (Flt ℝ)
  | [.tensor l, .other (.cmp c), .tensor r, .tensor s, .other (.sign g), .tensor i] =>
    match s.val [] with
    | .fin sh => if 0 < sh then logBarrier (l.val []) c (r.val []) sh g (i.val []) else .error .otherError
    | _ => .error .otherError
  | _ => .error .typeError

/-- `log_barrier` (constraints.py 88-145): the sharpness is 1 if omitted, the bound is infinite if omitted. -/
noncomputable def logBarrierCall (integer : ℕ → Bool) (lhs : A) (c : Cmp) (rhs : A) (sign : Sign) (sharpness inf : Option A) : Except PyErr (ExpectsNdim.Tree (Except PyErr (Flt ℝ))) :=
  call integer [(some 0, lhs), (none, .other (.cmp c)), (some 0, rhs), (some 0, sharpness.getD (.number (.fin 1) false)), (none, .other (.sign sign)),
    (some 0, inf.getD (.number .pinf false))] logBarrierFn

/-- `_penalty` on tensors without dimensions (constraints.py 148-192); infinite multipliers, steps and exponents are not modelled. -/
noncomputable def penaltyFn : List A → Except PyErr (Flt ℝ)
  | [.tensor l, .other (.cmp c), .tensor r, .other (.sign g), .tensor lin, .tensor st, .tensor e, .tensor i] =>
    match lin.val [], st.val [], e.val [] with
    | .fin a, .fin b, .nan => penalty (l.val []) c (r.val []) g a b none (i.val [])
    | .fin a, .fin b, .fin p => penalty (l.val []) c (r.val []) g a b (some p) (i.val [])
    | _, _, _ => .error .otherError
  | _ => .error .typeError

/-- `penalty` (constraints.py 195-281): omitted components are 0, 0, NaN and infinity. -/
noncomputable def penaltyCall (integer : ℕ → Bool) (lhs : A) (c : Cmp) (rhs : A) (sign : Sign) (linear step exp expInf : Option A) : Except PyErr (ExpectsNdim.Tree (Except PyErr (Flt ℝ))) :=
  call integer [(some 0, lhs), (none, .other (.cmp c)), (some 0, rhs), (none, .other (.sign sign)), (some 0, linear.getD (.number (.fin 0) false)),
    (some 0, step.getD (.number (.fin 0) false)), (some 0, exp.getD (.number .nan false)), (some 0, expInf.getD (.number .pinf false))] penaltyFn

end EvoTorch.ConstraintCalls
