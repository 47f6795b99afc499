import Verif.Model.Base
import Verif.Model.Flt
import Mathlib.Data.Nat.Notation
import Mathlib.Algebra.BigOperators.Group.List.Basic
/-!
Access to the members and to the utilities of a `SolutionBatch`, and `ProblemBoundEvaluator` (`src/evotorch/core.py`).
-/
namespace EvoTorch.BatchAccess
open EvoTorch

/-- Indexing which raises an IndexError beyond the end. -/
def item {α : Type} (l : List α) (j : ℕ) : Except PyErr α :=
  match l[j]? with
  | some x => .ok x
  | none => .error .indexError

/-- `Solution(parent, index)` (core.py 4759-4764): the one-row slice of the parent which the new object holds. Slicing clips at the end of the batch. -/
def solution {α : Type} (rows : List α) (i : Int) : Except PyErr (List α) :=
  let j := if i < 0 then (rows.length : Int) + i else i
  if ¬ (j ≥ 0 ∧ j ≤ rows.length) then .error .indexError
  else .ok ((rows.drop j.toNat).take 1)

/-- `solution.values`, `solution.evals` (core.py 4796-4807): row 0 of the slice. -/
def read {α : Type} (sol : List α) : Except PyErr α := item sol 0

/-- `__iter__` (core.py 4426-4428). -/
def iterate {α : Type} (rows : List α) : Except PyErr (List (List α)) := (List.range rows.length).mapM fun (i : ℕ) => solution rows (i : Int)

/-- A batch as far as its creation is concerned: `none` for uninitialised memory. -/
structure Layout (α K : Type) where
  values : List (Option α)
  evals : List (List (Flt K))
  descending : List Bool
deriving DecidableEq

/-- `SolutionBatch(problem, popsize, like=other, empty=...)` (core.py 3684-3698): memory is allocated, evaluations are NaN; unless `empty`, `self._fill_via_problem` is called, a
method which does not exist. -/
def like {α K : Type} (other : Layout α K) (popsize : Option ℕ) (empty : Option Bool) : Except PyErr (Layout α K) :=
  let n := popsize.getD other.values.length
  let width := (other.evals.headD []).length
  if empty.getD false then .ok ⟨List.replicate n none, List.replicate n (List.replicate width .nan), other.descending⟩
  else .error .attributeError

section
variable {K : Type} [Field K] [LinearOrder K]

/-- `evdata * sign` (core.py 3929-3933, core.py 4263). -/
def signed (descending : Bool) (x : Flt K) : Flt K := if descending then x else x.neg

/-- `_normalize_obj_index` (core.py 3786-3796). -/
def normObj (numObjs : ℕ) (i : Int) : Except PyErr ℕ :=
  let j := if i < 0 then (numObjs : Int) + i else i
  if j < 0 ∨ j > numObjs then .error .indexError else .ok j.toNat

/-- `utility(obj_index, ranking_method=..., check_nans=...)` with an objective index (core.py 4252-4270). A batch is its senses and the rows of its evaluation data. `ranker`
is `rank(fitnesses, method, higher_is_better=...)`. An index beyond the columns or the senses raises an IndexError. The conversion of the result to the dtype of the values is
left out. -/
def utilityOf (descending : List Bool) (evals : List (List (Flt K))) (ranker : Option (Bool → List (Flt K) → List (Flt K))) (checkNans : Bool) (i : Int) :
    Except PyErr (List (Flt K)) := do
  let j ← normObj descending.length i
  let col ← evals.mapM fun row => item row j
  if checkNans && col.any Flt.isNan then .error .valueError
  match descending[j]? with
  | none => .error .indexError
  | some d =>
    match ranker with
    | none => return col.map (signed d)
    | some r => return r d col

/-- The two results of `utility`: a vector or a matrix. -/
inductive Utils (K : Type) where
  | vec (x : List (Flt K))
  | mat (x : List (List (Flt K)))

/-- The transpose of a stack of `cols` columns with `n` entries each (core.py 4277-4287, `.T`). -/
def transpose {α : Type} (n : ℕ) (cols : List (List α)) : List (List α) := (List.range n).map fun i => cols.filterMap fun c => c[i]?

/-- `utility()` without an objective index (core.py 4271-4287). -/
def utility (descending : List Bool) (evals : List (List (Flt K))) (ranker : Option (Bool → List (Flt K) → List (Flt K))) (checkNans : Bool) : Except PyErr (Utils K) :=
  if descending.length = 1 then do return .vec (← utilityOf descending evals ranker checkNans 0)
  else do return .mat (transpose evals.length (← (List.range descending.length).mapM fun (j : ℕ) => utilityOf descending evals ranker checkNans (j : Int)))

/-- `utils()` (core.py 4327-4332). -/
def utils (descending : List Bool) (evals : List (List (Flt K))) (ranker : Option (Bool → List (Flt K) → List (Flt K))) (checkNans : Bool) : Except PyErr (List (List (Flt K))) := do
  match ← utility descending evals ranker checkNans with
  | .vec x => return x.map fun a => [a]
  | .mat x => return x

end

/-! ### ProblemBoundEvaluator -/

/-- A tensor: its shape and its elements in row-major order. -/
structure Tensor (α : Type) where
  shape : List ℕ
  data : List α
deriving DecidableEq, Repr

/-- `normalize_obj_index` of the problem (core.py 2690-2704). -/
def normProblemObj (numObjs : ℕ) : Option Int → Except PyErr ℕ
  | none => if numObjs = 1 then .ok 0 else .error .valueError
  | some i =>
    let j := if i < 0 then (numObjs : Int) + i else i
    if j < 0 ∨ j ≥ numObjs then .error .indexError else .ok j.toNat

/-- `ProblemBoundEvaluator(problem, obj_index=...)` (core.py 5116-5130): the objective to report. -/
def makeEvaluator (numObjs : ℕ) (numeric sameDtype : Bool) (objIndex : Option Int) : Except PyErr ℕ := do
  let j ← normProblemObj numObjs objIndex
  if !numeric then .error .valueError
  if !sameDtype then .error .typeError
  return j

/-- `values.reshape(-1, length)`: consecutive pieces of the given length. -/
def rowsOf {α : Type} (length count : ℕ) (data : List α) : List (List α) := (List.range count).map fun k => (data.drop (k * length)).take length

/-- Calling the evaluator (core.py 5155-5170): `fitness` gives the evaluation row of a solution (objectives and extra data); `problem.evaluate` writes it for each row of the batch.
A length of zero makes `reshape(-1, 0)` fail. -/
def call {α β : Type} (fitness : List α → List β) (obj : ℕ) (values : Tensor α) : Except PyErr (Tensor β) :=
  match values.shape.getLast? with
  | none => .error .valueError
  | some length =>
    if length = 0 then .error .runtimeError
    else do
      let batchShape := values.shape.dropLast
      let rows := rowsOf length (values.data.length / length) values.data
      let evals ← rows.mapM fun row => item (fitness row) obj
      return ⟨batchShape, evals⟩

end EvoTorch.BatchAccess
