import Verif.Model.Base
import Mathlib.Data.Nat.Notation
/-!
Model of `Solution` (`src/evotorch/core.py` 4728-5092): an object which refers to one row of a `SolutionBatch`.

Simplifications: numeric dtypes only; conversions between dtypes are left out; read-only views are C36's subject; a storage is a set of addresses, one for each row.
-/
namespace EvoTorch.SolutionObject
open EvoTorch

/-- One row: decision values and evaluation data (`none` is NaN). -/
structure Cell (V E : Type) where
  vals : List V
  ev : List (Option E)
deriving DecidableEq

/-- Memory; the cells from `next` on are free. -/
structure Mem (V E : Type) where
  cell : ℕ → Cell V E
  next : ℕ

/-- A `SolutionBatch`: the addresses of its rows, its device, the number of objectives, of columns of extra evaluation data, and of decision values. -/
structure Batch where
  rows : List ℕ
  device : ℕ
  numObjs : ℕ
  numData : ℕ
  length : ℕ
deriving DecidableEq

/-- A tensor-like argument: a number, a sequence of numbers, or something with more dimensions, given by its numbers in order. -/
inductive Given (X : Type) where
  | scalar (x : X)
  | vector (xs : List X)
  | higher (xs : List X)
deriving DecidableEq

variable {V E : Type}

/-- `Solution(parent, index)` (core.py 4747-4764): the batch with the row `index`; slicing clips at the end of the batch and shares the memory. -/
def solution (b : Batch) (i : Int) : Except PyErr Batch :=
  let j := if i < 0 then (b.rows.length : Int) + i else i
  if ¬ (j ≥ 0 ∧ j ≤ b.rows.length) then .error .indexError
  else .ok { b with rows := (b.rows.drop j.toNat).take 1 }

/-- Row 0 of the contained batch; there may be none. -/
def row (s : Batch) : Except PyErr ℕ :=
  match s.rows with
  | a :: _ => .ok a
  | [] => .error .indexError

/-- `values` (core.py 4796-4800). -/
def values (m : Mem V E) (s : Batch) : Except PyErr (List V) := (row s).map fun a => (m.cell a).vals

/-- `evals` (core.py 4803-4807). -/
def evals (m : Mem V E) (s : Batch) : Except PyErr (List (Option E)) := (row s).map fun a => (m.cell a).ev

/-- `evaluation` (core.py 4810-4823): a scalar when there is one column. -/
def evaluation (m : Mem V E) (s : Batch) : Except PyErr (Given (Option E)) :=
  (evals m s).map fun r => match r with
    | [x] => .scalar x
    | r => .vector r

/-- `is_evaluated` (core.py 4929-4945). -/
def isEvaluated (m : Mem V E) (s : Batch) : Except PyErr Bool := (evals m s).map fun r => (r.take s.numObjs).all Option.isSome

/-- `len(solution)` and iteration (core.py 5019-5026). -/
def items (m : Mem V E) (s : Batch) : Except PyErr (List V) := values m s

/-- Writing to the memory. -/
def write (m : Mem V E) (as : List ℕ) (f : Cell V E → Cell V E) : Mem V E := { m with cell := fun x => if x ∈ as then f (m.cell x) else m.cell x }

/-- `as_tensor(x).reshape(1, -1)`. If there are no elements then torch refuses `-1`. -/
def flatten {X : Type} : Given X → Except PyErr (List X)
  | .scalar x => .ok [x]
  | .vector [] => .error .runtimeError
  | .vector xs => .ok xs
  | .higher [] => .error .runtimeError
  | .higher xs => .ok xs

/-- The row which `data[:] = values` writes when `values` has one row: a row of the same length, or one number for all columns (core.py 3948). -/
def broadcast {X : Type} (length : ℕ) (xs : List X) : Except PyErr (List X) :=
  match xs with
  | [x] => .ok (List.replicate length x)
  | xs => if xs.length = length then .ok xs else .error .runtimeError

/-- `set_values(values)` (core.py 4825-4841, 3946-3949): the values are written first and the evaluations cleared after it. -/
def setValues (m : Mem V E) (s : Batch) (given : Given V) : Outcome (Mem V E) Unit :=
  match (flatten given).bind (broadcast s.length) with
  | .error e => ⟨m, .error e⟩
  | .ok w => ⟨write m s.rows fun _ => ⟨w, List.replicate (s.numObjs + s.numData) none⟩, .ok ()⟩

/-- The row which `set_evals` writes, after the checks (core.py 4861-4880, 3989-4072). -/
def evalRow (s : Batch) (given : Given (Option E)) (data : Option (Given (Option E))) : Except PyErr (List (Option E)) :=
  match given with
  | .higher _ => .error .valueError
  | g =>
    match flatten g with
    | .error e => .error e
    | .ok xs =>
      match data with
      | none =>
        if s.rows.length ≠ 1 then .error .valueError
        else if xs.length = s.numObjs then .ok (xs ++ List.replicate s.numData none)
        else if xs.length = s.numObjs + s.numData then .ok xs
        else .error .valueError
      | some (.vector ds) =>
        match flatten (.vector ds) with
        | .error e => .error e
        | .ok ds =>
          if s.rows.length ≠ 1 then .error .valueError
          else if ds.length ≠ s.numData then .error .valueError
          else if xs.length ≠ s.numObjs then .error .valueError
          else .ok (xs ++ ds)
      | some _ => .error .valueError

/-- `set_evals(evals, eval_data)` and its alias `set_evaluation` (core.py 4843-4904). -/
def setEvals (m : Mem V E) (s : Batch) (given : Given (Option E)) (data : Option (Given (Option E))) : Outcome (Mem V E) Unit :=
  match evalRow s given data with
  | .error e => ⟨m, .error e⟩
  | .ok r => ⟨write m s.rows fun c => { c with ev := r }, .ok ()⟩

/-- `access_values(keep_evals=...)` (core.py 4766-4783, 4178-4180): the evaluations are cleared unless they are to be kept; the result is the row itself, given here by its address. -/
def accessValues (m : Mem V E) (s : Batch) (keep : Bool) : Outcome (Mem V E) ℕ :=
  let m' := if keep then m else write m s.rows fun c => { c with ev := List.replicate (s.numObjs + s.numData) none }
  ⟨m', row s⟩

/-- Writing through the tensor which `access_values` or `access_evals` gave (core.py 4766-4793). -/
def poke (m : Mem V E) (a : ℕ) (f : Cell V E → Cell V E) : Mem V E := write m [a] f

/-- A copy in new memory on the given device. -/
def copyTo (m : Mem V E) (s : Batch) (device : ℕ) : Mem V E × Batch :=
  (⟨fun x => if m.next ≤ x then match s.rows[x - m.next]? with
      | some a => m.cell a
      | none => m.cell x
    else m.cell x, m.next + s.rows.length⟩, { s with rows := (List.range s.rows.length).map (m.next + ·), device := device })

/-- `clone()`, `copy.copy`, `copy.deepcopy` (core.py 5054-5060; tools/cloning.py 223-254): the contained batch is cloned, tensor by tensor. -/
def clone (m : Mem V E) (s : Batch) : Mem V E × Batch := copyTo m s s.device

/-- `to(device)` (core.py 5062-5081, 4438-4468): on the same device the contained batch itself is used. -/
def moveTo (m : Mem V E) (s : Batch) (device : ℕ) : Mem V E × Except PyErr Batch :=
  if device = s.device then (m, solution s 0)
  else
    let r := copyTo m s device
    (r.1, solution r.2 0)

/-- `to_batch()` (core.py 5083-5092). -/
def toBatch (s : Batch) : Batch := s

/-- What can be done with a solution. -/
inductive Op (V E : Type) where
  | setValues (given : Given V)
  | setEvals (given : Given (Option E)) (data : Option (Given (Option E)))
  | access (keep : Bool)
  | read

/-- One operation; exceptions are caught by the caller. -/
def exec (m : Mem V E) (s : Batch) : Op V E → Mem V E
  | .setValues g => (setValues m s g).state
  | .setEvals g d => (setEvals m s g d).state
  | .access keep => (accessValues m s keep).state
  | .read => m

/-- A history of operations on several solutions. -/
def run (m : Mem V E) : List (Batch × Op V E) → Mem V E
  | [] => m
  | (s, op) :: rest => run (exec m s op) rest

end EvoTorch.SolutionObject
