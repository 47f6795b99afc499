import Verif.Model.Base
/-!
Histories of operations on solution batches that may share memory (slices are views, index lists copy).
-/
namespace EvoTorch.BatchHistory

/-- One row: decision values and the evaluations of the objectives (`none` is NaN, i.e. not evaluated). -/
structure Cell (V E : Type) where
  val : V
  ev : List (Option E)

/-- Memory shared by the batches; a batch is the list of the addresses of its rows. Cells from `next` on are free. -/
structure State (V E : Type) where
  heap : Nat → Cell V E
  next : Nat
  objs : List (List Nat)

/-- The operations (the batch is named by its number in order of creation). -/
inductive Op (V E : Type) where
  /-- `problem.generate_batch` / `SolutionBatch(problem, popsize)` -/
  | new (vals : List V)
  /-- `batch[lo:hi:step]`; `batch[i]` (a Solution) is `batch[i:i+1]`. (Negative bounds are those which Python's `slice.indices` makes of them.) -/
  | slice (b lo hi step : Nat)
  /-- `batch.take(indices)` / `batch[indices]` -/
  | take (b : Nat) (idx : List Nat)
  /-- `SolutionBatch.cat` / `concat` -/
  | cat (bs : List Nat)
  /-- `batch.set_values(vals, solutions=pos)`; `isObject` for `dtype=object`, where `none` is an object of unsupported type -/
  | setValues (b : Nat) (pos : List Nat) (vals : List (Option V)) (isObject : Bool)
  /-- `batch.access_values(keep_evals=keep)[pos] = vals`; a write into a tensor kept from an earlier `access_values` is a write with `keep` -/
  | modifyValues (b : Nat) (pos : List Nat) (vals : List V) (keep : Bool)
  /-- `batch.set_evals(rows, solutions=pos)` -/
  | setEvals (b : Nat) (pos : List Nat) (rows : List (List (Option E)))
  /-- `batch.forget_evals(solutions=pos)` -/
  | forget (b : Nat) (pos : List Nat)
  /-- `problem.evaluate(batch)` -/
  | evaluate (b : Nat)

variable {V E : Type}

/-- The rows of `rows[lo:hi:step]` (a strided tensor view); `step` is positive. -/
def cut (lo hi step : Nat) {α : Type} (rows : List α) : List α :=
  (List.range rows.length).filterMap fun i => ((rows.take hi).drop lo)[i * step]?

/-- Write decision values to cells. -/
def writeVals (h : Nat → Cell V E) : List (Nat × V) → (Nat → Cell V E)
  | [] => h
  | (a, v) :: rest => writeVals (fun x => if x = a then { h x with val := v } else h x) rest

/-- The object loop of `ObjectArray.set_item` (`src/evotorch/tools/objectarray.py:390-395`): rows are written one by one, until an
object that `as_immutable` refuses (`src/evotorch/tools/immutable.py:83-88`). -/
def writeObjs (h : Nat → Cell V E) : List (Nat × Option V) → (Nat → Cell V E) × Bool
  | [] => (h, true)
  | (_, none) :: _ => (h, false)
  | (a, some v) :: rest => writeObjs (fun x => if x = a then { h x with val := v } else h x) rest

/-- Fill the evaluations of cells with NaN. -/
def clearEvals (m : Nat) (h : Nat → Cell V E) (addrs : List Nat) : Nat → Cell V E :=
  fun x => if x ∈ addrs then { h x with ev := List.replicate m none } else h x

/-- Write evaluation rows to cells. -/
def writeEvals (h : Nat → Cell V E) : List (Nat × List (Option E)) → (Nat → Cell V E)
  | [] => h
  | (a, r) :: rest => writeEvals (fun x => if x = a then { h x with ev := r } else h x) rest

/-- Addresses of rows `pos` of batch `b` (out-of-range positions raise IndexError). -/
def addrs (st : State V E) (b : Nat) (pos : List Nat) : Option (List Nat) :=
  (st.objs[b]?).bind fun rows => pos.mapM fun i => rows[i]?

/-- Allocate a batch with the given cells. -/
def alloc (st : State V E) (cells : List (Cell V E)) : State V E :=
  { heap := fun x => if h : st.next ≤ x ∧ x - st.next < cells.length then cells[x - st.next]'h.2 else st.heap x
    next := st.next + cells.length
    objs := st.objs ++ [(List.range cells.length).map (st.next + ·)] }

/-- One operation. `f` is the fitness function, `m` the number of objectives. Cited code (`src/evotorch/core.py`): new core.py 3741-3768;
slice and take core.py 3653-3684 (tensor slices share memory, index lists copy; the same for ObjectArray,
`tools/objectarray.py:318-339`); cat core.py 3711-3739, 4356-4375; set_values core.py 3936-3949; access_values core.py 4152-4180;
set_evals core.py 3952-4072 (shapes are C14's subject, here rows have the right shape); forget_evals core.py 4183-4191; evaluate core.py 2527-2610.
Broadcasting of a single row by `set_values` is not modelled. -/
def exec (f : V → List (Option E)) (m : Nat) (st : State V E) : Op V E → Outcome (State V E) Unit
  | .new vals => ⟨alloc st (vals.map fun v => ⟨v, List.replicate m none⟩), .ok ()⟩
  | .slice b lo hi step =>
    match st.objs[b]? with
    | none => ⟨st, .error .otherError⟩
    | some rows => if step = 0 then ⟨st, .error .valueError⟩ else ⟨{ st with objs := st.objs ++ [cut lo hi step rows] }, .ok ()⟩
  | .take b idx =>
    match addrs st b idx with
    | none => ⟨st, .error .indexError⟩
    | some as => ⟨alloc st (as.map st.heap), .ok ()⟩
  | .cat bs =>
    match bs.mapM fun b => st.objs[b]? with
    | none => ⟨st, .error .otherError⟩
    | some rows => ⟨alloc st (rows.flatten.map st.heap), .ok ()⟩
  | .setValues b pos vals isObject =>
    match addrs st b pos with
    | none => ⟨st, .error .indexError⟩
    | some as =>
      if as.length ≠ vals.length then ⟨st, .error .typeError⟩
      else if isObject then
        let r := writeObjs st.heap (as.zip vals)
        if r.2 then ⟨{ st with heap := clearEvals m r.1 as }, .ok ()⟩
        else ⟨{ st with heap := r.1 }, .error .typeError⟩
      else
        match vals.mapM id with
        | none => ⟨st, .error .typeError⟩
        | some vs => ⟨{ st with heap := clearEvals m (writeVals st.heap (as.zip vs)) as }, .ok ()⟩
  | .modifyValues b pos vals keep =>
    match st.objs[b]?, addrs st b pos with
    | some rows, some as =>
      let h := if keep then st.heap else clearEvals m st.heap rows
      ⟨{ st with heap := writeVals h (as.zip vals) }, .ok ()⟩
    | _, _ => ⟨st, .error .indexError⟩
  | .setEvals b pos rows =>
    match addrs st b pos with
    | none => ⟨st, .error .indexError⟩
    | some as => ⟨{ st with heap := writeEvals st.heap (as.zip rows) }, .ok ()⟩
  | .forget b pos =>
    match addrs st b pos with
    | none => ⟨st, .error .indexError⟩
    | some as => ⟨{ st with heap := clearEvals m st.heap as }, .ok ()⟩
  | .evaluate b =>
    match st.objs[b]? with
    | none => ⟨st, .error .otherError⟩
    | some rows => ⟨{ st with heap := writeEvals st.heap (rows.map fun a => (a, f (st.heap a).val)) }, .ok ()⟩

/-- A history of operations; exceptions are caught by the caller and the objects are used further. -/
def run (f : V → List (Option E)) (m : Nat) (st : State V E) : List (Op V E) → State V E
  | [] => st
  | op :: rest => run f m (exec f m st op).state rest

/-- No batch exists; free memory holds the default value. -/
def empty (m : Nat) (v : V) : State V E := ⟨fun _ => ⟨v, List.replicate m none⟩, 0, []⟩

/-- `Solution.is_evaluated`, `src/evotorch/core.py:4928-4945`: no objective is NaN. -/
def isEvaluated (c : Cell V E) : Bool := c.ev.all Option.isSome

end EvoTorch.BatchHistory
