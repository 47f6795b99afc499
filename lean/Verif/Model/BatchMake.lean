import Verif.Model.Base
import Verif.Model.Workload
import Mathlib.Data.Nat.Notation
import Mathlib.Data.Int.Notation
/-!
Model of how `SolutionBatch` objects are made from other ones (`src/evotorch/core.py`): slicing, taking, merging, splitting, and the arguments of the constructor.

Simplifications. Values and evaluations are tables (two-dimensional tensors); a batch of objects is a table with one column. Only the contents are modelled here; which results share memory is C95.
Conversions between dtypes and devices are left out, and so are tuples with other members than integers and slices. What PyTorch does with an index is written down from its documentation.
-/
namespace EvoTorch.BatchMake
open EvoTorch

variable {V E α : Type}

/-- A two-dimensional tensor. -/
structure Mat (α : Type) where
  width : ℕ
  rows : List (List α)
deriving DecidableEq

/-- `_data`, `_evdata` and `_descending` of a batch; the number of objectives is the number of senses (core.py 3638-3641, 3755, 3770). -/
structure Batch (V E : Type) where
  data : Mat V
  evdata : Mat E
  descending : List Bool
deriving DecidableEq

/-- A member of a tuple used as an index. -/
inductive Item
  | int (i : ℤ)
  | slice (start stop step : Option ℤ)

/-- An index: a slice, a list or one-dimensional tensor of integers, or of booleans, `...`, a tuple, or a list or tensor of more dimensions. -/
inductive Idx
  | slice (start stop step : Option ℤ)
  | ints (l : List ℤ)
  | mask (l : List Bool)
  | ellipsis
  | tuple (l : List Item)
  | nested

/-- One end of a slice of a sequence of `n` members. -/
def bound (n : ℕ) (x : Option ℤ) (default : ℕ) : ℕ :=
  match x with
  | none => default
  | some i => if i < 0 then (i + n).toNat else min i.toNat n

/-- The members chosen by a slice; PyTorch refuses steps that are not positive. -/
def slicePick (n : ℕ) (start stop step : Option ℤ) : Except PyErr (List ℕ) :=
  let st := step.getD 1
  if st ≤ 0 then .error .valueError
  else
    let lo := bound n start 0
    let hi := bound n stop n
    .ok (List.range' lo ((hi - lo + (st.toNat - 1)) / st.toNat) st.toNat)

/-- One integer index. -/
def intPick (n : ℕ) (i : ℤ) : Except PyErr ℕ :=
  if -(n : ℤ) ≤ i ∧ i < n then .ok (if i < 0 then i + n else i).toNat else .error .indexError

/-- The chosen rows. -/
def pickRows (rows : List α) (ks : List ℕ) : List α := ks.filterMap fun k => rows[k]?

/-- `t[index]` for a table: a table, or something with another number of dimensions (`none`). -/
def getIdx (m : Mat α) : Idx → Except PyErr (Option (Mat α))
  | .slice a b c => do .ok (some { m with rows := pickRows m.rows (← slicePick m.rows.length a b c) })
  | .ints l => do .ok (some { m with rows := pickRows m.rows (← l.mapM (intPick m.rows.length)) })
  | .mask l => if l.length = m.rows.length then .ok (some { m with rows := pickRows m.rows ((l.zipIdx.filter (·.1)).map (·.2)) }) else .error .indexError
  | .ellipsis => .ok (some m)
  | .tuple [] => .ok (some m)
  | .tuple [.int i] => do let _ ← intPick m.rows.length i; .ok none
  | .tuple [.slice a b c] => do .ok (some { m with rows := pickRows m.rows (← slicePick m.rows.length a b c) })
  | .tuple [.int i, .int j] => do let _ ← intPick m.rows.length i; let _ ← intPick m.width j; .ok none
  | .tuple [.int i, .slice a b c] => do let _ ← intPick m.rows.length i; let _ ← slicePick m.width a b c; .ok none
  | .tuple [.slice a b c, .int j] => do let _ ← slicePick m.rows.length a b c; let _ ← intPick m.width j; .ok none
  | .tuple [.slice a b c, .slice a' b' c'] => do
    let ks ← slicePick m.rows.length a b c
    let js ← slicePick m.width a' b' c'
    .ok (some ⟨js.length, (pickRows m.rows ks).map fun row => pickRows row js⟩)
  | .tuple _ => .error .indexError
  | .nested => .ok none

/-- `safe_slice` (core.py 3658-3668). -/
def safeSlice (m : Mat α) (idx : Idx) : Except PyErr (Mat α) :=
  match getIdx m idx with
  | .error e => .error e
  | .ok none => .error .valueError
  | .ok (some r) => .ok r

/-- `SolutionBatch(slice_of=(source, index))` (core.py 3643-3683), `batch[index]` for an index that is not a single integer (core.py 4417-4419). -/
def sliceOf (b : Batch V E) (idx : Idx) : Except PyErr (Batch V E) := do
  let data ← safeSlice b.data idx
  let evdata ← safeSlice b.evdata idx
  .ok ⟨data, evdata, b.descending⟩

/-- `is_sequence` (tools/misc.py) of an index; an argument that is an integer is `none`. -/
def isSequence : Option Idx → Bool
  | some (.ints _) => true
  | some (.mask _) => true
  | some (.tuple _) => true
  | some .nested => true
  | _ => false

/-- `take` (core.py 4377-4389). -/
def take (b : Batch V E) (idx : Option Idx) : Except PyErr (Batch V E) :=
  if isSequence idx then
    match idx with
    | some i => sliceOf b i
    | none => .error .typeError
  else .error .typeError

/-- Assigning the rows of a table to as many rows of a table with `width` columns: PyTorch repeats a single column. -/
def castRows (width : ℕ) (m : Mat α) : Except PyErr (List (List α)) :=
  if m.width = width then .ok m.rows
  else if m.width = 1 then .ok (m.rows.map fun row => (List.replicate width row).flatten)
  else .error .runtimeError

/-- `SolutionBatch(merging_of=batches)` (core.py 3710-3742): the attributes of the first batch, and the rows of all. -/
def mergingOf (bs : List (Batch V E)) : Except PyErr (Batch V E) :=
  match bs with
  | [] => .error .indexError
  | first :: _ => do
    let parts ← bs.mapM fun b => do
      let d ← castRows first.data.width b.data
      let e ← castRows first.evdata.width b.evdata
      .ok (d, e)
    .ok ⟨⟨first.data.width, (parts.map (·.1)).flatten⟩, ⟨first.evdata.width, (parts.map (·.2)).flatten⟩, first.descending⟩

/-- `concat` (core.py 4356-4375) with a list of batches; one batch is a list with one member. -/
def concat (b : Batch V E) (others : List (Batch V E)) : Except PyErr (Batch V E) := mergingOf (b :: others)

/-- The check of one member (core.py 4580-4581). -/
def asBatch : Option (Batch V E) → Except PyErr (Batch V E)
  | some b => .ok b
  | none => .error .typeError

/-- `SolutionBatch.cat` (core.py 4566-4586); `none` is something that is not a batch. Without batches, `None` has no `concat`. -/
def cat (bs : List (Option (Batch V E))) : Except PyErr (Batch V E) := do
  let bs ← bs.mapM asBatch
  match bs with
  | [] => .error .attributeError
  | first :: rest => concat first rest

/-- `split` (core.py 4334-4354, 4597-4659): the pieces, for the given sizes of pieces (C09). -/
def split (b : Batch V E) (sizes : List ℕ) : Except PyErr (List (Batch V E)) :=
  (Workload.pieceSlices 0 sizes).mapM fun p => sliceOf b (.slice (some p.1) (some p.2) none)

/-- Which arguments of the constructor are given, i.e. not None. -/
structure Given where
  problem : Bool
  popsize : Bool
  device : Bool
  sliceOf : Bool
  like : Bool
  mergingOf : Bool
  empty : Bool
deriving DecidableEq

/-- The four ways to make a batch. -/
inductive Way
  | slice | like | merge | new
deriving DecidableEq

/-- The branches of `SolutionBatch.__init__` with their checks (core.py 3643-3652, 3684-3689, 3699-3708, 3744-3750, 3771-3772). -/
def way (g : Given) : Except PyErr Way :=
  if g.sliceOf then
    if g.problem || g.popsize || g.device || g.mergingOf || g.like || g.empty then .error .valueError else .ok .slice
  else if g.like then
    if g.mergingOf || g.sliceOf then .error .valueError else .ok .like
  else if g.mergingOf then
    if g.problem || g.popsize || g.device || g.sliceOf || g.like || g.empty then .error .valueError else .ok .merge
  else if g.problem then
    if g.sliceOf || g.like || g.mergingOf then .error .valueError else .ok .new
  else .error .valueError

end EvoTorch.BatchMake
