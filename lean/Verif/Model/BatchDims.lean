import Verif.Model.Base
/-!
Batch shapes of any number of dimensions in `CMemory` (`src/evotorch/tools/structures.py`), and with it in `CList`, `CDict` and `CBag`, whose
contents are `CMemory` objects. `Verif/Model/CMemory.lean` has at most one batch dimension.

Simplifications: one integer key per item, already checked and in range; a value of type `α` stands for a tensor of shape `value_shape`.
-/
namespace EvoTorch.BatchDims

/-- A tensor: its shape, and its elements by position (meaningful for positions within the shape). -/
structure Tensor (α : Type) where
  shape : List Nat
  item : List Nat → α

/-- Torch's rule for one dimension of indexing tensors that are broadcast together. -/
def join : List Nat → Nat → Except PyErr Nat
  | [], m => .ok m
  | b :: bs, m => if b = 1 ∨ b = m then join bs m else if m = 1 then join bs b else .error .indexError

/-- Position of an indexing tensor of size `b` when the broadcast dimension is at `t`. -/
def along (b t : Nat) : Nat := if b = 1 then 0 else t

/-- The address of `_get_address` (`structures.py:419-424`, 532-540) used as a torch index: `_for_all_batches` has one tensor
`arange(batch_shape[i])` per batch dimension, each of one dimension, and the key tensor has the batch shape. Broadcasting aligns shapes at
the right, so every `arange` lies along the last dimension. The result: the shape of the indexing, and for each of its positions the batch
position that is addressed and the position of the key. -/
def address (bs : List Nat) : Except PyErr (List Nat × (List Nat → List Nat × List Nat)) :=
  match bs with
  | [] => .ok ([], fun _ => ([], []))
  | _ => match join bs 1 with
    | .error e => .error e
    | .ok m => .ok (bs.dropLast ++ [m], fun p =>
        (bs.map fun b => along b (p.getLastD 0), p.dropLast ++ [along (bs.getLastD 1) (p.getLastD 0)]))

/-- `get`, `structures.py:542-553`. -/
def get {α : Type} (bs : List Nat) (data : List Nat → Nat → α) (key : List Nat → Nat) : Except PyErr (Tensor α) :=
  match address bs with
  | .error e => .error e
  | .ok (shape, at_) => .ok ⟨shape, fun p => data (at_ p).1 (key (at_ p).2)⟩

/-- `p` is a position within a shape. -/
def Within : List Nat → List Nat → Prop
  | [], [] => True
  | n :: ns, i :: p => i < n ∧ Within ns p
  | _, _ => False

/-- `set_` without a mask, `structures.py:567-572`: `self._data[address] = value`. Every addressed cell gets one of the values written to it
(torch does not say which one), the others keep theirs. -/
structure SetResult {α : Type} (bs : List Nat) (data : List Nat → Nat → α) (key : List Nat → Nat) (value : List Nat → α)
    (after : List Nat → Nat → α) : Prop where
  ok : ∃ shape at_, address bs = .ok (shape, at_) ∧ ∀ b k,
    (∃ p, Within shape p ∧ (at_ p).1 = b ∧ key (at_ p).2 = k ∧ after b k = value (at_ p).2) ∨
    ((¬ ∃ p, Within shape p ∧ (at_ p).1 = b ∧ key (at_ p).2 = k) ∧ after b k = data b k)

/-! ### Memory of the results -/

/-- The memory of a tensor that was returned: storage of its own, or a part of the storage of the memory object. -/
inductive Ref (α : Type) where
  | own (x : α)
  | view (k : Nat)

/-- The value of a returned tensor, given what the memory object holds now. -/
def Ref.value {α : Type} (now : Nat → α) : Ref α → α
  | .own x => x
  | .view k => now k

/-- `self._data[address]` (`structures.py:552-553`), memory only, for one batch position with the contents `row`: if all indices are
integer tensors without dimensions, torch selects, and the result is a view; otherwise it gathers, into a new tensor. Without a batch the
keys have no dimensions. -/
def read {α : Type} (bs : List Nat) (row : Nat → α) (k : Nat) : Ref α := if bs = [] then .view k else .own (row k)

/-- `CDict.get` (`structures.py:1219-1224`) and `CList.get` (1781-1787): with a default `do_where` makes a new tensor. -/
def readDefault {α : Type} (valid : Bool) (row : Nat → α) (k : Nat) (dflt : α) : Ref α := .own (if valid then row k else dflt)

/-- Storing `x` at key `k`. -/
def store {α : Type} (row : Nat → α) (k : Nat) (x : α) : Nat → α := fun j => if j = k then x else row j

/-! ### Shapes of keys -/

/-- `do_where` (`structures.py:33-57`), shapes only. -/
def doWhereShape (mask a b : List Nat) : Except PyErr (List Nat) :=
  let a' := if a.length = 0 ∧ 0 < b.length then b else a
  let b' := if 0 < a.length ∧ b.length = 0 then a else b
  if a' ≠ b' then .error .runtimeError
  else if a'.length < mask.length then .error .runtimeError
  else if mask ≠ a'.take mask.length then .error .runtimeError
  else .ok a'

/-- `_get_key` (`structures.py:446-463`), shapes only: `keyShape` is `[]`, or `[d]` with several keys (727-731). `mask` says whether
`where` is given (with the batch shape, 476-483). The result is the shape of the keys used for the address. -/
def getKeyShape (bs keyShape given : List Nat) (mask : Bool) : Except PyErr (List Nat) := do
  let expected := bs ++ keyShape
  if given = expected ∨ given = keyShape then
    if mask then
      let _ ← doWhereShape bs given expected
      pure expected
    else pure expected
  else .error .runtimeError

/-! ### Properties of the structures -/

/-- The instance attributes that the constructors set: `CList` (`structures.py:1592-1628`), `CDict` (1186-1205), `CBag` (2350-2388). -/
def attributes : List (String × List String) :=
  [("CList", ["_verify", "_max_length", "_data", "_begin", "_end", "_pop_fallback", "_all_zeros"]),
   ("CDict", ["_data", "_exist"]),
   ("CBag", ["_gen_kwargs", "_data", "_low_item", "_high_item", "_choice_count", "_bignum", "_shift", "_empty", "_sampling_phase"])]

/-- `Structure.batch_ndim` and `Structure.is_batched` (`structures.py:825-836`): the former asks `_data`, the latter the structure itself. -/
def batchNdim (bs : List Nat) : Nat := bs.length
def isBatched (cls : String) (bs : List Nat) : Except PyErr Bool :=
  if ((attributes.lookup cls).getD []).contains "_batch_ndim" then .ok (decide (0 < batchNdim bs)) else .error .attributeError

end EvoTorch.BatchDims
