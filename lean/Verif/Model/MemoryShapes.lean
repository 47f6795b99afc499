import Verif.Model.BatchDims
import Verif.Model.CMemory
/-!
Shapes of what is given to `CMemory` (`src/evotorch/tools/structures.py:277-717`), `verify=True`: the arguments of the constructor, and keys, values and masks
given as a number, as (nested) sequences or as tensors. Lists, dictionaries and bags hand their values and masks on to a `CMemory` (852-886).

Simplifications: batch shapes of at most one dimension, up to leading dimensions of size 1 (what happens with others is the subject of `Verif/Model/BatchDims.lean`), so
that the address of a batch position is that position; numbers are converted to the dtype of the memory by a function `conv`, keys are integers already; values of the memory
are of an arbitrary type with the operations named. Devices are left out.
-/
namespace EvoTorch.MemoryShapes
open EvoTorch
open EvoTorch.BatchDims (Tensor)
open EvoTorch.CMemory (torchIndex)

/-! ### The constructor -/

/-- An integer, or a tuple or list of integers. -/
inductive Dim where
  | int (n : Int)
  | seq (l : List Int)

/-- What the constructor decides. `offset` is None if no offset is given. -/
structure Layout where
  multi : Bool
  numKeys : List Nat
  offset : Option (List Int)
  vs : List Nat
  bs : List Nat
deriving DecidableEq

/-- `num_keys` (structures.py:341-354): whether there are several, and the internal key shape. -/
def keysArg : Dim → Except PyErr (Bool × List Int)
  | .int n => .ok (false, [n])
  | .seq l => if l.length < 2 then .error .runtimeError else .ok (true, l)

/-- `key_offset` (structures.py:356-371). -/
def offsetArg (multi : Bool) (keys : List Int) : Option Dim → Except PyErr (Option (List Int))
  | none => .ok none
  | some o =>
    if multi then
      match o with
      | .seq l => if l.length ≠ keys.length then .error .runtimeError else .ok (some l)
      | .int n => .ok (some (keys.map fun _ => n))
    else
      match o with
      | .seq _ => .error .runtimeError
      | .int n => .ok (some [n])

/-- `int(n)` for one element of `*size`: a tuple is a TypeError. -/
def asInt : Dim → Except PyErr Int
  | .int n => .ok n
  | .seq _ => .error .typeError

/-- `*size` (structures.py:387-397). -/
def sizeArg : List Dim → Except PyErr (List Int)
  | [] => .ok []
  | [.seq l] => .ok l
  | [.int n] => .ok [n]
  | l => l.mapM asInt

/-- `batch_size` and `batch_shape` (structures.py:399-416). -/
def batchArg : Option Dim → Option Dim → Except PyErr (List Int)
  | none, none => .ok []
  | some (.seq l), none => .ok l
  | some (.int n), none => .ok [n]
  | none, some (.seq l) => .ok l
  | none, some (.int n) => .ok [n]
  | some _, some _ => .error .runtimeError

/-- `torch.arange` and `torch.empty` (structures.py:419-430): negative sizes are refused. -/
def sizes (l : List Int) : Except PyErr (List Nat) := if l.all (0 ≤ ·) then .ok (l.map Int.toNat) else .error .runtimeError

/-- `CMemory.__init__` (structures.py:337-433), the shapes. -/
def layout (size : List Dim) (numKeys : Dim) (offset batchSize batchShape : Option Dim) : Except PyErr Layout := do
  let (multi, keys) ← keysArg numKeys
  let offset ← offsetArg multi keys offset
  let vs ← sizeArg size
  let bs ← batchArg batchSize batchShape
  let bs ← sizes bs
  let keys ← sizes keys
  let vs ← sizes vs
  pure ⟨multi, keys, offset, vs, bs⟩

/-- A memory: its layout and its data by batch position, internal key and position in the value. -/
structure Mem (α : Type) where
  lay : Layout
  data : List Nat → List Nat → List Nat → α

/-! ### Arguments -/

/-- What may be given: a number, a (nested) list or tuple of numbers, or a tensor. -/
inductive Given (K : Type) where
  | number (x : K)
  | sequence (t : Tensor K)
  | tensor (t : Tensor K)

/-- `torch.as_tensor(value, dtype=...)` (structures.py:447, structures.py:466, structures.py:477). -/
def Given.asTensor {K α : Type} (conv : K → α) : Given K → Tensor α
  | .number x => ⟨[], fun _ => conv x⟩
  | .sequence t => ⟨t.shape, fun p => conv (t.item p)⟩
  | .tensor t => ⟨t.shape, fun p => conv (t.item p)⟩

/-- `-value` and `1 / value`: Python has no such operation for lists and tuples. -/
def Given.map {K : Type} (f : K → K) : Given K → Except PyErr (Given K)
  | .number x => .ok (.number (f x))
  | .sequence _ => .error .typeError
  | .tensor t => .ok (.tensor ⟨t.shape, fun p => f (t.item p)⟩)

/-- All positions of a shape. -/
def positions : List Nat → List (List Nat)
  | [] => [[]]
  | n :: ns => (List.range n).flatMap fun i => (positions ns).map (i :: ·)

/-- `tensor.expand(shape)`, where the shape of the tensor is the right part of `shape`. -/
def expand {α : Type} (t : Tensor α) (shape : List Nat) : Tensor α := ⟨shape, fun p => t.item (p.drop (p.length - t.shape.length))⟩

/-- `do_where` (structures.py:33-57). -/
def doWhere {α : Type} (mask : Tensor Bool) (a b : Tensor α) : Except PyErr (Tensor α) := do
  let a' := if a.shape.length = 0 ∧ 0 < b.shape.length then expand a b.shape else a
  let b' := if 0 < a.shape.length ∧ b.shape.length = 0 then expand b a.shape else b
  if a'.shape ≠ b'.shape then .error .runtimeError
  else if a'.shape.length < mask.shape.length then .error .runtimeError
  else if mask.shape ≠ a'.shape.take mask.shape.length then .error .runtimeError
  else .ok ⟨a'.shape, fun p => if mask.item (p.take mask.shape.length) then a'.item p else b'.item p⟩

/-- `key_shape` (structures.py:726-731). -/
def Layout.keyShape (l : Layout) : List Nat := if l.multi then [l.numKeys.length] else []

/-- The offset of coordinate `j`; no offset means that nothing is subtracted (structures.py:373-382, structures.py:534-535). -/
def Layout.off (l : Layout) (j : Nat) : Int := match l.offset with
  | none => 0
  | some o => o.getD j 0

/-- `_min_key` (structures.py:373-382). -/
def Layout.minKey (l : Layout) : Tensor Int := if l.multi then ⟨[l.numKeys.length], fun p => 0 + l.off (p.getLastD 0)⟩ else ⟨[], fun _ => 0 + l.off 0⟩

/-- The coordinate of a key that stands at a position of a key tensor. -/
def Layout.coordinate (l : Layout) (p : List Nat) : Nat := if l.multi then p.getLastD 0 else 0

/-- `_key_must_be_valid` (structures.py:439-444): the bounds are broadcast along the last dimension. -/
def keyMustBeValid (l : Layout) (key : Tensor Int) : Bool :=
  (positions key.shape).all fun p =>
    decide (0 + l.off (l.coordinate p) ≤ key.item p) && decide (key.item p ≤ ((l.numKeys.getD (l.coordinate p) 0 : Int) - 1) + l.off (l.coordinate p))

/-- The keys that are used (structures.py:448-454). -/
def usedKey (l : Layout) (key : Tensor Int) : Except PyErr (Tensor Int) :=
  if key.shape = l.bs ++ l.keyShape then .ok key
  else if key.shape = l.keyShape then .ok (expand key (l.bs ++ l.keyShape))
  else .error .runtimeError

/-- The keys that are verified (structures.py:455-459): with a mask, those of positions that are not selected are replaced. -/
def checkedKey (l : Layout) (key : Tensor Int) : Option (Tensor Bool) → Except PyErr (Tensor Int)
  | none => .ok key
  | some w => doWhere w key (expand l.minKey (l.bs ++ l.keyShape))

/-- `_get_key` (structures.py:446-463), also `prepare_key_tensor` (485-500). -/
def getKey (l : Layout) (given : Given Int) (mask : Option (Tensor Bool)) : Except PyErr (Tensor Int) := do
  let key := given.asTensor id
  let result ← usedKey l key
  let checked ← checkedKey l key mask
  if keyMustBeValid l checked then .ok result else .error .keyError

/-- `_get_value` (structures.py:465-474), also `prepare_value_tensor` (502-516) and `Structure.prepare_value_tensor` (852-866, 882-883). -/
def getValue {K α : Type} (conv : K → α) (l : Layout) (given : Given K) : Except PyErr (Tensor α) :=
  let value := given.asTensor conv
  let expected := l.bs ++ l.vs
  if value.shape = expected then .ok value
  else if value.shape.length = 0 ∨ value.shape = l.vs then .ok (expand value expected)
  else .error .runtimeError

/-- `_get_where` (structures.py:476-483), also `prepare_where_tensor` (518-530) and `Structure.prepare_where_tensor` (868-880, 885-886). -/
def getWhere (l : Layout) (given : Given Bool) : Except PyErr (Tensor Bool) :=
  let w := given.asTensor id
  if w.shape ≠ l.bs then .error .runtimeError else .ok w

/-- The mask argument, `None if where is None else self._get_where(where)` (structures.py:567). -/
def maskArg (l : Layout) : Option (Given Bool) → Except PyErr (Option (Tensor Bool))
  | none => .ok none
  | some g => (getWhere l g).map some

/-- The internal key of a batch position (structures.py:532-540) used as an index: out of range is an IndexError. -/
def slotOf (l : Layout) (key : Tensor Int) (b : List Nat) : Option (List Nat) :=
  (List.range l.numKeys.length).mapM fun j =>
    torchIndex (l.numKeys.getD j 0) (key.item (if l.multi then b ++ [j] else b) - l.off j)

/-- `self._data[address]` as an index expression: every batch position has to be addressed within the data. -/
def address (l : Layout) (key : Tensor Int) : Except PyErr (List Nat → List Nat) :=
  if (positions l.bs).all fun b => (slotOf l key b).isSome then .ok fun b => (slotOf l key b).getD [] else .error .indexError

/-- The values at an address. -/
def gather {α : Type} (m : Mem α) (slot : List Nat → List Nat) : Tensor α :=
  ⟨m.lay.bs ++ m.lay.vs, fun q => m.data (q.take m.lay.bs.length) (slot (q.take m.lay.bs.length)) (q.drop m.lay.bs.length)⟩

/-- Assigning to an address. -/
def scatter {α : Type} (m : Mem α) (slot : List Nat → List Nat) (t : Tensor α) : Mem α :=
  { m with data := fun b k v => if k = slot b then t.item (b ++ v) else m.data b k v }

/-- `get` and `__getitem__` (structures.py:542-553, structures.py:696-706). -/
def get {α : Type} (m : Mem α) (key : Given Int) : Except PyErr (Tensor α) := do
  let key ← getKey m.lay key none
  let slot ← address m.lay key
  .ok (gather m slot)

/-- Elementwise operations on tensors of the same shape. -/
def zip {α : Type} (f : α → α → α) (a b : Tensor α) : Tensor α := ⟨a.shape, fun p => f (a.item p) (b.item p)⟩

/-- The steps which all modifications share (structures.py:567-576, structures.py:590-604, structures.py:624-637, structures.py:651-666): mask, key, value, then the old values
and the new ones. Nothing is written before everything has been computed. -/
def modify {K α : Type} (conv : K → α) (m : Mem α) (key : Given Int) (value : Given K) (mask : Option (Given Bool))
    (f : Tensor α → Tensor α → Option (Tensor Bool) → Except PyErr (Tensor α)) : Outcome (Mem α) Unit :=
  let r : Except PyErr (Mem α) := do
    let w ← maskArg m.lay mask
    let key ← getKey m.lay key w
    let value ← getValue conv m.lay value
    let slot ← address m.lay key
    let new ← f (gather m slot) value w
    pure (scatter m slot new)
  match r with
  | .ok m' => ⟨m', .ok ()⟩
  | .error e => ⟨m, .error e⟩

/-- `set_` and `__setitem__` (structures.py:567-576, structures.py:708-717). -/
def set {K α : Type} (conv : K → α) (m : Mem α) (key : Given Int) (value : Given K) (mask : Option (Given Bool)) : Outcome (Mem α) Unit :=
  modify conv m key value mask fun old value w => match w with
    | none => .ok value
    | some w => doWhere w value old

/-- `add_` for numbers (structures.py:590-604). -/
def add {K α : Type} [Add α] [Zero α] (conv : K → α) (m : Mem α) (key : Given Int) (value : Given K) (mask : Option (Given Bool)) : Outcome (Mem α) Unit :=
  modify conv m key value mask fun old value w => match w with
    | none => .ok (zip (· + ·) old value)
    | some w => do
      let x ← doWhere w value ⟨[], fun _ => 0⟩
      .ok (zip (· + ·) old x)

/-- `add_` for booleans (structures.py:594-602). -/
def addBool {K : Type} (conv : K → Bool) (m : Mem Bool) (key : Given Int) (value : Given K) (mask : Option (Given Bool)) : Outcome (Mem Bool) Unit :=
  modify conv m key value mask fun old value w => match w with
    | none => .ok (zip (· || ·) old value)
    | some w => .ok (zip (· || ·) old ⟨value.shape, fun p => value.item p && w.item (p.take m.lay.bs.length)⟩)

/-- `multiply_` for numbers (structures.py:651-666). Without a mask the code adds. -/
def multiply {K α : Type} [Add α] [Mul α] [One α] (conv : K → α) (m : Mem α) (key : Given Int) (value : Given K) (mask : Option (Given Bool)) : Outcome (Mem α) Unit :=
  modify conv m key value mask fun old value w => match w with
    | none => .ok (zip (· + ·) old value)
    | some w => do
      let x ← doWhere w value ⟨[], fun _ => 1⟩
      .ok (zip (· * ·) old x)

/-- `multiply_` for booleans (structures.py:655-664). -/
def multiplyBool {K : Type} (conv : K → Bool) (m : Mem Bool) (key : Given Int) (value : Given K) (mask : Option (Given Bool)) : Outcome (Mem Bool) Unit :=
  modify conv m key value mask fun old value w => match w with
    | none => .ok (zip (· && ·) old value)
    | some w => do
      let x ← doWhere w value ⟨[], fun _ => true⟩
      .ok (zip (· && ·) old x)

/-- `add_circular_` for numbers (structures.py:624-637), `md` is torch's `%`. A wrong shape of `mod` and an address out of range are both refused; which of the two comes first is
left out. -/
def addCircular {K α : Type} [Add α] (md : α → α → α) (conv : K → α) (m : Mem α) (key : Given Int) (value mod : Given K) (mask : Option (Given Bool)) : Outcome (Mem α) Unit :=
  modify conv m key value mask fun old value w => do
    let mod ← getValue conv m.lay mod
    let new := zip md (zip (· + ·) old value) mod
    match w with
    | none => .ok new
    | some w => doWhere w new old

/-- `subtract_` (structures.py:668-680). -/
def subtract {K α : Type} [Neg K] [Add α] [Zero α] (conv : K → α) (m : Mem α) (key : Given Int) (value : Given K) (mask : Option (Given Bool)) : Outcome (Mem α) Unit :=
  match value.map fun x => -x with
  | .error e => ⟨m, .error e⟩
  | .ok v => add conv m key v mask

/-- `divide_` (structures.py:682-694). -/
def divide {K α : Type} [Inv K] [Add α] [Mul α] [One α] (conv : K → α) (m : Mem α) (key : Given Int) (value : Given K) (mask : Option (Given Bool)) : Outcome (Mem α) Unit :=
  match value.map fun x => x⁻¹ with
  | .error e => ⟨m, .error e⟩
  | .ok v => multiply conv m key v mask

end EvoTorch.MemoryShapes
