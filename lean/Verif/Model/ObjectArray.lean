import Verif.Model.Base
/-!
`ObjectArray`, `src/evotorch/tools/objectarray.py`. The heap has a list of stores (the Python lists `_objects`) and a list of array objects,
each with a reference to its store, its `_indices` and its read-only flag. Array objects are named by their position in the heap.
Stored values are opaque; `imm` is `as_immutable` (see the heap model of `immutable.py` for what it does), failing on unsupported types.
-/
namespace EvoTorch.ObjectArray
variable {V : Type}

/-- An `ObjectArray` object: `_objects` (a reference), `_indices`, `_read_only`. -/
structure Arr where
  store : Nat
  idx : List Nat
  ro : Bool
deriving DecidableEq, Repr

structure Heap (V : Type) where
  stores : List (List V)
  arrays : List Arr
deriving DecidableEq, Repr

/-- Python's treatment of a slice bound for a sequence of length `n` and a positive step. -/
def clampBound (n : Nat) (b : Int) : Nat :=
  if b < 0 then (b + n).toNat else min b.toNat n

/-- The positions selected by `start:stop:step` (positive step) in a sequence of length `n`. -/
def slicePositions (n : Nat) (start stop : Option Int) (step : Nat) : List Nat :=
  let a := match start with | none => 0 | some s => clampBound n s
  let b := match stop with | none => n | some s => clampBound n s
  (List.range n).filter fun i => decide (a ≤ i ∧ i < b ∧ (i - a) % step = 0)

/-- Python's treatment of an integer index; `none`: out of range. -/
def normIndex (n : Nat) (i : Int) : Option Nat :=
  if 0 ≤ i then (if i.toNat < n then some i.toNat else none)
  else if -(n : Int) ≤ i then some (i + n).toNat else none

/-- Operations of the public interface. Arrays are named by handles (positions in the heap's list of arrays). -/
inductive Op (V : Type) where
  | new (n : Nat)
  /-- `a[start:stop:step]` -/
  | slice (a : Nat) (start stop : Option Int) (step : Nat)
  /-- `a[[i, j, ...]]` -/
  | index (a : Nat) (is : List Int)
  | readOnlyView (a : Nat)
  /-- `a.clone(preserve_read_only=True)`, `copy.copy(a)`, `copy.deepcopy(a)` -/
  | clone (a : Nat)
  /-- `a[i] = x` -/
  | setInt (a : Nat) (i : Int) (x : V)
  /-- `a[start:stop:step] = xs` -/
  | setSlice (a : Nat) (start stop : Option Int) (step : Nat) (xs : List V)
  /-- `a[start:stop:step] = b` with another (or the same) `ObjectArray` on the right -/
  | setSliceFrom (a : Nat) (start stop : Option Int) (step : Nat) (b : Nat)
  /-- `a[[i, j, ...]] = xs` -/
  | setIndex (a : Nat) (is : List Int) (xs : List V)

/-- The list behind an array. -/
def Heap.store (h : Heap V) (a : Arr) : List V := h.stores.getD a.store []

/-- `a[i]` for an integer in range, `objectarray.py:319-321`. -/
def Heap.read (h : Heap V) (a : Arr) (k : Nat) : Option V := do
  let j ← a.idx[k]?
  (h.store a)[j]?

/-- `self._objects[index] = v`. -/
def Heap.write (h : Heap V) (s j : Nat) (v : V) : Heap V := { h with stores := h.stores.modify s fun l => l.set j v }

/-- The loop of `set_item`, `objectarray.py:393-395`: elements are written one by one, until `as_immutable` fails. -/
def writeLoop (imm : V → Option V) (h : Heap V) (s : Nat) : List (Nat × V) → Outcome (Heap V) Unit
  | [] => ⟨h, .ok ()⟩
  | (j, x) :: rest =>
    match imm x with
    | none => ⟨h, .error .typeError⟩
    | some v => writeLoop imm (h.write s j v) s rest

/-- The same loop over an `ObjectArray`: its `__iter__` (`objectarray.py:400-402`) reads the `k`-th element only when it is asked for. -/
def copyLoop (imm : V → Option V) (h : Heap V) (s : Nat) (src : Arr) : List (Nat × Nat) → Outcome (Heap V) Unit
  | [] => ⟨h, .ok ()⟩
  | (j, k) :: rest =>
    match (h.read src k).bind imm with
    | none => ⟨h, .error .typeError⟩
    | some v => copyLoop imm (h.write s j v) s src rest

/-- `set_item` with a non-integer index, `objectarray.py:363-365, 369-395`, once the selected positions are known. -/
def setMany (imm : V → Option V) (h : Heap V) (a : Arr) (pos : List Nat) (xs : List V) : Outcome (Heap V) Unit :=
  if a.ro then ⟨h, .error .valueError⟩
  else
    let targets := pos.filterMap fun p => a.idx[p]?
    if xs.length ≠ targets.length then ⟨h, .error .typeError⟩
    else writeLoop imm h a.store (targets.zip xs)

/-- One operation. A successful creating operation returns `some` handle (the number of arrays before it). A handle that does not exist gives an
error (there is no such Python expression). -/
def step (imm : V → Option V) (none' : V) (h : Heap V) (op : Op V) : Outcome (Heap V) (Option Nat) :=
  let created (h' : Heap V) (a : Arr) : Outcome (Heap V) (Option Nat) := ⟨{ h' with arrays := h'.arrays ++ [a] }, .ok (some h.arrays.length)⟩
  let done (o : Outcome (Heap V) Unit) : Outcome (Heap V) (Option Nat) := ⟨o.state, o.result.map fun _ => none⟩
  match op with
  | .new n => -- 170-179, 200-201
    created { h with stores := h.stores ++ [List.replicate n none'] } ⟨h.stores.length, List.range n, false⟩
  | .slice a start stop step => -- 323-339 with a view of `_indices`
    match h.arrays[a]? with
    | none => ⟨h, .error .otherError⟩
    | some arr =>
      if step = 0 then ⟨h, .error .valueError⟩
      else created h ⟨arr.store, (slicePositions arr.idx.length start stop step).filterMap fun p => arr.idx[p]?, arr.ro⟩
  | .index a is => -- 323-339 with a copy of `_indices`
    match h.arrays[a]? with
    | none => ⟨h, .error .otherError⟩
    | some arr =>
      match is.mapM (normIndex arr.idx.length) with
      | none => ⟨h, .error .indexError⟩
      | some ps => created { h with stores := h.stores ++ [ps.filterMap (h.read arr)] } ⟨h.stores.length, List.range ps.length, arr.ro⟩
  | .readOnlyView a => -- 464-470
    match h.arrays[a]? with
    | none => ⟨h, .error .otherError⟩
    | some arr => created h ⟨arr.store, arr.idx, true⟩
  | .clone a => -- 429-446; cloning immutable items gives equal items
    match h.arrays[a]? with
    | none => ⟨h, .error .otherError⟩
    | some arr =>
      created { h with stores := h.stores ++ [(List.range arr.idx.length).filterMap (h.read arr)] } ⟨h.stores.length, List.range arr.idx.length, false⟩
  | .setInt a i x => -- 363-368
    match h.arrays[a]? with
    | none => ⟨h, .error .otherError⟩
    | some arr =>
      if arr.ro then ⟨h, .error .valueError⟩
      else match (normIndex arr.idx.length i).bind fun p => arr.idx[p]? with
        | none => ⟨h, .error .indexError⟩
        | some j => done (writeLoop imm h arr.store [(j, x)])
  | .setSlice a start stop step xs =>
    match h.arrays[a]? with
    | none => ⟨h, .error .otherError⟩
    | some arr =>
      if step = 0 then ⟨h, .error .valueError⟩
      else done (setMany imm h arr (slicePositions arr.idx.length start stop step) xs)
  | .setSliceFrom a start stop step b => -- `b` is read element by element while `a` is written (393-395, 400-402)
    match h.arrays[a]?, h.arrays[b]? with
    | some arr, some src =>
      if arr.ro ∨ step = 0 then ⟨h, .error .valueError⟩
      else
        let targets := (slicePositions arr.idx.length start stop step).filterMap fun p => arr.idx[p]?
        if src.idx.length ≠ targets.length then ⟨h, .error .typeError⟩
        else done (copyLoop imm h arr.store src (targets.zip (List.range src.idx.length)))
    | _, _ => ⟨h, .error .otherError⟩
  | .setIndex a is xs =>
    match h.arrays[a]? with
    | none => ⟨h, .error .otherError⟩
    | some arr =>
      if arr.ro then ⟨h, .error .valueError⟩
      else match is.mapM (normIndex arr.idx.length) with
        | none => ⟨h, .error .indexError⟩
        | some ps => done (setMany imm h arr ps xs)

/-- A history of operations; later operations run whether or not earlier ones raised. -/
def run (imm : V → Option V) (none' : V) (h : Heap V) (ops : List (Op V)) : Heap V := ops.foldl (fun h op => (step imm none' h op).state) h

/-- The empty heap. -/
def empty : Heap V := ⟨[], []⟩

end EvoTorch.ObjectArray
