import Verif.Model.ObjectArray
/-!
The other ways to make an `ObjectArray`: its constructor, `repeat`, and the conversions to and from numpy arrays (`src/evotorch/tools/objectarray.py`). The heap is that of `Verif.Model.ObjectArray`.
`imm` is `as_immutable`, `thaw` is `mutable_copy`; cloning immutable items gives equal items.
-/
namespace EvoTorch.ObjectArray
variable {V : Type}

/-- The `size` argument: a number, a one-dimensional sequence, or an array with more dimensions. -/
inductive Size where
  | int (n : Int)
  | seq (ns : List Int)
  | nested

/-- What is selected by `slice_of`: a slice with a positive step, a sequence of integers, or something which is not a slice (an integer or a tuple). -/
inductive Slicing where
  | slice (start stop : Option Int) (step : Nat)
  | indices (is : List Int)
  | invalid

/-- `ObjectArray(size)` (objectarray.py 170-179, 200-201). `[length] = size` raises a ValueError unless there is exactly one element; `torch.arange` refuses negative numbers. -/
def newSized (none' : V) (h : Heap V) (size : Size) : Outcome (Heap V) Nat :=
  let make (n : Int) : Outcome (Heap V) Nat :=
    if n < 0 then ⟨h, .error .runtimeError⟩
    else ⟨⟨h.stores ++ [List.replicate n.toNat none'], h.arrays ++ [⟨h.stores.length, List.range n.toNat, false⟩]⟩, .ok h.arrays.length⟩
  match size with
  | .int n => make n
  | .nested => ⟨h, .error .valueError⟩
  | .seq [n] => make n
  | .seq _ => ⟨h, .error .valueError⟩

/-- `ObjectArray(slice_of=(source, slicing))` (objectarray.py 180-198, 200-201). The source is a handle; `none`: not an ObjectArray. Indexing with a list copies `_indices`, and then the whole list of objects is cloned. -/
def newSlice (h : Heap V) (source : Option Nat) (slicing : Slicing) : Outcome (Heap V) Nat :=
  match source.bind fun a => h.arrays[a]? with
  | none => ⟨h, .error .typeError⟩
  | some arr =>
    match slicing with
    | .invalid => ⟨h, .error .typeError⟩
    | .slice start stop step =>
      if step = 0 then ⟨h, .error .valueError⟩
      else ⟨{ h with arrays := h.arrays ++ [⟨arr.store, (slicePositions arr.idx.length start stop step).filterMap fun p => arr.idx[p]?, false⟩] }, .ok h.arrays.length⟩
    | .indices is =>
      match is.mapM (normIndex arr.idx.length) with
      | none => ⟨h, .error .indexError⟩
      | some ps => ⟨⟨h.stores ++ [h.store arr], h.arrays ++ [⟨h.stores.length, ps.filterMap fun p => arr.idx[p]?, false⟩]⟩, .ok h.arrays.length⟩

/-- The constructor (objectarray.py 139-201). -/
def construct (none' : V) (h : Heap V) (size : Option Size) (sliceOf : Option (Option Nat × Slicing)) : Outcome (Heap V) Nat :=
  match size, sliceOf with
  | some _, some _ => ⟨h, .error .valueError⟩
  | none, none => ⟨h, .error .valueError⟩
  | some s, none => newSized none' h s
  | none, some (source, slicing) => newSlice h source slicing

/-- A positional argument of `repeat`: an integer or a tuple. -/
inductive RepArg where
  | int (n : Int)
  | tuple (ns : List Int)

/-- The loop of `repeat` (objectarray.py 291-294): `n` assignments from `result_index` on. -/
def repeatLoop (imm : V → Option V) (h : Heap V) (dst : Nat) (src : Arr) : (n resultIndex sourceIndex : Nat) → Outcome (Heap V) Unit
  | 0, _, _ => ⟨h, .ok ()⟩
  | n + 1, k, i =>
    match (h.read src i).bind imm with
    | none => ⟨h, .error .typeError⟩
    | some v => repeatLoop imm (h.write dst k v) dst src n (k + 1) ((i + 1) % src.idx.length)

/-- `repeat(*sizes)` (objectarray.py 244-296): `sizes` is always a tuple, so its only element is taken, and subscripted. -/
def repeat' (imm : V → Option V) (none' : V) (h : Heap V) (a : Nat) (sizes : List RepArg) : Outcome (Heap V) Nat :=
  match h.arrays[a]? with
  | none => ⟨h, .error .otherError⟩
  | some arr =>
    match sizes with
    | [.int _] => ⟨h, .error .typeError⟩
    | [.tuple []] => ⟨h, .error .indexError⟩
    | [.tuple (n :: _)] =>
      let o := newSized none' h (.int (n * arr.idx.length))
      match o.result with
      | .error e => ⟨o.state, .error e⟩
      | .ok b =>
        let l := repeatLoop imm o.state h.stores.length arr (n * arr.idx.length).toNat 0 0
        ⟨l.state, l.result.map fun _ => b⟩
    | _ => ⟨h, .error .valueError⟩

/-- `numpy()` (objectarray.py 485-509): the elements of the array it gives. -/
def toNumpy (thaw : V → V) (h : Heap V) (arr : Arr) : List V := (List.range arr.idx.length).filterMap fun k => (h.read arr k).map thaw

/-- The argument of `from_numpy`: a vector of objects, an array of another dtype, or something else. -/
inductive NpArg (V : Type) where
  | objects (l : List V)
  | numbers
  | other

/-- `from_numpy(ndarray)` (objectarray.py 511-534). -/
def fromNumpy (imm : V → Option V) (none' : V) (h : Heap V) : NpArg V → Outcome (Heap V) Nat
  | .numbers => ⟨h, .error .valueError⟩
  | .other => ⟨h, .error .typeError⟩
  | .objects l =>
    let o := newSized none' h (.int l.length)
    let w := writeLoop imm o.state h.stores.length ((List.range l.length).zip l)
    ⟨w.state, w.result.map fun _ => h.arrays.length⟩

/-- `len`, and with it `shape`, `size()`, `ndim`, `dim()` and `numel()` (objectarray.py 203-242, 397-398). -/
def length (arr : Arr) : Nat := arr.idx.length

end EvoTorch.ObjectArray
