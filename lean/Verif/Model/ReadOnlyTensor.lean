import Verif.Model.Base
import Mathlib.Data.Nat.Notation
/-!
Model of `src/evotorch/tools/readonlytensor.py`.

Storages are numbered; `C` is the content of a storage. The user holds handles: plain tensors, read-only tensors and numpy arrays, each looking at one storage. What a torch method computes,
whether its result shares the storage of the tensor, and which of the torch methods modify their tensor (`mutates`) are arbitrary; the name rules are those of the code.
Names are lists of characters.
-/
namespace EvoTorch.ReadOnly
open EvoTorch

/-- The class of an object: `torch.Tensor`, `ReadOnlyTensor`, numpy array (writeable or not). -/
inductive Kind where
  | plain | readOnly | array (writeable : Bool)
  deriving DecidableEq

/-- An object and its storage. -/
structure Handle where
  storage : ℕ
  kind : Kind

/-- Contents of the storages, number of storages, objects held by the user. -/
structure State (C : Type) where
  mem : ℕ → C
  fresh : ℕ
  handles : List Handle

variable {C : Type}

/-- `name.endswith("_") and not (name.startswith("__") and name.endswith("__"))` (readonlytensor.py 46-50). -/
def blocked (name : List Char) : Bool :=
  ['_'].isSuffixOf name && !(['_', '_'].isPrefixOf name && ['_', '_'].isSuffixOf name)

/-- The members set to `__cannot_modify` (readonlytensor.py 61-75). -/
def cannotModify : List (List Char) :=
  ["__setitem__", "__iadd__", "__iand__", "__idiv__", "__ifloordiv__", "__ilshift__", "__imatmul__", "__imod__", "__imul__", "__ior__", "__ipow__",
    "__irshift__", "__isub__", "__itruediv__", "__ixor__"].map String.toList

/-- The members which return a plain tensor if the result does not share the storage (readonlytensor.py 107-113). -/
def independentAware : List (List Char) := ["__getitem__", "reshape"].map String.toList

/-- Write into a storage. -/
def State.write (s : State C) (a : ℕ) (c : C) : State C := { s with mem := fun b => if b = a then c else s.mem b }

/-- A new handle, for the given storage or for a new one with content `c`. -/
def State.give (s : State C) (shared : Bool) (a : ℕ) (c : C) (k : Kind) : State C :=
  if shared then { s with handles := s.handles ++ [⟨a, k⟩] }
  else ⟨fun b => if b = s.fresh then c else s.mem b, s.fresh + 1, s.handles ++ [⟨s.fresh, k⟩]⟩

/-- What a method call does in torch: the new content of the tensor's storage (used if the method mutates), whether the result shares the storage, and the content of the result's storage if not. -/
structure Effect (C : Type) where
  content : C
  shared : Bool
  result : C

/-- What the user can do. -/
inductive Op (C : Type) where
  /-- `handles[i].name(...)`; operators and item access are the methods with double underscores -/
  | method (i : ℕ) (name : List Char) (e : Effect C)
  /-- `handles[i].clone(preserve_read_only=...)`, `copy`, `deepcopy` -/
  | clone (i : ℕ) (preserve : Bool)
  /-- `handles[i].numpy()` or `numpy.asarray(handles[i])` -/
  | numpy (i : ℕ)
  /-- `array[...] = ...` -/
  | arrayWrite (i : ℕ) (c : C)
  /-- `read_only_tensor(handles[i])` -/
  | makeReadOnly (i : ℕ)
  /-- `torch.some_function(..., out=handles[i])` -/
  | outOne (i : ℕ) (c : C)
  /-- `torch.some_function(..., out=(..., handles[i], ...))` -/
  | outTuple (i : ℕ) (c : C)
  /-- `torch.as_tensor(array)` -/
  | fromArray (i : ℕ)
  /-- `handles[i].as_subclass(torch.Tensor)` -/
  | asPlain (i : ℕ)

/-- The kind of the result of a method of a read-only tensor (readonlytensor.py 98-113; otherwise `__torch_function__` wraps the result in the class of the tensor). -/
def resultKind (name : List Char) (shared : Bool) : Kind :=
  if independentAware.contains name && !shared then .plain else .readOnly

/-- One operation. -/
def step (mutates : List Char → Bool) (s : State C) : Op C → Outcome (State C) Unit
  | .method i name e =>
    match s.handles[i]? with
    | none => ⟨s, .error .indexError⟩
    | some h =>
      match h.kind with
      | .array _ => ⟨s, .error .attributeError⟩
      | .plain =>
        let s := if mutates name then s.write h.storage e.content else s
        ⟨s.give e.shared h.storage e.result .plain, .ok ()⟩
      | .readOnly =>
        -- readonlytensor.py 45-75
        if blocked name then ⟨s, .error .attributeError⟩
        else if cannotModify.contains name then ⟨s, .error .typeError⟩
        else
          let s := if mutates name then s.write h.storage e.content else s
          ⟨s.give e.shared h.storage e.result (resultKind name e.shared), .ok ()⟩
  | .clone i preserve =>
    match s.handles[i]? with
    | none => ⟨s, .error .indexError⟩
    | some h =>
      match h.kind with
      | .array w => ⟨s.give false h.storage (s.mem h.storage) (.array w), .ok ()⟩
      | .plain => ⟨s.give false h.storage (s.mem h.storage) .plain, .ok ()⟩
      -- readonlytensor.py 92-96, 125-129
      | .readOnly => ⟨s.give false h.storage (s.mem h.storage) (if preserve then .readOnly else .plain), .ok ()⟩
  | .numpy i =>
    match s.handles[i]? with
    | none => ⟨s, .error .indexError⟩
    | some h =>
      match h.kind with
      | .array _ => ⟨s, .error .attributeError⟩
      | .plain => ⟨s.give true h.storage (s.mem h.storage) (.array true), .ok ()⟩
      -- readonlytensor.py 115-123
      | .readOnly => ⟨s.give true h.storage (s.mem h.storage) (.array false), .ok ()⟩
  | .arrayWrite i c =>
    match s.handles[i]? with
    | none => ⟨s, .error .indexError⟩
    | some h => if h.kind = .array true then ⟨s.write h.storage c, .ok ()⟩ else ⟨s, .error .valueError⟩
  | .makeReadOnly i =>
    -- readonlytensor.py 186
    match s.handles[i]? with
    | none => ⟨s, .error .indexError⟩
    | some h => ⟨s.give true h.storage (s.mem h.storage) .readOnly, .ok ()⟩
  | .outOne i c =>
    match s.handles[i]? with
    | none => ⟨s, .error .indexError⟩
    | some h =>
      match h.kind with
      | .array _ => ⟨s, .error .typeError⟩
      | .plain => ⟨s.write h.storage c, .ok ()⟩
      -- readonlytensor.py 133-141
      | .readOnly => ⟨s, .error .typeError⟩
  | .outTuple i c =>
    -- `isinstance(kwargs["out"], ReadOnlyTensor)` is false for a tuple
    match s.handles[i]? with
    | none => ⟨s, .error .indexError⟩
    | some h =>
      match h.kind with
      | .array _ => ⟨s, .error .typeError⟩
      | .plain => ⟨s.write h.storage c, .ok ()⟩
      | .readOnly => ⟨s.write h.storage c, .ok ()⟩
  | .fromArray i =>
    -- torch only warns if the array is not writeable
    match s.handles[i]? with
    | none => ⟨s, .error .indexError⟩
    | some h =>
      match h.kind with
      | .array _ => ⟨s.give true h.storage (s.mem h.storage) .plain, .ok ()⟩
      | _ => ⟨s, .error .typeError⟩
  | .asPlain i =>
    match s.handles[i]? with
    | none => ⟨s, .error .indexError⟩
    | some h =>
      match h.kind with
      | .array _ => ⟨s, .error .attributeError⟩
      | _ => ⟨s.give true h.storage (s.mem h.storage) .plain, .ok ()⟩

/-- A history of operations; exceptions are caught by the user. -/
def run (mutates : List Char → Bool) (s : State C) : List (Op C) → State C
  | [] => s
  | op :: ops => run mutates (step mutates s op).state ops

end EvoTorch.ReadOnly
