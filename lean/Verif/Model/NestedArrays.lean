import Verif.Model.ObjectArray
/-!
Object arrays inside containers: `as_immutable` and `mutable_copy` (`src/evotorch/tools/immutable.py`), `deep_clone` (`src/evotorch/tools/cloning.py`), `ObjectArray.clone`, `ObjectArray.numpy` and
`ObjectArray.__setstate__` (`src/evotorch/tools/objectarray.py`), on values which may hold object arrays and numpy arrays of objects.

Values are finite trees: sharing and cycles (the memo) are the subject of `Verif.Model.Heap`, views of one store that of `Verif.Model.ObjectArray`. Sets and dictionaries are not modelled here (see
`Verif.Model.ImmutableContainers`).
-/
namespace EvoTorch.NestedArrays
variable {A D : Type}

/-- Values: atoms (None, numbers, strings), numeric numpy arrays with `flags["WRITEABLE"]`, tensors (`ro`: `ReadOnlyTensor`), numpy arrays of objects, lists (and other iterables),
`ImmutableList`s, `ObjectArray`s with their read-only flag, and objects of any other type. Lists and numpy arrays of objects have an
identity. -/
inductive T (A D : Type) where
  | atom (a : A)
  | arr (d : D) (w : Bool)
  | ten (d : D) (ro : Bool)
  | npobj (i : Nat) (l : List (T A D))
  | list (i : Nat) (l : List (T A D))
  | imm (l : List (T A D))
  | objs (ro : Bool) (l : List (T A D))
  | opaque

mutual
/-- `mutable_copy` (immutable.py 110-121) with `ReadOnlyTensor.clone` (readonlytensor.py 92-96), `ImmutableList._get_mutable_clone` (immutable.py 188-193), `ObjectArray.clone` without
`preserve_read_only` (objectarray.py 429-430) and `ObjectArray.numpy` (objectarray.py 485-508). `x.copy()` of a numpy array is writeable and, for objects, copies the references. The new containers
get the identity `g`. -/
def thaw (g : Nat) : T A D → Except PyErr (T A D)
  | .atom a => .ok (.atom a)
  | .arr d _ => .ok (.arr d true)
  | .ten d _ => .ok (.ten d false)
  | .npobj _ l => .ok (.npobj g l)
  | .objs _ l => (thawAll g l).map (.npobj g)
  | .imm l => (thawAll g l).map (.list g)
  | .list _ _ => .error .typeError
  | .opaque => .error .typeError
def thawAll (g : Nat) : List (T A D) → Except PyErr (List (T A D))
  | [] => .ok []
  | x :: xs => (thaw g x).bind fun y => (thawAll g xs).map (y :: ·)
end

mutual
/-- `as_immutable` (immutable.py 27-47, 63-91), with `ImmutableSequence.__init__` (immutable.py 151-155) and `ObjectArray.set_item` at an integer (objectarray.py 341-342, 366-368). Line 69 is
`x.clone().get_read_only_view()`: without arguments, `clone` gives a numpy array (objectarray.py 429-430), which has no such method. -/
def freeze : T A D → Except PyErr (T A D)
  | .atom a => .ok (.atom a)
  | .arr d _ => .ok (.arr d false)
  | .ten d _ => .ok (.ten d true)
  | .npobj _ l => (freezeAll l).map (.objs true)
  | .list _ l => (freezeAll l).map .imm
  | .imm l => .ok (.imm l)
  | .objs true l => .ok (.objs true l)
  | .objs false l => (thawAll 0 l).bind fun _ => .error .attributeError
  | .opaque => .error .typeError
def freezeAll : List (T A D) → Except PyErr (List (T A D))
  | [] => .ok []
  | x :: xs => (freeze x).bind fun y => (freezeAll xs).map (y :: ·)
end

mutual
/-- `deep_clone` with `otherwise_deepcopy=True` (cloning.py 141-199), with `ReadOnlyClonable.clone`, `__copy__` and `__deepcopy__` (cloning.py 312-339), `Clonable.clone` (cloning.py 235-246),
`ImmutableContainer._get_cloned_state` (immutable.py 130-131) and `ObjectArray.clone(preserve_read_only=True)`, `__copy__`, `__deepcopy__` (objectarray.py 404-446): a new `ObjectArray` is filled with
the clones of the items by `result[i] = ...`, which makes them immutable; its read-only flag is not set. Objects of other types are deep-copied. New
containers get the identity `g`; `x.copy()` of a numpy array of objects copies the references. -/
def clone (g : Nat) : T A D → Except PyErr (T A D)
  | .atom a => .ok (.atom a)
  | .arr d w => .ok (.arr d w)
  | .ten d ro => .ok (.ten d ro)
  | .npobj _ l => .ok (.npobj g l)
  | .list _ l => (cloneAll g l).map (.list g)
  | .imm l => (cloneAll g l).map .imm
  | .objs _ l => (cloneItems g l).map (.objs false)
  | .opaque => .ok .opaque
def cloneAll (g : Nat) : List (T A D) → Except PyErr (List (T A D))
  | [] => .ok []
  | x :: xs => (clone g x).bind fun y => (cloneAll g xs).map (y :: ·)
/-- The loop of `ObjectArray.clone` (objectarray.py 435-436). -/
def cloneItems (g : Nat) : List (T A D) → Except PyErr (List (T A D))
  | [] => .ok []
  | x :: xs => ((clone g x).bind freeze).bind fun y => (cloneItems g xs).map (y :: ·)
end

/-- `v.flags["WRITEABLE"] = False` for numpy arrays (immutable.py 145-147, objectarray.py 453-455). An array of objects with this flag set is not distinguished. -/
def reseal : T A D → T A D
  | .arr d _ => .arr d false
  | x => x

mutual
/-- `pickle.loads(pickle.dumps(x))`: numpy arrays become writeable; `ImmutableContainer.__setstate__` (immutable.py 133-147) and `ObjectArray.__setstate__` (objectarray.py 448-455) seal those which
are items. Pickling keeps the class of a tensor and all else. -/
def pickled : T A D → T A D
  | .atom a => .atom a
  | .arr d _ => .arr d true
  | .ten d ro => .ten d ro
  | .npobj i l => .npobj i (pickledAll l)
  | .list i l => .list i (pickledAll l)
  | .imm l => .imm ((pickledAll l).map reseal)
  | .objs ro l => .objs ro ((pickledAll l).map reseal)
  | .opaque => .opaque
def pickledAll : List (T A D) → List (T A D)
  | [] => []
  | x :: xs => pickled x :: pickledAll xs
end

/-- `as_immutable(a)` for an array of the heap of object arrays (immutable.py 39-47, 63-65, 68-69): a read-only array is returned as it is. -/
def asImmutableArray {V : Type} (h : ObjectArray.Heap V) (a : Nat) : Except PyErr Nat :=
  match h.arrays[a]? with
  | none => .error .otherError
  | some arr => if arr.ro then .ok a else .error .attributeError

end EvoTorch.NestedArrays
