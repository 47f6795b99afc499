import Verif.Model.Base
import Verif.Model.Heap
import Mathlib.Data.Nat.Notation
/-!
`dtype_of_container` and `device_of_container` (`src/evotorch/tools/misc.py`): one traversal of an object graph, with dtypes or devices as labels `D`; and `cast_tensors_in_container`.

Objects are numbered (`id`); the heap gives for each what it is. Python's recursion limit is not modelled: recursion is bounded by a fuel argument which a theorem shows to be
sufficient (`none`: not enough fuel).
-/
namespace EvoTorch.ContainerDtype
open EvoTorch

/-- What an object is, in the order of the checks (misc.py 480-499): a tensor with its dtype (or device), a basic object (None, number, string, bytes, bool), a mapping with its values, another iterable
with its items (sets, lists, tuples), or something else. -/
inductive Node (D : Type) where
  | tensor (d : D)
  | basic
  | mapping (values : List ℕ)
  | iterable (items : List ℕ)
  | unknown

variable {D : Type} [DecidableEq D]

/-- The objects which the traversal enters. -/
def Node.kids : Node D → List ℕ
  | .mapping l => l
  | .iterable l => l
  | _ => []

/-- `result.update` (misc.py 468-475, and misc.py 550-557 for devices). -/
def update (cur new : Option D) : Except PyErr (Option D) :=
  match new with
  | none => .ok cur
  | some d =>
    match cur with
    | none => .ok (some d)
    | some c => if d ≠ c then .error .valueError else .ok (some c)

/-- What a call returns and the dictionary `visited`. -/
abbrev Ret (D : Type) := Except PyErr (Option D × List (ℕ × Option D))

/-- The loops over the contents (misc.py 486-488, misc.py 493-495): `f` is the recursive call. -/
def loop (f : ℕ → List (ℕ × Option D) → Option (Ret D)) : List ℕ → Option D → List (ℕ × Option D) → Option (Ret D)
  | [], cur, vis => some (.ok (cur, vis))
  | x :: xs, cur, vis =>
    match f x vis with
    | none => none
    | some (.error e) => some (.error e)
    | some (.ok (r, vis)) =>
      match update cur r with
      | .error e => some (.error e)
      | .ok cur => loop f xs cur vis

/-- `visited[container_id] = result.dtype` (misc.py 501-502) after the loop. -/
def finish (x : ℕ) : Option (Ret D) → Option (Ret D)
  | some (.ok (r, vis)) => some (.ok (r, (x, r) :: vis))
  | other => other

/-- `dtype_of_container(container, visited=.., visiting=..)` (misc.py 451-502) and `device_of_container` (misc.py 533-584). `visiting` is passed by value: each call removes what it added
(`finally`). -/
def go (heap : ℕ → Node D) : ℕ → ℕ → List (ℕ × Option D) → List ℕ → Option (Ret D)
  | 0, _, _, _ => none
  | fuel + 1, x, vis, act =>
    match vis.lookup x with
    | some r => some (.ok (r, vis))
    | none =>
      if x ∈ act then some (.ok (none, vis))
      else
        match heap x with
        | .tensor d => some (.ok (some d, (x, some d) :: vis))
        | .basic => some (.ok (none, (x, none) :: vis))
        | .mapping l => finish x (loop (fun y v => go heap fuel y v (x :: act)) l none vis)
        | .iterable l => finish x (loop (fun y v => go heap fuel y v (x :: act)) l none vis)
        | .unknown => some (.error .typeError)

/-- `dtype_of_container(container)` (misc.py 422-502). -/
def labelOf (heap : ℕ → Node D) (fuel root : ℕ) : Option (Except PyErr (Option D)) := (go heap fuel root [] []).map fun r => r.map (·.1)

/-! ### Casting -/

/-- What `cast_tensors_in_container` (misc.py 370-419) does with each kind of object, as an action of the memoised traversal of `Verif.Model.Heap`. `cast` changes the dtype or the device of the
data of a tensor; `as_tensor` returns the tensor itself if there is nothing to change. Sets, mappings and tuples keep their kind, other iterables become lists. Not modelled: named tuples, objects
which are not iterable (TypeError), frozen sets (they become lists). The items of a set stay hashable (tensors, tuples). -/
def castAct {A : Type} [DecidableEq A] (cast : A → A) : Heap.Kind A → Heap.Action A
  | .tensor d ro => if cast d = d then .keep else .copy (.tensor (cast d) ro) false
  | .set => .copy .set false
  | .dict ks => .copy (.dict ks) false
  | .immDict ks => .copy (.dict ks) false
  | .tuple => .late .tuple
  | .list => .copy .list false
  | .immList => .copy .list false
  | .immSet => .copy .list false

/-- `cast_tensors_in_container(container, dtype=.., device=..)` (misc.py 347-419). -/
def castTensors {A : Type} [DecidableEq A] (cast : A → A) (heap : List (Heap.Node A)) (v : Heap.Val A) := Heap.call (castAct cast) heap v

end EvoTorch.ContainerDtype
