import Verif.Model.Base
/-!
Object graphs: `deep_clone` (`src/evotorch/tools/cloning.py`), `as_immutable` and `mutable_copy` (`src/evotorch/tools/immutable.py`).

A heap is a list of nodes; a value is an atom (None, number, string) or a reference to a node. The three functions are the same memoised
traversal with a different treatment of each kind of node (`Action`). Python's recursion limit is not modelled: recursion is bounded by a
fuel argument which the theorems show to be sufficient.
-/
namespace EvoTorch.Heap

/-- A value: an atom or a reference. -/
inductive Val (A : Type) where
  | atom (a : A)
  | ref (p : Nat)
deriving DecidableEq, Repr

/-- Kinds of objects. Dictionary keys are atoms (tuples as keys are not modelled). A tensor (or numeric numpy array) is its data and whether it is
read-only. -/
inductive Kind (A : Type) where
  | list | tuple | set
  | dict (keys : List A)
  | tensor (data : A) (ro : Bool)
  | immList | immSet
  | immDict (keys : List A)
deriving DecidableEq, Repr

/-- An object: its kind and the values it holds (items, or the values of a dictionary in the order of its keys). -/
structure Node (A : Type) where
  kind : Kind A
  kids : List (Val A)
deriving DecidableEq, Repr

/-- What a traversal does with an object it meets for the first time. -/
inductive Action (A : Type) where
  /-- return the object itself -/
  | keep
  /-- raise TypeError -/
  | fail
  /-- make a new object of this kind, enter it into the memo, then translate the contents into it; if `hash`, the new contents must be hashable -/
  | copy (k : Kind A) (hash : Bool)
  /-- collect the translated contents in a temporary list, which is what the memo has meanwhile; then make the object and correct the memo -/
  | late (k : Kind A)

structure St (A : Type) where
  heap : List (Node A)
  memo : List (Nat × Nat)
deriving DecidableEq, Repr

variable {A : Type}

/-- `result.append(v)` for the object at `q`. -/
def push (q : Nat) (v : Val A) (st : St A) : St A := { st with heap := st.heap.modify q fun nd => { nd with kids := nd.kids ++ [v] } }

/-- Instances of the immutable containers define `__eq__` without `__hash__`, so they cannot be put into a set (`immutable.py:171`, 201). -/
def hashable (heap : List (Node A)) : Val A → Bool
  | .atom _ => true
  | .ref p => match heap[p]? with
    | some ⟨.tensor _ _, _⟩ => true
    | some ⟨.tuple, _⟩ => true
    | _ => false

/-- The memoised traversal common to `deep_clone` (`cloning.py:103-199`), `as_immutable` (`immutable.py:57-96` with the constructors 151-155, 197-201,
243-261) and `mutable_copy` (`immutable.py:106-126` with 188-193, 213-218, 274-281). -/
def copyVal (act : Kind A → Action A) : Nat → St A → Val A → Except PyErr (St A × Val A)
  | _, st, .atom a => .ok (st, .atom a)
  | 0, _, .ref _ => .error .recursionError
  | fuel + 1, st, .ref p =>
    match st.memo.lookup p with
    | some q => .ok (st, .ref q)
    | none =>
      match st.heap[p]? with
      | none => .error .otherError
      | some nd =>
        match act nd.kind with
        | .keep => .ok (st, .ref p)
        | .fail => .error .typeError
        | .copy k hash => do
          let q := st.heap.length
          let st1 : St A := ⟨st.heap ++ [⟨k, []⟩], (p, q) :: st.memo⟩
          let st2 ← nd.kids.foldlM (fun s kid => do
            let r ← copyVal act fuel s kid
            pure (push q r.2 r.1)) st1
          if hash && ((st2.heap[q]?.map (·.kids)).getD []).any (fun v => !hashable st2.heap v) then .error .typeError
          else pure (st2, .ref q)
        | .late k => do
          let q := st.heap.length
          let st1 : St A := ⟨st.heap ++ [⟨.list, []⟩], (p, q) :: st.memo⟩
          let st2 ← nd.kids.foldlM (fun s kid => do
            let r ← copyVal act fuel s kid
            pure (push q r.2 r.1)) st1
          let q2 := st2.heap.length
          pure (⟨st2.heap ++ [⟨k, (st2.heap[q]?.map (·.kids)).getD []⟩], (p, q2) :: st2.memo⟩, .ref q2)

/-- `deep_clone`, `cloning.py:141-181`: containers are rebuilt with the same type (tuples only after their items), tensors copied, immutable containers
cloned with `preserve_read_only=True`. -/
def cloneAct : Kind A → Action A
  | .tuple => .late .tuple
  | k => .copy k false

/-- `as_immutable`, `immutable.py:63-91`: immutable containers and read-only tensors are returned as they are; lists and tuples (and any other
iterable) become `ImmutableList`. -/
def immAct : Kind A → Action A
  | .list => .copy .immList false
  | .tuple => .copy .immList false
  | .set => .copy .immSet true
  | .dict ks => .copy (.immDict ks) false
  | .tensor d false => .copy (.tensor d true) false
  | .tensor _ true => .keep
  | .immList => .keep
  | .immSet => .keep
  | .immDict _ => .keep

/-- `mutable_copy`, `immutable.py:110-121`: mutable lists, tuples, sets and dictionaries are refused. -/
def mutAct : Kind A → Action A
  | .immList => .copy .list false
  | .immSet => .copy .set false
  | .immDict ks => .copy (.dict ks) false
  | .tensor d _ => .copy (.tensor d false) false
  | .list => .fail
  | .tuple => .fail
  | .set => .fail
  | .dict _ => .fail

/-- A call with an empty memo. -/
def call (act : Kind A → Action A) (heap : List (Node A)) (v : Val A) : Except PyErr (List (Node A) × Val A) :=
  (copyVal act (heap.length + 1) ⟨heap, []⟩ v).map fun r => (r.1.heap, r.2)

def deepClone (heap : List (Node A)) (v : Val A) := call cloneAct heap v
def asImmutable (heap : List (Node A)) (v : Val A) := call immAct heap v
def mutableCopy (heap : List (Node A)) (v : Val A) := call mutAct heap v

end EvoTorch.Heap
