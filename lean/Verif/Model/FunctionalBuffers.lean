import Verif.Model.NetParams
/-!
The buffers of `ModuleExpectingFlatParameters` (`net/functional.py`), with the storages they live in: the wrapper is made from a network, the network goes on being used and changed by its owner, and the wrapper is called with
inputs on various devices.
-/
namespace EvoTorch.FunctionalBuffers
open EvoTorch
open EvoTorch.NetParams (Param Tensor mkFunctional Functional)
variable {K D X Y : Type} [DecidableEq D]

/-- A tensor on a device. -/
structure Buf (K D : Type) where
  value : Tensor K
  device : D

/-- The tensors in existence; a reference is an index. -/
abbrev Store (K D : Type) := List (Buf K D)

/-- The tensors, the buffers of the network (`net.named_buffers()`, which lists a shared buffer once) and the buffers of the wrapper (`__buffer_dict`). -/
structure World (K D : Type) where
  store : Store K D
  net : List (String × Nat)
  wrapper : List (String × Nat)

/-- `b.clone()` (`net/functional.py 133`). A dangling reference, which does not occur, is left alone. -/
def clone (s : Store K D) (a : Nat) : Store K D × Nat :=
  match s[a]? with
  | some t => (s ++ [t], s.length)
  | none => (s, a)

/-- `torch.as_tensor(b, device=d)` (`net/functional.py 147`), also what `net.to(d)` does with each buffer: the same tensor if it is there already, otherwise a copy. -/
def asTensor (d : D) (s : Store K D) (a : Nat) : Store K D × Nat :=
  match s[a]? with
  | some t => if t.device = d then (s, a) else (s ++ [⟨t.value, d⟩], s.length)
  | none => (s, a)

/-- A loop over named buffers. -/
def forAll (f : Store K D → Nat → Store K D × Nat) : Store K D → List (String × Nat) → Store K D × List (String × Nat)
  | s, [] => (s, [])
  | s, (name, a) :: rest =>
    let r := f s a
    let r' := forAll f r.1 rest
    (r'.1, (name, r.2) :: r'.2)

/-- The constructor (`net/functional.py 133`), as far as buffers are concerned. -/
def make (s : Store K D) (net : List (String × Nat)) : World K D :=
  let r := forAll clone s net
  ⟨r.1, net, r.2⟩

/-- What the references refer to. -/
def look (s : Store K D) (l : List (String × Nat)) : List (String × Buf K D) := l.filterMap fun p => (s[p.2]?).map fun t => (p.1, t)

/-- A call of the wrapper: the number of dimensions of the parameter vector, its elements, the input and the device of the input. -/
structure Call (K D X : Type) where
  ndim : Nat
  vector : List K
  x : X
  device : D

/-- `__call__` (`net/functional.py 158-200`, with `__transfer_buffers`, `net/functional.py 139-147`): the vector is checked before the buffers are transferred. `run` is `functional_call`; it does not change the buffers, as the
documentation demands (`net/functional.py 59-62`). -/
def call (params : List (Param K)) (run : List (Param K) → List (String × Buf K D) → X → Except PyErr Y) (c : Call K D X) (w : World K D) : World K D × Except PyErr Y :=
  let r := forAll (asTensor c.device) w.store w.wrapper
  let w' : World K D := if c.ndim ≠ 1 then w else if c.vector.length ≠ (mkFunctional params []).length then w else ⟨r.1, w.net, r.2⟩
  (w', (mkFunctional params []).call (fun ps x => run ps (look w'.store w'.wrapper) x) c.ndim c.vector c.x)

/-- What happens after the wrapper is made. -/
inductive Event (K D X : Type) where
  /-- the owner of the network changes one of its buffers in place (a forward pass of a batch normalisation, `load_state_dict`, ...) -/
  | change (i : Nat) (value : Tensor K)
  /-- the owner calls `net.to(device)` -/
  | move (device : D)
  /-- the wrapper is called -/
  | call (c : Call K D X)

/-- One event. -/
def step (params : List (Param K)) (run : List (Param K) → List (String × Buf K D) → X → Except PyErr Y) (w : World K D) : Event K D X → World K D
  | .change i value =>
    match w.net[i]? with
    | none => w
    | some p => match w.store[p.2]? with
      | none => w
      | some t => { w with store := w.store.set p.2 ⟨value, t.device⟩ }
  | .move d => let r := forAll (asTensor d) w.store w.net; ⟨r.1, r.2, w.wrapper⟩
  | .call c => (call params run c w).1

/-- An item of the tuple given by the property `buffers`. -/
inductive Item (K D : Type) where
  | str (s : String)
  | tensor (t : Buf K D)

/-- The property `buffers` (`net/functional.py 149-152`): `tuple(self.__buffer_dict)`, the tuple of what one gets by iterating over a dictionary. -/
def buffers (w : World K D) : List (Item K D) := w.wrapper.map fun p => .str p.1

end EvoTorch.FunctionalBuffers
