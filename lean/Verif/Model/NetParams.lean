import Verif.Model.Base
import Mathlib.Data.Nat.Notation
/-!
Model of the flat parameter vectors of neural networks: `src/evotorch/neuroevolution/net/misc.py` (`fill_parameters`, `parameter_vector`,
`count_parameters`) and `net/functional.py` (`ModuleExpectingFlatParameters`).

A network is the list of its parameters in the order of `net.named_parameters()`; each has its own storage (shared parameters occur once in that
list, overlapping ones are not modelled). Devices, dtypes and autograd are not modelled. What the network computes from its parameters, buffers
and input is an arbitrary function.
-/
namespace EvoTorch.NetParams
open EvoTorch

/-- A tensor: shape and elements in row-major order. -/
structure Tensor (K : Type) where
  shape : List ℕ
  data : List K

/-- A named parameter. -/
structure Param (K : Type) where
  name : String
  value : Tensor K

variable {K : Type}

/-- `d[:] = vector[address : address + n]` for a flat view `d` with `n` elements (net/misc.py 42): a slice with one element is broadcast, a slice with another
wrong length is a RuntimeError. -/
def assign (n : ℕ) (slice : List K) : Except PyErr (List K) :=
  if slice.length = n then .ok slice
  else match slice with
    | [x] => .ok (List.replicate n x)
    | _ => .error .runtimeError

/-- The loop of `fill_parameters` (net/misc.py 38-43): the parameters after the loop, and the address reached or the exception. -/
def fillLoop (vector : List K) : ℕ → List (Param K) → Outcome (List (Param K)) ℕ
  | address, [] => ⟨[], .ok address⟩
  | address, p :: ps =>
    let n := p.value.data.length
    match assign n ((vector.drop address).take n) with
    | .error e => ⟨p :: ps, .error e⟩
    | .ok d =>
      let r := fillLoop vector (address + n) ps
      ⟨{ p with value := { p.value with data := d } } :: r.state, r.result⟩

/-- `fill_parameters` (net/misc.py 26-46). -/
def fillParameters (net : List (Param K)) (vector : List K) : Outcome (List (Param K)) Unit :=
  let r := fillLoop vector 0 net
  match r.result with
  | .error e => ⟨r.state, .error e⟩
  | .ok address => ⟨r.state, if address ≠ vector.length then .error .indexError else .ok ()⟩

/-- `parameter_vector` (net/misc.py 50-70): `torch.cat` of an empty list is a RuntimeError. -/
def parameterVector (net : List (Param K)) : Except PyErr (List K) :=
  match net with
  | [] => .error .runtimeError
  | _ => .ok (net.flatMap fun p => p.value.data)

/-- `count_parameters` (net/misc.py 73-88). -/
def countParameters (net : List (Param K)) : ℕ := net.foldl (fun c p => c + p.value.data.length) 0

/-- `_shape_length` (net/functional.py 29-43). -/
def shapeLength (shape : List ℕ) : ℕ := shape.foldl (· * ·) 1

/-- `ModuleExpectingFlatParameters` (net/functional.py 46-137): names, shapes, slices, total length, buffers. -/
structure Functional (K : Type) where
  names : List String
  shapes : List (List ℕ)
  slices : List (ℕ × ℕ)
  length : ℕ
  buffers : List (Param K)

/-- The loop of the constructor (net/functional.py 116-131), from position `i`. -/
def sliceLoop : ℕ → List (Param K) → List (ℕ × ℕ)
  | _, [] => []
  | i, p :: ps =>
    let j := i + shapeLength p.value.shape
    (i, j) :: sliceLoop j ps

/-- `ModuleExpectingFlatParameters.__init__` (net/functional.py 95-137). -/
def mkFunctional (net buffers : List (Param K)) : Functional K where
  names := net.map Param.name
  shapes := net.map fun p => p.value.shape
  slices := sliceLoop 0 net
  length := net.foldl (fun c p => c + shapeLength p.value.shape) 0
  buffers := buffers

/-- `parameter_vector[param_slice].reshape(param_shape)` for each parameter (net/functional.py 183-187). -/
def cut (vector : List K) : List String → List (List ℕ) → List (ℕ × ℕ) → List (Param K)
  | n :: ns, s :: ss, (i, j) :: ij => ⟨n, ⟨s, (vector.take j).drop i⟩⟩ :: cut vector ns ss ij
  | _, _, _ => []

/-- `__call__` (net/functional.py 158-200): `run` is `functional_call`, which runs the network with the given named tensors. A parameter and a buffer never have
the same name, so that updating the dictionary appends. -/
def Functional.call {X Y : Type} (f : Functional K) (run : List (Param K) → X → Except PyErr Y) (ndim : ℕ) (vector : List K) (x : X) :
    Except PyErr Y :=
  if ndim ≠ 1 then .error .valueError
  else if vector.length ≠ f.length then .error .valueError
  else run (cut vector f.names f.shapes f.slices ++ f.buffers) x

end EvoTorch.NetParams
