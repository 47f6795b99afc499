import Verif.Model.GymRun
/-!
The one network with which a neuroevolution problem evaluates all its solutions (`src/evotorch/neuroevolution/neproblem.py`, `gymne.py`, `supervisedne.py`): its parameters are overwritten for every
solution, while its buffers and other attributes, and its mode, stay.

Simplifications. A network is an arbitrary function of its mode, its parameters, what else it holds, an input and a hidden state. What else it holds (`W`) are its buffers, its other attributes such as the
time of a `LocomotorNet`, and the state of the generator from which it draws (`Dropout`). Parameters and solutions are values of the same type, so that a vector of a wrong length (C62) does not occur.
Devices are not modelled (C106).
-/
namespace EvoTorch.SharedNet
open EvoTorch GymRun

variable {P W O A X Hid E G K : Type}

/-- A module object: its parameters, what else it holds, and whether it is in its training mode. -/
structure Obj (P W : Type) where
  params : P
  own : W
  training : Bool
deriving DecidableEq

/-- The method `forward` of a module: from the mode, what the module holds, its parameters, the input and the hidden state (if any) to what the module then holds, the output, and the hidden state. -/
abbrev Forward (P W O A Hid : Type) := Bool → W → P → O → Option Hid → W × A × Option Hid

/-- A module wrapped as a `StatefulModule` (statefulmodule.py 41-107). -/
structure Pol (P W Hid : Type) where
  obj : Obj P W
  hidden : Option Hid := none
deriving DecidableEq

/-- A wrapped module as a policy: `StatefulModule.forward` and `StatefulModule.reset` (statefulmodule.py 56-86), which leaves the module itself as it is, and `train()` and `eval()` (gymne.py 460,
gymne.py 475). -/
def policy (f : Forward P W O A Hid) (noise : G → A → G × A) : Policy (Pol P W Hid) O A G where
  reset h := { h with hidden := none }
  mode b h := { h with obj := { h.obj with training := b } }
  act h o :=
    let r := f h.obj.training h.obj.own h.obj.params o h.hidden
    (⟨{ h.obj with own := r.1 }, r.2.2⟩, r.2.1)
  noise := noise

/-- `fill_parameters` (net/misc.py 26-46). -/
def fill (x : P) (h : Pol P W Hid) : Pol P W Hid := { h with obj := { h.obj with params := x } }

/-- `_evaluate` of a `GymNE` (neproblem.py 407-429): the network of the problem gets the parameters, and is run. -/
def evaluateSolution [Field K] (env : Env E O A K) (f : Forward P W O A Hid) (noise : G → A → G × A) (c : Settings O K) (fuel : ℕ) (x : P) (s : St E O G (Pol P W Hid)) :
    Option (St E O G (Pol P W Hid) × Except PyErr K) := evaluate env (policy f noise) c fuel { s with pol := fill x s.pol }

/-- The loop of `_evaluate_batch` (core.py 2597-2612): one solution after the other. -/
def evaluateAll [Field K] (env : Env E O A K) (f : Forward P W O A Hid) (noise : G → A → G × A) (c : Settings O K) (fuel : ℕ) : List P → St E O G (Pol P W Hid) →
    Option (St E O G (Pol P W Hid) × List (Except PyErr K))
  | [], s => some (s, [])
  | x :: xs, s => (evaluateSolution env f noise c fuel x s).bind fun r => (evaluateAll env f noise c fuel xs r.1).map fun q => (q.1, r.2 :: q.2)

/-- `make_net` (neproblem.py 323-340) and so `to_policy` (gymne.py 646-672; the wrapper modules are those of C107): the problem, whose network gets the parameters, and a copy of the network. -/
def exportNet (x : P) (s : St E O G (Pol P W Hid)) : St E O G (Pol P W Hid) × Obj P W := ({ s with pol := fill x s.pol }, (fill x s.pol).obj)

/-- `run` with a module of the user (gymne.py 453-475): the module afterwards, and what `run` returns. -/
def runGiven [Field K] (env : Env E O A K) (f : Forward P W O A Hid) (noise : G → A → G × A) (c : Settings O K) (fuel : ℕ) (given : Obj P W) (s : St E O G (Pol P W Hid)) :
    Option (Obj P W × Except PyErr (Result K)) :=
  (run env (policy f noise) c fuel false false none none { s with pol := ⟨given, none⟩ }).map fun r => (r.1.pol.obj, r.2)

/-- The actions of a module which the user calls on one observation after the other. -/
def acts (f : Forward P W O A Hid) : Obj P W → Option Hid → List O → List A
  | _, _, [] => []
  | m, h, o :: os => let r := f m.training m.own m.params o h; r.2.1 :: acts f { m with own := r.1 } r.2.2 os

/-! ### SupervisedNE -/

/-- `_evaluate_network` of `SupervisedNE` with common minibatches (supervisedne.py 334-342): the loss of every minibatch, divided by their number, is added up; the mode of the network is not touched. -/
def loss [Field K] (f : Forward P W O A Hid) (lossFn : A → X → K) (batches : List (O × X)) : List (O × X) → K → Obj P W → Obj P W × K
  | [], acc, m => (m, acc)
  | b :: bs, acc, m =>
    let r := f m.training m.own m.params b.1 none
    loss f lossFn batches bs (acc + lossFn r.2.1 b.2 / (batches.length : K)) { m with own := r.1 }

/-- All solutions of a batch, one after the other with the same network (supervisedne.py 344-348, neproblem.py 407-429). -/
def supervised [Field K] (f : Forward P W O A Hid) (lossFn : A → X → K) (batches : List (O × X)) : List P → Obj P W → Obj P W × List K
  | [], m => (m, [])
  | x :: xs, m =>
    let r := loss f lossFn batches batches 0 { m with params := x }
    let q := supervised f lossFn batches xs r.1
    (q.1, r.2 :: q.2)

/-! ### Whose module the network of a problem is -/

/-- What the user gives as the network: a module object of theirs, or something from which a new module is made (a string or a callable). -/
inductive Source (P W : Type) where
  | module (i : ℕ)
  | maker (m : Obj P W)

/-- The module objects of the process. -/
structure Objs (P W : Type) where
  at_ : ℕ → Obj P W
  next : ℕ

/-- `_instantiate_net` (neproblem.py 292-315) on the cpu: a given module is used itself. The index is that of the network of the problem. -/
def instantiate (m : Objs P W) : Source P W → Objs P W × ℕ
  | .module i => (m, i)
  | .maker o => (⟨fun j => if j = m.next then o else m.at_ j, m.next + 1⟩, m.next)

/-- `parameterize_net` (neproblem.py 342-363) on network `i`. -/
def parameterize (m : Objs P W) (i : ℕ) (x : P) : Objs P W := { m with at_ := fun j => if j = i then { m.at_ j with params := x } else m.at_ j }

/-- The solutions `xs` are evaluated, as far as the parameters are concerned (neproblem.py 424). -/
def parameterizeAll (m : Objs P W) (i : ℕ) : List P → Objs P W
  | [] => m
  | x :: xs => parameterizeAll (parameterize m i x) i xs

end EvoTorch.SharedNet
