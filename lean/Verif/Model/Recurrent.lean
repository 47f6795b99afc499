import Verif.Model.Base
import Mathlib.Data.Nat.Notation
/-!
Model of `src/evotorch/neuroevolution/net/multilayered.py` and `net/statefulmodule.py`.

Python objects which can be passed between layers are elements of `X`; hidden states are elements of `H`, with `None` as `none`. A module is an arbitrary function of its
input and of the hidden state (`none`: called without one).
-/
namespace EvoTorch.Recurrent
open EvoTorch

/-- What a module call returns: a tensor, a tuple of two elements (the second may be None), a tuple of another length, some other object. -/
inductive Res (X H : Type) where
  | tensor (x : X)
  | pair (x : X) (h : Option H)
  | tuple (n : ℕ)
  | other (x : X)

/-- A module. -/
abbrev Module (X H : Type) := X → Option H → Except PyErr (Res X H)

variable {X H : Type}

/-- `h.get(i, None)` for a dictionary from layer numbers to states. -/
def get (h : List (ℕ × H)) (i : ℕ) : Option H := h.lookup i

/-- Evaluation of one layer's result (multilayered.py 39-54). -/
def unpack : Res X H → Except PyErr (X × Option H)
  | .pair x h => .ok (x, h)
  | .tuple _ => .error .valueError
  | .tensor x => .ok (x, none)
  | .other _ => .error .typeError

/-- `if layer_new_h is not None: new_h[i] = layer_new_h` (multilayered.py 56-57). -/
def store (newH : List (ℕ × H)) (i : ℕ) : Option H → List (ℕ × H)
  | none => newH
  | some h => newH ++ [(i, h)]

/-- The loop of `MultiLayered.forward` (multilayered.py 32-57) from layer `i`. -/
def multiLoop (h : List (ℕ × H)) : ℕ → List (Module X H) → X → List (ℕ × H) → Except PyErr (X × List (ℕ × H))
  | _, [], x, newH => .ok (x, newH)
  | i, layer :: layers, x, newH =>
    (layer x (get h i)).bind fun r => (unpack r).bind fun (x, hi) => multiLoop h (i + 1) layers x (store newH i hi)

/-- `MultiLayered.forward` (multilayered.py 26-62): a module whose hidden state is a dictionary from layer numbers to states. -/
def multi (layers : List (Module X H)) : Module X (List (ℕ × H)) := fun x h =>
  (multiLoop (h.getD []) 0 layers x []).bind fun (x, newH) =>
    .ok (if newH.length = 0 then .tensor x else .pair x (some newH))

/-- `StatefulModule.forward` (statefulmodule.py 56-80): the state is `_hidden`. -/
def forward {Y : Type} (wrapped : X → Option H → Except PyErr (Res Y H)) (hidden : Option H) (x : X) : Outcome (Option H) Y :=
  match wrapped x hidden with
  | .error e => ⟨hidden, .error e⟩
  | .ok (.pair y h) => ⟨h, .ok y⟩
  | .ok (.tuple _) => ⟨hidden, .error .valueError⟩
  | .ok (.tensor y) => ⟨none, .ok y⟩
  | .ok (.other y) => ⟨none, .ok y⟩

/-- `StatefulModule.reset` (statefulmodule.py 82-86), and the initial state (statefulmodule.py 51). -/
def reset : Option H := none

/-- What the user does with a stateful module. -/
inductive Op (X : Type) where
  | call (x : X)
  | reset

/-- One operation. -/
def step (wrapped : Module X H) (hidden : Option H) : Op X → Outcome (Option H) (Option X)
  | .reset => ⟨reset, .ok none⟩
  | .call x => ⟨(forward wrapped hidden x).state, (forward wrapped hidden x).result.map some⟩

/-- A history of operations; exceptions are caught by the user. -/
def runOps (wrapped : Module X H) (hidden : Option H) : List (Op X) → Option H
  | [] => hidden
  | op :: ops => runOps wrapped (step wrapped hidden op).state ops

/-- A sequence of calls, up to the first exception. -/
def calls {Y : Type} (wrapped : X → Option H → Except PyErr (Res Y H)) (hidden : Option H) : List X → Except PyErr (List Y)
  | [] => .ok []
  | x :: xs =>
    let r := forward wrapped hidden x
    r.result.bind fun y => (calls wrapped r.state xs).bind fun ys => .ok (y :: ys)

end EvoTorch.Recurrent
