import Verif.Model.Base
import Mathlib.Algebra.BigOperators.Fin
import Mathlib.Algebra.Order.Floor.Ring
import Mathlib.Algebra.Order.Field.Basic
import Mathlib.Algebra.Ring.Parity
/-!
Model of `src/evotorch/neuroevolution/net/layers.py`.

Tensors are vectors with exact arithmetic in a field `K`; elementwise layers are given on one element. Parameters (weights, biases, amplitudes ...) are arguments: their random initialisation is not modelled. Activation
functions, `sin`, `tanh`, `sigmoid` and powers are arguments.
-/
namespace EvoTorch.Layers
open EvoTorch
variable {K : Type}

section ordered
variable [Field K] [LinearOrder K] [IsStrictOrderedRing K]

/-- `Clip.forward` (layers.py 38-39); `clamp(lb, ub)` is `min(max(x, lb), ub)`. -/
def clip (lb ub x : K) : K := min (max x lb) ub

/-- `torch.sign`. -/
def sign (x : K) : K := if x < 0 then -1 else if 0 < x then 1 else 0

/-- `Bin.forward` (layers.py 61-74). Division by a zero `shrink` (lb = ub) gives infinities or NaN in torch; the model's value is meaningless there. -/
def bin (lb ub x : K) : K :=
  let intervalSize := ub - lb
  let shrink := intervalSize / 2
  let shift := (ub + lb) / 2
  let x := x - shift
  let x := x / shrink
  let x := sign x
  let x := x * shrink
  x + shift

/-- `torch.round`: to the nearest integer, halves to the even one. -/
def roundEven [FloorRing K] (x : K) : ℤ :=
  let f := ⌊x⌋
  if x - f < 1 / 2 then f else if 1 / 2 < x - f then f + 1 else if f % 2 = 0 then f else f + 1

/-- `Round.forward` (layers.py 104-113). -/
def round [FloorRing K] (ndigits : ℤ) (x : K) : K :=
  let q := (10 : K) ^ ndigits
  (roundEven (x * q) : K) / q

end ordered

/-- Python's treatment of a slice bound for length `n`. -/
def sliceBound (n : ℕ) (i : ℤ) : ℕ := if i < 0 then (i + n).toNat else min i.toNat n

/-- `Slice.forward` (layers.py 94-95). -/
def slice {α : Type} (fromIndex toIndex : ℤ) (x : List α) : List α :=
  (x.take (sliceBound x.length toIndex)).drop (sliceBound x.length fromIndex)

/-- `Apply` (layers.py 134-155); `pow` is torch's power. -/
def apply [Field K] (pow : K → K → K) (operator : String) (argument x : K) : Except PyErr K :=
  if operator ∈ ["+", "-", "*", "/", "**"] then
    if operator = "+" then .ok (x + argument)
    else if operator = "-" then .ok (x - argument)
    else if operator = "*" then .ok (x * argument)
    else if operator = "/" then .ok (x / argument)
    else if operator = "**" then .ok (pow x argument)
    else .error .valueError
  else .error .assertionError

section nets
variable [Field K]

/-- `W @ x`. -/
def matVec {n m : ℕ} (W : Fin m → Fin n → K) (x : Fin n → K) : Fin m → K := fun i => ∑ j, W i j * x j

/-- Parameters of an `RNN` (layers.py 177-180). -/
structure RnnParams (K : Type) (n m : ℕ) where
  W1 : Fin m → Fin n → K
  W2 : Fin m → Fin m → K
  b1 : Fin m → K
  b2 : Fin m → K

/-- `RNN.forward` (layers.py 191-203). -/
def rnn {n m : ℕ} (act : K → K) (p : RnnParams K n m) (x : Fin n → K) (h : Option (Fin m → K)) : (Fin m → K) × (Fin m → K) :=
  let h := h.getD fun _ => 0
  let y := fun i => act ((matVec p.W1 x i + p.b1 i) + (matVec p.W2 h i + p.b2 i))
  (y, y)

/-- Parameters of an `LSTM` (layers.py 235-253). -/
structure LstmParams (K : Type) (n m : ℕ) where
  Wii : Fin m → Fin n → K
  Wif : Fin m → Fin n → K
  Wig : Fin m → Fin n → K
  Wio : Fin m → Fin n → K
  Whi : Fin m → Fin m → K
  Whf : Fin m → Fin m → K
  Whg : Fin m → Fin m → K
  Who : Fin m → Fin m → K
  b_ii : Fin m → K
  b_if : Fin m → K
  b_ig : Fin m → K
  b_io : Fin m → K
  b_hi : Fin m → K
  b_hf : Fin m → K
  b_hg : Fin m → K
  b_ho : Fin m → K

/-- `LSTM.forward` (layers.py 255-272). -/
def lstm {n m : ℕ} (sigm tanh : K → K) (p : LstmParams K n m) (x : Fin n → K) (hidden : Option ((Fin m → K) × (Fin m → K))) : (Fin m → K) × ((Fin m → K) × (Fin m → K)) :=
  let hPrev := (hidden.map Prod.fst).getD fun _ => 0
  let cPrev := (hidden.map Prod.snd).getD fun _ => 0
  let iT := fun k => sigm (matVec p.Wii x k + p.b_ii k + matVec p.Whi hPrev k + p.b_hi k)
  let fT := fun k => sigm (matVec p.Wif x k + p.b_if k + matVec p.Whf hPrev k + p.b_hf k)
  let gT := fun k => tanh (matVec p.Wig x k + p.b_ig k + matVec p.Whg hPrev k + p.b_hg k)
  let oT := fun k => sigm (matVec p.Wio x k + p.b_io k + matVec p.Who hPrev k + p.b_ho k)
  let cT := fun k => fT k * cPrev k + iT k * gT k
  let hT := fun k => oT k * tanh (cT k)
  (hT, (hT, cT))

end nets

/-! ### FeedForwardNet -/

/-- An activation function as given to `FeedForwardNet`: None, a name, a callable. -/
inductive Act (V : Type) where
  | none
  | name (s : String)
  | callable (f : V → V)

/-- A layer tuple as given (layers.py 308-309): its length is checked first. -/
inductive LayerTuple (V : Type) where
  | two (size : ℕ) (act : Act V)
  | three (size : ℕ) (act : Act V) (bias : Bool)
  | invalid

/-- An attribute of the module: a linear layer with its sizes and bias flag, or an activation function. -/
inductive Attr (V : Type) where
  | linear (inputs outputs : ℕ) (bias : Bool)
  | act (f : Option (V → V))

variable {V : Type}

/-- The names known to `FeedForwardNet` (layers.py 345-358). -/
def actNames : List String := ["relu", "selu", "elu", "tanh", "hardtanh", "sigmoid", "round"]

/-- Resolution of an activation function (layers.py 344-360); `lib` gives the module for a name. -/
def resolveAct (lib : String → V → V) : Act V → Except PyErr (Option (V → V))
  | .none => .ok Option.none
  | .callable f => .ok (some f)
  | .name s => if s ∈ actNames then .ok (some (lib s)) else .error .valueError

/-- Unpacking of a layer tuple (layers.py 334-340). -/
def LayerTuple.unpack : LayerTuple V → Except PyErr (ℕ × Act V × Bool)
  | .two s a => .ok (s, a, true)
  | .three s a b => .ok (s, a, b)
  | .invalid => .error .assertionError

/-- `setattr(self, name, a)`. -/
def setAttr (attrs : String → Option (Attr V)) (name : String) (a : Attr V) : String → Option (Attr V) := fun n => if n = name then some a else attrs n

/-- The constructor's loop (layers.py 333-364). -/
def buildLoop (lib : String → V → V) : ℕ → ℕ → List (LayerTuple V) → (String → Option (Attr V)) → Except PyErr (String → Option (Attr V))
  | _, _, [], attrs => .ok attrs
  | i, inputSize, l :: ls, attrs =>
    l.unpack.bind fun (size, act, bias) =>
      let attrs := setAttr attrs ("layer_" ++ toString i) (.linear inputSize size bias)
      (resolveAct lib act).bind fun f =>
        let attrs := setAttr attrs ("actfunc_" ++ toString i) (.act f)
        buildLoop lib (i + 1) size ls attrs

/-- `FeedForwardNet(input_size, layers)`: the attributes of the module. -/
def feedForward (lib : String → V → V) (inputSize : ℕ) (layers : List (LayerTuple V)) : Except PyErr (String → Option (Attr V)) :=
  buildLoop lib 0 inputSize layers fun _ => none

/-- `FeedForwardNet.forward` (layers.py 366-374): `linear i` applies the linear layer number `i` with its current parameters. `none`: the loop did not end within the fuel. -/
def forwardLoop (attrs : String → Option (Attr V)) (linear : ℕ → V → V) : ℕ → ℕ → V → Option V
  | 0, _, _ => none
  | fuel + 1, i, x =>
    if (attrs ("layer_" ++ toString i)).isSome then
      let x := linear i x
      let x := match attrs ("actfunc_" ++ toString i) with
        | some (.act (some f)) => f x
        | _ => x
      forwardLoop attrs linear fuel (i + 1) x
    else some x

/-- The layers of the non-linear component of a `StructuredControlNet` (layers.py 427-433). -/
def scnLayers (numLayers hidden out : ℕ) (act : Act V) : List (LayerTuple V) := List.replicate numLayers (.two hidden act) ++ [.two out act]

/-- `StructuredControlNet.forward` (layers.py 435-437). -/
def scnForward [Add V] (linear nonlinear : V → V) (x : V) : V := linear x + nonlinear x

/-! ### LocomotorNet -/

/-- Operations on a `LocomotorNet`. -/
inductive LocoOp (X : Type) where
  | forward (x : X)
  | reset

/-- `LocomotorNet.forward` and `reset` (layers.py 525-527, 554-568): the state is `t`; `linear` is the linear component; amplitudes, frequencies and phases per sinusoid. The second component is the output. -/
def locoStep {X : Type} {m : ℕ} [Field K] (sin : K → K) (linear : X → Fin m → K) (sinusoids : List ((Fin m → K) × (Fin m → K) × (Fin m → K))) (t : ℕ) : LocoOp X → ℕ × Option (Fin m → K)
  | .reset => (0, none)
  | .forward x =>
    let uLinear := linear x
    let uNonlinear := sinusoids.foldl (fun (u : Fin m → K) s => fun k => u k + s.1 k * sin (s.2.1 k * t + s.2.2 k)) (fun _ => 0)
    (t + 1, some fun k => uLinear k + uNonlinear k)

/-- A history of operations from a freshly made network (layers.py 523: `reset()` at construction): the outputs of the forward passes. -/
def locoRun {X : Type} {m : ℕ} [Field K] (sin : K → K) (linear : X → Fin m → K) (sinusoids : List ((Fin m → K) × (Fin m → K) × (Fin m → K))) :
    ℕ → List (LocoOp X) → ℕ × List (Option (Fin m → K))
  | t, [] => (t, [])
  | t, op :: ops =>
    let r := locoStep sin linear sinusoids t op
    let rest := locoRun sin linear sinusoids r.1 ops
    (rest.1, r.2 :: rest.2)

end EvoTorch.Layers
