import Verif.Model.Base
import Mathlib.Algebra.BigOperators.Fin
import Mathlib.Analysis.Real.Sqrt
/-!
Model of the optimisers: `src/evotorch/optimizers.py` (classes `ClipUp`, `SGD`, `Adam`, parameter groups) and
`src/evotorch/algorithms/functional/` (`funcclipup.py`, `funcsgd.py`, `funcadam.py`), and of the initial standard deviation
helpers (`tools/misc.py` 1879-1974, `algorithms/functional/misc.py` 78-163).

Simplifications: real arithmetic; a vector of length `d` is `Fin d → ℝ`. A float vector all of whose components are NaN is
`none`; that is the only way NaN arises in the ClipUp code from real inputs (a division by the norm of a zero vector), and
every later operation on such a vector gives such a vector again. Batched variants of the functional optimisers are not modelled
here. `torch.optim.SGD` and `torch.optim.Adam` are modelled from their documented update rules (torch's code is not in the
repository).
-/
namespace EvoTorch.Optimizers
variable {d : Nat}

/-- A vector; `none` is the all-NaN vector. -/
abbrev NVec (d : Nat) := Option (Fin d → ℝ)

/-- `torch.norm(x)`. -/
noncomputable def norm (x : Fin d → ℝ) : ℝ := Real.sqrt (∑ j, x j ^ 2)

open Classical in
/-- `g / torch.norm(g)`: for a zero vector every component is `0/0`. -/
noncomputable def normalize (g : Fin d → ℝ) : NVec d := if norm g = 0 then none else some fun j => g j / norm g

/-! ### The class `ClipUp` -/

/-- The attributes of a `ClipUp` object (optimizers.py 296-304). -/
structure ClipUp (d : Nat) where
  stepsize : ℝ
  momentum : ℝ
  maxSpeed : ℝ
  velocity : NVec d

open Classical in
/-- `ClipUp.__init__` (optimizers.py 272-304). -/
noncomputable def ClipUp.create (d : Nat) (stepsize momentum : ℝ) (maxSpeed : Option ℝ) : Except PyErr (ClipUp d) :=
  let maxSpeed := maxSpeed.getD (stepsize * 2)
  if stepsize < 0 then .error .valueError
  else if momentum < 0 ∨ momentum > 1 then .error .valueError
  else if maxSpeed < 0 then .error .valueError
  else .ok ⟨stepsize, momentum, maxSpeed, some fun _ => 0⟩

open Classical in
/-- `ClipUp._clip` (optimizers.py 310-317). A NaN norm is not greater than the limit. -/
noncomputable def clip (x : NVec d) (limit : ℝ) : NVec d :=
  match x with
  | none => none
  | some x => if norm x > limit then
      let ratio := limit / norm x
      some fun j => x j * ratio
    else some x

/-- `momentum * velocity + grad`. -/
def addScaled (m : ℝ) (v g : NVec d) : NVec d :=
  match v, g with
  | some v, some g => some fun j => m * v j + g j
  | _, _ => none

/-- `ClipUp.ascent` (optimizers.py 340-357): the new object and the returned step. -/
noncomputable def ClipUp.ascent (c : ClipUp d) (globalg : Fin d → ℝ) : ClipUp d × NVec d :=
  let grad := (normalize globalg).map fun u j => u j * c.stepsize
  let velocity := clip (addScaled c.momentum c.velocity grad) c.maxSpeed
  ({ c with velocity := velocity }, velocity)

/-- `_param_group_items` (optimizers.py 243). -/
def paramGroupItems : List (String × String) := [("lr", "_stepsize"), ("max_speed", "_max_speed"), ("momentum", "_momentum")]

/-- `_param_group_item_lb` (optimizers.py 244). -/
noncomputable def paramGroupItemLb : List (String × ℝ) := [("lr", 0), ("max_speed", 0), ("momentum", 0)]

/-- `_param_group_item_ub` (optimizers.py 245). -/
noncomputable def paramGroupItemUb : List (String × ℝ) := [("momentum", 1)]

/-- `getattr(clipup, attrname)`. -/
def ClipUp.getattr (c : ClipUp d) (attr : String) : Except PyErr ℝ :=
  if attr = "_stepsize" then .ok c.stepsize
  else if attr = "_max_speed" then .ok c.maxSpeed
  else if attr = "_momentum" then .ok c.momentum
  else .error .attributeError

/-- `setattr(clipup, attrname, value)`. -/
def ClipUp.setattr (c : ClipUp d) (attr : String) (v : ℝ) : ClipUp d :=
  if attr = "_stepsize" then { c with stepsize := v }
  else if attr = "_max_speed" then { c with maxSpeed := v }
  else if attr = "_momentum" then { c with momentum := v }
  else c

/-- `ClipUpParameterGroup.__getitem__` (optimizers.py 394-396). -/
def ClipUp.getitem (c : ClipUp d) (key : String) : Except PyErr ℝ :=
  match paramGroupItems.lookup key with
  | none => .error .keyError
  | some attr => c.getattr attr

open Classical in
/-- One of the two checks of `__setitem__` (optimizers.py 401-404, 405-408): it tests whether the *attribute* name is in the
dictionary, and looks the *key* up. -/
noncomputable def checkLimit (dict : List (String × ℝ)) (attr key : String) (bad : ℝ → Prop) : Except PyErr Unit :=
  if (dict.lookup attr).isSome then
    match dict.lookup key with
    | none => .error .keyError
    | some b => if bad b then .error .valueError else .ok ()
  else .ok ()

/-- `ClipUpParameterGroup.__setitem__` (optimizers.py 398-409). -/
noncomputable def ClipUp.setitem (c : ClipUp d) (key : String) (value : ℝ) : Except PyErr (ClipUp d) :=
  match paramGroupItems.lookup key with
  | none => .error .keyError
  | some attr => do
    checkLimit paramGroupItemLb attr key fun lb => value < lb
    checkLimit paramGroupItemUb attr key fun ub => value > ub
    return c.setattr attr value

/-- What a user does with a `ClipUp` object. -/
inductive Op (d : Nat) where
  | ascent (g : Fin d → ℝ)
  | set (key : String) (value : ℝ)

/-- The object after one operation; an operation that raises leaves the object as it is. -/
noncomputable def ClipUp.step (c : ClipUp d) : Op d → ClipUp d
  | .ascent g => (c.ascent g).1
  | .set k v => match c.setitem k v with
    | .ok c' => c'
    | .error _ => c

/-- The object after a history. -/
noncomputable def ClipUp.runOps (c : ClipUp d) (ops : List (Op d)) : ClipUp d := ops.foldl ClipUp.step c

/-- `center + step` as in `_follow_gradient` of the distributions (distributions.py 370-395, 589). -/
def addVec (center step : NVec d) : NVec d :=
  match center, step with
  | some c, some s => some fun j => c j + s j
  | _, _ => none

/-- The centers visited when following the gradients with the class. -/
noncomputable def ClipUp.centers (c : ClipUp d) (center : NVec d) : List (Fin d → ℝ) → List (NVec d)
  | [] => [center]
  | g :: gs => center :: ClipUp.centers (c.ascent g).1 (addVec center (c.ascent g).2) gs

/-! ### The functional `clipup` -/

/-- `ClipUpState` (funcclipup.py 23-28). -/
structure ClipUpState (d : Nat) where
  center : NVec d
  velocity : NVec d
  lr : ℝ
  momentum : ℝ
  maxSpeed : ℝ

/-- `clipup` (funcclipup.py 63-91). -/
noncomputable def clipup (centerInit : Fin d → ℝ) (momentum : ℝ) (lr maxSpeed : Option ℝ) : Except PyErr (ClipUpState d) :=
  match lr, maxSpeed with
  | none, none => .error .valueError
  | some lr, none => .ok ⟨some centerInit, some fun _ => 0, lr, momentum, lr * 2⟩
  | none, some m => .ok ⟨some centerInit, some fun _ => 0, m / 2, momentum, m⟩
  | some lr, some m => .ok ⟨some centerInit, some fun _ => 0, lr, momentum, m⟩

open Classical in
/-- The clipping in `_clipup_step` (funcclipup.py 104-106); `velocity / vnorm` is `0/0` when a zero velocity must be clipped
(possible only for a negative `max_speed`). -/
noncomputable def clipF (v : NVec d) (maxSpeed : ℝ) : NVec d :=
  match v with
  | none => none
  | some v =>
    let vnorm := norm v
    if vnorm > maxSpeed then (if vnorm = 0 then none else some fun j => maxSpeed * (v j / vnorm)) else some v

/-- `clipup_tell` with `_clipup_step` (funcclipup.py 103-108, 136-151). -/
noncomputable def clipupTell (s : ClipUpState d) (g : Fin d → ℝ) : ClipUpState d :=
  let velocity := addScaled s.momentum s.velocity ((normalize g).map fun u j => s.lr * u j)
  let velocity := clipF velocity s.maxSpeed
  { s with center := addVec s.center velocity, velocity := velocity }

/-- The centers reported by `clipup_ask` along a history. -/
noncomputable def clipupCenters (s : ClipUpState d) : List (Fin d → ℝ) → List (NVec d)
  | [] => [s.center]
  | g :: gs => s.center :: clipupCenters (clipupTell s g) gs

/-! ### SGD -/

/-- The class `SGD` (optimizers.py 31-98, 168-228) over `torch.optim.SGD`: the momentum buffer does not exist before the first
step. Settings other than `lr`, `momentum`, `dampening` and `nesterov` have torch's defaults. -/
structure SGD (d : Nat) where
  lr : ℝ
  momentum : ℝ
  dampening : ℝ
  nesterov : Bool
  buf : Option (Fin d → ℝ)

/-- `SGD.__init__`: `None` means torch's default. Not modelled: the checks of torch on the values. -/
noncomputable def SGD.create (d : Nat) (stepsize : ℝ) (momentum dampening : Option ℝ) (nesterov : Option Bool) : SGD d :=
  ⟨stepsize, momentum.getD 0, dampening.getD 0, nesterov.getD false, none⟩

open Classical in
/-- `TorchOptimizer.ascent` (optimizers.py 78-91) with the step of `torch.optim.SGD`: the parameter is zeroed, its gradient is
set, the optimiser descends, and the negated parameter is returned. -/
noncomputable def SGD.ascent (s : SGD d) (g : Fin d → ℝ) : SGD d × (Fin d → ℝ) :=
  let data : Fin d → ℝ := fun _ => 0
  let (buf, dir) : Option (Fin d → ℝ) × (Fin d → ℝ) :=
    if s.momentum ≠ 0 then
      let b : Fin d → ℝ := match s.buf with
        | none => g
        | some b => fun j => s.momentum * b j + (1 - s.dampening) * g j
      (some b, if s.nesterov then fun j => g j + s.momentum * b j else b)
    else (s.buf, g)
  let data := fun j => data j - s.lr * dir j
  ({ s with buf := buf }, fun j => -1 * data j)

/-- The centers visited when following the gradients with the class `SGD`. -/
noncomputable def SGD.centers (s : SGD d) (center : Fin d → ℝ) : List (Fin d → ℝ) → List (Fin d → ℝ)
  | [] => [center]
  | g :: gs => center :: SGD.centers (s.ascent g).1 (fun j => center j + (s.ascent g).2 j) gs

/-- `SGDState` (funcsgd.py 23-27). -/
structure SGDState (d : Nat) where
  center : Fin d → ℝ
  velocity : Fin d → ℝ
  lr : ℝ
  momentum : ℝ

/-- `sgd` (funcsgd.py 59-75). -/
noncomputable def sgd (centerInit : Fin d → ℝ) (lr : ℝ) (momentum : Option ℝ) : SGDState d :=
  ⟨centerInit, fun _ => 0, lr, match momentum with | none => 0 | some m => m⟩

/-- `sgd_tell` with `_sgd_step` (funcsgd.py 86-88, 117-130). -/
def sgdTell (s : SGDState d) (g : Fin d → ℝ) : SGDState d :=
  let velocity := fun j => s.momentum * s.velocity j + s.lr * g j
  { s with center := fun j => s.center j + velocity j, velocity := velocity }

/-- The centers reported by `sgd_ask`. -/
def sgdCenters (s : SGDState d) : List (Fin d → ℝ) → List (Fin d → ℝ)
  | [] => [s.center]
  | g :: gs => s.center :: sgdCenters (sgdTell s g) gs

/-! ### Adam -/

/-- The class `Adam` (optimizers.py 101-165) over `torch.optim.Adam` without `amsgrad` and weight decay. -/
structure Adam (d : Nat) where
  lr : ℝ
  beta1 : ℝ
  beta2 : ℝ
  eps : ℝ
  m : Fin d → ℝ
  v : Fin d → ℝ
  t : Nat

/-- `Adam.__init__` (optimizers.py 142-165): `betas` must be given together. The defaults are those of torch. -/
noncomputable def Adam.create (d : Nat) (stepsize beta1 beta2 epsilon : Option ℝ) : Except PyErr (Adam d) :=
  match beta1, beta2 with
  | none, none => .ok ⟨stepsize.getD 0.001, 0.9, 0.999, epsilon.getD 1e-8, fun _ => 0, fun _ => 0, 0⟩
  | some b1, some b2 => .ok ⟨stepsize.getD 0.001, b1, b2, epsilon.getD 1e-8, fun _ => 0, fun _ => 0, 0⟩
  | _, _ => .error .valueError

/-- `TorchOptimizer.ascent` with the step of `torch.optim.Adam`: `exp_avg.lerp_`, `exp_avg_sq`, bias corrections,
`denom = sqrt(v) / sqrt(1 - beta2^t) + eps`, `param -= (lr / (1 - beta1^t)) * m / denom`. -/
noncomputable def Adam.ascent (a : Adam d) (g : Fin d → ℝ) : Adam d × (Fin d → ℝ) :=
  let t := a.t + 1
  let m := fun j => a.m j + (g j - a.m j) * (1 - a.beta1)
  let v := fun j => a.v j * a.beta2 + (1 - a.beta2) * (g j * g j)
  let bc1 := 1 - a.beta1 ^ t
  let bc2 := 1 - a.beta2 ^ t
  let denom := fun j => Real.sqrt (v j) / Real.sqrt bc2 + a.eps
  let data := fun j => (0 : ℝ) - (a.lr / bc1) * (m j / denom j)
  ({ a with m := m, v := v, t := t }, fun j => -1 * data j)

/-- The centers visited when following the gradients with the class `Adam`. -/
noncomputable def Adam.centers (a : Adam d) (center : Fin d → ℝ) : List (Fin d → ℝ) → List (Fin d → ℝ)
  | [] => [center]
  | g :: gs => center :: Adam.centers (a.ascent g).1 (fun j => center j + (a.ascent g).2 j) gs

/-- `AdamState` (funcadam.py 23-31); the step counter is a natural number. -/
structure AdamState (d : Nat) where
  center : Fin d → ℝ
  lr : ℝ
  beta1 : ℝ
  beta2 : ℝ
  eps : ℝ
  m : Fin d → ℝ
  v : Fin d → ℝ
  t : Nat

/-- `adam` (funcadam.py 34-101). -/
noncomputable def adam (centerInit : Fin d → ℝ) (lr beta1 beta2 epsilon : Option ℝ) : AdamState d :=
  ⟨centerInit, lr.getD 0.001, beta1.getD 0.9, beta2.getD 0.999, epsilon.getD 1e-8, fun _ => 0, fun _ => 0, 0⟩

/-- `adam_tell` with `_adam_step` (funcadam.py 116-123, 151-172). -/
noncomputable def adamTell (s : AdamState d) (g : Fin d → ℝ) : AdamState d :=
  let t := s.t + 1
  let m := fun j => s.beta1 * s.m j + (1 - s.beta1) * g j
  let v := fun j => s.beta2 * s.v j + (1 - s.beta2) * g j ^ 2
  let mhat := fun j => m j / (1 - s.beta1 ^ t)
  let vhat := fun j => v j / (1 - s.beta2 ^ t)
  let update := fun j => s.lr * mhat j / (Real.sqrt (vhat j) + s.eps)
  { s with center := fun j => s.center j + update j, m := m, v := v, t := t }

/-- The centers reported by `adam_ask`. -/
noncomputable def adamCenters (s : AdamState d) : List (Fin d → ℝ) → List (Fin d → ℝ)
  | [] => [s.center]
  | g :: gs => s.center :: adamCenters (adamTell s g) gs

/-! ### Initial standard deviations -/

/-- `stdev_init` as a scalar or a vector. -/
inductive Stdev where
  | scalar (x : ℝ)
  | vector (v : List ℝ)

/-- `to_stdev_init` with `stdev_from_radius` (tools/misc.py 1920-1922, 1961-1974); `radius**2 / 0` raises. -/
noncomputable def toStdevInit (solutionLength : Nat) (stdev : Option Stdev) (radius : Option ℝ) : Except PyErr Stdev :=
  match stdev, radius with
  | some s, none => .ok s
  | none, some r =>
    if solutionLength = 0 then .error .zeroDivisionError else .ok (.scalar (Real.sqrt (r ^ 2 / solutionLength)))
  | none, none => .error .valueError
  | some _, some _ => .error .valueError

/-- `_get_stdev_init` of the functional algorithms for an unbatched center (functional/misc.py 118-163). -/
noncomputable def getStdevInit (solutionLength : Nat) (stdev : Option Stdev) (radius : Option ℝ) : Except PyErr (List ℝ) :=
  match stdev, radius with
  | none, none => .error .valueError
  | some (.scalar x), none => .ok (List.replicate solutionLength x)
  | some (.vector v), none => if v.length ≠ solutionLength then .error .valueError else .ok v
  | none, some r => .ok (List.replicate solutionLength (Real.sqrt (r ^ 2 / solutionLength)))
  | some _, some _ => .error .valueError

/-- The vector that a class-based algorithm makes of its `stdev_init` (gaussian.py 105-111 via
`ensure_tensor_length_and_dtype`, tools/misc.py 651-671): a scalar is repeated; a vector must have the right length. -/
def Stdev.expand (solutionLength : Nat) : Stdev → Except PyErr (List ℝ)
  | .scalar x => .ok (List.replicate solutionLength x)
  | .vector v => if v.length ≠ solutionLength then .error .valueError else .ok v

end EvoTorch.Optimizers
