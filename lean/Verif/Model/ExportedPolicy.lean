import Verif.Model.Recurrent
import Verif.Model.RunningNorm
import Mathlib.Data.Fin.VecNotation
/-!
Policies which `GymNE` and `VecGymNE` export for a solution (`to_policy`, `save_solution`), next to the actions which they send to the environment while they evaluate it.

Networks are arbitrary functions of an observation and a hidden state (`Recurrent.Res`). Simplifications: observations and actions are vectors, floats are exact apart from NaN and
the infinities, devices and dtypes are not modelled, the standard deviations and `argmax` are parameters (the same functions in both places of the code).
-/
namespace EvoTorch.ExportedPolicy
open EvoTorch Recurrent RunningNorm

variable {K : Type} [Field K] [LinearOrder K] {d a : Nat} {H : Type}

/-- An action as a tensor. -/
abbrev Act (K : Type) (a : Nat) := Fin a → Flt K

/-- A policy network. -/
abbrev Net (K : Type) (d a : Nat) (H : Type) := Obs K d → Option H → Except PyErr (Res (Act K a) H)

/-- The action space of the environment. -/
inductive Space (K : Type) (a : Nat) where
  | discrete
  | box (low high : Act K a)

/-- What the environment itself receives. -/
inductive Sent (K : Type) (a : Nat) where
  | choice (i : Nat)
  | vector (v : Act K a)

/-- Maximum with the lower and minimum with the upper bounds: `np.clip` (gymne.py 346), `TorchWrapper.step` (vecrl.py 548-549), `ActClipWrapperModule` (rl.py 157-158). -/
def clip (low high v : Act K a) : Act K a := fun j => Flt.min2 (Flt.max2 (v j) (low j)) (high j)

/-! ### Wrapper modules -/

/-- `ObsNormLayer` (runningnorm.py 583-610). -/
structure Layer (K : Type) (d : Nat) where
  mean : Obs K d
  stdev : Fin d → K
  lb : Option K
  ub : Option K

/-- `ObsNormLayer.forward` (runningnorm.py 612-621). -/
def Layer.forward (l : Layer K d) (x : Obs K d) : Obs K d := fun j => clampObs l.lb l.ub (divPos (Flt.sub (x j) (l.mean j)) (l.stdev j))

/-- What is fixed for the statistics of a problem: the square roots of the variances (positive), and the bounds of normalised observations (`clip`). -/
structure Norm (K : Type) (d : Nat) where
  stdev : RN K d → Fin d → K
  lb : Option K
  ub : Option K

/-- `RunningNorm.to_layer` (runningnorm.py 564-574). -/
def toLayer (c : Norm K d) (s : RN K d) : Except PyErr (Layer K d) := s.mean.map fun m => ⟨m, c.stdev s, c.lb, c.ub⟩

/-- `ObsNormWrapperModule.forward` (rl.py 177-196) around `net`. A tuple whose length is not 2 cannot be unpacked. -/
def obsNorm (l : Layer K d) (net : Net K d a H) : Net K d a H := fun x h =>
  (net (l.forward x) h).bind fun r =>
    match r with
    | .pair y h => .ok (.pair y h)
    | .tuple _ => .error .valueError
    | .tensor y => .ok (.tensor y)
    | .other y => .ok (.other y)

/-- `ActClipWrapperModule.forward` (rl.py 143-163) around `net`. -/
def actClip (low high : Act K a) (net : Net K d a H) : Net K d a H := fun x h =>
  (net x h).bind fun r =>
    match r with
    | .pair y h => .ok (.pair (clip low high y) h)
    | .tuple _ => .error .valueError
    | .tensor y => .ok (.tensor (clip low high y))
    | .other _ => .error .typeError

/-! ### GymNE -/

/-- A `GymNE`: whether it normalises observations, its statistics, its action space. -/
structure Gym (K : Type) (d a : Nat) where
  obsnorm : Bool
  stats : Stat K d
  norm : Norm K d
  space : Space K a

/-- `_normalize_observation(..., update_stats=False)` (gymne.py 324-332), with `RunningStat.normalize` (runningstat.py 111-119). -/
def Gym.normalize (p : Gym K d a) (x : Obs K d) : Except PyErr (Obs K d) :=
  if p.obsnorm then
    match p.stats with
    | none => .ok x
    | some s => s.normalize (p.norm.stdev s) p.norm.lb p.norm.ub x
  else .ok x

/-- The end of `_use_policy` (gymne.py 342-347), without action noise. -/
def send (argmax : Act K a → Nat) (space : Space K a) (v : Act K a) : Sent K a :=
  match space with
  | .discrete => .choice (argmax v)
  | .box low high => .vector (clip low high v)

/-- One step of `_rollout` with `update_stats=False` (gymne.py 383, 391, 400): the observation is normalised and given to the stateful policy; the result is what the environment
receives. -/
def Gym.act (p : Gym K d a) (argmax : Act K a → Nat) (net : Net K d a H) (hidden : Option H) (x : Obs K d) : Outcome (Option H) (Sent K a) :=
  match p.normalize x with
  | .error e => ⟨hidden, .error e⟩
  | .ok x =>
    let r := forward net hidden x
    ⟨r.state, r.result.map (send argmax p.space)⟩

/-- The actions of an episode in which the environment shows the observations `xs`, `gymne.py 383-400`. -/
def Gym.acts (p : Gym K d a) (argmax : Act K a → Nat) (net : Net K d a H) (hidden : Option H) : List (Obs K d) → Except PyErr (List (Sent K a))
  | [] => .ok []
  | x :: xs =>
    let r := p.act argmax net hidden x
    r.result.bind fun y => (p.acts argmax net r.state xs).bind fun ys => .ok (y :: ys)

/-- The observation normalisation of `GymNE.to_policy` (gymne.py 666-667). -/
def Gym.withNorm (p : Gym K d a) (net : Net K d a H) : Except PyErr (Net K d a H) :=
  if p.obsnorm && decide (0 < p.stats.count) then
    match p.stats with
    | none => .error .attributeError
    | some s => (toLayer p.norm s).map fun l => obsNorm l net
  else .ok net

/-- `GymNE.to_policy` (gymne.py 664-672); `net` is the network with the parameters of the solution. -/
def Gym.toPolicy (p : Gym K d a) (clipActions : Bool) (net : Net K d a H) : Except PyErr (Net K d a H) :=
  (p.withNorm net).bind fun net =>
    match clipActions, p.space with
    | true, .box low high => .ok (actClip low high net)
    | _, _ => .ok net

/-- `GymNE.save_solution` (gymne.py 697-724): the policy and the mean of the observations which are saved. `RunningStat.mean` (runningstat.py 77-81) reads an attribute of
`self._rn`. -/
def Gym.save (p : Gym K d a) (net : Net K d a H) : Except PyErr (Net K d a H × Option (Obs K d)) := do
  let policy ← p.toPolicy true net
  if p.obsnorm then
    match p.stats with
    | none => Except.error PyErr.attributeError
    | some s => do
      let m ← s.mean
      return (policy, some m)
  else return (policy, none)

/-! ### VecGymNE -/

/-- A `VecGymNE`; `stats` is `_obs_stats`. -/
structure Vec (K : Type) (d a : Nat) where
  obsnorm : Bool
  stats : Option (RN K d)
  norm : Norm K d
  space : Space K a

/-- `_normalize_observation` of `VecGymNE` after the update of the statistics (vecgymne.py 613-638, runningnorm.py 535-562). -/
def Vec.normalize (p : Vec K d a) (x : Obs K d) : Except PyErr (Obs K d) :=
  if p.obsnorm then
    match p.stats with
    | none => .error .attributeError
    | some s => s.normalize (p.norm.stdev s) p.norm.lb p.norm.ub x
  else .ok x

/-- What a step of the evaluation sends for one environment whose observation was normalised with the statistics `p.stats` (vecgymne.py 637-638, vecgymne.py 839-847, and
`TorchWrapper.step`, vecrl.py 538-549, with `discrete_to_continuous_act` and `clip_actions`), without action noise. The statistics are the ones after the update of that step. -/
def Vec.act (p : Vec K d a) (argmax : Act K a → Nat) (net : Net K d a H) (hidden : Option H) (x : Obs K d) : Outcome (Option H) (Sent K a) :=
  match p.normalize x with
  | .error e => ⟨hidden, .error e⟩
  | .ok x =>
    let r := forward net hidden x
    ⟨r.state, r.result.map (send argmax p.space)⟩

/-- The actions for one environment which shows the observations `xs`, all normalised with the same statistics, `vecgymne.py 837-904`. -/
def Vec.acts (p : Vec K d a) (argmax : Act K a → Nat) (net : Net K d a H) (hidden : Option H) : List (Obs K d) → Except PyErr (List (Sent K a))
  | [] => .ok []
  | x :: xs =>
    let r := p.act argmax net hidden x
    r.result.bind fun y => (p.acts argmax net r.state xs).bind fun ys => .ok (y :: ys)

/-- The action space of the wrapped environment (vecrl.py 439-454): a discrete one is unbounded Box. -/
def Space.wrapped : Space K a → Act K a × Act K a
  | .discrete => (fun _ => .ninf, fun _ => .pinf)
  | .box low high => (low, high)

/-- Whether a float is minus infinity, and whether it is plus infinity. -/
def isNinf : Flt K → Bool
  | .ninf => true
  | _ => false
def isPinf : Flt K → Bool
  | .pinf => true
  | _ => false

/-- `_numpy_arrays_specify_bounds` (vecgymne.py 37-54). -/
def specifyBounds (low high : Act K a) : Bool := ! (decide (∀ j, isNinf (low j) = true) && decide (∀ j, isPinf (high j) = true))

/-- The observation normalisation of `VecGymNE.to_policy` (vecgymne.py 964-967). -/
def Vec.withNorm (p : Vec K d a) (net : Net K d a H) : Except PyErr (Net K d a H) :=
  if p.obsnorm then
    match p.stats with
    | none => .ok net
    | some s => (toLayer p.norm s).map fun l => obsNorm l net
  else .ok net

/-- `VecGymNE.to_policy` (vecgymne.py 941-973). -/
def Vec.toPolicy (p : Vec K d a) (net : Net K d a H) : Except PyErr (Net K d a H) :=
  (p.withNorm net).bind fun net =>
    .ok (if specifyBounds p.space.wrapped.1 p.space.wrapped.2 then actClip p.space.wrapped.1 p.space.wrapped.2 net else net)

/-! ### Whose memory the exported parameters are -/

/-- The vector given to `to_policy`: a tensor on the cpu, a tensor on another device, a NumPy array of float32, the values of a Solution (each an object of the caller), or another
sequence of numbers. -/
inductive Given (K : Type) where
  | cpuTensor (addr : Nat)
  | otherTensor (addr : Nat)
  | numpy (addr : Nat)
  | solution (addr : Nat)
  | sequence (v : List K)

/-- The vectors in memory; new ones are put at `next`. -/
structure Mem (K : Type) where
  heap : Nat → List K
  next : Nat

/-- A new vector. -/
def Mem.alloc (m : Mem K) (v : List K) : Mem K × Nat := ({ heap := fun i => if i = m.next then v else m.heap i, next := m.next + 1 }, m.next)

/-- `VecGymNE.to_policy` (vecgymne.py 953-961) and `Policy.to_torch_module` (vecrl.py 1358-1361): where the parameters of the exported network are. `Tensor.to` returns the tensor
itself if it is on the cpu, `as_tensor` shares the memory of a NumPy array of the same dtype, and `vector_to_parameters` makes the parameters views of the vector. -/
def exportVec (m : Mem K) : Given K → Mem K × Nat
  | .cpuTensor i => (m, i)
  | .otherTensor i => m.alloc (m.heap i)
  | .numpy i => (m, i)
  | .solution i => m.alloc (m.heap i)
  | .sequence v => m.alloc v

/-- `NEProblem.make_net` (neproblem.py 334-340) for `GymNE`: the parameters are written into the problem's own network (`fill_parameters`, net/misc.py 38-43), and that network is
copied. -/
def exportGym (m : Mem K) : Given K → Mem K × Nat
  | .cpuTensor i => m.alloc (m.heap i)
  | .otherTensor i => m.alloc (m.heap i)
  | .numpy i => m.alloc (m.heap i)
  | .solution i => m.alloc (m.heap i)
  | .sequence v => m.alloc v

/-- The user goes on training the exported network: its parameters, which are at `addr`, get other values. -/
def train (r : Mem K × Nat) (v : List K) : Mem K := { r.1 with heap := fun i => if i = r.2 then v else r.1.heap i }

end EvoTorch.ExportedPolicy
