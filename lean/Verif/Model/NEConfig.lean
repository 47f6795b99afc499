import Verif.Model.Base
import Verif.Model.Hook
import Verif.Model.ProblemConfig
import Verif.Model.VecEnvMake
/-!
How the neuroevolution problems `GymNE`, `VecGymNE` and `SupervisedNE` read their arguments: the environment, the network and the constants it may use, the schedule of the alive bonus, and what is handed
on to the constructor of `Problem`.

Simplifications. Numbers given as lengths and counts are integers. The network is described by what decides how it is made; the module itself is not modelled, only its number of parameters and its dtype.
-/
namespace EvoTorch.NEConfig
open EvoTorch
open EvoTorch.Hook (Dict dictGet dictSet dictUpdate)
open EvoTorch.ProblemConfig
open EvoTorch.VecEnvMake (Space BoxSpace Constants unboundedBox)

variable {K : Type}

/-! ### The environment -/

/-- Which environment `GymNE` solves (gymne.py 213-227): `env`, or its deprecated alias `env_name`. -/
def gymEnv {E : Type} (env envName : Option E) : Except PyErr E :=
  match env, envName with
  | some e, none => .ok e
  | none, some e => .ok e
  | some _, some _ => .error .valueError
  | none, none => .error .valueError

/-! ### The constants offered to a network -/

/-- A value known to a network: a length, a shape, a space, or a value given by the user. -/
inductive CVal (K : Type) where
  | int (n : Nat)
  | shape (l : List Nat)
  | space (s : Space K)
  | arg (k : Nat)
deriving DecidableEq

/-- `len(space.low)`: an array without dimensions has no length, and only boxes have bounds. -/
def lenLow : Space K → Except PyErr Nat
  | .box b => match b.shape with
    | [] => .error .typeError
    | n :: _ => .ok n
  | _ => .error .attributeError

/-- The length of the action vector and the box of `GymNE` (gymne.py 258-263). -/
def gymAct (ninf pinf : K) (act : Space K) : Except PyErr (Nat × Space K) :=
  match act with
  | .discrete n _ => .ok (n, unboundedBox ninf pinf [n])
  | act => (lenLow act).bind fun n => .ok (n, act)

/-- `GymNE._network_constants` (gymne.py 294-303) of an environment (gymne.py 252-270), whose observation space must be a box. -/
def gymConstants (ninf pinf : K) (obs act : Space K) : Except PyErr (Dict String (CVal K)) :=
  (lenLow obs).bind fun n => (gymAct ninf pinf act).bind fun a =>
    .ok [("obs_length", .int n), ("act_length", .int a.1), ("obs_space", .space obs), ("act_space", .space a.2), ("obs_shape", .shape obs.shape), ("act_shape", .shape a.2.shape)]

/-- `GymNE._str_network_constants` (gymne.py 305-310). -/
def gymStrConstants (ninf pinf : K) (obs act : Space K) : Except PyErr (Dict String (CVal K)) :=
  (gymAct ninf pinf act).bind fun a => .ok [("obs_space", .shape obs.shape), ("act_space", .shape a.2.shape)]

/-- The single spaces of the temporary environment of `VecGymNE` (vecgymne.py 57-68). -/
def vecSpaces (ninf pinf : K) (obs act : Space K) : Except PyErr (Space K × Space K) := (VecEnvMake.dummyEnv ninf pinf obs act).bind VecEnvMake.spacesOf

/-- `_env_constants_for_str_net` (vecgymne.py 71-80). -/
def vecStrConstants (ninf pinf : K) (obs act : Space K) : Except PyErr (Dict String (CVal K)) :=
  (vecSpaces ninf pinf obs act).bind fun s => (VecEnvMake.constantsOf s.1 s.2).bind fun c =>
    .ok [("obs_length", .int c.obsLength), ("act_length", .int c.actLength), ("obs_shape", .shape c.obsShape), ("obs_space", .shape s.1.shape), ("act_shape", .shape c.actShape), ("act_space", .shape s.2.shape)]

/-- `_env_constants_for_callable_net` (vecgymne.py 83-92). -/
def vecConstants (ninf pinf : K) (obs act : Space K) : Except PyErr (Dict String (CVal K)) :=
  (vecSpaces ninf pinf obs act).bind fun s => (VecEnvMake.constantsOf s.1 s.2).bind fun c =>
    .ok [("obs_length", .int c.obsLength), ("act_length", .int c.actLength), ("obs_shape", .shape c.obsShape), ("obs_space", .space s.1), ("act_shape", .shape c.actShape), ("act_space", .space s.2)]

/-! ### Making the network -/

/-- The signature of a callable: its parameters, each with or without a default value, and whether it has `**kwargs`. -/
structure Sig where
  params : List (String × Bool)
  varKw : Bool

/-- A keyword argument has a place. -/
def Sig.accepts (s : Sig) (k : String) : Bool := s.varKw || s.params.any fun p => p.1 == k

/-- `f(**kwargs)`: the arguments which `f` receives; a TypeError for arguments without a place and for missing ones. -/
def callWith {V : Type} (s : Sig) (kwargs : Dict String V) : Except PyErr (Dict String V) :=
  if kwargs.all (fun p => s.accepts p.1) = false then .error .typeError
  else if s.params.all (fun p => p.2 || (dictGet kwargs p.1).isSome) = false then .error .typeError
  else .ok kwargs

/-- `pass_info_if_needed(f, info)(**kwargs)` (misc.py 2040-2069): the decorator `pass_info` (decorators.py 170-208) has marked `f`. `sig.bind_partial(**info)` fails exactly if some of the information has
no place; arguments given to a `functools.partial` override those stored in it. -/
def passInfoCall {V : Type} (decorated : Bool) (s : Sig) (info kwargs : Dict String V) : Except PyErr (Dict String V) :=
  if decorated then
    if info.all (fun p => s.accepts p.1) = false then .error .typeError
    else callWith s (dictUpdate info kwargs)
  else callWith s kwargs

/-- What the user gives as the network: a string, a module, or something that is called. -/
inductive Net where
  | str
  | module
  | callable (decorated : Bool) (s : Sig)

/-- What the network was made from: a string with the values of its constants, the given module, or the result of a call with these arguments. -/
inductive Built (V : Type) where
  | fromString (consts : Dict String V)
  | given
  | called (kwargs : Dict String V)
deriving DecidableEq

/-- `NEProblem._instantiate_net` (neproblem.py 292-309) with `network_constants` (neproblem.py 281-286); a plain `NEProblem` has no constants (neproblem.py 265-279). -/
def neBuild {V : Type} (consts strConsts args : Dict String V) : Net → Except PyErr (Built V)
  | .str => .ok (.fromString (dictUpdate (dictUpdate [] (dictUpdate (dictUpdate [] consts) args)) strConsts))
  | .module => .ok .given
  | .callable d s => (passInfoCall d s consts args).bind fun kw => .ok (.called kw)

/-- The network of `GymNE` (gymne.py 294-310, neproblem.py 292-309). -/
def gymBuild (ninf pinf : K) (obs act : Space K) (args : Dict String (CVal K)) (net : Net) : Except PyErr (Built (CVal K)) :=
  (gymConstants ninf pinf obs act).bind fun c => (gymStrConstants ninf pinf obs act).bind fun sc => neBuild c sc args net

/-- The network of `VecGymNE` (vecgymne.py 322-349). -/
def vecBuild (ninf pinf : K) (obs act : Space K) (args : Dict String (CVal K)) : Net → Except PyErr (Built (CVal K))
  | .str => (vecStrConstants ninf pinf obs act).bind fun c => .ok (.fromString (dictUpdate c args))
  | .module => .ok .given
  | .callable d s => (vecConstants ninf pinf obs act).bind fun c => (passInfoCall d s c args).bind fun kw => .ok (.called kw)

/-! ### The schedule of the alive bonus -/

/-- `int(x)`. -/
def toInt (x : ℚ) : Int := x.num.tdiv x.den

/-- `VecGymNE` reads the schedule (vecgymne.py 364-394). For a wrong length, the message of the ValueError reads an attribute which has not been set yet. -/
def vecSchedule : Option (List ℚ) → Except PyErr (Option (Int × Int × ℚ))
  | none => .ok none
  | some [t, b] => .ok (some (toInt t, toInt t, b))
  | some [t0, t1, b] => .ok (some (toInt t0, toInt t1, b))
  | some _ => .error .attributeError

/-- `AliveBonusScheduleWrapper` reads the schedule (net/rl.py 226-242), when `GymNE` makes an environment for its evaluations (gymne.py 312-317). -/
def gymSchedule : Option (List ℚ) → Except PyErr (Option (Int × Int × ℚ))
  | none => .ok none
  | some [t0, t1, b] => .ok (some (toInt t0, toInt t1, b))
  | some [t, b] => .ok (some (toInt t, toInt t, b))
  | some _ => .error .valueError

/-! ### What is handed on to `Problem` -/

/-- The arguments which the three problems have in common. -/
structure Par where
  numActors : ActorsArg := .none
  hasGpus : Bool := false
  gpus : Gpus := .none
  numSubbatches : Option Int := none
  subbatchSize : Option Int := none
  device : Option String := none

/-- `num_actors > 1`, `num_gpus_per_actor > 0` (vecgymne.py 403-409): a string cannot be compared with a number. -/
def actorsUseGpu (n : ActorsArg) (g : Gpus) : Except PyErr Bool :=
  match n with
  | .none => .ok false
  | .str _ => .error .typeError
  | .num n =>
    if n > 1 then
      match g with
      | .none => .ok false
      | .str _ => .error .typeError
      | .int k => .ok (decide (k > 0))
      | .float x => .ok (decide (x > 0))
    else .ok false

/-- The device for `SyncVectorEnv`, and whether it is the auxiliary device of an actor (vecgymne.py 403-422). -/
def vecDevice (p : Par) : Except PyErr (Option String × Bool) :=
  (actorsUseGpu p.numActors p.gpus).bind fun useGpu =>
    if ¬ (p.device = none ∨ p.device = some "cpu") then .ok (p.device, false)
    else if useGpu then .ok (none, true)
    else .ok (none, false)

/-- A network for the problem: the number of its parameters, and its dtype if it has parameters. -/
structure NetInfo where
  length : Nat
  dtype : Option DT

/-- `next(net.parameters()).dtype` (neproblem.py 236): StopIteration without parameters. -/
def netDtype (n : NetInfo) : Except PyErr DT :=
  match n.dtype with
  | some d => .ok d
  | none => .error .otherError

/-- The arguments of `GymNE(...)` (gymne.py 281-290) that reach `Problem(...)` through `NEProblem` (neproblem.py 231-247). -/
def gymProblem (c : Cluster) (ib : Option (Bound K × Bound K)) (n : NetInfo) (p : Par) : Except PyErr (Config K) :=
  (netDtype n).bind fun d =>
    construct c { sense := .single "max", initialBounds := ib, solutionLength := some n.length, dtype := some d, device := some "cpu", numActors := p.numActors, actorConfigHasGpus := p.hasGpus,
                  subbatchSize := p.subbatchSize }

/-- The arguments of `VecGymNE(...)` that reach `Problem(...)` (vecgymne.py 403-436). -/
def vecProblem (c : Cluster) (ib : Bound K × Bound K) (n : NetInfo) (p : Par) : Except PyErr (Config K) :=
  (vecDevice p).bind fun _ =>
    construct c { sense := .single "max", initialBounds := some ib, solutionLength := some n.length, dtype := some .float32, device := p.device, numActors := p.numActors, actorConfigHasGpus := p.hasGpus,
                  gpusPerActor := p.gpus, numSubbatches := p.numSubbatches, subbatchSize := p.subbatchSize }

/-- The arguments of `SupervisedNE(...)` that reach `Problem(...)` (supervisedne.py 196-207, neproblem.py 231-247). -/
def supervisedProblem (c : Cluster) (ib : Option (Bound K × Bound K)) (n : NetInfo) (p : Par) : Except PyErr (Config K) :=
  (netDtype n).bind fun d =>
    construct c { sense := .single "min", initialBounds := ib, solutionLength := some n.length, dtype := some d, device := some (p.device.getD "cpu"), numActors := p.numActors,
                  actorConfigHasGpus := p.hasGpus, gpusPerActor := p.gpus, numSubbatches := p.numSubbatches, subbatchSize := p.subbatchSize }

end EvoTorch.NEConfig
