import Verif.Model.Base
import Verif.Model.Hook
import Mathlib.Data.List.Dedup
import Mathlib.Algebra.BigOperators.Group.List.Basic
/-!
How vectorized environments are made (`src/evotorch/neuroevolution/net/vecrl.py`): batched and unbatched spaces, the spaces of a `TorchWrapper`, `make_gym_env`, `make_brax_env`,
`make_vector_env`; and the two users of them in `src/evotorch/neuroevolution/vecgymne.py`: the environment of `VecGymNE` and the constants offered to the network description.
-/
namespace EvoTorch.VecEnvMake
open EvoTorch
open EvoTorch.Hook (Dict dictGet dictSet dictUpdate)

section
variable {K : Type}

/-! ### Spaces -/

/-- A `Box`: its shape and its bounds, flattened row by row. The dtype is left out. -/
structure BoxSpace (K : Type) where
  shape : List Nat
  low : List K
  high : List K
deriving DecidableEq

/-- A space of gymnasium. `multi` is `MultiDiscrete` with the shape of `nvec` and its elements. -/
inductive Space (K : Type) where
  | box (b : BoxSpace K)
  | discrete (n : Nat) (start : Int)
  | multi (shape : List Nat) (nvec : List Nat)
  | other
deriving DecidableEq

/-- `_must_be_supported_space` (vecrl.py 215-220). -/
def mustBeSupported : Space K → Except PyErr Unit
  | .box _ => .ok ()
  | .discrete _ _ => .ok ()
  | .multi _ _ => .error .typeError
  | .other => .error .typeError

/-- `_batch_space` (vecrl.py 295-309). Multiplying the bounds by the array of ones repeats them `numEnvs` times. -/
def batchSpace (space : Space K) (numEnvs : Nat) : Except PyErr (Space K) :=
  match space with
  | .box b => .ok (.box ⟨numEnvs :: b.shape, (List.replicate numEnvs b.low).flatten, (List.replicate numEnvs b.high).flatten⟩)
  | .discrete n _ => .ok (.multi [numEnvs] (List.replicate numEnvs n))
  | .multi _ _ => .error .typeError
  | .other => .error .typeError

/-- `_unbatch_space` (vecrl.py 254-292). `space.low[0]` is the first row of the bounds, an index error when there is none. -/
def unbatchSpace (space : Space K) : Except PyErr (Space K) :=
  match space with
  | .box b => if b.shape.length ≤ 1 then .error .valueError
    else if b.shape.headD 0 = 0 then .error .indexError
    else .ok (.box ⟨b.shape.tail, b.low.take b.shape.tail.prod, b.high.take b.shape.tail.prod⟩)
  | .multi shape nvec => if shape.length ≠ 1 then .error .valueError
    else if nvec.dedup.length ≠ 1 then .error .valueError
    else .ok (.discrete (nvec.headD 0) 0)
  | .discrete _ _ => .error .typeError
  | .other => .error .typeError

/-- What a wrapper sees of an environment: its spaces, and the number of sub-environments if it is vectorized. -/
structure Env (K : Type) where
  obs : Space K
  act : Space K
  numEnvs : Option Nat
deriving DecidableEq

/-- `BaseVectorEnv.__init__` (vecrl.py 340-359). -/
def baseVectorEnv (numEnvs : Nat) (obs act : Space K) : Except PyErr (Env K) :=
  (batchSpace obs numEnvs).bind fun o => (batchSpace act numEnvs).bind fun a => .ok ⟨o, a, some numEnvs⟩

/-- The observation space of a sub-environment of `SyncVectorEnv` must be a `Box` (vecrl.py 1613-1617). -/
def isBox : Space K → Bool
  | .box _ => true
  | _ => false

/-- `SyncVectorEnv.__init__` (vecrl.py 1601-1655) for `numEnvs` copies of one environment, for which the checks of the further sub-environments pass (C86). -/
def syncVectorEnv (numEnvs : Nat) (obs act : Space K) : Except PyErr (Env K) :=
  if numEnvs = 0 then .error .valueError
  else if isBox obs = false then .error .typeError
  else (mustBeSupported act).bind fun _ => baseVectorEnv numEnvs obs act

/-! ### `TorchWrapper` -/

/-- The spaces of a `TorchWrapper`; `single` is there for vectorized environments. `discrete` tells whether vectors of scores are turned into choices, `clip` holds the bounds for clipping. -/
structure Wrapped (K : Type) where
  obs : Space K
  act : Space K
  single : Option (Space K × Space K)
  numEnvs : Option Nat
  discrete : Bool
  clip : Option (List K × List K)
deriving DecidableEq

/-- The single spaces (vecrl.py 412-432). -/
def singleSpaces (env : Env K) : Except PyErr (Space K × Space K) :=
  match env.numEnvs with
  | some _ => (unbatchSpace env.obs).bind fun o => (unbatchSpace env.act).bind fun a => .ok (o, a)
  | none => .ok (env.obs, env.act)

/-- `Box(-inf, inf, shape)`. -/
def unboundedBox (ninf pinf : K) (shape : List Nat) : Space K := .box ⟨shape, List.replicate shape.prod ninf, List.replicate shape.prod pinf⟩

/-- The bounds for clipping (vecrl.py 464-472). -/
def clipBounds (clipActions : Bool) (act : Space K) : Option (List K × List K) :=
  match act with
  | .box b => if clipActions then some (b.low, b.high) else none
  | _ => none

/-- The rest of the constructor, given the single spaces (vecrl.py 434-472). -/
def wrapWith (ninf pinf : K) (d2c clipActions : Bool) (env : Env K) (obs act : Space K) : Wrapped K :=
  let clip := clipBounds clipActions act
  match act, d2c with
  | .discrete n _, true =>
    match env.numEnvs with
    | some m => ⟨env.obs, unboundedBox ninf pinf [m, n], some (obs, unboundedBox ninf pinf [n]), some m, true, clip⟩
    | none => ⟨env.obs, unboundedBox ninf pinf [n], none, none, true, clip⟩
  | _, _ =>
    match env.numEnvs with
    | some m => ⟨env.obs, env.act, some (obs, act), some m, false, clip⟩
    | none => ⟨env.obs, env.act, none, none, false, clip⟩

/-- `TorchWrapper.__init__` (vecrl.py 375-472). -/
def wrap (ninf pinf : K) (d2c clipActions : Bool) (env : Env K) : Except PyErr (Wrapped K) :=
  (singleSpaces env).bind fun s => (mustBeSupported s.1).bind fun _ => (mustBeSupported s.2).bind fun _ =>
    .ok (wrapWith ninf pinf d2c clipActions env s.1 s.2)

/-- A wrapper seen as an environment by another wrapper: `unwrapped` (vecrl.py 611-613) is the innermost environment. -/
def Wrapped.env (w : Wrapped K) : Env K := ⟨w.obs, w.act, w.numEnvs⟩

/-- What `VecGymNE._get_env` does with the spaces of the sub-environment of a gym name (vecgymne.py 522-528, vecrl.py 746-761), for `numEnvs` policies. -/
def realEnv (ninf pinf : K) (numEnvs : Nat) (obs act : Space K) : Except PyErr (Wrapped K) :=
  (syncVectorEnv numEnvs obs act).bind fun e => wrap ninf pinf true true e

/-- `_make_dummy_env` (vecgymne.py 57-63) for a gym name: the wrapper made by `make_vector_env` with the default options is wrapped once more. -/
def dummyEnv (ninf pinf : K) (obs act : Space K) : Except PyErr (Wrapped K) :=
  (syncVectorEnv 1 obs act).bind fun e => (wrap ninf pinf false false e).bind fun w => wrap ninf pinf true false w.env

/-- `space.shape`. -/
def Space.shape : Space K → List Nat
  | .box b => b.shape
  | .discrete _ _ => []
  | .multi shape _ => shape
  | .other => []

/-- The constants given to a network description (vecgymne.py 71-80, vecgymne.py 83-92): lengths and shapes of observations and actions. -/
structure Constants where
  obsLength : Nat
  actLength : Nat
  obsShape : List Nat
  actShape : List Nat
deriving DecidableEq

/-- `space.shape[0]`. -/
def firstLength : List Nat → Except PyErr Nat
  | [] => .error .indexError
  | n :: _ => .ok n

/-- The constants for single spaces (vecgymne.py 71-92). -/
def constantsOf (o a : Space K) : Except PyErr Constants :=
  (firstLength o.shape).bind fun n => (firstLength a.shape).bind fun m => .ok ⟨n, m, o.shape, a.shape⟩

/-- `tmp_env.single_observation_space, tmp_env.single_action_space` (vecgymne.py 66-68). -/
def spacesOf (w : Wrapped K) : Except PyErr (Space K × Space K) :=
  match w.single with
  | some s => .ok s
  | none => .error .attributeError

/-- `_env_constants_for_str_net`, `_env_constants_for_callable_net` (vecgymne.py 66-92) for a gym name. -/
def envConstants (ninf pinf : K) (obs act : Space K) : Except PyErr Constants :=
  (dummyEnv ninf pinf obs act).bind fun w => (spacesOf w).bind fun s => constantsOf s.1 s.2
end

/-! ### Making an environment by name -/

/-- A keyword argument value. -/
inductive Val where
  | none
  | bool (b : Bool)
  | int (i : Int)
  | other (k : Nat)
deriving DecidableEq, Repr

/-- `bool(v)`; other objects are taken as true. -/
def Val.truthy : Val → Bool
  | .none => false
  | .bool b => b
  | .int i => decide (i ≠ 0)
  | .other _ => true

/-- The options of the wrapper. -/
structure WrapOpts where
  forceClassic : Bool
  d2c : Bool
  clip : Bool
deriving DecidableEq, Repr

/-- An environment that was made. -/
inductive Made where
  | gymSingle (name : List Char) (kwargs : Dict String Val) (opts : WrapOpts)
  | gymSync (num : Nat) (name : List Char) (kwargs : Dict String Val) (emptyInfo : Bool) (numEpisodes : Option Int) (device : Val) (opts : WrapOpts)
  | brax (name : List Char) (config : Dict String Val) (opts : WrapOpts)
deriving DecidableEq, Repr

/-- `int(num_episodes)` with its check (vecrl.py 1641-1648), `None` for no limit. -/
def episodesOf : Val → Except PyErr (Option Int)
  | .none => .ok none
  | .bool b => if b then .ok (some 1) else .error .valueError
  | .int i => if i ≤ 0 then .error .valueError else .ok (some i)
  | .other _ => .error .typeError

/-- The keyword arguments that `make_gym_env` keeps for itself (vecrl.py 675-677). -/
def gymNames : List String := ["empty_info", "num_episodes", "device"]

/-- The value of a keyword argument or its default. -/
def argOr (kwargs : Dict String Val) (name : String) (dflt : Val) : Val := (dictGet kwargs name).getD dflt

/-- What goes on to `gym.make` (vecrl.py 723-724). -/
def gymRest (kwargs : Dict String Val) : Dict String Val := kwargs.filter fun p => !(gymNames.contains p.1)

/-- `make_gym_env` (vecrl.py 668-761). That `gym.make` knows the name is not modelled. -/
def makeGymEnv (name : List Char) (numEnvs : Option Int) (opts : WrapOpts) (kwargs : Dict String Val) : Except PyErr Made :=
  let emptyInfo := argOr kwargs "empty_info" (.bool false)
  let numEpisodes := argOr kwargs "num_episodes" .none
  let device := argOr kwargs "device" .none
  match numEnvs with
  | none =>
    if emptyInfo.truthy then .error .valueError
    else if numEpisodes ≠ .none then .error .valueError
    else if device ≠ .none then .error .valueError
    else .ok (.gymSingle name (gymRest kwargs) opts)
  | some n =>
    if n ≤ 0 then .error .valueError
    else (episodesOf numEpisodes).bind fun eps => .ok (.gymSync n.toNat name (gymRest kwargs) emptyInfo.truthy eps device opts)

/-- `make_brax_env` (vecrl.py 616-665). When brax is not installed an `ImportError` is raised. -/
def makeBraxEnv (installed : Bool) (name : List Char) (numEnvs : Option Int) (opts : WrapOpts) (kwargs : Dict String Val) : Except PyErr Made :=
  if installed then
    .ok (.brax name (match numEnvs with
      | none => kwargs
      | some n => dictSet kwargs "num_envs" (.int n)) opts)
  else .error .otherError

/-- `name.split("::", maxsplit=1)` (vecrl.py 819): the parts around the leftmost occurrence, if there is one. -/
def splitName : List Char → Option (List Char × List Char)
  | [] => none
  | [_] => none
  | a :: b :: rest => if a = ':' ∧ b = ':' then some ([], rest) else (splitName (b :: rest)).map fun p => (a :: p.1, p.2)

/-- The arguments that `make_vector_env` passes by name itself (vecrl.py 853-860). -/
def reserved : List String := ["env_name", "force_classic_api", "num_envs", "discrete_to_continuous_act", "clip_actions"]

/-- `fn(env_name, force_classic_api=..., ..., **kwargs)` (vecrl.py 853-860): an argument given twice is a type error. -/
def callWith (fn : Dict String Val → Except PyErr Made) (kwargs : Dict String Val) : Except PyErr Made :=
  if kwargs.any (fun p => reserved.contains p.1) then .error .typeError else fn kwargs

/-- `make_vector_env` (vecrl.py 764-860). -/
def makeVectorEnv (braxInstalled : Bool) (name : List Char) (numEnvs : Option Int) (opts : WrapOpts) (gymKwargs braxKwargs : Option (Dict String Val))
    (kwargs : Dict String Val) : Except PyErr Made :=
  match splitName name with
  | none => callWith (makeGymEnv name numEnvs opts) (dictUpdate kwargs (gymKwargs.getD []))
  | some (registry, rest) =>
    if registry = "gym".toList then callWith (makeGymEnv rest numEnvs opts) (dictUpdate kwargs (gymKwargs.getD []))
    else if registry = "brax".toList then callWith (makeBraxEnv braxInstalled rest numEnvs opts) (dictUpdate kwargs (braxKwargs.getD []))
    else .error .valueError

/-- `gym_cfg` (vecgymne.py 512-518). -/
def gymCfg (numEpisodes : Int) (auxDevice : Option Val) (syncDevice : Option Val) : Dict String Val :=
  [("empty_info", .bool true), ("num_episodes", .int numEpisodes)] ++
    (match auxDevice with
     | some d => [("device", d)]
     | none => match syncDevice with
       | some d => [("device", d)]
       | none => [])

/-- The environment that `VecGymNE` makes from a name (vecgymne.py 504-528). A name in `env_config` that is passed already is a type error. `auxDevice` is the auxiliary device when it is to be used,
`syncDevice` the device given for the sub-environments. An `env_config` with its own `brax_kwargs` is not modelled. -/
def vecGymEnv (braxInstalled : Bool) (name : List Char) (numPolicies : Nat) (numEpisodes : Int) (auxDevice syncDevice : Option Val) (envConfig : Dict String Val) :
    Except PyErr Made :=
  if envConfig.any (fun p => ("gym_kwargs" :: reserved).contains p.1) then .error .typeError
  else makeVectorEnv braxInstalled name (some numPolicies) ⟨true, true, true⟩ (some (gymCfg numEpisodes auxDevice syncDevice)) none envConfig

end EvoTorch.VecEnvMake
