import Verif.Model.Base
/-!
Model of `SyncVectorEnv` (`src/evotorch/neuroevolution/net/vecrl.py` 1541-1912) and of `ensure_space_types`
(`src/evotorch/neuroevolution/gymne.py` 44-54). A sub-environment is any state machine; its random choices are part of its state. The
`info` dictionaries and devices are not modelled.
-/
namespace EvoTorch.SyncVec

/-- What a sub-environment reports: observation, reward, terminated, truncated. `none` is the dummy observation or reward (NaN). -/
structure Report (O R : Type) where
  obs : Option O
  reward : Option R
  terminated : Bool
  truncated : Bool
  deriving DecidableEq

/-- A gymnasium environment as a state machine. -/
structure Env (S A O R : Type) where
  reset : S → S × O
  step : S → A → S × O × R × Bool × Bool

variable {S A O R : Type}

/-- A sub-environment's state and the number of episodes which it still has (`None` = unlimited). -/
structure Sub (S : Type) where
  state : S
  counter : Option Nat

/-- `reset()` of one sub-environment (vecrl.py 1776-1785). -/
def resetSub (env : Env S A O R) (numEpisodes : Option Nat) (sub : Sub S) : Sub S × O :=
  let r := env.reset sub.state
  ({ state := r.1, counter := numEpisodes }, r.2)

/-- `apply_step` (vecrl.py 1843-1877). -/
def applyStep (env : Env S A O R) (sub : Sub S) (a : A) : Sub S × Report O R :=
  let isActive := sub.counter.elim true fun c => decide (c > 0)
  let isLast := sub.counter.elim false fun c => c == 1
  if !isActive then (sub, { obs := none, reward := none, terminated := true, truncated := true })
  else
    let r := env.step sub.state a
    let (s, o, w, te, tr) := r
    if te || tr then
      let after := env.reset s
      ({ state := after.1, counter := sub.counter.map (· - 1) },
        { obs := some (if isLast then o else after.2), reward := some w, terminated := te, truncated := tr })
    else ({ state := s, counter := sub.counter }, { obs := some o, reward := some w, terminated := te, truncated := tr })

/-- `step` (vecrl.py 1792-1898): one action per sub-environment. -/
def stepAll (envs : List (Env S A O R)) (subs : List (Sub S)) (acts : List A) : Except PyErr (List (Sub S) × List (Report O R)) :=
  if acts.length != subs.length then .error .valueError
  else
    let rs := (List.zip envs (List.zip subs acts)).map fun x => applyStep x.1 x.2.1 x.2.2
    .ok (rs.map Prod.fst, rs.map Prod.snd)

/-- A sequence of steps. -/
def stepsAll (envs : List (Env S A O R)) : List (Sub S) → List (List A) → Except PyErr (List (Sub S) × List (List (Report O R)))
  | subs, [] => .ok (subs, [])
  | subs, acts :: rest => (stepAll envs subs acts).bind fun r => (stepsAll envs r.1 rest).map fun q => (q.1, r.2 :: q.2)

/-! ### Spaces -/

/-- A space: a box of some shape, discrete with some number of actions, or something else. -/
inductive Space where
  | box (shape : List Nat)
  | discrete (n : Nat)
  | other
  deriving DecidableEq

/-- The observation space and the action space of an environment. -/
structure Spaces where
  obs : Space
  act : Space
  deriving DecidableEq

/-- The check of the first sub-environment (vecrl.py 1611-1621). -/
def checkFirst (s : Spaces) : Except PyErr Unit :=
  match s.obs with
  | .box _ => match s.act with
    | .box _ => .ok ()
    | .discrete _ => .ok ()
    | .other => .error .typeError
  | _ => .error .typeError

/-- `.shape` of a space. -/
def Space.shape : Space → List Nat
  | .box sh => sh
  | _ => []

/-- The check of the other sub-environments (vecrl.py 1622-1636). In the box case, the shapes of the observation spaces are compared
once more, instead of the shapes of the action spaces. -/
def checkOther (first s : Spaces) : Except PyErr Unit :=
  if s.obs.shape != first.obs.shape then .error .valueError
  else match s.act with
    | .discrete n => match first.act with
      | .discrete n' => if n != n' then .error .valueError else .ok ()
      | _ => .error .typeError
    | .box _ => match first.act with
      | .box _ => if s.obs.shape != first.obs.shape then .error .valueError else .ok ()
      | _ => .error .typeError
    | .other => .error .assertionError

/-- The checks of the remaining sub-environments. -/
def checkRest (first : Spaces) : List Spaces → Except PyErr Unit
  | [] => .ok ()
  | s :: rest => (checkOther first s).bind fun _ => checkRest first rest

/-- The checks of `SyncVectorEnv.__init__` (vecrl.py 1601-1636). -/
def checkAll : List Spaces → Except PyErr Unit
  | [] => .error .valueError
  | first :: rest => (checkFirst first).bind fun _ => checkRest first rest

/-- `ensure_space_types` (gymne.py 44-54): the second check tests the observation space again. -/
def ensureSpaceTypes (s : Spaces) : Except PyErr Unit :=
  match s.obs with
  | .box _ => match s.obs with
    | .box _ => .ok ()
    | .discrete _ => .ok ()
    | .other => .error .typeError
  | _ => .error .typeError

end EvoTorch.SyncVec
