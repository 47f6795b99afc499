import Verif.Model.Base
import Mathlib.Data.Nat.Notation
import Mathlib.Algebra.Field.Basic
/-!
Model of how `GymNE` runs, visualises and evaluates a policy (`src/evotorch/neuroevolution/gymne.py`), with the counters and the statistics of the observations.

Simplifications. An environment and a policy are arbitrary state machines; the clipping of actions, the choice of a discrete action, and both APIs of environments (C119) are part of these machines. The
statistics are the list of the observations collected so far, and the normalisation is any function of this list and of an observation (C57). Rewards are elements of a field. An episode that does not
end within the fuel gives no result. The rendering is left out.
-/
namespace EvoTorch.GymRun
open EvoTorch

variable {E H O A K G : Type}

/-- An environment: what `reset_env` (rl.py 66-80) and `take_step_in_env` (rl.py 83-127) give, and a new one (gymne.py 312-317). -/
structure Env (E O A K : Type) where
  fresh : E
  reset : E → E × O
  step : E → A → E × O × K × Bool

/-- A policy: `H` is everything it keeps. `act` is the call in `_use_policy` (gymne.py 334-347), `reset` is `ensure_stateful(policy).reset()` (gymne.py 375-376), `mode` is `policy.train()` (true) or
`policy.eval()` (false); `noise` draws the action noise from the generator of the problem. -/
structure Policy (H O A G : Type) where
  reset : H → H
  mode : Bool → H → H
  act : H → O → H × A
  noise : G → A → G × A

/-- The settings of the problem (gymne.py 236-245). -/
structure Settings (O K : Type) where
  norm : Bool
  normalize : List O → O → O
  decrease : K
  episodeLength : Option ℕ
  numEpisodes : ℕ

/-- The problem: its environment if there is one, its statistics, its counters, its generator (gymne.py 247-279); and the policy which it runs. -/
structure St (E O G H : Type) where
  pol : H
  env : Option E
  obs : List O
  collected : List O
  interactions : ℕ
  episodes : ℕ
  gen : G

/-- `_normalize_observation` (gymne.py 324-332). -/
def normalizeObs (c : Settings O K) (update : Bool) (s : St E O G H) (x : O) : St E O G H × O :=
  if c.norm then
    let s := if update then { s with obs := s.obs ++ [x], collected := s.collected ++ [x] } else s
    (s, c.normalize s.obs x)
  else (s, x)

/-- Whether the episode is over after `t` steps (gymne.py 404). -/
def over (c : Settings O K) (done : Bool) (t : ℕ) : Bool :=
  done || (match c.episodeLength with
    | some l => decide (t ≥ l)
    | none => false)

/-- The loop of `_rollout` (gymne.py 390-414): the problem, the environment, the return and the number of steps at the end of the episode. -/
def loop [Field K] (env : Env E O A K) (p : Policy H O A G) (c : Settings O K) (update : Bool) (decrease : K) : ℕ → ℕ → K → E → H → O → St E O G H → Option (St E O G H × E × K × ℕ)
  | 0, _, _, _, _, _, _ => none
  | fuel + 1, t, acc, e, h, o, s =>
    let (h, a) := p.act h o
    let (g, a) := p.noise s.gen a
    let (e, raw, reward, done) := env.step e a
    let s := { s with gen := g, interactions := if update then s.interactions + 1 else s.interactions }
    let (s, o) := normalizeObs c update s raw
    if over c done (t + 1) then
      some ({ s with pol := h, episodes := if update then s.episodes + 1 else s.episodes }, e, acc + (reward - decrease), t + 1)
    else loop env p c update decrease fuel (t + 1) (acc + (reward - decrease)) e h o s

/-- `_get_env` (gymne.py 319-322). -/
def getEnv (env : Env E O A K) (s : St E O G H) : E := s.env.getD env.fresh

/-- `_rollout` (gymne.py 361-414). A visualisation uses an environment of its own; `_use_policy` still creates the environment of the problem (gymne.py 342). -/
def rollout [Field K] (env : Env E O A K) (p : Policy H O A G) (c : Settings O K) (fuel : ℕ) (update visualize : Bool) (decrease : Option K) (s : St E O G H) : Option (St E O G H × K × ℕ) :=
  let own := getEnv env s
  let (e, o) := env.reset (if visualize then env.fresh else own)
  let (s, o) := normalizeObs c update s o
  (loop env p c update (decrease.getD c.decrease) fuel 0 0 e (p.reset s.pol) o s).map fun r =>
    ({ r.1 with env := some (if visualize then own else r.2.1) }, r.2.2.1, r.2.2.2)

/-- The episodes of `run`, one after the other (gymne.py 462-470). -/
def rollouts [Field K] (env : Env E O A K) (p : Policy H O A G) (c : Settings O K) (fuel : ℕ) (update visualize : Bool) (decrease : Option K) : ℕ → St E O G H → Option (St E O G H × List (K × ℕ))
  | 0, s => some (s, [])
  | n + 1, s =>
    (rollout env p c fuel update visualize decrease s).bind fun r =>
      (rollouts env p c fuel update visualize decrease n r.1).map fun q => (q.1, (r.2.1, r.2.2) :: q.2)

/-- What `run` returns. -/
structure Result (K : Type) where
  cumulativeReward : K
  interactionCount : ℕ
deriving DecidableEq

/-- `_accumulate_all_across_dicts` (rl.py 30-61): the average of the returns and the sum of the steps. Without episodes, None is divided by zero. -/
def accumulate [Field K] (l : List (K × ℕ)) : Except PyErr (Result K) :=
  match l with
  | [] => .error .typeError
  | r :: rest => .ok ⟨(rest.foldl (fun total x => total + x.1) r.1) / (l.length : K), (l.map (·.2)).sum⟩

/-- `run` (gymne.py 420-475): the policy is put into its evaluation mode, and in the end into its training mode. -/
def run [Field K] (env : Env E O A K) (p : Policy H O A G) (c : Settings O K) (fuel : ℕ) (update visualize : Bool) (numEpisodes : Option ℕ) (decrease : Option K) (s : St E O G H) :
    Option (St E O G H × Except PyErr (Result K)) :=
  (rollouts env p c fuel update visualize decrease (numEpisodes.getD c.numEpisodes) { s with pol := p.mode false s.pol }).map fun r =>
    ({ r.1 with pol := p.mode true r.1.pol }, accumulate r.2)

/-- `visualize` (gymne.py 477-513), whose default is one episode. -/
def visualize [Field K] (env : Env E O A K) (p : Policy H O A G) (c : Settings O K) (fuel : ℕ) (update : Bool := false) (numEpisodes : Option ℕ := some 1) (decrease : Option K := none) (s : St E O G H) :
    Option (St E O G H × Except PyErr (Result K)) := run env p c fuel update true numEpisodes decrease s

/-- `_evaluate_network` (gymne.py 636-644): the fitness of a policy. -/
def evaluate [Field K] (env : Env E O A K) (p : Policy H O A G) (c : Settings O K) (fuel : ℕ) (s : St E O G H) : Option (St E O G H × Except PyErr K) :=
  (run env p c fuel true false (some c.numEpisodes) (some c.decrease) s).map fun r => (r.1, r.2.map (·.cumulativeReward))

/-- `_extra_status` (gymne.py 594-595): the counters reported in the status (gymne.py 604-634). -/
def status (s : St E O G H) : ℕ × ℕ := (s.interactions, s.episodes)

end EvoTorch.GymRun
