import Verif.Model.Base
import Verif.Model.Workload
import Mathlib.Data.Rat.Defs
import Mathlib.Data.Nat.Notation
/-!
The environments of `VecGymNE` (`src/evotorch/neuroevolution/vecgymne.py`): how many are built, when they are rebuilt, how a batch is cut to the limit `max_num_envs`, and where the simulator is put.
-/
namespace EvoTorch.EnvPool
open EvoTorch EvoTorch.Workload

/-! ### The limit on the number of environments -/

/-- The fields of a `VecGymNE` object which concern its environments (vecgymne.py 295-309): the vectorised environment (its number of sub-environments), the number remembered for it, the limit given by
the user, the limit of this object and whether that was settled. -/
structure Vec where
  env : Option ℕ := none
  numEnvs : Option ℕ := none
  maxNumEnvs : Option ℕ
  actorMax : Option ℕ := none
  ready : Bool := false
deriving DecidableEq

/-- `_get_env(num_policies)` (vecgymne.py 496-570). `built n` is the number of sub-environments of what the environment maker returns for `num_envs=n`. If the numbers do not agree the new environment is
kept although a ValueError is raised. Comparing with a remembered number None is a TypeError. Wrapping, the check of the observation space and seeding are left out. -/
def getEnv (built : ℕ → ℕ) (v : Vec) (n : ℕ) : Outcome Vec ℕ :=
  let rebuild : Outcome Vec ℕ := if built n ≠ n then ⟨{ v with env := some (built n) }, .error .valueError⟩ else ⟨{ v with env := some n, numEnvs := some n }, .ok n⟩
  match v.env, v.numEnvs with
  | none, _ => rebuild
  | some _, none => ⟨v, .error .typeError⟩
  | some e, some k => if n > k then rebuild else ⟨v, .ok e⟩

/-- `_evaluate_subbatch` (vecgymne.py 744-916) as far as the number of environments is concerned: with enough sub-environments every solution gets its fitness (see the model of the episodes for the
fitness itself), otherwise the assertion fails. -/
def evaluateSubbatch {X F : Type} (built : ℕ → ℕ) (fitness : X → F) (v : Vec) (rows : List X) : Outcome Vec (List F) :=
  let r := getEnv built v rows.length
  match r.result with
  | .error e => ⟨r.state, .error e⟩
  | .ok e => if rows.length ≤ e then ⟨r.state, .ok (rows.map fitness)⟩ else ⟨r.state, .error .assertionError⟩

/-- The loop over the sub-batches (vecgymne.py 741-742); also returns the numbers of sub-environments which existed during the loop. -/
def evaluatePieces {X F : Type} (built : ℕ → ℕ) (fitness : X → F) : Vec → List (List X) → Outcome Vec (List F × List ℕ)
  | v, [] => ⟨v, .ok ([], [])⟩
  | v, p :: ps =>
    let r := evaluateSubbatch built fitness v p
    match r.result with
    | .error e => ⟨r.state, .error e⟩
    | .ok fs =>
      let r' := evaluatePieces built fitness r.state ps
      match r'.result with
      | .error e => ⟨r'.state, .error e⟩
      | .ok (fs', sizes) => ⟨r'.state, .ok (fs ++ fs', r.state.env.getD 0 :: sizes)⟩

/-- `_evaluate_batch` (vecgymne.py 736-742). -/
def evaluateBatch {X F : Type} (built : ℕ → ℕ) (fitness : X → F) (v : Vec) (rows : List X) : Outcome Vec (List F × List ℕ) :=
  match v.actorMax with
  | none => evaluatePieces built fitness v [rows]
  | some m =>
    match pieceSizes rows.length none (some m) with
    | .error e => ⟨v, .error e⟩
    | .ok sizes => evaluatePieces built fitness v (pieces rows sizes)

/-- `_parallelize` on a main problem without actors (vecgymne.py 440-451). -/
def settle (v : Vec) : Vec := if v.ready then v else { v with actorMax := v.maxNumEnvs, ready := true }

/-- `evaluate` on a main problem without actors: settle the limit, then evaluate (core.py 2545-2554). -/
def evaluate {X F : Type} (built : ℕ → ℕ) (fitness : X → F) (v : Vec) (rows : List X) : Outcome Vec (List F × List ℕ) := evaluateBatch built fitness (settle v) rows

/-- A sequence of evaluations; the fitnesses, and the numbers of sub-environments which existed. -/
def evaluateAll {X F : Type} (built : ℕ → ℕ) (fitness : X → F) : Vec → List (List X) → Outcome Vec (List (List F) × List ℕ)
  | v, [] => ⟨v, .ok ([], [])⟩
  | v, b :: bs =>
    let r := evaluate built fitness v b
    match r.result with
    | .error e => ⟨r.state, .error e⟩
    | .ok (fs, sizes) =>
      let r' := evaluateAll built fitness r.state bs
      match r'.result with
      | .error e => ⟨r'.state, .error e⟩
      | .ok (fss, sizes') => ⟨r'.state, .ok (fs :: fss, sizes ++ sizes')⟩

/-! ### With actors -/

/-- A main problem with its actors. -/
structure Main where
  main : Vec
  actors : List Vec

/-- The remote call of an actor's method `call(self, method_name, args, kwargs)` (core.py 173-187) with the given number of arguments: with a wrong number it has no effect on the actor, and it is a
TypeError for the caller if ray checks the arguments when the call is made (`eager`), or a result which nobody fetches otherwise. -/
def remoteCall (eager : Bool) (numArgs : ℕ) (effect : Vec → Vec) (a : Vec) : Vec × Except PyErr Unit :=
  if numArgs = 3 then (effect a, .ok ()) else (a, if eager then .error .typeError else .ok ())

/-- `_set_actor_max_num_envs` (vecgymne.py 453-455). -/
def setActorMax (n : ℕ) (a : Vec) : Vec := { a with actorMax := some n, ready := true }

/-- The loop over the actors (vecgymne.py 449-450): `actor.call.remote("_set_actor_max_num_envs", share)`, two arguments. -/
def tellActors (eager : Bool) : List Vec → List ℕ → Outcome (List Vec) Unit
  | a :: as, s :: ss =>
    let r := remoteCall eager 2 (setActorMax s) a
    match r.2 with
    | .error e => ⟨r.1 :: as, .error e⟩
    | .ok () => let r' := tellActors eager as ss; ⟨r.1 :: r'.state, r'.result⟩
  | as, _ => ⟨as, .ok ()⟩

/-- `_parallelize` on a main problem with actors (vecgymne.py 440-451). -/
def settleMain (eager : Bool) (m : Main) : Outcome Main Unit :=
  if m.main.ready then ⟨m, .ok ()⟩
  else
    match m.main.maxNumEnvs with
    | none => ⟨{ m with main := { m.main with ready := true } }, .ok ()⟩
    | some limit =>
      match splitWorkload limit m.actors.length with
      | .error e => ⟨m, .error e⟩
      | .ok shares =>
        let r := tellActors eager m.actors shares
        match r.result with
        | .error e => ⟨{ m with actors := r.state }, .error e⟩
        | .ok () => ⟨⟨{ m.main with ready := true }, r.state⟩, .ok ()⟩

/-- One evaluation with actors in which the `i`-th piece goes to the `i`-th actor: the resulting actors. -/
def evaluateActors {X F : Type} (built : ℕ → ℕ) (fitness : X → F) : List Vec → List (List X) → List Vec
  | a :: as, p :: ps => (evaluateBatch built fitness a p).state :: evaluateActors built fitness as ps
  | as, _ => as

/-- The number of sub-environments which exist in all actors. -/
def totalEnvs (as : List Vec) : ℕ := (as.map fun a => a.env.getD 0).sum

/-! ### The device of the simulator -/

/-- A Python value: None, a number or a string. -/
inductive Val where
  | none | num (x : ℚ) | str (s : String)
deriving DecidableEq

/-- `x > c`: a TypeError for None and for strings. -/
def Val.gt (c : ℚ) : Val → Except PyErr Bool
  | .num x => .ok (decide (x > c))
  | _ => .error .typeError

/-- Where the sub-environments run: on the given device, on the auxiliary device of the actor, or nowhere in particular. -/
inductive SimDevice where
  | given | aux | unset
deriving DecidableEq

/-- `actors_use_gpu` (vecgymne.py 404-409), with the short-circuit evaluation of `and`. -/
def actorsUseGpu (numActors gpus : Val) : Except PyErr Bool := do
  if numActors = .none then return false
  if ¬ (← numActors.gt 1) then return false
  if gpus = .none then return false
  gpus.gt 0

/-- The choice of the simulator device in the constructor (vecgymne.py 403-422). -/
def simDevice (deviceIsCpu : Bool) (numActors gpus : Val) : Except PyErr SimDevice := do
  let useGpu ← actorsUseGpu numActors gpus
  if ¬ deviceIsCpu then return .given
  if useGpu then return .aux else return .unset

end EvoTorch.EnvPool
