import Verif.Model.Base
import Mathlib.Algebra.Order.Field.Basic
import Mathlib.Algebra.BigOperators.Fin
/-!
Model of how `GymNE` and `VecGymNE` turn environment traces into fitnesses (`src/evotorch/neuroevolution/gymne.py`,
`vecgymne.py`, `net/rl.py`). What an environment reports at its `k`-th step (whatever the actions) is an arbitrary trace; arithmetic
is exact.
-/
namespace EvoTorch.Episodes
variable {K : Type} [Field K]

/-- One step of an environment: its reward and whether the episode is over. -/
abbrev Step (K : Type) := K × Bool

/-- An alive bonus schedule `(t0, t1, bonus)`. -/
structure Schedule (K : Type) where
  t0 : Int
  t1 : Int
  bonus : K

/-- Reading the argument: two or three items (rl.py 226-242). -/
def Schedule.ofGym (times : List Int) (bonus : K) : Except PyErr (Schedule K) :=
  match times with
  | [t0, t1] => .ok ⟨t0, t1, bonus⟩
  | [t0] => .ok ⟨t0, t0, bonus⟩
  | _ => .error .valueError

/-- The same for `VecGymNE` (vecgymne.py 364-394); the error message of the last case accesses `self._alive_bonus_schedule`,
which is not set. -/
def Schedule.ofVec (times : List Int) (bonus : K) : Except PyErr (Schedule K) :=
  match times with
  | [t] => .ok ⟨t, t, bonus⟩
  | [t0, t1] => .ok ⟨t0, t1, bonus⟩
  | _ => .error .attributeError

/-! ### GymNE -/

/-- `AliveBonusScheduleWrapper.reset` (rl.py 249-251): the time counter. -/
def wrapReset : Option Nat := some 0

/-- `AliveBonusScheduleWrapper.step` (rl.py 253-266): the new time and the new reward. Stepping before the first reset fails. -/
def wrapStep (s : Schedule K) (t : Option Nat) (reward : K) : Except PyErr (Option Nat × K) :=
  match t with
  | none => .error .typeError
  | some t =>
    let t := t + 1
    let gap : Option Int := if s.t1 > s.t0 then some (s.t1 - s.t0) else none
    .ok (some t,
      if (t : Int) ≥ s.t1 then reward + s.bonus
      else if gap.isSome ∧ (t : Int) ≥ s.t0 then reward + ((((t : Int) - s.t0 : Int) : K) / ((gap.getD 1 : Int) : K)) * s.bonus
      else reward)

/-- A history of calls on the wrapper: `none` is `reset()`, `some reward` is a `step` for which the wrapped environment gives this reward. A step that fails leaves the counter (rl.py 254-255: the counter is not
incremented); the counter is `None` at first (rl.py 224). The rewards returned, or the errors. -/
def wrapRun (s : Schedule K) : Option Nat → List (Option K) → List (Except PyErr K)
  | _, [] => []
  | _, none :: rest => wrapRun s wrapReset rest
  | t, some reward :: rest =>
    match wrapStep s t reward with
    | .error e => .error e :: wrapRun s t rest
    | .ok (t', r) => .ok r :: wrapRun s t' rest

/-- The reward which `GymNE` sees at time `t + 1` (gymne.py 313-317, with or without the wrapper). -/
def gymReward (s : Option (Schedule K)) (t : Nat) (reward : K) : Except PyErr K :=
  s.elim (.ok reward) fun s => (wrapStep s (some t) reward).map Prod.snd

/-- The loop of `_rollout` (gymne.py 388-414) from time `t` on: the cumulative reward and the number of steps. The trace is what the
environment would report; if it ends before the episode does, the loop is still running: `none`. -/
def rollLoop (s : Option (Schedule K)) (dec : K) (episodeLength : Option Nat) : Nat → K → List (Step K) → Except PyErr (Option (K × Nat))
  | _, _, [] => .ok none
  | t, total, (raw, done) :: rest =>
    (gymReward s t raw).bind fun raw' =>
      let total := total + (raw' - dec)
      if done || episodeLength.elim false (fun n => decide (t + 1 ≥ n)) then .ok (some (total, t + 1))
      else rollLoop s dec episodeLength (t + 1) total rest

/-- `_rollout`. -/
def rollout (s : Option (Schedule K)) (dec : K) (episodeLength : Option Nat) (trace : List (Step K)) : Except PyErr (Option (K × Nat)) :=
  rollLoop s dec episodeLength 0 0 trace

/-- `run` (gymne.py 455-472; rl.py 30-62): average of the returns, total number of steps. Each episode starts with a reset, after
which the environment follows its own trace. -/
def run (s : Option (Schedule K)) (dec : K) (episodeLength : Option Nat) (traces : List (List (Step K))) : Except PyErr (Option (K × Nat)) :=
  (traces.mapM (rollout s dec episodeLength)).bind fun rs =>
    if rs.any Option.isNone then .ok none
    else
      let rs := rs.filterMap id
      if rs = [] then .error .typeError
      else .ok (some ((rs.map Prod.fst).sum / rs.length, (rs.map Prod.snd).sum))

/-! ### VecGymNE -/

/-- The data kept per environment: active?, episodes completed, score, time step within the episode; also the numbers of the
observations given to the normaliser (0 for the one of `reset`). -/
structure EnvSt (K : Type) where
  active : Bool
  eps : Nat
  score : K
  t : Nat
  seen : List Nat

/-- The bonus given to an environment at time `t` (vecgymne.py 860-874). -/
def vecBonus (s : Schedule K) (t : Nat) : K :=
  (if (t : Int) ≥ s.t1 then s.bonus else 0) +
    (if s.t1 > s.t0 then
      if (t : Int) ≥ s.t0 ∧ (t : Int) < s.t1 then s.bonus * ((((t : Int) - s.t0 : Int) : K) / ((s.t1 - s.t0 : Int) : K)) else 0
     else 0)

/-- What the body of the loop does to the data of one environment, before the observations are normalised (vecgymne.py 849-896).
`isSolution`: whether the index is below `num_solutions`. -/
def stepEnv (s : Option (Schedule K)) (dec : K) (numEpisodes : Nat) (isSolution : Bool) (e : EnvSt K) (step : Step K) : EnvSt K :=
  let reward := step.1 - dec
  let done := step.2
  -- alive bonus
  let t1 := if s.isSome && e.active then e.t + 1 else e.t
  let score1 := s.elim e.score fun s => if e.active then e.score + vecBonus s t1 else e.score
  let t2 := if s.isSome && e.active && done then 0 else t1
  -- reward
  let score2 := if e.active then score1 + reward else score1
  let eps := if done then e.eps + 1 else e.eps
  let active := if isSolution then e.active && decide (eps < numEpisodes) else e.active
  { active := active, eps := eps, score := score2, t := t2, seen := e.seen }

/-- The observations of active environments are normalised (vecgymne.py 822-831, 904). -/
def see (k : Nat) (e : EnvSt K) : EnvSt K := if e.active then { e with seen := e.seen ++ [k] } else e

/-- The initial data (vecgymne.py 764-796, 835). -/
def initEnv (isSolution : Bool) : EnvSt K := see 0 { active := isSolution, eps := 0, score := 0, t := 0, seen := [] }

/-- The number of active environments. -/
def countActive {m : Nat} (es : Fin m → EnvSt K) : Nat := ((List.finRange m).map fun i => if (es i).active then 1 else 0).sum

/-- The loop (vecgymne.py 837-904), at its `k`-th step: the final data and the total number of time steps; `none` if it is still running
when the fuel is used up. -/
def loop {m : Nat} (s : Option (Schedule K)) (dec : K) (numEpisodes numSolutions : Nat) (trace : Fin m → Nat → Step K) :
    Nat → Nat → (Fin m → EnvSt K) → Nat → Option ((Fin m → EnvSt K) × Nat)
  | 0, _, _, _ => none
  | fuel + 1, k, es, total =>
    let total := total + countActive es
    let es := fun i : Fin m => stepEnv s dec numEpisodes (decide ((i : Nat) < numSolutions)) (es i) (trace i k)
    if (List.finRange m).all (fun i => !(decide ((i : Nat) < numSolutions) && (es i).active)) then some (es, total)
    else loop s dec numEpisodes numSolutions trace fuel (k + 1) (fun i => see (k + 1) (es i)) total

/-- `_evaluate_subbatch` (vecgymne.py 744-916): the fitnesses, the time steps and the episodes added to the counters, and the
observations used. -/
def evaluate {m : Nat} (s : Option (Schedule K)) (dec : K) (numEpisodes numSolutions : Nat) (trace : Fin m → Nat → Step K) (fuel : Nat) :
    Option ((Fin m → K) × Nat × Nat × (Fin m → List Nat)) :=
  (loop s dec numEpisodes numSolutions trace fuel 0 (fun i => initEnv (decide ((i : Nat) < numSolutions))) 0).map fun r =>
    (fun i => if numEpisodes > 1 then (r.1 i).score / numEpisodes else (r.1 i).score, r.2, numSolutions * numEpisodes, fun i => (r.1 i).seen)

end EvoTorch.Episodes
