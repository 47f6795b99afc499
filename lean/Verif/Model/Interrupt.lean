import Verif.Model.GA
import Verif.Model.MapElites
/-!
Steps that are interrupted by an error: the fitness function (or an operator) raises, `step()` propagates the error (`searchalgorithm.py:380-397`), the user catches it
and calls `step()` again. The definitions below give the state an interrupted `_step` leaves behind; the completed steps are those of `Verif/Model/GA.lean` and
`Verif/Model/MapElites.lean`.

The interrupted evaluation may have stored results for any subset of the rows: a batch is evaluated solution by solution or piece by piece, the pieces arriving in any
order (`core.py:2568-2606`), and the results stored before the error stay in the batch.
-/
namespace EvoTorch.Interrupt
open BestWorst (Sense)
open GA (Row)
variable {V K : Type}

/-- `problem.evaluate(batch)` interrupted by an error: `done` tells which rows got their evaluation before (`core.py:2568-2606`); rows beyond its end did not. -/
def partialEvaluate (f : V → K) : List Bool → List (Row V K) → List (Row V K)
  | true :: ds, r :: rs => { r with ev := some (f r.val) } :: partialEvaluate f ds rs
  | false :: ds, r :: rs => r :: partialEvaluate f ds rs
  | _, rs => rs

/-- Where a step of a genetic algorithm is interrupted. -/
inductive Crash
  /-- in its first evaluation call, after the given rows -/
  | first (done : List Bool)
  /-- while the operators are applied -/
  | operators
  /-- in its second evaluation call -/
  | second (done : List Bool)
deriving DecidableEq, Repr

/-- What an interrupted `_make_extended_population` leaves behind, `ga.py:145-244`. The flag `_first_iter` is cleared before anything is
evaluated (lines 168 and 228). When the parents are not evaluated on their own (`ga.py:193-202`) the rows being evaluated are copies (`SolutionBatch.cat`), and so are the
children. A step that makes no such evaluation call leaves everything as it was. -/
def interrupted (cfg : GA.Cfg K) (env : GA.Env V K) (c : Crash) (st : GA.State V K) : GA.State V K :=
  if cfg.reEvaluate then
    if cfg.parentsFirst then
      match c with
      | .first done => ⟨partialEvaluate env.f1 done st.population, false⟩
      | _ => ⟨GA.evaluate env.f1 st.population, false⟩
    else ⟨st.population, false⟩
  else if st.firstIter then
    match c with
    | .first done => ⟨partialEvaluate env.f1 done st.population, false⟩
    | _ => ⟨GA.evaluate env.f1 st.population, false⟩
  else st

/-- A call of `step()` on a `GeneticAlgorithm` or `SteadyStateGA`, completed or interrupted (`ga.py:652-688`, `searchalgorithm.py:380-397`). -/
def attempt (cfg : GA.Cfg K) (st : GA.State V K) : GA.Env V K × Option Crash → GA.State V K
  | (env, none) => GA.step cfg env st
  | (env, some c) => interrupted cfg env c st

/-- Calls of `step()` one after another. -/
def attempts (cfg : GA.Cfg K) (as : List (GA.Env V K × Option Crash)) (st : GA.State V K) : GA.State V K := as.foldl (attempt cfg) st

/-- A call of `step()` on a `MAPElites`, completed or interrupted (`mapelites.py:380-401`); the archive flags are written only at the end. -/
def mapAttempt [LinearOrder K] (cfg : MapElites.Cfg K) (st : MapElites.State V K) : GA.Env V (MapElites.Ev K) × Option Crash → MapElites.State V K
  | (env, none) => MapElites.step cfg st env
  | (env, some c) =>
    let r := interrupted cfg.ga env c ⟨st.population, st.firstIter⟩
    ⟨r.population, st.filled, r.firstIter⟩

/-- Calls of `step()` one after another. -/
def mapAttempts [LinearOrder K] (cfg : MapElites.Cfg K) (as : List (GA.Env V (MapElites.Ev K) × Option Crash)) (st : MapElites.State V K) : MapElites.State V K :=
  as.foldl (mapAttempt cfg) st

/-- What one step of `Cosyne` draws from outside: its fitness functions and operators, as in `GA.cosyneStep`. -/
structure CosyneEnv (V K : Type) where
  f0 : V → K
  f : V → K
  breed : List (Row V K) → List (Row V K)
  permute : List (Row V K) → List (Row V K)

/-- What an interrupted `Cosyne._step` leaves behind (`ga.py:1006-1033`): `_first_generation` is cleared in line 1008, before the evaluation of line 1009; the extended
population evaluated in line 1032 is a new batch. -/
def cosyneInterrupted (env : CosyneEnv V K) (c : Crash) (st : GA.State V K) : GA.State V K :=
  if st.firstIter then
    match c with
    | .first done => ⟨partialEvaluate env.f0 done st.population, false⟩
    | _ => ⟨GA.evaluate env.f0 st.population, false⟩
  else st

/-- A call of `step()` on a `Cosyne`, completed or interrupted (`ga.py:1006-1033`). -/
def cosyneAttempt (cfg : GA.CosyneCfg K) (st : GA.State V K) : CosyneEnv V K × Option Crash → GA.State V K
  | (env, none) => GA.cosyneStep cfg env.f0 env.f env.breed env.permute st
  | (env, some c) => cosyneInterrupted env c st

/-- Calls of `step()` one after another. -/
def cosyneAttempts (cfg : GA.CosyneCfg K) (as : List (CosyneEnv V K × Option Crash)) (st : GA.State V K) : GA.State V K := as.foldl (cosyneAttempt cfg) st

/-! ### Gaussian searches (`PGPE`, `SNES`, `XNES`, `CEM`) -/

/-- How a Gaussian search works, `gaussian.py:194-367`. -/
structure GaussCfg (D V K : Type) where
  /-- `compute_gradients` on the rows followed by `_update_distribution` (`gaussian.py:361-366`); `D` is the distribution with its optimizer. -/
  update : D → List (Row V K) → D
  /-- `num_interactions is not None` (`gaussian.py:280-349`). -/
  adaptive : Bool

/-- The state: distribution, population (`none` before it is allocated) and `_first_iter`. -/
structure GaussState (D V K : Type) where
  dist : D
  population : Option (List (Row V K))
  firstIter : Bool

/-- What one step draws from outside: the samples (in adaptive mode those of all allocated populations together) and the fitness function. -/
structure GaussEnv (D V K : Type) where
  sample : D → List V
  f : V → K

/-- Rows just filled with sampled values; `access_values()` clears the evaluations (`gaussian.py:292`, 325). -/
def fresh (vs : List V) : List (Row V K) := vs.map fun v => ⟨v, none⟩

/-- The distribution from which a step samples: unchanged in the first one, otherwise updated with the population (`gaussian.py:351-366`). -/
def nextDist {D : Type} (cfg : GaussCfg D V K) (st : GaussState D V K) : D :=
  if st.firstIter then st.dist else cfg.update st.dist (st.population.getD [])

/-- `_step_non_distributed`, completed (`gaussian.py:274-367`). -/
def gaussStep {D : Type} (cfg : GaussCfg D V K) (env : GaussEnv D V K) (st : GaussState D V K) : GaussState D V K :=
  ⟨nextDist cfg st, some (GA.evaluate env.f (fresh (env.sample (nextDist cfg st)))), false⟩

/-- `_step_non_distributed`, its evaluation interrupted (`gaussian.py:274-367`): the distribution has been updated; with a fixed population size the samples have been
written into the population, with an adaptive one they are in new batches (lines 311-349) and the population is the old one. -/
def gaussInterrupted {D : Type} (cfg : GaussCfg D V K) (env : GaussEnv D V K) (done : List Bool) (st : GaussState D V K) : GaussState D V K :=
  ⟨nextDist cfg st, if cfg.adaptive then st.population else some (partialEvaluate env.f done (fresh (env.sample (nextDist cfg st)))), st.firstIter⟩

/-- A call of `step()`, completed or interrupted. -/
def gaussAttempt {D : Type} (cfg : GaussCfg D V K) (st : GaussState D V K) : GaussEnv D V K × Option (List Bool) → GaussState D V K
  | (env, none) => gaussStep cfg env st
  | (env, some done) => gaussInterrupted cfg env done st

/-- Calls of `step()` one after another. -/
def gaussAttempts {D : Type} (cfg : GaussCfg D V K) (as : List (GaussEnv D V K × Option (List Bool))) (st : GaussState D V K) : GaussState D V K :=
  as.foldl (gaussAttempt cfg) st

/-- A search as constructed, `gaussian.py:100-176`. -/
def gaussInit {D : Type} (d : D) : GaussState D V K := ⟨d, none, true⟩

/-- A step in distributed mode (`gaussian.py:199-272`): the gradients are computed by the actors from batches of their own (`fetched`; an error is raised here), and only
then is the distribution changed. -/
def distributedAttempt {D G : Type} (follow : D → G → D) (d : D) : (D → G) × Option PyErr → D
  | (fetched, none) => follow d (fetched d)
  | (_, some _) => d

/-! ### `CMAES` -/

/-- A CMA-ES search: everything it adapts (`m`, `sigma`, the paths, `C`, `A`, the step count) and the population. -/
structure CmaState (S V K : Type) where
  core : S
  population : List (Row V K)

/-- What one step of CMA-ES draws from outside: the samples, drawn with its current state, and the fitness. -/
structure CmaEnv (S V K : Type) where
  sample : S → List V
  f : V → K

/-- `CMAES._step` (`cmaes.py:432-452`, 567-606), completed or with its evaluation interrupted: the population is overwritten (`set_values` clears the evaluations) and
evaluated, and only then is anything adapted (`adapt`, any function of the state and the evaluated population). -/
def cmaAttempt {S : Type} (adapt : S → List (Row V K) → S) (st : CmaState S V K) : CmaEnv S V K × Option (List Bool) → CmaState S V K
  | (env, none) =>
    let pop := GA.evaluate env.f (fresh (env.sample st.core))
    ⟨adapt st.core pop, pop⟩
  | (env, some done) => ⟨st.core, partialEvaluate env.f done (fresh (env.sample st.core))⟩

/-- Calls of `step()` one after another. -/
def cmaAttempts {S : Type} (adapt : S → List (Row V K) → S) (as : List (CmaEnv S V K × Option (List Bool))) (st : CmaState S V K) : CmaState S V K :=
  as.foldl (cmaAttempt adapt) st

end EvoTorch.Interrupt
