import Verif.Model.Base
/-!
Model of how `GymNE` and `VecGymNE` share observation statistics and counters between the main problem and its remote actors
(`src/evotorch/neuroevolution/gymne.py`, `vecgymne.py`, `src/evotorch/core.py`). Statistics are represented by the list of the
observations which they contain (that the numbers kept by `RunningNorm` and `RunningStat` depend on nothing else is C57).
-/
namespace EvoTorch.ObsSync
variable {O : Type}

/-- Kind of problem. -/
structure Config where
  vec : Bool
  norm : Bool
  numActors : Nat

/-- The statistics and counters of a problem object: `_obs_stats`, `_collected_stats`, `_interaction_count`, `_episode_count`.
`none` is the `None` of `VecGymNE`; an empty `RunningStat` is `some []`. -/
structure Prob (O : Type) where
  obs : Option (List O)
  collected : Option (List O)
  interactions : Nat
  episodes : Nat
  deriving DecidableEq

/-- What a problem object does when it evaluates a piece of a batch: the observations which it meets, the time steps which it
counts and the episodes which it counts. -/
structure Work (O : Type) where
  obs : List O
  steps : Nat
  episodes : Nat

/-- Statistics with nothing in them (gymne.py 271-277: `RunningStat()`; vecgymne.py 355-356: `None`). -/
def noStats (c : Config) : Option (List O) := if c.vec then none else some []

/-- A new problem object (gymne.py 271-279, vecgymne.py 355-356, 400-401). -/
def Prob.fresh (c : Config) : Prob O :=
  { obs := noStats c, collected := noStats c, interactions := 0, episodes := 0 }

/-- Evaluating: gymne.py 324-332, 388-401; vecgymne.py 604-641, 907-908. -/
def Prob.perform (c : Config) (p : Prob O) (w : Work O) : Prob O :=
  { obs := if c.norm then some (p.obs.getD [] ++ w.obs) else p.obs
    collected := if c.norm then some (p.collected.getD [] ++ w.obs) else p.collected
    interactions := p.interactions + w.steps
    episodes := p.episodes + w.episodes }

/-- `_use_sync_data_from_main` (gymne.py 524-539, vecgymne.py 658-675; sent only if normalisation is on, core.py 2312-2317). -/
def Prob.receive (c : Config) (p : Prob O) (stats : Option (List O)) : Prob O :=
  if c.norm then { p with obs := stats } else p

/-- `_make_sync_data_for_main` clears the collected statistics (gymne.py 541-554, vecgymne.py 677-693). -/
def Prob.pop (c : Config) (p : Prob O) : Prob O :=
  if c.norm then { p with collected := noStats c } else p

/-- `update_observation_stats` (gymne.py 556-559, vecgymne.py 695-701): `RunningNorm.update(None)` fails. -/
def mergeStats (main delta : Option (List O)) : Except PyErr (Option (List O)) :=
  match main, delta with
  | none, d => .ok d
  | some a, some b => .ok (some (a ++ b))
  | some _, none => .error .otherError

/-- `_use_sync_data_from_actors` (gymne.py 561-573, vecgymne.py 464-494, vecgymne.py 703-715). -/
def gather (c : Config) (main : Prob O) (actors : List (Prob O)) : Except PyErr (Prob O) :=
  (if c.norm then actors.foldlM (fun s a => mergeStats s a.collected) main.obs else .ok main.obs).map fun s =>
    { main with obs := s, episodes := (actors.map Prob.episodes).sum, interactions := (actors.map Prob.interactions).sum }

/-- The main problem, its actors (if it is parallelised) and the counters restored from a pickle (`_remote_states`). -/
structure Sys (O : Type) where
  main : Prob O
  actors : Option (List (Prob O))
  remote : Option (List (Nat × Nat))

/-- A new problem. -/
def Sys.fresh (c : Config) : Sys O := { main := Prob.fresh c, actors := none, remote := none }

/-- `_parallelize` (core.py 1972-2047, 116-147): each actor gets a copy of the main problem, into which the counters from a pickle
are loaded (gymne.py 581-592, vecgymne.py 723-734). -/
def Sys.parallelize (c : Config) (s : Sys O) : Sys O :=
  if c.numActors = 0 then s
  else if s.actors.isSome then s
  else
    let made := s.remote.elim (List.replicate c.numActors s.main) fun st =>
      st.map fun ie => { s.main with interactions := ie.1, episodes := ie.2 }
    { s with actors := some made, remote := none }

/-- Actors evaluate pieces, one after the other, as the scheduler decides (core.py 2577-2600): `(i, w)`: actor `i` does `w`. -/
def doPieces (c : Config) : List (Prob O) → List (Nat × Work O) → List (Prob O)
  | as, [] => as
  | as, (i, w) :: rest => doPieces c (as.modify i fun p => p.perform c w) rest

/-- `evaluate` (core.py 2545-2557) given which actor evaluates what. Without actors, the main problem does everything. -/
def Sys.evaluate (c : Config) (s : Sys O) (work : List (Nat × Work O)) : Except PyErr (Sys O) :=
  let s := s.parallelize c
  match s.actors with
  | none => .ok { s with main := work.foldl (fun p iw => p.perform c iw.2) s.main }
  | some as =>
    let as := doPieces c (as.map fun a => a.receive c s.main.obs) work
    (gather c s.main as).map fun m => { s with main := m, actors := some (as.map (Prob.pop c)) }

/-- Pickling and unpickling, or cloning, the main problem (core.py 2706-2729): the counters of the actors (gymne.py 575-579, vecgymne.py 717-721) go along. -/
def Sys.clone (s : Sys O) : Sys O :=
  { s with actors := none
           remote := s.actors.elim s.remote fun as => some (as.map fun a => (a.interactions, a.episodes)) }

/-- What pickling or cloning does to the main problem itself (core.py 2708-2711): the counters of the actors are stored in it, as those to be loaded when actors are made. -/
def Sys.pickled (s : Sys O) : Sys O :=
  { s with remote := s.actors.elim s.remote fun as => some (as.map fun a => (a.interactions, a.episodes)) }

/-- `kill_actors` (core.py 2112-2128); iterating over `None` is a TypeError. -/
def Sys.kill (s : Sys O) : Except PyErr (Sys O) :=
  match s.actors with
  | none => .error .typeError
  | some _ => .ok { s with actors := none }

/-- `run(policy, update_stats=True)` on the main problem (gymne.py 420-475). -/
def Sys.runOnMain (c : Config) (s : Sys O) (w : Work O) : Sys O := { s with main := s.main.perform c w }

end EvoTorch.ObsSync
