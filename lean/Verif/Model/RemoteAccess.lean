import Verif.Model.Base
import Mathlib.Data.Nat.Notation
/-!
Calling methods on all remote clones of a problem, or on their environments (`src/evotorch/core.py`: `all_remote_problems`, `all_remote_envs`, `AllRemoteProblems`, `AllRemoteEnvs`, `RemoteMethod`,
`EvaluationActor.call`, `EvaluationActor.call_on_env`, `kill_actors`).

`S` is the state of a problem, `E` that of an environment, `X` the type of results. Methods are arbitrary functions of the state which return a new state and a result, or raise. An actor of ray is a handle
(a number) in a cluster; a killed actor answers with an exception.
-/
namespace EvoTorch.RemoteAccess
open EvoTorch

/-- How the class of the problem answers `get_env()`: it has no such method, it makes the environment if needed (gymne.py 319-322, gymne.py 726-730), or it returns the attribute, which is None until an
evaluation has made it (vecgymne.py 296, vecgymne.py 918-925). -/
inductive EnvAccess where
  | missing | making | stored
deriving DecidableEq, Repr

/-- A class of problems: its methods and those of its environments, by name. -/
structure Class (S E X : Type) where
  methods : String → Option (S → S × Except PyErr X)
  envAccess : EnvAccess
  makeEnv : S → E
  envMethods : String → Option (E → E × Except PyErr X)

/-- A problem object in an actor. -/
structure Remote (S E : Type) where
  state : S
  env : Option E

/-- The actors of the cluster by handle; `none`: never made, or killed. -/
structure Cluster (S E : Type) where
  live : ℕ → Option (Remote S E)
  next : ℕ

/-- The main problem object, or a clone in an actor (`actorIndex`). -/
structure Problem (S E : Type) where
  self : Remote S E
  numActors : ℕ
  actorIndex : Option ℕ
  actors : Option (List ℕ)

variable {S E X : Type}

/-- `EvaluationActor.call` (core.py 173-187) and `EvaluationActor.call_on_env` (core.py 252-270). -/
def perform (c : Class S E X) (onEnv : Bool) (name : String) (r : Remote S E) : Remote S E × Except PyErr X :=
  if onEnv then
    match c.envAccess, r.env with
    | .missing, _ => (r, .error .attributeError)
    | .stored, none => (r, .error .attributeError)
    | _, env =>
      let e := env.getD (c.makeEnv r.state)
      match c.envMethods name with
      | none => ({ r with env := some e }, .error .attributeError)
      | some f => ({ r with env := some (f e).1 }, (f e).2)
  else
    match c.methods name with
    | none => (r, .error .attributeError)
    | some f => ({ r with state := (f r.state).1 }, (f r.state).2)

/-- A task for the actor `h`: a dead actor changes nothing and gives an exception of ray. -/
def task (c : Class S E X) (onEnv : Bool) (name : String) (h : ℕ) (k : Cluster S E) : Cluster S E × Except PyErr X :=
  match k.live h with
  | none => (k, .error .otherError)
  | some r => ({ k with live := fun h' => if h' = h then some (perform c onEnv name r).1 else k.live h' }, (perform c onEnv name r).2)

/-- The tasks are executed in some order. -/
def runTasks (c : Class S E X) (onEnv : Bool) (name : String) : List ℕ → Cluster S E → Cluster S E × List (ℕ × Except PyErr X)
  | [], k => (k, [])
  | h :: rest, k =>
    let p := task c onEnv name h k
    let q := runTasks c onEnv name rest p.1
    (q.1, (h, p.2) :: q.2)

/-- The answer of one actor. -/
def answerOf (results : List (ℕ × Except PyErr X)) (h : ℕ) : Except PyErr X :=
  match results.find? fun p => p.1 == h with
  | none => .error .otherError
  | some p => p.2

/-- `AllRemoteProblems` and `AllRemoteEnvs` (core.py 275-327): the list of actors, or None. -/
structure Accessor where
  actors : Option (List ℕ)
  onEnv : Bool

/-- `RemoteMethod.__call__` (core.py 330-348): iterating over None raises TypeError; `ray.get` gives the results in the order of the actors, or raises the first exception in this order. `order` is the order in
which the tasks are executed. -/
def callAll (c : Class S E X) (a : Accessor) (name : String) (order : List ℕ) (k : Cluster S E) : Outcome (Cluster S E) (List X) :=
  match a.actors with
  | none => ⟨k, .error .typeError⟩
  | some handles =>
    let r := runTasks c a.onEnv name order k
    ⟨r.1, handles.mapM (answerOf r.2)⟩

/-- `_parallelize` (core.py 1972-2047): each actor gets a copy of the problem; environments are not copied (gymne.py 417-418, vecgymne.py 573-576). -/
def parallelize (p : Problem S E) (k : Cluster S E) : Problem S E × Cluster S E :=
  if p.numActors = 0 then (p, k)
  else if p.actorIndex.isSome then (p, k)
  else match p.actors with
    | some _ => (p, k)
    | none =>
      ({ p with actors := some ((List.range p.numActors).map (k.next + ·)) },
       ⟨fun h => if k.next ≤ h ∧ h < k.next + p.numActors then some ⟨p.self.state, none⟩ else k.live h, k.next + p.numActors⟩)

/-- `all_remote_problems()` and `all_remote_envs()` (core.py 2049-2110). -/
def access (onEnv : Bool) (s : Problem S E × Cluster S E) : Outcome (Problem S E × Cluster S E) Accessor :=
  let s := parallelize s.1 s.2
  if s.1.actorIndex.isSome then ⟨s, .error .runtimeError⟩ else ⟨s, .ok ⟨s.1.actors, onEnv⟩⟩

/-- `kill_actors()` (core.py 2112-2128). -/
def killActors (s : Problem S E × Cluster S E) : Outcome (Problem S E × Cluster S E) Unit :=
  if s.1.actorIndex.isSome then ⟨s, .error .runtimeError⟩
  else match s.1.actors with
    | none => ⟨s, .error .typeError⟩
    | some hs => ⟨({ s.1 with actors := none }, { s.2 with live := fun h => if h ∈ hs then none else s.2.live h }), .ok ()⟩

/-- What an attribute of an accessor can be. -/
inductive Attr where
  | actors (l : Option (List ℕ))
  | method (name : String)
deriving DecidableEq, Repr

/-- `getattr(accessor, name)`; `dict` is the value of the attribute `_actors` of the object, if it is set at all. `__getattr__` (core.py 297-298, core.py 326-327) reads `self._actors`, which, if it is not set, calls
`__getattr__` again, without end. -/
def getAttr (dict : Option (Option (List ℕ))) (name : String) : Except PyErr Attr :=
  match dict with
  | some l => if name = "_actors" then .ok (.actors l) else .ok (.method name)
  | none => .error .recursionError

/-- `copy.copy(accessor)`, or unpickling it: a new object without attributes is made and asked for `__setstate__` before its attributes are set. -/
def copyAccessor (a : Accessor) : Except PyErr Accessor := do
  let _ ← getAttr none "__setstate__"
  .ok a

/-- `copy.deepcopy(accessor)`: the object is asked for `__deepcopy__`; what is found is called. -/
def deepcopyAccessor (c : Class S E X) (a : Accessor) (order : List ℕ) (k : Cluster S E) : Outcome (Cluster S E) (List X) :=
  match getAttr (some a.actors) "__deepcopy__" with
  | .ok (.method name) => callAll c a name order k
  | _ => ⟨k, .error .otherError⟩

end EvoTorch.RemoteAccess
