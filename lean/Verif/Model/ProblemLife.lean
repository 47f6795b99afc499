import Verif.Model.Base
/-!
The life of a neuroevolution problem (`src/evotorch/core.py`, `src/evotorch/neuroevolution/neproblem.py`): preparation at the first evaluation, creation and removal of
remote actors, cloning and pickling. What is tracked is the network with which solutions are evaluated; parameters, fitnesses and observation statistics are not.
-/
namespace EvoTorch.ProblemLife
variable {α : Type}

/-- Which `_prepare` the class has: that of `NEProblem` (and of `GymNE`, which extends it), or that of `SupervisedNE`, which replaces it. -/
inductive Kind where
  | ne
  | supervised
deriving DecidableEq, Repr

/-- One problem object, without its actors: `core.py 1032`, `core.py 1608-1609`, `neproblem.py 217-226`. `α` is the type of networks; a network given as a string or as a
function is identified with the network it makes. `iterating`: the attribute `dataloader_iterator` of a `SupervisedNE` (`supervisedne.py 211`, `supervisedne.py 318-319`) is an
iterator of PyTorch's `DataLoader`, whose `__getstate__` raises NotImplementedError. `definesSeed`: the class has a method named `seed` (`Problem` itself has none). -/
structure Obj (α : Type) where
  kind : Kind
  numActors : Nat
  actorIndex : Option Nat
  ownGenerator : Bool
  definesSeed : Bool
  original : Option α
  instantiated : Option α
  prepared : Bool
  iterating : Bool
deriving DecidableEq, Repr

/-- The main problem object, with its actors if they were created. An actor is `none` if its constructor failed. -/
structure Main (α : Type) where
  obj : Obj α
  actors : Option (List (Option (Obj α)))
deriving DecidableEq, Repr

/-- A new problem, `neproblem.py 209-247`. -/
def fresh (kind : Kind) (numActors : Nat) (ownGenerator definesSeed : Bool) (net : α) : Main α :=
  ⟨⟨kind, numActors, none, ownGenerator, definesSeed, some net, none, false, false⟩, none⟩

/-- `_instantiate_net`, `neproblem.py 292-315`: None is neither a string nor a module, so it is called. -/
def instantiateNet : Option α → Except PyErr α
  | none => .error .typeError
  | some n => .ok n

/-- `_prepare`, `neproblem.py 317-321`, and `supervisedne.py 308-309` (data loaders are not modelled). -/
def prepare (o : Obj α) : Outcome (Obj α) Unit :=
  match o.kind with
  | .supervised => ⟨o, .ok ()⟩
  | .ne =>
    match instantiateNet o.original with
    | .error e => ⟨o, .error e⟩
    | .ok n => ⟨{ o with instantiated := some n, original := none }, .ok ()⟩

/-- `_start_preparations`, `core.py 2467-2477` (no attributes are shared with the actors, as in all classes of the library). -/
def startPreparations (o : Obj α) (hasActors : Bool) : Outcome (Obj α) Unit :=
  if o.prepared then ⟨o, .ok ()⟩
  else if !hasActors || o.numActors == 0 then
    let r := prepare o
    match r.result with
    | .error e => ⟨r.state, .error e⟩
    | .ok () => ⟨{ r.state with prepared := true }, .ok ()⟩
  else ⟨{ o with prepared := true }, .ok ()⟩

/-- `parameterize_net`, `neproblem.py 342-363`: the network into which the parameters are filled. -/
def parameterizeNet (o : Obj α) : Outcome (Obj α) α :=
  match o.instantiated with
  | some n => ⟨o, .ok n⟩
  | none =>
    match instantiateNet o.original with
    | .error e => ⟨o, .error e⟩
    | .ok n => ⟨{ o with instantiated := some n }, .ok n⟩

/-- The evaluation of a network by a `SupervisedNE` fetches a minibatch, and keeps the iterator over the data: `supervisedne.py 311-342` (at least one minibatch, with a data
loader of PyTorch). -/
def useData (o : Obj α) : Obj α := { o with iterating := o.iterating || o.kind == .supervised }

/-- The state of a copy: `_get_cloned_state`, `core.py 2713-2729`, with the attributes which are not serialized, `neproblem.py 288-290`. -/
def cloneObj (o : Obj α) : Obj α := { o with instantiated := none }

/-- `EvaluationActor.__init__`, `core.py 119-145`: the actor receives a pickled copy; its seeding calls `seed`. -/
def makeActor (o : Obj α) (index : Nat) : Option (Obj α) :=
  if o.ownGenerator && !o.definesSeed then none else some { cloneObj o with actorIndex := some index }

/-- `_parallelize`, `core.py 1972-2047`. -/
def parallelize (m : Main α) : Main α :=
  if m.obj.numActors = 0 then m
  else if m.obj.actorIndex.isSome then m
  else if m.actors.isSome then m
  else { m with actors := some ((List.range m.obj.numActors).map (makeActor m.obj)) }

/-- The evaluation of a batch by a problem without actors: `evaluate`, `core.py 2527-2566`, `neproblem.py 407-429`. -/
def evaluateHere (o : Obj α) : Outcome (Obj α) α :=
  let r := startPreparations o false
  match r.result with
  | .error e => ⟨r.state, .error e⟩
  | .ok () =>
    let q := parameterizeNet r.state
    match q.result with
    | .error e => ⟨q.state, .error e⟩
    | .ok n => ⟨useData q.state, .ok n⟩

/-- The pieces of a batch, each evaluated by some actor (`_evaluate_all`, `core.py 2578-2595`): `sched` says which one, and may be any list. -/
def evaluateRemotely : List Nat → List (Option (Obj α)) → Outcome (List (Option (Obj α))) (List α)
  | [], actors => ⟨actors, .ok []⟩
  | i :: rest, actors =>
    match actors[i % actors.length]? with
    | some (some o) =>
      let r := evaluateHere o
      let actors := actors.set (i % actors.length) (some r.state)
      match r.result with
      | .error e => ⟨actors, .error e⟩
      | .ok n =>
        let q := evaluateRemotely rest actors
        match q.result with
        | .error e => ⟨q.state, .error e⟩
        | .ok ns => ⟨q.state, .ok (n :: ns)⟩
    | _ => ⟨actors, .error .otherError⟩

/-- `Problem.evaluate` of the main problem, `core.py 2527-2566`. The result says with which networks the pieces were evaluated. -/
def evaluate (sched : List Nat) (m : Main α) : Outcome (Main α) (List α) :=
  let m := parallelize m
  let p := startPreparations m.obj m.actors.isSome
  match p.result with
  | .error e => ⟨{ m with obj := p.state }, .error e⟩
  | .ok () =>
    match m.actors with
    | none =>
      let r := parameterizeNet p.state
      match r.result with
      | .error e => ⟨{ m with obj := r.state }, .error e⟩
      | .ok n => ⟨{ m with obj := useData r.state }, .ok [n]⟩
    | some actors =>
      let r := evaluateRemotely sched actors
      ⟨⟨p.state, some r.state⟩, r.result⟩

/-- `make_net`, `neproblem.py 323-340`. -/
def makeNet (m : Main α) : Outcome (Main α) (List α) :=
  let r := parameterizeNet m.obj
  ⟨{ m with obj := r.state }, r.result.map fun n => [n]⟩

/-- `clone()`, or pickling and unpickling: `_get_cloned_state`, `core.py 2706-2729`. The states of the actors are collected first, which fails if one is dead. All
attributes are copied, among them the iterator over the data of a `SupervisedNE`, which refuses it. -/
def clone (m : Main α) : Outcome (Main α) (List α) :=
  if (m.actors.getD []).any Option.isNone then ⟨m, .error .otherError⟩
  else if m.obj.iterating then ⟨m, .error .notImplementedError⟩
  else ⟨⟨cloneObj m.obj, none⟩, .ok []⟩

/-- `kill_actors`, `core.py 2112-2128`: iterates over `self._actors`, which may be None. -/
def killActors (m : Main α) : Outcome (Main α) (List α) :=
  if m.obj.actorIndex.isSome then ⟨m, .error .runtimeError⟩
  else match m.actors with
    | none => ⟨m, .error .typeError⟩
    | some _ => ⟨{ m with actors := none }, .ok []⟩

/-- What a user can do with a problem. After `clone` the copy is used. -/
inductive Op where
  | evaluate (sched : List Nat)
  | makeNet
  | clone
  | killActors
deriving DecidableEq, Repr

def apply : Op → Main α → Outcome (Main α) (List α)
  | .evaluate s, m => evaluate s m
  | .makeNet, m => makeNet m
  | .clone, m => clone m
  | .killActors, m => killActors m

/-- A history: the results of all its operations. -/
def run : List Op → Main α → List (Except PyErr (List α))
  | [], _ => []
  | op :: rest, m => (apply op m).result :: run rest (apply op m).state

end EvoTorch.ProblemLife
