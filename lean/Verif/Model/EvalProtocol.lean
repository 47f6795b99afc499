import Verif.Model.Base
import Verif.Model.Hook
import Mathlib.Data.Nat.Notation
/-!
The protocol of `Problem.evaluate` (`src/evotorch/core.py`): hooks, actors, synchronisation, preparation, shared attributes, status. What the overridable methods and the registered functions do
is given from outside as a `Run`; how hooks accumulate results is modelled in `Verif.Model.Hook`, how a batch is distributed in `Verif.Model.Workload`.
-/
namespace EvoTorch.EvalProtocol
open EvoTorch EvoTorch.Hook

/-- What happens during an evaluation, in order of occurrence. -/
inductive Ev (D : Type) where
  | before
  | send (actor : ℕ) (data : D)
  | prepare
  | share (attrib : String) (actor : ℕ)
  | evaluate
  | ask (actor : ℕ)
  | use
  | best
  | after
deriving DecidableEq

/-- Attributes of a problem object by name; a non-serialised attribute is `none` in a copy. -/
abbrev Attrs (V : Type) := List (String × Option V)

/-- A problem object. `core.py 1032`, `core.py 1608-1620`. `actors` are the attributes of the live actors. -/
structure Prob (V D S : Type) where
  numActors : ℕ
  actorIndex : Option ℕ := none
  actors : Option (List (Attrs V)) := none
  prepared : Bool := false
  status : Dict String S := []
  attrs : Attrs V := []
  shared : List String := []
  nonserialized : List String := []
  log : List (Ev D) := []

/-- What `_make_sync_data_for_actors` returns. -/
inductive Down (D : Type) where
  | notImplemented
  | nothing
  | data (d : D)

/-- The argument of `evaluate`. -/
inductive Arg where
  | solution | batch | other
deriving DecidableEq

/-- What the overridable methods and hooks do in one evaluation: which of them raise, and what they give. -/
structure Run (D S : Type) where
  arg : Arg := .batch
  before : Except PyErr Unit := .ok ()
  down : Down D := .notImplemented
  prepare : Except PyErr Unit := .ok ()
  evaluateAll : Except PyErr Unit := .ok ()
  bestWorst : Except PyErr (Dict String S) := .ok []
  after : Except PyErr (Dict String S) := .ok []

variable {V D S : Type}

def lookup (a : Attrs V) (k : String) : Option V := ((a.find? fun kv => decide (kv.1 = k)).map (·.2)).getD none

/-- `setattr`. -/
def setAttr : Attrs V → String → Option V → Attrs V
  | [], k, v => [(k, v)]
  | (k', v') :: a, k, v => if k' = k then (k', v) :: a else (k', v') :: setAttr a k v

/-- `core.py 2713-2729`: the state which reaches an actor. -/
def pickled (p : Prob V D S) : Attrs V := p.attrs.map fun kv => if kv.1 ∈ p.nonserialized then (kv.1, none) else kv

/-- `_parallelize`, `core.py 1972-2047` (for a number of actors given as an integer). -/
def parallelize (p : Prob V D S) : Prob V D S :=
  if p.numActors = 0 then p
  else if p.actorIndex.isSome then p
  else if p.actors.isSome then p
  else { p with actors := some (List.replicate p.numActors (pickled p)) }

def emit (p : Prob V D S) (es : List (Ev D)) : Prob V D S := { p with log := p.log ++ es }

/-- `_sync_before`, `core.py 2308-2319`: the events, and whether to synchronise afterwards. -/
def syncBefore (p : Prob V D S) (down : Down D) : Prob V D S × Bool :=
  match p.actors with
  | none => (p, false)
  | some as =>
    match down with
    | .notImplemented => (p, false)
    | .nothing => (p, true)
    | .data d => (emit p ((List.range as.length).map fun i => .send i d), true)

/-- `_share_attributes`, `core.py 2483-2491`: calls to one actor are executed in the order in which they are made, hence before the evaluation. -/
def shareAttributes (p : Prob V D S) : Prob V D S :=
  match p.actors with
  | none => p
  | some as => { emit p (p.shared.flatMap fun a => (List.range as.length).map fun i => .share a i) with
      actors := some (as.map fun at' => p.shared.foldl (fun x a => setAttr x a (lookup p.attrs a)) at') }

/-- `_start_preparations`, `core.py 2467-2477`. -/
def startPreparations (p : Prob V D S) (prepare : Except PyErr Unit) : Outcome (Prob V D S) Unit :=
  if p.prepared then ⟨p, .ok ()⟩
  else
    let works := p.actors.isNone || p.numActors == 0
    let p' := if works then emit p [.prepare] else p
    match (if works then prepare else .ok ()) with
    | .error e => ⟨p', .error e⟩
    | .ok () => ⟨{ (if p'.actorIndex.isNone then shareAttributes p' else p') with prepared := true }, .ok ()⟩

/-- `_sync_after`, `core.py 2321-2327`. -/
def syncAfter (p : Prob V D S) : Prob V D S :=
  match p.actors with
  | none => p
  | some as => emit p ((List.range as.length).map .ask ++ [.use])

/-- The end of `evaluate`, `core.py 2559-2566`. -/
def finish (p : Prob V D S) (r : Run D S) : Outcome (Prob V D S) Unit :=
  if p.actorIndex.isSome then ⟨p, .ok ()⟩
  else
    let p := { emit p [.best] with status := [] }
    match r.bestWorst with
    | .error e => ⟨p, .error e⟩
    | .ok b =>
      let p := { emit p [.after] with status := dictUpdate p.status b }
      match r.after with
      | .error e => ⟨p, .error e⟩
      | .ok a => ⟨{ p with status := dictUpdate p.status a }, .ok ()⟩

/-- `evaluate` from the evaluation on, `core.py 2554-2566`. -/
def evaluateRest (p : Prob V D S) (must : Bool) (r : Run D S) : Outcome (Prob V D S) Unit :=
  let p := emit p [.evaluate]
  match r.evaluateAll with
  | .error e => ⟨p, .error e⟩
  | .ok () => finish (if must then syncAfter p else p) r

/-- `evaluate` after the first hook, `core.py 2550-2566`. -/
def evaluateMid (p : Prob V D S) (r : Run D S) : Outcome (Prob V D S) Unit :=
  let q := syncBefore p r.down
  match startPreparations q.1 r.prepare with
  | ⟨p, .error e⟩ => ⟨p, .error e⟩
  | ⟨p, .ok ()⟩ => evaluateRest p q.2 r

/-- `Problem.evaluate`, `core.py 2527-2566`. -/
def evaluate (p : Prob V D S) (r : Run D S) : Outcome (Prob V D S) Unit :=
  if r.arg = .other then ⟨p, .error .typeError⟩
  else
    let p := parallelize p
    if p.actorIndex.isSome then evaluateMid p r
    else
      let p := emit p [.before]
      match r.before with
      | .error e => ⟨p, .error e⟩
      | .ok () => evaluateMid p r

/-- `kill_actors`, `core.py 2112-2128`. -/
def killActors (p : Prob V D S) : Outcome (Prob V D S) Unit :=
  if p.actorIndex.isSome then ⟨p, .error .runtimeError⟩
  else match p.actors with
    | none => ⟨p, .error .typeError⟩
    | some _ => ⟨{ p with actors := none }, .ok ()⟩

/-- The user's calls. -/
inductive Op (V D S : Type) where
  | evaluate (r : Run D S)
  | kill
  | set (attrib : String) (v : V)

/-- One call. -/
def apply (p : Prob V D S) : Op V D S → Outcome (Prob V D S) Unit
  | .evaluate r => evaluate p r
  | .kill => killActors p
  | .set a v => ⟨{ p with attrs := setAttr p.attrs a (some v) }, .ok ()⟩

/-- A sequence of calls; the user goes on after exceptions. -/
def run (p : Prob V D S) (ops : List (Op V D S)) : Prob V D S := ops.foldl (fun p o => (apply p o).state) p

/-! ### Access to the remote problems -/

/-- An object as seen through `getattr`: a value, or an object with fields. -/
inductive Obj (V : Type) where
  | val (v : V)
  | obj (fields : List (String × Obj V))

def fieldOf (fs : List (String × Obj V)) (k : String) : Option (Obj V) := (fs.find? fun kv => decide (kv.1 = k)).map (·.2)

def putField : List (String × Obj V) → String → Obj V → List (String × Obj V)
  | [], k, v => [(k, v)]
  | (k', v') :: a, k, v => if k' = k then (k', v) :: a else (k', v') :: putField a k v

/-- `EvaluationActor.get` with a list of field names, `core.py 189-216`. -/
def getPath : Obj V → List String → Except PyErr (Obj V)
  | o, [] => .ok o
  | .val _, _ :: _ => .error .attributeError
  | .obj fs, k :: ks => match fieldOf fs k with
    | none => .error .attributeError
    | some o => getPath o ks

/-- `EvaluationActor.set` with a list of field names, `core.py 218-250`; objects are trees here (no sharing), values have no attributes. -/
def setPath : Obj V → List String → Obj V → Except PyErr (Obj V)
  | o, [], _ => .ok o
  | .val _, _ :: _, _ => .error .attributeError
  | .obj fs, [k], x => .ok (.obj (putField fs k x))
  | .obj fs, k :: k' :: ks, x => match fieldOf fs k with
    | none => .error .attributeError
    | some o => match setPath o (k' :: ks) x with
      | .error e => .error e
      | .ok o' => .ok (.obj (putField fs k o'))

/-- `RemoteMethod.__call__`, `core.py 341-348`: the method is called in every actor; the calls may finish in any `order`, `ray.get` returns the results in the order of the actors. -/
def remoteCall {A X : Type} (method : A → A × X) (actors : List A) (order : List ℕ) : List A × List X :=
  let finished : List (ℕ × (A × X)) := order.filterMap fun i => actors[i]?.map fun a => (i, method a)
  let at' := fun i => (finished.find? fun f => decide (f.1 = i)).map (·.2)
  ((List.range actors.length).filterMap fun i => (at' i).map (·.1), (List.range actors.length).filterMap fun i => (at' i).map (·.2))

end EvoTorch.EvalProtocol
