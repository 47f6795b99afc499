import Verif.Model.Hook
/-!
`SearchAlgorithm.step` and `SearchAlgorithm.run` (`src/evotorch/algorithms/searchalgorithm.py:380-428`).

The algorithm, its problem and everything the hooks touch are an arbitrary state `W`; the algorithm's own `_step` is an arbitrary function on it. The hooks are
not changed during a run. Calls are recorded in `trace`.
-/
namespace EvoTorch.Searcher
open EvoTorch.Hook

/-- What happened: function `i` of a hook was called, or the algorithm's own `_step` was. -/
inductive Event where
  | before (i : Nat)
  | core
  | after (i : Nat)
  | log (i : Nat)
  | endOfRun (i : Nat)
deriving DecidableEq, Repr

/-- What is fixed: the four hooks, the algorithm's `_step`, the status of the problem in a state; how the step count is represented as a value; the getters'
values in a state (everything `dict(self.status)` has besides the values written into the status); how the status dictionary is represented as a value. -/
structure Config (W K V : Type) where
  beforeHook : Hook W K V
  afterHook : Hook W K V
  logHook : Hook W K V
  endHook : Hook W K V
  core : W → W × Except PyErr Unit
  problemStatus : W → Dict K V
  iterKey : K
  count : Nat → V
  getters : W → Dict K V
  asValue : Dict K V → V

structure Alg (W K V : Type) where
  world : W
  steps : Nat
  written : Dict K V
  trace : List Event

variable {W K V : Type} [DecidableEq K]

/-- `dict(self.status)`: the values written into the status win over those of the getters. -/
def fullStatus (c : Config W K V) (a : Alg W K V) : Dict K V := dictUpdate (c.getters a.world) a.written

/-- A hook call: the state it leaves and the calls it made are taken over. -/
def afterCall (a : Alg W K V) (mk : Nat → Event) (s : Hook.St W K V) : Alg W K V :=
  { a with world := s.world, trace := a.trace ++ s.calls.map fun c => mk c.index }

/-- `step`, the part after the after-step hook, `searchalgorithm.py:396-397`. -/
def stepLog (c : Config W K V) (a : Alg W K V) : Outcome (Alg W K V) Unit :=
  if c.logHook.funcs.length ≥ 1 then
    let r := call c.logHook [c.asValue (fullStatus c a)] [] a.world
    ⟨afterCall a .log r.1, r.2.map fun _ => ()⟩
  else ⟨a, .ok ()⟩

/-- `step`, from the algorithm's own step on, `searchalgorithm.py:390-397`. -/
def stepCore (c : Config W K V) (a : Alg W K V) : Outcome (Alg W K V) Unit :=
  let r := c.core a.world
  let a1 : Alg W K V := { a with world := r.1, trace := a.trace ++ [.core] }
  match r.2 with
  | .error e => ⟨a1, .error e⟩
  | .ok _ =>
    let a2 : Alg W K V := { a1 with
      steps := a1.steps + 1
      written := dictUpdate (dictUpdate a1.written [(c.iterKey, c.count (a1.steps + 1))]) (c.problemStatus a1.world) }
    let h := accumulateDict c.afterHook [] [] a2.world
    let a3 := afterCall a2 .after h.1
    match h.2 with
    | .error e => ⟨a3, .error e⟩
    | .ok extra => stepLog c { a3 with written := dictUpdate a3.written extra }

/-- `step`, `searchalgorithm.py:380-397`. The time of the first step is not modelled. -/
def step (c : Config W K V) (a : Alg W K V) : Outcome (Alg W K V) Unit :=
  let r := call c.beforeHook [] [] a.world
  let a1 := afterCall a .before r.1
  match r.2 with
  | .error e => ⟨a1, .error e⟩
  | .ok _ => stepCore c { a1 with written := [] }

/-- The loop of `run`, `searchalgorithm.py:424-425`. -/
def steps (c : Config W K V) : Nat → Alg W K V → Outcome (Alg W K V) Unit
  | 0, a => ⟨a, .ok ()⟩
  | n + 1, a => match (step c a).result with
    | .error e => ⟨(step c a).state, .error e⟩
    | .ok _ => steps c n (step c a).state

/-- `run`, `searchalgorithm.py:409-428`. -/
def run (c : Config W K V) (n : Int) (a : Alg W K V) : Outcome (Alg W K V) Unit :=
  let o := steps c n.toNat a
  match o.result with
  | .error e => ⟨o.state, .error e⟩
  | .ok _ =>
    if c.endHook.funcs.length ≥ 1 then
      let r := call c.endHook [c.asValue (fullStatus c o.state)] [] o.state.world
      ⟨afterCall o.state .endOfRun r.1, r.2.map fun _ => ()⟩
    else ⟨o.state, .ok ()⟩

end EvoTorch.Searcher
