import Verif.Model.Base
/-!
`Logger` (`src/evotorch/logging.py:67-107`) and `PicklingLogger` (`logging.py:110-416`).

Files are not modelled; what is recorded is the generation number under which a save is made.
-/
namespace EvoTorch.Logger

/-- `logging.py:88-90`. -/
structure Logger where
  interval : Int
  afterFirstStep : Bool
  stepsCount : Nat
deriving DecidableEq, Repr

/-- `Logger.__call__`, `logging.py:92-101`: whether it logs. -/
def call (l : Logger) : Outcome Logger Bool :=
  let n : Nat := if l.afterFirstStep then l.stepsCount else l.stepsCount + 1
  let l' := { l with stepsCount := l.stepsCount + 1 }
  if l.interval = 0 then ⟨l', .error .zeroDivisionError⟩
  else ⟨l', .ok (decide (Int.fmod n l.interval = 0))⟩

/-- A search algorithm with one `PicklingLogger`: the algorithm's step count, the logger, its `_last_generation` (`logging.py:235`), and the generations
of all saves so far. The algorithm is alive (the logger has a weak reference to it). -/
structure Pickling where
  stepCount : Nat
  logger : Logger
  lastGeneration : Option Nat
  saved : List Nat
deriving DecidableEq, Repr

/-- `save`, `logging.py:271-391`: writing the file is taken to succeed. -/
def save (s : Pickling) : Pickling := { s with lastGeneration := some s.stepCount, saved := s.saved ++ [s.stepCount] }

/-- `_final_save`, `logging.py:258-269`. -/
def finalSave (s : Pickling) : Pickling :=
  if s.lastGeneration = none ∨ (∃ g ∈ s.lastGeneration, s.stepCount > g) then save s else s

/-- One step of the algorithm (`searchalgorithm.py:390-397`): the step count grows, then the log hook calls the logger, whose `_log` saves
(`logging.py:255-256`). -/
def step (s : Pickling) : Outcome Pickling Unit :=
  let s1 := { s with stepCount := s.stepCount + 1 }
  let o := call s1.logger
  let s2 := { s1 with logger := o.state }
  match o.result with
  | .error e => ⟨s2, .error e⟩
  | .ok true => ⟨save s2, .ok ()⟩
  | .ok false => ⟨s2, .ok ()⟩

def steps : Nat → Pickling → Outcome Pickling Unit
  | 0, s => ⟨s, .ok ()⟩
  | n + 1, s => match (step s).result with
    | .error e => ⟨(step s).state, .error e⟩
    | .ok _ => steps n (step s).state

/-- `run(n)`: `n` steps, then the end-of-run hook calls `_final_save` (`searchalgorithm.py:409-428`, `logging.py:199`). -/
def run (n : Int) (s : Pickling) : Outcome Pickling Unit :=
  let o := steps n.toNat s
  match o.result with
  | .error e => ⟨o.state, .error e⟩
  | .ok _ => ⟨finalSave o.state, .ok ()⟩

/-- What a user does: single steps, and runs. -/
inductive Op where
  | step
  | run (n : Int)
deriving DecidableEq, Repr

def apply (s : Pickling) : Op → Outcome Pickling Unit
  | .step => step s
  | .run n => run n s

/-- A history, up to the first exception. -/
def runOps : Pickling → List Op → Outcome Pickling Unit
  | s, [] => ⟨s, .ok ()⟩
  | s, op :: ops => match (apply s op).result with
    | .error e => ⟨(apply s op).state, .error e⟩
    | .ok _ => runOps (apply s op).state ops

/-- A new logger attached to an algorithm that has made `n` steps. -/
def fresh (n : Nat) (interval : Int) (afterFirst : Bool) : Pickling := ⟨n, ⟨interval, afterFirst, 0⟩, none, []⟩

end EvoTorch.Logger
