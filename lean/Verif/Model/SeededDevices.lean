import Verif.Model.FitnessDevice
/-!
Random generators and devices: `Problem.manual_seed`, the devices of networks and of gradient requests, the sampling done by a gradient request, and the start of an actor
(`src/evotorch/core.py`, `src/evotorch/neuroevolution/`).

Simplifications. Only devices are modelled, not the numbers. PyTorch refuses to draw for a tensor with a generator whose device is of another type. A tensor made on the device `cuda` is
taken to be on `cuda`, not on `cuda:0`; this matters only for comparisons which decide about copies that change nothing. Pickling the problem for an actor is taken to succeed.
-/
namespace EvoTorch.SeededDevices
open EvoTorch EvoTorch.FitnessDevice

/-- The kinds of problems which differ in where they compute: problems with a fitness function, `NEProblem` and `SupervisedNE`, `GymNE`, and `VecGymNE`, whose simulator is on a
device of its own. -/
inductive Kind where
  | plain (F : Functions)
  | ne
  | gym
  | vecGym (simulator : Device)

/-- The problem: its devices, its own generator's device, the simulator device it has noticed (`vecgymne.py 317`), and whether its class defines a method `seed` (no class of the
library does). -/
structure Prob where
  conf : Config
  kind : Kind
  generator : Option Device
  noticed : Option Device
  definesSeed : Bool

/-- `Problem.__init__` with a seed, without or with one (`core.py 1028-1035`), `manual_seed` (`core.py 1626-1631`). -/
def manualSeed (p : Prob) : Option Nat → Prob
  | none => { p with generator := none }
  | some _ => { p with generator := some (p.generator.getD p.conf.device) }

/-- A new problem on the main process. -/
def new (device : Device) (numGpusAll : Bool) (kind : Kind) (definesSeed : Bool) (seed : Option Nat) : Prob :=
  manualSeed ⟨⟨device, numGpusAll, none⟩, kind, none, none, definesSeed⟩ seed

/-- A random function of PyTorch for a tensor on device `d`, with the generator given by the problem, `misc.py 1536-1537`. -/
def draw (d : Device) (generator : Option Device) : Except PyErr Unit :=
  match generator with
  | none => .ok ()
  | some g => if g.type = d.type then .ok () else .error .runtimeError

/-- `network_device` (`neproblem.py 250-263`, `gymne.py 354-359`, `vecgymne.py 1064-1073`); the others have none. -/
def networkDevice (cuda : Bool) (p : Prob) : Option Device :=
  match p.kind with
  | .plain _ => none
  | .ne => some (if p.conf.actorIndex.isNone then (if p.conf.device = ⟨"cpu", none⟩ then ⟨"cpu", none⟩ else p.conf.device) else auxDevice cuda p.conf)
  | .gym => some ⟨"cpu", none⟩
  | .vecGym _ => p.noticed

/-- `_grad_device` (`core.py 3113-3149`, `neproblem.py 365-383`, `vecgymne.py 578-588`). -/
def gradDevice (cuda : Bool) (p : Prob) : Except PyErr Device :=
  match p.kind with
  | .plain F => do
    let d ← deviceOfFitness (auxDevice cuda p.conf) F
    .ok (match d with | none => p.conf.device | some d => d)
  | .ne => .ok ((networkDevice cuda p).getD p.conf.device)
  | .gym => .ok ((networkDevice cuda p).getD p.conf.device)
  | .vecGym _ => .ok (match p.noticed with | none => ⟨"cpu", none⟩ | some d => d)

/-- The device on which the solutions of a batch on device `b` are evaluated: `_evaluate_all` (`core.py 2569-2577`), `parameterize_net` (`neproblem.py 355-357`), and
`vecgymne.py 755-761`, where the device of the simulator is noticed. -/
def evaluate (cuda : Bool) (p : Prob) (b : Device) : Outcome Prob Device :=
  match p.kind with
  | .plain F =>
    match deviceOfFitness (auxDevice cuda p.conf) F with
    | .error e => ⟨p, .error e⟩
    | .ok d => ⟨p, .ok (d.getD b)⟩
  | .ne => ⟨p, .ok ((networkDevice cuda p).getD b)⟩
  | .gym => ⟨p, .ok ((networkDevice cuda p).getD b)⟩
  | .vecGym s => ⟨{ p with noticed := some s }, .ok s⟩

/-- `generate_values` (`core.py 1860-1867`). -/
def generate (p : Prob) : Except PyErr Device := do
  draw p.conf.device p.generator
  .ok p.conf.device

/-- Where a request was carried out. -/
structure Places where
  samples : Device
  evaluation : Device
  gradients : Device
deriving DecidableEq

/-- The new batch of `_sample_and_compute_gradients` (`core.py 3217-3225`): made with random values on the device of the problem (`core.py 3764-3765`), then filled by the distribution on
the device `d`. -/
def sampleBatch (p : Prob) (d : Device) : Except PyErr Unit := do
  let _ ← generate p
  draw d p.generator

/-- `_sample_and_compute_gradients` (`core.py 3217-3296`) with one batch: the gradients are moved to the device of the problem. -/
def gradients (cuda : Bool) (p : Prob) : Outcome Prob Places :=
  match gradDevice cuda p with
  | .error e => ⟨p, .error e⟩
  | .ok d =>
    match sampleBatch p d with
    | .error e => ⟨p, .error e⟩
    | .ok () =>
      let o := evaluate cuda p d
      ⟨o.state, o.result.map fun e => ⟨d, e, if d ≠ p.conf.device then p.conf.device else d⟩⟩

/-- A step of a search which is not distributed (`gaussian.py 274-367`): the population is on the device of the problem. -/
def localStep (cuda : Bool) (p : Prob) : Outcome Prob Places :=
  match draw p.conf.device p.generator with
  | .error e => ⟨p, .error e⟩
  | .ok () =>
    let o := evaluate cuda p p.conf.device
    ⟨o.state, o.result.map fun e => ⟨p.conf.device, e, p.conf.device⟩⟩

/-- What may happen to a problem. -/
inductive Op where
  | seed (s : Option Nat)
  | request
  | step

/-- One operation; errors are caught by the user. -/
def apply (cuda : Bool) (p : Prob) : Op → Prob
  | .seed s => manualSeed p s
  | .request => (gradients cuda p).state
  | .step => (localStep cuda p).state

/-- A history. -/
def run (cuda : Bool) (p : Prob) (ops : List Op) : Prob := ops.foldl (apply cuda) p

/-- `EvaluationActor.__init__` (`core.py 119-146`): `self._problem.seed(...)` is an AttributeError unless the class of the problem defines such a method, which is taken to seed the
problem as `manual_seed` does. -/
def startActor (p : Prob) (index seed : Nat) : Except PyErr Prob :=
  let q := { p with conf := { p.conf with actorIndex := some index } }
  if q.generator.isSome then
    if q.definesSeed then .ok (manualSeed q (some seed)) else .error .attributeError
  else .ok q

/-- The actors of `_parallelize` (`core.py 2015-2042`), `seeds i` is the last of the seeds of actor `i`. The error is reported by the first call of the actor. -/
def startActors (p : Prob) (n : Nat) (seeds : Nat → Nat) : Except PyErr (List Prob) := (List.range n).mapM fun i => startActor p i (seeds i)

end EvoTorch.SeededDevices
