import Verif.Model.Base
/-!
Where random numbers come from: the generators of problems (`src/evotorch/core.py:1611-1631`, `core.py:1700-1719`), the global generators of PyTorch and Python, and the way a
draw finds its generator (`tools/misc.py:1523-1537`, `tools/tensormaker.py:96-103`, `distributions.py:153-214`, `tools/structures.py:2350-2357`).

A generator is its seed and the number of draws made since; the sequence of numbers that belongs to a seed is a parameter. One draw stands for one call of a random
function of PyTorch (of whatever shape). What is drawn, and what is done with it, is arbitrary: programs are trees of draws.
-/
namespace EvoTorch.Randomness

/-- A generator: seed, and number of draws since it was seeded. -/
structure Gen where
  seed : Nat
  pos : Nat
deriving DecidableEq, Repr

/-- All generators there are: those of the problems (`none`: the problem has none of its own), the global one of PyTorch, and the one of Python's `random`. -/
structure World where
  own : Nat → Option Gen
  torch : Gen
  python : Gen

/-- `Problem.manual_seed`, `core.py:1626-1631`, of problem `i`. -/
def manualSeed (i : Nat) (seed : Option Nat) (w : World) : World :=
  match seed with
  | none => { w with own := fun j => if j = i then none else w.own j }
  | some s => { w with own := fun j => if j = i then some ⟨s, 0⟩ else w.own j }

/-- `torch.manual_seed` and `random.seed`. -/
def torchSeed (s : Nat) (w : World) : World := { w with torch := ⟨s, 0⟩ }
def pythonSeed (s : Nat) (w : World) : World := { w with python := ⟨s, 0⟩ }

/-- What can be given as `generator`: nothing, a `torch.Generator` (here: the one stored by problem `i`), an object with an attribute `generator` (problem `i`), or something
else. -/
inductive Arg where
  | nothing
  | generatorOf (i : Nat)
  | problem (i : Nat)
  | other
deriving DecidableEq, Repr

/-- The generator finally used by PyTorch: that of a problem, or the global one. -/
inductive Source where
  | own (i : Nat)
  | torch
  | python
deriving DecidableEq, Repr

/-- A problem's generator if it has one; `generator=None` means the global one to PyTorch. -/
def ownOrGlobal (w : World) (i : Nat) : Source := if (w.own i).isSome then .own i else .torch

/-- `_generator_kwargs(_generator_of(..))`, `misc.py:1523-1537`. -/
def generatorKwargs (w : World) : Arg → Except PyErr Source
  | .nothing => .ok .torch
  | .generatorOf i => .ok (ownOrGlobal w i)
  | .problem i => .ok (ownOrGlobal w i)
  | .other => .error .typeError

/-- `__get_generator_kwargs`, `tensormaker.py:96-103`, of an object which has a generator (`self = some i`: problem `i`) or has no such attribute (a distribution). -/
def makerArg (self : Option Nat) (given : Arg) : Arg :=
  match given, self with
  | .nothing, some i => .generatorOf i
  | .nothing, none => .nothing
  | a, _ => a

/-- `CBag.__init__`, `structures.py:2350-2357`: an object without `generator` raises. -/
def bagSource (w : World) : Arg → Except PyErr Source
  | .nothing => .ok .torch
  | .generatorOf i => .ok (ownOrGlobal w i)
  | .problem i => .ok (ownOrGlobal w i)
  | .other => .error .attributeError

/-- The places in the code where something random is drawn.

* `maker i given`: a tensor-making method of problem `i`. All draws of the operators (`operators/base.py:289-301`, `operators/real.py:63-64`, `real.py:174-188`, `real.py:458`,
  `real.py:564-579`, `real.py:679-685`, `operators/sequence.py:53-54`), of CMA-ES (`algorithms/cmaes.py:421`), of PyCMAES's seed (`algorithms/pycmaes.py:254`), of initial
  solutions (`core.py:1900`, `core.py:1963`), of actor seeds (`core.py:2007`) and of the action noise of `GymNE` (`neuroevolution/gymne.py:340`) are of this kind, with
  nothing given.
* `searcher i`: a Gaussian searcher samples its distribution (`algorithms/distributed/gaussian.py:292`, `gaussian.py:327`) with `generator=self.problem`.
* `gradient i`: problem `i` samples a distribution for `sample_and_compute_gradients` (`core.py:3225`) with `generator=self.generator`.
* `distribution given`: the user samples a distribution.
* `bag given`: a `CBag` shuffles (`structures.py:2410`).
* `functional`: functional samplers (`distributions.py:425`), random network parameters (`neuroevolution/net/layers.py:177`).
* `vecNoise i`: the action noise of `VecGymNE` (`neuroevolution/vecgymne.py:844`).
* `envSeed i`: the seed of the environment of `VecGymNE` (`vecgymne.py:562`).
-/
inductive Site where
  | maker (i : Nat) (given : Arg)
  | searcher (i : Nat)
  | gradient (i : Nat)
  | distribution (given : Arg)
  | bag (given : Arg)
  | functional
  | vecNoise (i : Nat)
  | envSeed (i : Nat)
deriving DecidableEq, Repr

/-- The generator used at a site. -/
def source (w : World) : Site → Except PyErr Source
  | .maker i given => generatorKwargs w (makerArg (some i) given)
  | .searcher i => generatorKwargs w (makerArg none (.problem i))
  | .gradient i => generatorKwargs w (makerArg none (if (w.own i).isSome then .generatorOf i else .nothing))
  | .distribution given => generatorKwargs w (makerArg none given)
  | .bag given => bagSource w given
  | .functional => .ok .torch
  | .vecNoise _ => .ok .torch
  | .envSeed _ => .ok .python

variable {V : Type}

/-- A draw: the value at the present position of the generator, which moves on. -/
def drawFrom (value : Nat → Nat → V) (w : World) : Source → World × V
  | .torch => ({ w with torch := { w.torch with pos := w.torch.pos + 1 } }, value w.torch.seed w.torch.pos)
  | .python => ({ w with python := { w.python with pos := w.python.pos + 1 } }, value w.python.seed w.python.pos)
  | .own i =>
    match w.own i with
    | some g => ({ w with own := fun j => if j = i then some { g with pos := g.pos + 1 } else w.own j }, value g.seed g.pos)
    | none => ({ w with torch := { w.torch with pos := w.torch.pos + 1 } }, value w.torch.seed w.torch.pos)

/-- A program: it ends with a result, or draws at a site and goes on with what was drawn. -/
inductive Prog (V A : Type) where
  | done (a : A)
  | draw (s : Site) (k : V → Prog V A)

/-- One draw of a program. An exception ends it. -/
def stepProg {A : Type} (value : Nat → Nat → V) (w : World) : Prog V (Except PyErr A) → World × Prog V (Except PyErr A)
  | .done a => (w, .done a)
  | .draw s k =>
    match source w s with
    | .error e => (w, .done (.error e))
    | .ok src => ((drawFrom value w src).1, k (drawFrom value w src).2)

/-- A program alone, `n` draws. -/
def runFor {A : Type} (value : Nat → Nat → V) : Nat → World → Prog V (Except PyErr A) → World × Prog V (Except PyErr A)
  | 0, w, p => (w, p)
  | n + 1, w, p => runFor value n (stepProg value w p).1 (stepProg value w p).2

/-- A program to its end. -/
def run {A : Type} (value : Nat → Nat → V) : Prog V (Except PyErr A) → World → World × Except PyErr A
  | .done a, w => (w, a)
  | .draw s k, w =>
    match source w s with
    | .error e => (w, .error e)
    | .ok src => run value (k (drawFrom value w src).2) (drawFrom value w src).1

/-- Many programs in one process: thread `t` is at `ps t`; the schedule says which one makes the next draw. -/
def runAll {A : Type} (value : Nat → Nat → V) : List Nat → World → (Nat → Prog V (Except PyErr A)) → World × (Nat → Prog V (Except PyErr A))
  | [], w, ps => (w, ps)
  | t :: ts, w, ps =>
    runAll value ts (stepProg value w (ps t)).1 (fun u => if u = t then (stepProg value w (ps t)).2 else ps u)

end EvoTorch.Randomness
