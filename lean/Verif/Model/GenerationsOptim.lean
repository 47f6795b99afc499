import Verif.Model.Generations
import Verif.Model.Optimizers
import Verif.Model.GradSampling
/-!
Generations of PGPE whose center follows an optimiser (`optimizer="clipup"`, the default, `"sgd"` or `"adam"`; `src/evotorch/algorithms/distributed/gaussian.py`). The same simplifications as in `Generations`, other than
that there is an optimiser.
-/
namespace EvoTorch.Generations
open Selection (Sorter)
open Distribution (Vec)
open Optimizers (NVec ClipUp SGD Adam)
variable {d : Nat}

/-- The gradients of a generation of PGPE: `distributions.py 546-578`, with `symmetric` `distributions.py 703-771`. -/
noncomputable def pgpeGradients (sort : Sorter ℝ) (p : Pgpe) (f : Vec ℝ d → ℝ) (s : Vec ℝ d × Vec ℝ d) (zs : List (Vec ℝ d)) : Except PyErr (Distribution.Grads ℝ d) :=
  if p.symmetric then
    (Distribution.makeGaussianSymmetric (2 * zs.length) (fun i => zs.getD i 0) s.1 s.2).bind fun samples =>
      .ok (Distribution.symmetricGradients p.divMu p.divSigma s.1 s.2 p.method.alreadyCentered samples (utilities sort p.method p.sense f samples))
  else .ok (Distribution.plainGradients p.divMu p.divSigma s.1 s.2 p.method.alreadyCentered (sample zs s) (utilities sort p.method p.sense f (sample zs s)))

/-- A search with an optimiser: the center (`none`: all NaN), the standard deviations and the optimiser. -/
structure OptState (d : Nat) (ω : Type) where
  mu : NVec d
  sigma : Vec ℝ d
  opt : ω

/-- `SeparableGaussian.update_parameters`, the standard deviations (`distributions.py 580-594`). -/
def addSpread (lrSigma : ℝ) (sigma g : Vec ℝ d) : Vec ℝ d := fun j => sigma j + lrSigma * g j

/-- The new standard deviations held within `stdev_min` (`lo`), `stdev_max` (`hi`) and `stdev_max_change` (`change`) (`gaussian.py 404-419`, `misc.py 788-810`). Simplification: the limits are numbers, not tensors. -/
noncomputable def limitSpread (lo hi change : Option ℝ) (spread : Vec ℝ d → Vec ℝ d → Vec ℝ d) (sigma g : Vec ℝ d) : Vec ℝ d := fun j =>
  let t := spread sigma g j
  let t := match lo with
    | none => t
    | some l => max t l
  let t := match change with
    | none => t
    | some c => max t (sigma j - |sigma j| * c)
  let t := match hi with
    | none => t
    | some h => min t h
  match change with
    | none => t
    | some c => min t (sigma j + |sigma j| * c)

/-- A generation whose gradients are given by `grads`: `update_parameters` with an optimiser for `mu`, and `spread` for `sigma` (`distributions.py 580-594`, `distributions.py 793-808`, `distributions.py 370-390`,
`gaussian.py 386-402`). With an optimiser the learning rate of the center is not looked at, the optimiser has it as its step size (`gaussian.py 180-196`). Once the center is NaN it stays so; what becomes of the
rest is not modelled. -/
noncomputable def optGen {ω ζ : Type} (ascent : ω → (Fin d → ℝ) → ω × NVec d) (spread : Vec ℝ d → Vec ℝ d → Vec ℝ d) (grads : Vec ℝ d × Vec ℝ d → ζ → Except PyErr (Distribution.Grads ℝ d)) (s : OptState d ω) (zs : ζ) :
    Except PyErr (OptState d ω) :=
  match s.mu with
  | none => .ok s
  | some mu => (grads (mu, s.sigma) zs).bind fun g =>
      let step := ascent s.opt g.mu
      .ok ⟨Optimizers.addVec (some mu) step.2, spread s.sigma g.sigma, step.1⟩

/-- Several generations (`searchalgorithm.py 409-428`). -/
noncomputable def optRun {ω ζ : Type} (ascent : ω → (Fin d → ℝ) → ω × NVec d) (spread : Vec ℝ d → Vec ℝ d → Vec ℝ d) (grads : Vec ℝ d × Vec ℝ d → ζ → Except PyErr (Distribution.Grads ℝ d)) : OptState d ω → List ζ → Except PyErr (OptState d ω)
  | s, [] => .ok s
  | s, zs :: rest => (optGen ascent spread grads s zs).bind fun s => optRun ascent spread grads s rest

/-- A generation of PGPE which is not distributed (`gaussian.py 275-402`). -/
noncomputable def pgpeOptGen {ω : Type} (ascent : ω → (Fin d → ℝ) → ω × NVec d) (sort : Sorter ℝ) (p : Pgpe) (f : Vec ℝ d → ℝ) (s : OptState d ω) (zs : List (Vec ℝ d)) : Except PyErr (OptState d ω) :=
  optGen ascent (addSpread p.lrSigma) (pgpeGradients sort p f) s zs

/-- Several such generations (`searchalgorithm.py 409-428`). -/
noncomputable def pgpeOptRun {ω : Type} (ascent : ω → (Fin d → ℝ) → ω × NVec d) (sort : Sorter ℝ) (p : Pgpe) (f : Vec ℝ d → ℝ) (s : OptState d ω) (zss : List (List (Vec ℝ d))) : Except PyErr (OptState d ω) :=
  optRun ascent (addSpread p.lrSigma) (pgpeGradients sort p f) s zss

/-! ### SNES -/

/-- The gradients of a generation of SNES (`distributions.py 781-791`). -/
noncomputable def snesGradients (sort : Sorter ℝ) (m : Method) (sense : BestWorst.Sense) (f : Vec ℝ d → ℝ) (s : Vec ℝ d × Vec ℝ d) (zs : List (Vec ℝ d)) : Except PyErr (Distribution.Grads ℝ d) :=
  .ok (Distribution.expGradients s.1 s.2 (decide (m = .nes)) (sample zs s) (utilities sort m sense f (sample zs s)))

/-- Several generations of SNES with an optimiser (`distributions.py 793-808`, `searchalgorithm.py 409-428`). -/
noncomputable def snesOptRun {ω : Type} (ascent : ω → (Fin d → ℝ) → ω × NVec d) (sort : Sorter ℝ) (m : Method) (sense : BestWorst.Sense) (lrSigma : ℝ) (f : Vec ℝ d → ℝ) (s : OptState d ω) (zss : List (List (Vec ℝ d))) :
    Except PyErr (OptState d ω) :=
  optRun ascent (ExpGaussian.snesUpdateSigma lrSigma) (snesGradients sort m sense f) s zss

/-! ### Distributed generations -/

/-- What an actor with the given solutions and gradients answers (`core.py 3279-3296`). -/
noncomputable def answerWith (f : Vec ℝ d → ℝ) (samples : List (Vec ℝ d)) (g : Distribution.Grads ℝ d) : GradSampling.Answer ℝ d :=
  { gradients := [("mu", .vec g.mu), ("sigma", .vec g.sigma)]
    numSolutions := samples.length
    meanEval := if samples.length = 0 then none else some ((samples.map f).sum / (samples.length : ℝ)) }

/-- The answers of the actors put together (`gaussian.py 199-272`); each of the given lists of draws is that of an actor; `weighted` is `popsize_weighted_grad_avg`. -/
noncomputable def pooled (answer : List (Vec ℝ d) → Except PyErr (GradSampling.Answer ℝ d)) (weighted : Bool) (zss : List (List (Vec ℝ d))) : Except PyErr (Distribution.Grads ℝ d) :=
  (zss.mapM answer).bind fun answers => (GradSampling.combine weighted answers).bind fun r =>
    match r.1.lookup "mu", r.1.lookup "sigma" with
    | some m, some sg => .ok ⟨m, sg⟩
    | _, _ => .error .keyError

/-- What an actor answers to a PGPE search (`core.py 3223-3233` for its sampling): its own solutions, their ranking among themselves, their gradients. -/
noncomputable def actorAnswer (sort : Sorter ℝ) (p : Pgpe) (f : Vec ℝ d → ℝ) (s : Vec ℝ d × Vec ℝ d) (zs : List (Vec ℝ d)) : Except PyErr (GradSampling.Answer ℝ d) :=
  (if p.symmetric then Distribution.makeGaussianSymmetric (2 * zs.length) (fun i => zs.getD i 0) s.1 s.2 else .ok (sample zs s)).bind fun samples =>
  (pgpeGradients sort p f s zs).bind fun g => .ok (answerWith f samples g)

/-- The gradients of a distributed generation of PGPE (`gaussian.py 199-272`). -/
noncomputable def distGradients (sort : Sorter ℝ) (p : Pgpe) (weighted : Bool) (f : Vec ℝ d → ℝ) (s : Vec ℝ d × Vec ℝ d) (zss : List (List (Vec ℝ d))) : Except PyErr (Distribution.Grads ℝ d) :=
  pooled (actorAnswer sort p f s) weighted zss

/-- The gradients of a distributed generation of SNES (`gaussian.py 199-272`, `core.py 3223-3233`). -/
noncomputable def snesDistGradients (sort : Sorter ℝ) (m : Method) (sense : BestWorst.Sense) (weighted : Bool) (f : Vec ℝ d → ℝ) (s : Vec ℝ d × Vec ℝ d) (zss : List (List (Vec ℝ d))) : Except PyErr (Distribution.Grads ℝ d) :=
  pooled (fun zs => (snesGradients sort m sense f s zs).map (answerWith f (sample zs s))) weighted zss

/-- Several distributed generations of SNES (`gaussian.py 199-272`, `searchalgorithm.py 409-428`). -/
noncomputable def snesDistRun {ω : Type} (ascent : ω → (Fin d → ℝ) → ω × NVec d) (sort : Sorter ℝ) (m : Method) (sense : BestWorst.Sense) (lrSigma : ℝ) (weighted : Bool) (f : Vec ℝ d → ℝ) (s : OptState d ω)
    (gens : List (List (List (Vec ℝ d)))) : Except PyErr (OptState d ω) :=
  optRun ascent (ExpGaussian.snesUpdateSigma lrSigma) (snesDistGradients sort m sense weighted f) s gens

/-- The gradients of CEM (`distributions.py 536-544`), with raw fitnesses (`gaussian.py 1159-1180`). -/
noncomputable def cemGradients (sort : Sorter ℝ) (ratio : ℝ) (sense : BestWorst.Sense) (f : Vec ℝ d → ℝ) (s : Vec ℝ d × Vec ℝ d) (zs : List (Vec ℝ d)) : Distribution.Grads ℝ d :=
  Distribution.parenthoodGradients sort ratio s.1 s.2 (sample zs s) (Ranking.raw (decide (sense = .max)) ((sample zs s).map f))

/-- A distributed generation of CEM (`gaussian.py 199-272`, `distributions.py 580-594`), whose learning rates are 1 (`gaussian.py 1159-1180`). -/
noncomputable def cemDistGen (sort : Sorter ℝ) (ratio : ℝ) (sense : BestWorst.Sense) (weighted : Bool) (f : Vec ℝ d → ℝ) (s : Vec ℝ d × Vec ℝ d) (zss : List (List (Vec ℝ d))) : Except PyErr (Vec ℝ d × Vec ℝ d) :=
  (pooled (fun zs => .ok (answerWith f (sample zs s) (cemGradients sort ratio sense f s zs))) weighted zss).map (Distribution.updateSeparable 1 1 s.1 s.2)

/-- The number of elites among the solutions of an actor (`distributions.py 537-540`). -/
noncomputable def cemElites (sort : Sorter ℝ) (ratio : ℝ) (sense : BestWorst.Sense) (f : Vec ℝ d → ℝ) (s : Vec ℝ d × Vec ℝ d) (zs : List (Vec ℝ d)) : Nat :=
  (Distribution.elites sort ratio (sample zs s) (Ranking.raw (decide (sense = .max)) ((sample zs s).map f))).length

/-- `cemDistGen` with the NaN of torch (`none`): the mean of no elites, and the standard deviation of less than two, are NaN (`distributions.py 541-544`), and a NaN in the answer of one actor makes the average NaN
(`gaussian.py 246-269`). With a single list of draws this is also a local generation. -/
noncomputable def cemDistGenNan (sort : Sorter ℝ) (ratio : ℝ) (sense : BestWorst.Sense) (weighted : Bool) (f : Vec ℝ d → ℝ) (s : Vec ℝ d × Vec ℝ d) (zss : List (List (Vec ℝ d))) : Except PyErr (NVec d × NVec d) :=
  (cemDistGen sort ratio sense weighted f s zss).map fun s' =>
    (if zss.any (fun zs => cemElites sort ratio sense f s zs == 0) then none else some s'.1,
      if zss.any (fun zs => decide (cemElites sort ratio sense f s zs ≤ 1)) then none else some s'.2)

/-- Several distributed generations of PGPE (`gaussian.py 199-272`, `searchalgorithm.py 409-428`). -/
noncomputable def pgpeDistRun {ω : Type} (ascent : ω → (Fin d → ℝ) → ω × NVec d) (sort : Sorter ℝ) (p : Pgpe) (weighted : Bool) (f : Vec ℝ d → ℝ) (s : OptState d ω) (gens : List (List (List (Vec ℝ d)))) :
    Except PyErr (OptState d ω) :=
  optRun ascent (addSpread p.lrSigma) (distGradients sort p weighted f) s gens

/-- No optimiser: the learning rate times the gradient (`distributions.py 370-390`). -/
def plainAscent (lr : ℝ) (o : Unit) (g : Fin d → ℝ) : Unit × NVec d := (o, some fun j => lr * g j)

/-- The ascent of the class `SGD`, which makes no NaN. -/
noncomputable def sgdAscent (o : SGD d) (g : Fin d → ℝ) : SGD d × NVec d := ((o.ascent g).1, some (o.ascent g).2)

/-- The ascent of the class `Adam`, for a positive `epsilon`, where it makes no NaN. -/
noncomputable def adamAscent (o : Adam d) (g : Fin d → ℝ) : Adam d × NVec d := ((o.ascent g).1, some (o.ascent g).2)

end EvoTorch.Generations
