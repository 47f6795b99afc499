import Verif.Model.Distribution
import Verif.Model.ExpGaussian
import Verif.Model.CMAES
/-!
Whole generations of the search algorithms: sampling, evaluation, ranking, gradients and update (`src/evotorch/algorithms/distributed/gaussian.py`, `src/evotorch/algorithms/cmaes.py`), for a fitness
function `f`. The draws of a generation are an argument. Simplifications: exact arithmetic; no limits on the standard deviation, no optimiser (plain learning rates), not distributed,
a fixed population size.
-/
namespace EvoTorch.Generations
open Selection (Sorter)
open BestWorst (Sense)
open Distribution (Vec DivideBy)
variable {d n : Nat}

/-- The keys of `rankers`, `ranking.py 186`. -/
inductive Method
  | nes
  | centered
  | linear
  | normalized
  | raw
  deriving DecidableEq, Repr

/-- `rank`, `ranking.py 189-216`. The tensors made by `torch.empty` are overwritten completely; here they start with zeros. -/
noncomputable def rank (sort : Sorter ℝ) (m : Method) (higherIsBetter : Bool) (x : List ℝ) : List ℝ :=
  match m with
  | .nes => Ranking.nes sort higherIsBetter (List.replicate x.length 0) x
  | .centered => Ranking.centered sort higherIsBetter (List.replicate x.length 0) x
  | .linear => Ranking.linear sort higherIsBetter (List.replicate x.length 0) x
  | .normalized => Ranking.normalized higherIsBetter x
  | .raw => Ranking.raw higherIsBetter x

/-- `ranking_used in ("centered", "normalized")`, `distributions.py 560`, `distributions.py 720`, `distributions.py 975`. -/
def Method.alreadyCentered : Method → Bool
  | .centered => true
  | .normalized => true
  | _ => false

/-- The utilities of a population, `distributions.py 273-296`. -/
noncomputable def utilities (sort : Sorter ℝ) (m : Method) (sense : Sense) (f : Vec ℝ d → ℝ) (samples : List (Vec ℝ d)) : List ℝ :=
  rank sort m (decide (sense = .max)) (samples.map f)

/-! ### XNES -/

/-- `ExpGaussian._fill` (`distributions.py 950-959`), then `gaussian.py 356-366`, `gaussian.py 386-402`. -/
noncomputable def xnesGen (sort : Sorter ℝ) (m : Method) (sense : Sense) (lrMu lrSigma : ℝ) (f : Vec ℝ d → ℝ) (s : ExpGaussian.State d) (zs : List (Vec ℝ d)) : Except PyErr (ExpGaussian.State d) :=
  let samples := zs.map (ExpGaussian.toGlobal s)
  ExpGaussian.update (some lrMu) lrSigma s (ExpGaussian.gradients s m.alreadyCentered samples (utilities sort m sense f samples))

/-- Several generations of XNES. -/
noncomputable def xnesRun (sort : Sorter ℝ) (m : Method) (sense : Sense) (lrMu lrSigma : ℝ) (f : Vec ℝ d → ℝ) : ExpGaussian.State d → List (List (Vec ℝ d)) → Except PyErr (ExpGaussian.State d)
  | s, [] => .ok s
  | s, zs :: rest => (xnesGen sort m sense lrMu lrSigma f s zs).bind fun s => xnesRun sort m sense lrMu lrSigma f s rest

/-! ### Separable distributions -/

/-- Samples of a separable Gaussian: `SeparableGaussian._fill` (`distributions.py 512-513`), `make_gaussian` on a tensor whose rows are first filled with the draws. -/
noncomputable def sample (zs : List (Vec ℝ d)) (s : Vec ℝ d × Vec ℝ d) : List (Vec ℝ d) := Distribution.makeGaussian zs.length (fun i => zs.getD i 0) s.1 s.2

/-- A generation of SNES: `distributions.py 781-808`. -/
noncomputable def snesGen (sort : Sorter ℝ) (m : Method) (sense : Sense) (lrMu lrSigma : ℝ) (f : Vec ℝ d → ℝ) (s : Vec ℝ d × Vec ℝ d) (zs : List (Vec ℝ d)) : Vec ℝ d × Vec ℝ d :=
  let g := Distribution.expGradients s.1 s.2 (decide (m = .nes)) (sample zs s) (utilities sort m sense f (sample zs s))
  (fun j => s.1 j + lrMu * g.mu j, ExpGaussian.snesUpdateSigma lrSigma s.2 g.sigma)

/-- Several generations of SNES. -/
noncomputable def snesRun (sort : Sorter ℝ) (m : Method) (sense : Sense) (lrMu lrSigma : ℝ) (f : Vec ℝ d → ℝ) (s : Vec ℝ d × Vec ℝ d) (zss : List (List (Vec ℝ d))) : Vec ℝ d × Vec ℝ d :=
  zss.foldl (snesGen sort m sense lrMu lrSigma f) s

/-- What a PGPE search is configured with (`gaussian.py 503-743`). -/
structure Pgpe where
  symmetric : Bool
  divMu : Option DivideBy
  divSigma : Option DivideBy
  method : Method
  sense : Sense
  lrMu : ℝ
  lrSigma : ℝ

/-- A generation of PGPE: `distributions.py 546-594`; with `symmetric`, `distributions.py 703-771`, where the draws are those of the directions. -/
noncomputable def pgpeGen (sort : Sorter ℝ) (p : Pgpe) (f : Vec ℝ d → ℝ) (s : Vec ℝ d × Vec ℝ d) (zs : List (Vec ℝ d)) : Except PyErr (Vec ℝ d × Vec ℝ d) :=
  if p.symmetric then
    (Distribution.makeGaussianSymmetric (2 * zs.length) (fun i => zs.getD i 0) s.1 s.2).bind fun samples =>
      .ok (Distribution.updateSeparable p.lrMu p.lrSigma s.1 s.2
        (Distribution.symmetricGradients p.divMu p.divSigma s.1 s.2 p.method.alreadyCentered samples (utilities sort p.method p.sense f samples)))
  else
    .ok (Distribution.updateSeparable p.lrMu p.lrSigma s.1 s.2
      (Distribution.plainGradients p.divMu p.divSigma s.1 s.2 p.method.alreadyCentered (sample zs s) (utilities sort p.method p.sense f (sample zs s))))

/-- Several generations of PGPE. -/
noncomputable def pgpeRun (sort : Sorter ℝ) (p : Pgpe) (f : Vec ℝ d → ℝ) : Vec ℝ d × Vec ℝ d → List (List (Vec ℝ d)) → Except PyErr (Vec ℝ d × Vec ℝ d)
  | s, [] => .ok s
  | s, zs :: rest => (pgpeGen sort p f s zs).bind fun s => pgpeRun sort p f s rest

/-- A generation of CEM: `distributions.py 536-544`. -/
noncomputable def cemGen (sort : Sorter ℝ) (ratio : ℝ) (sense : Sense) (f : Vec ℝ d → ℝ) (s : Vec ℝ d × Vec ℝ d) (zs : List (Vec ℝ d)) : Vec ℝ d × Vec ℝ d :=
  Distribution.cemUpdate sort ratio (decide (sense = .max)) s.1 s.2 (sample zs s) ((sample zs s).map f)

/-- Several generations of CEM. -/
noncomputable def cemRun (sort : Sorter ℝ) (ratio : ℝ) (sense : Sense) (f : Vec ℝ d → ℝ) (s : Vec ℝ d × Vec ℝ d) (zss : List (List (Vec ℝ d))) : Vec ℝ d × Vec ℝ d :=
  zss.foldl (cemGen sort ratio sense f) s

/-! ### CMA-ES -/

/-- The evaluation and sorting of a population by CMA-ES (`cmaes.py 441-449`), for the fitness function `f`. -/
def cmaEnv (sort : Sorter ℝ) (sense : Sense) (topk : CMAES.Topk n) (freq : Nat) (f : Vec ℝ d → ℝ) (zs : Fin n → Vec ℝ d) : CMAES.Env d n :=
  { zs := zs, sorted := fun xs => Selection.argsort sort sense (List.ofFn fun i => f (xs i)), topk := topk, freq := freq }

/-- Several generations of CMA-ES. -/
noncomputable def cmaRun (chol : Matrix (Fin d) (Fin d) ℝ → Option (Matrix (Fin d) (Fin d) ℝ)) (sort : Sorter ℝ) (sense : Sense) (topk : CMAES.Topk n) (freq : Nat) (o : CMAES.Options) (f : Vec ℝ d → ℝ)
    (s : CMAES.Full d) (zss : List (Fin n → Vec ℝ d)) : Except PyErr (CMAES.Full d) :=
  CMAES.runFull chol o s (zss.map (cmaEnv sort sense topk freq f))

/-- Several generations of separable CMA-ES. -/
noncomputable def cmaSepRun (sort : Sorter ℝ) (sense : Sense) (topk : CMAES.Topk n) (freq : Nat) (o : CMAES.Options) (f : Vec ℝ d → ℝ) (s : CMAES.Sep d) (zss : List (Fin n → Vec ℝ d)) : CMAES.Sep d :=
  CMAES.runSep o s (zss.map (cmaEnv sort sense topk freq f))

end EvoTorch.Generations
