import Verif.Model.Base
import Mathlib.Analysis.Normed.Algebra.MatrixExponential
import Mathlib.LinearAlgebra.Matrix.NonsingularInverse
import Mathlib.Analysis.SpecialFunctions.Log.Basic
/-!
Model of `ExpGaussian` (`src/evotorch/distributions.py` 811-1014), the distribution of XNES, of the exponential update of
`ExpSeparableGaussian` (SNES) and of `relative_entropy`. Real arithmetic; a batch of vectors is a list.
-/
namespace EvoTorch.ExpGaussian
open Matrix
variable {d : Nat}

/-- The parameters `mu`, `sigma` (called `A`) and `sigma_inv` (called `A_inv`). -/
structure State (d : Nat) where
  mu : Fin d → ℝ
  A : Matrix (Fin d) (Fin d) ℝ
  Ainv : Matrix (Fin d) (Fin d) ℝ

open Classical in
/-- Creation from `mu` and a vector of standard deviations (distributions.py 830-864): `torch.diag`, then `torch.inverse`
(an error of torch for a singular matrix). -/
noncomputable def init (mu stdev : Fin d → ℝ) : Except PyErr (State d) :=
  let A := Matrix.diagonal stdev
  if A.det = 0 then .error .runtimeError else .ok ⟨mu, A, A⁻¹⟩

/-- `to_global_coordinates` (distributions.py 926-936), one row. -/
def toGlobal (s : State d) (z : Fin d → ℝ) : Fin d → ℝ := s.mu + s.A.mulVec z

/-- `to_local_coordinates` (distributions.py 938-948), one row. -/
def toLocal (s : State d) (x : Fin d → ℝ) : Fin d → ℝ := s.Ainv.mulVec (x - s.mu)

/-- `cov` (distributions.py 884-887). -/
def cov (s : State d) : Matrix (Fin d) (Fin d) ℝ := s.Aᵀ * s.A

/-- The gradients `d` and `M`. -/
structure Grads (d : Nat) where
  delta : Fin d → ℝ
  M : Matrix (Fin d) (Fin d) ℝ

/-- `_compute_gradients` (distributions.py 961-987). -/
noncomputable def gradients (s : State d) (alreadyCentered : Bool) (samples : List (Fin d → ℝ)) (weights : List ℝ) : Grads d :=
  let zs := samples.map (toLocal s)
  let ws := if alreadyCentered then weights else weights.map fun w => w - weights.sum / weights.length
  { delta := (List.zipWith (fun w z => w • z) ws zs).sum
    M := (List.zipWith (fun w z => w • (Matrix.of (fun i j => z i * z j) - 1)) ws zs).sum }

/-- `update_parameters` (distributions.py 989-1014), as called by `_update_distribution` (gaussian.py 386-402): the learning
rate of `mu` is present only without an optimizer; `learning_rates["mu"]` is a `KeyError` otherwise. -/
noncomputable def update (lrMu : Option ℝ) (lrSigma : ℝ) (s : State d) (g : Grads d) : Except PyErr (State d) :=
  match lrMu with
  | none => .error .keyError
  | some lr =>
    let updateD := lr • g.delta
    let updateM := lrSigma • g.M
    .ok { mu := s.mu + s.A.mulVec updateD
          A := s.A * NormedSpace.exp ((1/2 : ℝ) • updateM)
          Ainv := NormedSpace.exp ((-1/2 : ℝ) • updateM) * s.Ainv }

/-- A run: a sequence of updates. -/
noncomputable def run (lrMu : Option ℝ) (lrSigma : ℝ) (s : State d) : List (Grads d) → Except PyErr (State d)
  | [] => .ok s
  | g :: gs => do run lrMu lrSigma (← update lrMu lrSigma s g) gs

/-! ### The separable exponential update -/

/-- `ExpSeparableGaussian.update_parameters`, the standard deviation (distributions.py 804-806). -/
noncomputable def snesUpdateSigma (lr : ℝ) (sigma grad : Fin d → ℝ) : Fin d → ℝ :=
  fun j => sigma j * Real.exp (0.5 * (lr * grad j))

/-- A SNES run without standard deviation limits. -/
noncomputable def snesRun (lr : ℝ) (sigma : Fin d → ℝ) (grads : List (Fin d → ℝ)) : Fin d → ℝ :=
  grads.foldl (snesUpdateSigma lr) sigma

/-- `SeparableGaussian.relative_entropy(dist_0, dist_1)` (distributions.py 596-611). -/
noncomputable def relativeEntropy (mu0 sigma0 mu1 sigma1 : Fin d → ℝ) : ℝ :=
  let cov0 := fun j => sigma0 j ^ 2
  let cov1 := fun j => sigma1 j ^ 2
  let traceCov := ∑ j, cov0 j / cov1 j
  let scaledMu := ∑ j, (mu1 j - mu0 j) ^ 2 / cov1 j
  let logDet := (∑ j, Real.log (cov1 j)) - ∑ j, Real.log (cov0 j)
  0.5 * (traceCov - d + scaledMu + logDet)

end EvoTorch.ExpGaussian
