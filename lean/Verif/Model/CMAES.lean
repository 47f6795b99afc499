import Verif.Model.Base
import Verif.Model.Selection
import Mathlib.Analysis.SpecialFunctions.Log.Basic
import Mathlib.Analysis.SpecialFunctions.Pow.Real
import Mathlib.Analysis.Real.Sqrt
import Mathlib.Data.Matrix.Mul
/-!
Model of `CMAES` (`src/evotorch/algorithms/cmaes.py`), real arithmetic. `d` is the solution length and `n` the population size.
Random draws (`zs`) are arguments; `argsort`, `topk` and the Cholesky factorisation are parameters.
-/
namespace EvoTorch.CMAES
open Matrix

/-- The keyword arguments of `CMAES.__init__` (cmaes.py 112-137) which influence the search. -/
structure Options where
  cM : ℝ
  cSigma : Option ℝ
  cSigmaRatio : ℝ
  dampSigma : Option ℝ
  dampSigmaRatio : ℝ
  cC : Option ℝ
  cCRatio : ℝ
  c1 : Option ℝ
  c1Ratio : ℝ
  cMu : Option ℝ
  cMuRatio : ℝ
  active : Bool
  csaSquared : Bool
  stdevMin : Option ℝ
  stdevMax : Option ℝ
  separable : Bool

/-- The default values of the keyword arguments (cmaes.py 119-134). -/
def Options.default : Options :=
  { cM := 1, cSigma := none, cSigmaRatio := 1, dampSigma := none, dampSigmaRatio := 1, cC := none, cCRatio := 1, c1 := none,
    c1Ratio := 1, cMu := none, cMuRatio := 1, active := true, csaSquared := false, stdevMin := none, stdevMax := none,
    separable := false }

/-! ### The settings computed by `__init__` -/

/-- `self.mu` (cmaes.py 235). -/
def mu (n : Nat) : Nat := n / 2

/-- `raw_weights[i]` (cmaes.py 279). -/
noncomputable def rawWeight (n i : Nat) : ℝ := Real.log (((n : ℝ) + 1) / 2) - Real.log ((i : ℝ) + 1)

/-- Sum over `raw_weights[: self.mu]` (cmaes.py 281). -/
def sumPos (n : Nat) (f : ℝ → ℝ) (raw : Nat → ℝ) : ℝ := ((List.range (mu n)).map fun i => f (raw i)).sum

/-- Sum over `raw_weights[self.mu :]` (cmaes.py 282). -/
def sumNeg (n : Nat) (f : ℝ → ℝ) (raw : Nat → ℝ) : ℝ := ((List.range (n - mu n)).map fun i => f (raw (mu n + i))).sum

/-- `self.mu_eff` (cmaes.py 286). -/
noncomputable def muEff (n : Nat) : ℝ := sumPos n id (rawWeight n) ^ 2 / sumPos n (· ^ 2) (rawWeight n)

/-- `self.c_sigma` (cmaes.py 299-301). -/
noncomputable def cSigma (o : Options) (d n : Nat) : ℝ :=
  o.cSigmaRatio * o.cSigma.getD ((muEff n + 2) / (d + muEff n + 3))

/-- `self.damp_sigma` (cmaes.py 304-306). -/
noncomputable def dampSigma (o : Options) (d n : Nat) : ℝ :=
  o.dampSigmaRatio * o.dampSigma.getD (1 + 2 * max 0 (Real.sqrt ((muEff n - 1) / (d + 1)) - 1) + cSigma o d n)

/-- `self.c_c` (cmaes.py 309-315). -/
noncomputable def cC (o : Options) (d n : Nat) : ℝ :=
  o.cCRatio * o.cC.getD
    (if o.separable then (1 + 1 / d + muEff n / d) / (Real.sqrt d + 1 / d + 2 * (muEff n / d))
     else (4 + muEff n / d) / (d + (4 + 2 * muEff n / d)))

/-- `self.c_1` (cmaes.py 318-324). -/
noncomputable def c1 (o : Options) (d n : Nat) : ℝ :=
  o.c1Ratio * o.c1.getD
    (if o.separable then 1 / (d + 2 * Real.sqrt d + muEff n / d)
     else min 1 ((n : ℝ) / 6) * 2 / (((d : ℝ) + 1.3) ^ 2 + muEff n))

/-- `self.c_mu` (cmaes.py 327-335). -/
noncomputable def cMu (o : Options) (d n : Nat) : ℝ :=
  o.cMuRatio * o.cMu.getD
    (if o.separable then (0.25 + muEff n + 1 / muEff n - 2) / (d + 4 * Real.sqrt d + muEff n / 2)
     else min (1 - c1 o d n) (2 * ((0.25 + muEff n - 2 + 1 / muEff n) / (((d : ℝ) + 2) ^ 2 + muEff n))))

/-- `self.variance_discount_sigma` (cmaes.py 338). -/
noncomputable def varianceDiscountSigma (o : Options) (d n : Nat) : ℝ :=
  Real.sqrt (cSigma o d n * (2 - cSigma o d n) * muEff n)

/-- `self.variance_discount_c` (cmaes.py 340). -/
noncomputable def varianceDiscountC (o : Options) (d n : Nat) : ℝ := Real.sqrt (cC o d n * (2 - cC o d n) * muEff n)

/-- `alpha` (cmaes.py 352-358). -/
noncomputable def alpha (o : Options) (d n : Nat) : ℝ :=
  let muEffNeg := sumNeg n id (rawWeight n) ^ 2 / sumNeg n (· ^ 2) (rawWeight n)
  let alphaMu := 1 + c1 o d n / cMu o d n
  let alphaMuEff := 1 + 2 * muEffNeg / (muEff n + 2)
  let alphaPosDef := (1 - cMu o d n - c1 o d n) / (d * cMu o d n)
  min alphaMu (min alphaMuEff alphaPosDef)

/-- `self.weights[i]` (cmaes.py 346-367). -/
noncomputable def weight (o : Options) (d n i : Nat) : ℝ :=
  if i < mu n then rawWeight n i / sumPos n id (rawWeight n)
  else if o.active then alpha o d n * rawWeight n i / sumNeg n abs (rawWeight n)
  else 0

/-- `torch.sum(self.weights)` (cmaes.py 549). -/
noncomputable def sumWeights (o : Options) (d n : Nat) : ℝ := ((List.range n).map (weight o d n)).sum

/-- `self.unbiased_expectation` (cmaes.py 377). -/
noncomputable def unbiasedExpectation (d : Nat) : ℝ := Real.sqrt d * (1 - 1 / (4 * d) + 1 / (21 * (d : ℝ) ^ 2))

/-! ### The state -/

variable {d n : Nat}

/-- The attributes changed by a step, without the covariance: `m`, `sigma`, `p_sigma`, `p_c` and the step count. The initial
`0.0` of the two evolution paths is the zero vector. -/
structure Core (d : Nat) where
  m : Fin d → ℝ
  sigma : ℝ
  pSigma : Fin d → ℝ
  pC : Fin d → ℝ
  steps : Nat

/-- The non-separable state: `C` and `A` are matrices (cmaes.py 270-273). -/
structure Full (d : Nat) extends Core d where
  C : Matrix (Fin d) (Fin d) ℝ
  A : Matrix (Fin d) (Fin d) ℝ

/-- The separable state: `C` and `A` are vectors (cmaes.py 265-269). -/
structure Sep (d : Nat) extends Core d where
  C : Fin d → ℝ
  A : Fin d → ℝ

/-- Initial state, non-separable (cmaes.py 254, 263, 270-273, 372-373). -/
def Full.init (m : Fin d → ℝ) (stdevInit : ℝ) : Full d :=
  { m := m, sigma := stdevInit, pSigma := 0, pC := 0, steps := 0, C := 1, A := 1 }

/-- Initial state, separable (cmaes.py 254, 263, 265-269, 372-373). -/
def Sep.init (m : Fin d → ℝ) (stdevInit : ℝ) : Sep d :=
  { m := m, sigma := stdevInit, pSigma := 0, pC := 0, steps := 0, C := fun _ => 1, A := fun _ => 1 }

/-- `torch.norm(v).pow(2.0)`. -/
def normSq (v : Fin d → ℝ) : ℝ := ∑ j, v j ^ 2

/-- `torch.norm(v)`. -/
noncomputable def norm (v : Fin d → ℝ) : ℝ := Real.sqrt (normSq v)

/-! ### The parts of a step -/

/-- `sample_distribution`, `ys`, non-separable (cmaes.py 427). -/
def shapedFull (A : Matrix (Fin d) (Fin d) ℝ) (zs : Fin n → Fin d → ℝ) : Fin n → Fin d → ℝ := fun i => A.mulVec (zs i)

/-- `sample_distribution`, `ys`, separable (cmaes.py 425). -/
def shapedSep (A : Fin d → ℝ) (zs : Fin n → Fin d → ℝ) : Fin n → Fin d → ℝ := fun i j => A j * zs i j

/-- `sample_distribution`, `xs` (cmaes.py 429). -/
def samples (c : Core d) (ys : Fin n → Fin d → ℝ) : Fin n → Fin d → ℝ := fun i j => c.m j + c.sigma * ys i j

/-- The ranks by inverting the sorting permutation: `ranks[indices] = arange` (cmaes.py 448-449). -/
def ranks (indices : List Nat) : Nat → Nat :=
  indices.zipIdx.foldl (fun r p => Function.update r p.1 p.2) fun _ => 0

/-- `get_population_weights` (cmaes.py 441-452) from the sorting permutation of the evaluated population. -/
noncomputable def assignedWeights (o : Options) (d n : Nat) (indices : List Nat) : Fin n → ℝ :=
  fun i => weight o d n (ranks indices i)

/-- `torch.topk(v, k=k).indices` as a parameter. -/
abbrev Topk (n : Nat) := (Fin n → ℝ) → Nat → List (Fin n)

/-- A weighted recombination (cmaes.py 473, 475). -/
def recombine (top : List (Fin n)) (w : Fin n → ℝ) (vs : Fin n → Fin d → ℝ) : Fin d → ℝ :=
  fun j => (top.map fun i => w i * vs i j).sum

/-- `update_m`, the new center (cmaes.py 478). -/
def updateM (o : Options) (c : Core d) (shaped : Fin d → ℝ) : Fin d → ℝ := fun j => c.m j + o.cM * c.sigma * shaped j

/-- `update_p_sigma` (cmaes.py 490). -/
noncomputable def updatePSigma (o : Options) (n : Nat) (c : Core d) (localDisp : Fin d → ℝ) : Fin d → ℝ :=
  fun j => (1 - cSigma o d n) * c.pSigma j + varianceDiscountSigma o d n * localDisp j

/-- `update_sigma` (cmaes.py 496-507), from the new `p_sigma`. -/
noncomputable def updateSigma (o : Options) (n : Nat) (sigma : ℝ) (pSigma : Fin d → ℝ) : ℝ :=
  let e := if o.csaSquared then (normSq pSigma / d - 1) / 2 else norm pSigma / unbiasedExpectation d - 1
  sigma * Real.exp (cSigma o d n / dampSigma o d n * e)

/-- `_h_sig` (cmaes.py 41-46). -/
noncomputable def hSig (pSigma : Fin d → ℝ) (cSig : ℝ) (iter : Nat) : ℝ :=
  let squaredSum := normSq pSigma / (1 - (1 - cSig) ^ (2 * iter + 1))
  if squaredSum / d - 1 < 1 + 4 / (d + 1) then 1 else 0

/-- `update_p_c` (cmaes.py 517). -/
noncomputable def updatePC (o : Options) (n : Nat) (c : Core d) (shaped : Fin d → ℝ) (h : ℝ) : Fin d → ℝ :=
  fun j => (1 - cC o d n) * c.pC j + h * varianceDiscountC o d n * shaped j

/-- `update_C`, reweighting of the weights that are not positive (cmaes.py 530-533). -/
noncomputable def reweight (o : Options) (zs : Fin n → Fin d → ℝ) (w : Fin n → ℝ) : Fin n → ℝ :=
  fun i => if o.active then (if 0 < w i then w i else d * w i / normSq (zs i)) else w i

/-- `update_C`, `c1a` (cmaes.py 534). -/
noncomputable def c1a (o : Options) (d n : Nat) (h : ℝ) : ℝ := c1 o d n * (1 - (1 - h ^ 2) * cC o d n * (2 - cC o d n))

/-- `update_C`, `weighted_pc` (cmaes.py 535). -/
noncomputable def weightedPc (o : Options) (d n : Nat) (h : ℝ) : ℝ :=
  Real.sqrt (c1 o d n / (c1a o d n h + 1 / 10 ^ 23))

/-- `update_C`, non-separable (cmaes.py 543-553). -/
noncomputable def updateCFull (o : Options) (C : Matrix (Fin d) (Fin d) ℝ) (pC : Fin d → ℝ) (zs ys : Fin n → Fin d → ℝ)
    (w : Fin n → ℝ) (h : ℝ) : Matrix (Fin d) (Fin d) ℝ :=
  fun a b =>
    let w' := reweight o zs w
    let k := weightedPc o d n h
    let r1 := c1a o d n h * ((k * pC a) * (k * pC b) - C a b)
    let rmu := cMu o d n * ((∑ i, w' i * (ys i a * ys i b)) - sumWeights o d n * C a b)
    C a b + r1 + rmu

/-- `update_C`, separable (cmaes.py 536-542, 553). -/
noncomputable def updateCSep (o : Options) (C : Fin d → ℝ) (pC : Fin d → ℝ) (zs ys : Fin n → Fin d → ℝ) (w : Fin n → ℝ)
    (h : ℝ) : Fin d → ℝ :=
  fun a =>
    let w' := reweight o zs w
    let r1 := c1a o d n h * (pC a ^ 2 - C a)
    let rmu := cMu o d n * ∑ i, w' i * (ys i a ^ 2 - C a)
    C a + r1 + rmu

/-- `torch.clamp(x, min=lo, max=hi)` with at least one limit. -/
def clamp (lo hi : Option ℝ) (x : ℝ) : ℝ :=
  let y := lo.elim x (max x)
  hi.elim y (min y)

/-- `_limit_stdev` for one variance (cmaes.py 62, 65, 68-69, 74, 78). -/
noncomputable def limitVariance (sigma : ℝ) (lo hi : Option ℝ) (v : ℝ) : ℝ :=
  (clamp lo hi (sigma * Real.sqrt v) / sigma) ^ 2

/-- `_limit_stdev`, separable (cmaes.py 59-62, 67-74). -/
noncomputable def limitSep (sigma : ℝ) (C : Fin d → ℝ) (lo hi : Option ℝ) : Fin d → ℝ := fun j => limitVariance sigma lo hi (C j)

/-- `_limit_stdev`, non-separable: only the diagonal is replaced (cmaes.py 63-69, 75-78). -/
noncomputable def limitFull (sigma : ℝ) (C : Matrix (Fin d) (Fin d) ℝ) (lo hi : Option ℝ) : Matrix (Fin d) (Fin d) ℝ :=
  fun a b => if a = b then limitVariance sigma lo hi (C a a) else C a b

/-- Whether limits are applied (cmaes.py 601). -/
def Options.limits (o : Options) : Bool := o.stdevMin.isSome || o.stdevMax.isSome

/-- `_safe_divide(1, b)` (cmaes.py 83-87). -/
noncomputable def safeDivideOne (b : ℝ) : ℝ :=
  let tol : ℝ := 1 / 10 ^ 8
  1 / (if |b| < tol then (if b < 0 then -tol else tol) else b)

/-- `self.decompose_C_freq` (cmaes.py 382-385). -/
noncomputable def decomposeFreq (o : Options) (limitDecomposition : Bool) (d n : Nat) : Nat :=
  if limitDecomposition then (max 1 ⌊safeDivideOne (10 * d * (c1 o d n + cMu o d n))⌋).toNat else 1

/-- What a step gets from outside: the draws, the way the evaluated population is sorted (`evaluate` and `argsort`), `topk`
and how often `C` is decomposed. -/
structure Env (d n : Nat) where
  zs : Fin n → Fin d → ℝ
  sorted : (Fin n → Fin d → ℝ) → List Nat
  topk : Topk n
  freq : Nat

/-- The common part of a step: everything but the covariance (cmaes.py 573-594). -/
noncomputable def stepCore (o : Options) (e : Env d n) (c : Core d) (ys : Fin n → Fin d → ℝ) : Core d × (Fin n → ℝ) × ℝ :=
  let w := assignedWeights o d n (e.sorted (samples c ys))
  let top := e.topk w (mu n)
  let localDisp := recombine top w e.zs
  let shaped := recombine top w ys
  let pSigma := updatePSigma o n c localDisp
  let h := hSig pSigma (cSigma o d n) c.steps
  ({ m := updateM o c shaped, sigma := updateSigma o n c.sigma pSigma, pSigma := pSigma, pC := updatePC o n c shaped h,
     steps := c.steps + 1 }, w, h)

/-- The covariance of a non-separable step before decomposition (cmaes.py 596-602). -/
noncomputable def nextCFull (o : Options) (e : Env d n) (s : Full d) : Matrix (Fin d) (Fin d) ℝ :=
  let ys := shapedFull s.A e.zs
  let r := stepCore o e s.toCore ys
  let C := updateCFull o s.C r.1.pC e.zs ys r.2.1 r.2.2
  if o.limits then limitFull r.1.sigma C o.stdevMin o.stdevMax else C

/-- `_step`, non-separable (cmaes.py 567-606). `chol` is `torch.linalg.cholesky`, whose failure is an error. -/
noncomputable def stepFull (chol : Matrix (Fin d) (Fin d) ℝ → Option (Matrix (Fin d) (Fin d) ℝ)) (o : Options) (e : Env d n)
    (s : Full d) : Except PyErr (Full d) :=
  let r := stepCore o e s.toCore (shapedFull s.A e.zs)
  let C := nextCFull o e s
  if (s.steps + 1) % e.freq = 0 then
    (chol C).elim (.error .runtimeError) fun A => .ok { toCore := r.1, C := C, A := A }
  else .ok { toCore := r.1, C := C, A := s.A }

/-- `_step`, separable (cmaes.py 567-606). The square root of a negative variance is NaN in the code, 0 here. -/
noncomputable def stepSep (o : Options) (e : Env d n) (s : Sep d) : Sep d :=
  let ys := shapedSep s.A e.zs
  let r := stepCore o e s.toCore ys
  let C' := updateCSep o s.C r.1.pC e.zs ys r.2.1 r.2.2
  let C := if o.limits then limitSep r.1.sigma C' o.stdevMin o.stdevMax else C'
  { toCore := r.1, C := C, A := if (s.steps + 1) % e.freq = 0 then fun j => Real.sqrt (C j) else s.A }

/-- A non-separable run. -/
noncomputable def runFull (chol : Matrix (Fin d) (Fin d) ℝ → Option (Matrix (Fin d) (Fin d) ℝ)) (o : Options) :
    Full d → List (Env d n) → Except PyErr (Full d)
  | s, [] => .ok s
  | s, e :: es => do runFull chol o (← stepFull chol o e s) es

/-- A separable run. -/
noncomputable def runSep (o : Options) (s : Sep d) (es : List (Env d n)) : Sep d := es.foldl (fun s e => stepSep o e s) s

/-! ### Which learning rates `__init__` can handle -/

/-- What kind of number an attribute is: a Python number or a tensor. -/
inductive Kind
  | python
  | tensor
  deriving DecidableEq, Repr

/-- Product or difference of two numbers: a tensor as soon as one of them is. -/
def Kind.arith : Kind → Kind → Kind
  | .python, .python => .python
  | _, _ => .tensor

/-- The kind of `self.c_1` or `self.c_mu`: the ratio (a Python number) times the given number, or times the default, which is
computed from the tensor `mu_eff` (cmaes.py 318-324, 327-335). With a given `c_1` the default `c_mu` can also be `1 - c_1`;
that case is left out, the given `c_1` already decides the outcome below. -/
def rateKind (given : Option Kind) : Kind := Kind.arith .python (given.getD .tensor)

/-- `x.cpu()`: an attribute of tensors only. -/
def Kind.cpu : Kind → Except PyErr Kind
  | .tensor => .ok .tensor
  | .python => .error .attributeError

/-- The end of `__init__` (cmaes.py 382-385): whether the object can be created. -/
def initDecompose (limitDecomposition : Bool) (givenC1 givenCMu : Option Kind) : Except PyErr Unit :=
  if limitDecomposition then do
    let _ ← (rateKind givenC1).cpu
    let _ ← (rateKind givenCMu).cpu
    .ok ()
  else .ok ()

end EvoTorch.CMAES
