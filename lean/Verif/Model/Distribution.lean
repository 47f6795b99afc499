import Verif.Model.Base
import Verif.Model.Ranking
import Mathlib.Algebra.BigOperators.Fin
import Mathlib.Algebra.Order.Floor.Ring
/-!
Model of the separable Gaussian distributions (`src/evotorch/distributions.py`) and of Gaussian sampling
(`src/evotorch/tools/misc.py`).

Simplifications: exact arithmetic; a vector of length `d` is a function `Fin d → K`, a batch of vectors (2-dimensional tensor)
is a list of them; the random draws are arguments.
-/
namespace EvoTorch.Distribution
variable {K : Type} [Field K] {d : Nat}

/-- A vector of length `d`. -/
abbrev Vec (K : Type) (d : Nat) := Fin d → K

/-- `make_gaussian(..., symmetric=True)` on a tensor with `n` rows, with `center` and `stdev` (tools/misc.py 1725-1744). Row
`k` of `noise` is what `normal_` writes into row `2k`. -/
def makeGaussianSymmetric (n : Nat) (noise : Nat → Vec K d) (center stdev : Vec K d) : Except PyErr (List (Vec K d)) :=
  if n % 2 ≠ 0 then .error .valueError
  else
    let out := (List.range n).map fun i => if i % 2 = 0 then noise (i / 2) else fun j => noise (i / 2) j * (-1)
    let out := out.map fun row => fun j => row j * stdev j
    .ok (out.map fun row => fun j => row j + center j)

/-- `make_gaussian(..., symmetric=False)` with `center` and `stdev` (tools/misc.py 1736-1744). -/
def makeGaussian (n : Nat) (noise : Nat → Vec K d) (center stdev : Vec K d) : List (Vec K d) :=
  let out := (List.range n).map noise
  let out := out.map fun row => fun j => row j * stdev j
  out.map fun row => fun j => row j + center j

/-- `SymmetricSeparableGaussian._unbatched_functional_sample` (distributions.py 648-666): `positive_ends` are the draws of
`torch.normal(0, sigma)`; the two ends are interleaved by `vmap(torch.stack)` and `reshape`. -/
def functionalSampleSymmetric (n : Nat) (draws : Nat → Vec K d) (mu : Vec K d) : Except PyErr (List (Vec K d)) :=
  if n % 2 ≠ 0 then .error .valueError
  else
    let dirs := n / 2
    let positive := (List.range dirs).map draws
    let negative := positive.map fun row => fun j => -(row j)
    let positive := positive.map fun row => fun j => row j + mu j
    let negative := negative.map fun row => fun j => row j + mu j
    .ok ((List.zipWith (fun p q => [p, q]) positive negative).flatten)

/-- What `divide_mu_grad_by` and `divide_sigma_grad_by` can be, when given. -/
inductive DivideBy where
  | numSolutions | numDirections | totalWeight
  deriving DecidableEq, Repr

/-- `|x|` as `torch.abs`. -/
def absK [LinearOrder K] (x : K) : K := if x < 0 then -x else x

/-- `_divide_grad` (distributions.py 515-534). Not modelled: `"weight_stdev"` and unrecognised values. -/
def divideGrad [LinearOrder K] (opt : Option DivideBy) (grad : Vec K d) (weights : List K) : Vec K d :=
  match opt with
  | none => grad
  | some .numSolutions => fun j => grad j / (weights.length : K)
  | some .numDirections => fun j => grad j / ((weights.length / 2 : Nat) : K)
  | some .totalWeight => fun j => grad j / (weights.map absK).sum

/-- `total(dot(weights, rows))`: `rowwise_sum` of `multiply_rows_by_scalars` (distributions.py 30-31). -/
def weightedSum (weights : List K) (rows : List (Vec K d)) : Vec K d :=
  fun j => (List.zipWith (fun w row => w * row j) weights rows).sum

/-- Centering of the weights unless the ranking already did (distributions.py 560-561, 720-721). -/
def centerWeights (alreadyCentered : Bool) (weights : List K) : List K :=
  if alreadyCentered then weights else weights.map fun w => w - Ranking.mean weights

/-- A gradient dictionary with the keys `mu` and `sigma`. -/
structure Grads (K : Type) (d : Nat) where
  mu : Vec K d
  sigma : Vec K d

/-- `SeparableGaussian._compute_gradients` without `parenthood_ratio` (distributions.py 550-577). -/
def plainGradients [LinearOrder K] (divMu divSigma : Option DivideBy) (mu sigma : Vec K d) (alreadyCentered : Bool)
    (samples : List (Vec K d)) (weights : List K) : Grads K d :=
  let scaledNoises := samples.map fun x => fun j => x j - mu j
  let weights := centerWeights alreadyCentered weights
  { mu := divideGrad divMu (weightedSum weights scaledNoises) weights
    sigma := divideGrad divSigma
      (weightedSum weights (scaledNoises.map fun z => fun j => (z j ^ 2 - sigma j ^ 2) / sigma j)) weights }

/-- `xs[0::2]`. -/
def evens {α : Type} : List α → List α
  | [] => []
  | [a] => [a]
  | a :: _ :: t => a :: evens t

/-- `xs[1::2]`. -/
def odds {α : Type} : List α → List α
  | [] => []
  | [_] => []
  | _ :: b :: t => b :: odds t

/-- `SymmetricSeparableGaussian._compute_gradients` without `parenthood_ratio` (distributions.py 715-771). -/
def symmetricGradients [LinearOrder K] (divMu divSigma : Option DivideBy) (mu sigma : Vec K d) (alreadyCentered : Bool)
    (samples : List (Vec K d)) (weights : List K) : Grads K d :=
  let weights := centerWeights alreadyCentered weights
  let scaledNoises := (evens samples).map fun x => fun j => x j - mu j
  let fdplus := evens weights
  let fdminus := odds weights
  { mu := divideGrad divMu (weightedSum (List.zipWith (fun a b => (a - b) / 2) fdplus fdminus) scaledNoises) weights
    sigma := divideGrad divSigma (weightedSum (List.zipWith (fun a b => (a + b) / 2) fdplus fdminus)
      (scaledNoises.map fun z => fun j => (z j ^ 2 - sigma j ^ 2) / sigma j)) weights }

/-- `ExpSeparableGaussian._compute_gradients` (distributions.py 781-791); `nes` says whether the ranking was `"nes"`. -/
def expGradients [LinearOrder K] (mu sigma : Vec K d) (nes : Bool) (samples : List (Vec K d)) (weights : List K) :
    Grads K d :=
  let weights := if nes then weights else weights.map fun w => w / (weights.map absK).sum
  let scaledNoises := samples.map fun x => fun j => x j - mu j
  let rawNoises := scaledNoises.map fun z => fun j => z j / sigma j
  { mu := weightedSum weights scaledNoises
    sigma := weightedSum weights (rawNoises.map fun z => fun j => z j ^ 2 - 1) }

/-! ### The cross-entropy update -/

/-- `torch.mean(elites, dim=0)`. -/
def meanRows (rows : List (Vec K d)) : Vec K d := fun j => (rows.map fun x => x j).sum / (rows.length : K)

/-- `torch.std(elites, dim=0)` (unbiased); meaningful for at least two rows (torch returns NaN otherwise). -/
noncomputable def stdRows (rows : List (Vec ℝ d)) : Vec ℝ d :=
  fun j => Real.sqrt ((rows.map fun x => (x j - meanRows rows j) ^ 2).sum / ((rows.length : ℝ) - 1))

/-- `samples[indices]`. -/
def gather {α : Type} (xs : List α) (idx : List Nat) : List α := idx.filterMap fun i => xs[i]?

/-- The elites chosen by `_compute_gradients_via_parenthood_ratio` (distributions.py 537-540). -/
def elites [LinearOrder K] [FloorRing K] {α : Type} (sort : Selection.Sorter α) (ratio : K) (samples : List (Vec K d))
    (weights : List α) : List (Vec K d) :=
  let numElites := ⌊(samples.length : K) * ratio⌋.toNat
  gather samples ((sort true weights).take numElites)

/-- `_compute_gradients_via_parenthood_ratio` (distributions.py 536-544). -/
noncomputable def parenthoodGradients (sort : Selection.Sorter ℝ) (ratio : ℝ) (mu sigma : Vec ℝ d)
    (samples : List (Vec ℝ d)) (weights : List ℝ) : Grads ℝ d :=
  let es := elites sort ratio samples weights
  { mu := fun j => meanRows es j - mu j
    sigma := fun j => stdRows es j - sigma j }

/-- `SeparableGaussian.update_parameters` with learning rates for both parameters (distributions.py 579-594). -/
def updateSeparable (lrMu lrSigma : K) (mu sigma : Vec K d) (g : Grads K d) : Vec K d × Vec K d :=
  (fun j => mu j + lrMu * g.mu j, fun j => sigma j + lrSigma * g.sigma j)

/-- One update of the CEM: raw ranking, `parenthood_ratio`, unit learning rates and no stdev control
(gaussian.py 359-367, 1159-1180; distributions.py 273-297). The functional `cem_tell` computes the same
(funccem.py 209-223). -/
noncomputable def cemUpdate (sort : Selection.Sorter ℝ) (ratio : ℝ) (maximize : Bool) (mu sigma : Vec ℝ d)
    (samples : List (Vec ℝ d)) (fitnesses : List ℝ) : Vec ℝ d × Vec ℝ d :=
  updateSeparable 1 1 mu sigma
    (parenthoodGradients sort ratio mu sigma samples (Ranking.raw maximize fitnesses))

end EvoTorch.Distribution
