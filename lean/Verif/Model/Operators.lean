import Verif.Model.Base
import Verif.Model.Selection
import Verif.Model.Ranking
import Mathlib.Algebra.Order.Floor.Ring
import Mathlib.Data.Rat.Floor
import Mathlib.Analysis.SpecialFunctions.Pow.Real
/-!
Genetic operators, `src/evotorch/operators/{base,real,sequence}.py`. Random draws are arguments. Arithmetic is exact.
A batch of decision values is a matrix `Fin n → Fin l → K` where operators work gene-wise, a list of rows elsewhere.
-/
namespace EvoTorch.Operators
variable {K V : Type} {n l : Nat}

section bounds
variable [LinearOrder K]

/-- `Operator._respect_bounds` for one gene, `src/evotorch/operators/base.py:92-98` (lower bound first, then upper bound). -/
def respectBounds (lb ub : Option K) (x : K) : K :=
  let x := match lb with
    | some a => max a x
    | none => x
  match ub with
    | some b => min b x
    | none => x

/-- `GaussianMutation._do`, `src/evotorch/operators/real.py:60-66`. `u`: the uniform draws deciding which genes mutate; `g`: the
standard normal draws (used only where a gene mutates). -/
def gaussianMutation [Add K] [Mul K] (lb ub : Fin l → Option K) (prob stdev : K) (u g : Fin n → Fin l → K) (data : Fin n → Fin l → K) :
    Fin n → Fin l → K :=
  fun i j => respectBounds (lb j) (ub j) (if u i j ≤ prob then data i j + stdev * g i j else data i j)

end bounds

/-! ### Simulated binary cross-over, over ℝ -/

/-- `betas`, `src/evotorch/operators/real.py:461-464`. -/
noncomputable def sbxBeta (eta u : ℝ) : ℝ :=
  if u > 1 / 2 then (1 / (2 * (1 - u))) ^ (1 / (eta + 1)) else (2 * u) ^ (1 / (eta + 1))

/-- The first child before clipping, `real.py:465-467`. -/
noncomputable def sbxChild1 (eta u p1 p2 : ℝ) : ℝ := 1 / 2 * ((1 + sbxBeta eta u) * p1 + (1 - sbxBeta eta u) * p2)
/-- The second child before clipping, `real.py:468-470`. -/
noncomputable def sbxChild2 (eta u p1 p2 : ℝ) : ℝ := 1 / 2 * ((1 + sbxBeta eta u) * p2 + (1 - sbxBeta eta u) * p1)

/-- `SimulatedBinaryCrossOver._do_cross_over`, `real.py:456-481`: the children of the first set followed by those of the second. -/
noncomputable def sbx (lb ub : Fin l → Option ℝ) (eta : ℝ) (u : Fin n → Fin l → ℝ) (p1 p2 : Fin n → Fin l → ℝ) : List (Fin l → ℝ) :=
  ((List.finRange n).map fun i j => respectBounds (lb j) (ub j) (sbxChild1 eta (u i j) (p1 i j) (p2 i j))) ++
  ((List.finRange n).map fun i j => respectBounds (lb j) (ub j) (sbxChild2 eta (u i j) (p1 i j) (p2 i j)))

/-! ### Polynomial mutation; `none` stands for NaN -/

/-- Division. Division of zero by zero is NaN. (A non-zero dividend over zero would be infinite; that needs a parent outside of degenerate
bounds and is also rendered as `none`.) -/
noncomputable def nanDiv (a b : ℝ) : Option ℝ := if b = 0 then none else some (a / b)
/-- `x.pow(e)` for a fractional exponent: NaN for a negative base (for which an integral exponent would still be defined; only reached with parents
outside of the bounds). -/
noncomputable def nanPow (x e : ℝ) : Option ℝ := if 0 ≤ x then some (x ^ e) else none

/-- The mutated value of a selected gene before clipping, `src/evotorch/operators/real.py:576-594`. -/
noncomputable def polyMutated (eta lb ub r x : ℝ) : Option ℝ := do
  let delta1 ← nanDiv (x - lb) (ub - lb)
  let delta2 ← nanDiv (ub - x) (ub - lb)
  if r < 1 / 2 then
    let w ← nanPow (1 - delta1) (eta + 1)
    let d ← nanPow (2 * r + (1 - 2 * r) * w) (1 / (eta + 1))
    pure (x + (d - 1) * (ub - lb))
  else
    let w ← nanPow (1 - delta2) (eta + 1)
    let d ← nanPow (2 * (1 - r) + 2 * (r - 1 / 2) * w) (1 / (eta + 1))
    pure (x + (1 - d) * (ub - lb))

/-- `PolynomialMutation._do` for one gene, `src/evotorch/operators/real.py:546-603`: `mutate` is its entry in the mask. Clipping NaN gives NaN
(`torch.max` and `torch.min` propagate it). -/
noncomputable def polynomialMutation (eta : ℝ) (lb ub : Fin l → ℝ) (mutate : Fin n → Fin l → Bool) (r : Fin n → Fin l → ℝ)
    (data : Fin n → Fin l → ℝ) : Fin n → Fin l → Option ℝ :=
  fun i j =>
    let x := if mutate i j then polyMutated eta (lb j) (ub j) (r i j) (data i j) else some (data i j)
    x.map fun y => respectBounds (some (lb j)) (some (ub j)) y

/-! ### Multi-point cross-over -/

/-- The mask of one pairing, `src/evotorch/operators/real.py:172-196`. With one point, `draws = [d]` and the cut is at `d + 1`. -/
def crossMask (numPoints : Nat) (draws : List Nat) (j : Nat) : Bool :=
  if numPoints = 1 then decide (j ≥ draws.headD 0 + 1)
  else draws.foldl (fun m p => xor m (decide (j ≥ p))) false

/-- The range of a draw (exclusive upper end), `real.py:174` and 183-185. -/
def drawRange (numPoints l : Nat) : Nat := if numPoints = 1 then l - 1 else l + 1

/-- `MultiPointCrossOver._do_cross_over`, `real.py:145-207`, on the list of pairings (first parent, second parent, draws). -/
def multiPoint (numPoints : Nat) (pairings : List ((Fin l → V) × (Fin l → V) × List Nat)) : List (Fin l → V) :=
  (pairings.map fun q => fun (j : Fin l) => if crossMask numPoints q.2.2 j then q.1 j else q.2.1 j) ++
  (pairings.map fun q => fun (j : Fin l) => if crossMask numPoints q.2.2 j then q.2.1 j else q.1 j)

/-! ### Number of children and tournaments -/

/-- `CrossOver._compute_num_tournaments`, `src/evotorch/operators/base.py:226-256`; both arguments given is refused at construction (216-221). -/
def numTournaments (len : Nat) (numChildren : Option Int) (rate : Option ℚ) : Except PyErr Int :=
  match numChildren, rate with
  | none, none => .ok (if (len : Int) % 2 ≠ 0 then (len : Int) + 1 else len)
  | some _, some _ => .error .valueError
  | some c, none => if c % 2 ≠ 0 then .error .valueError else .ok c
  | none, some rt =>
    let f := (len : ℚ) * rt
    let r1 := ⌈f⌉
    let r2 := ⌊f⌋
    .ok (if r1 = r2 then (if r1 % 2 ≠ 0 then r1 + 1 else r1) else if r1 % 2 = 0 then r1 else r2)

/-- One row of `tournament_indices[rows, argmax(tournament_ranks)]`, `base.py:301-328`. -/
def winner [OfNat K 0] (argmax : List K → Nat) (ranks : List K) (contestants : List Nat) : Nat :=
  contestants.getD (argmax (contestants.map fun i => ranks.getD i 0)) 0

/-- The ranks used by a multi-objective tournament, `base.py:273-289`; `noise` are the uniform draws. -/
def multiRanks [Field K] (fronts : List Nat) (noise : List K) : List K :=
  let nFronts : Nat := fronts.foldl max 0 + 1
  (fronts.zip noise).map fun fn => ((nFronts : K) - (fn.1 : K)) + fn.2 * (1 / 10)

/-- `_do_tournament`: the two halves of the winners, `base.py:327-365` (indices; the values are `indata[...]`). -/
def tournamentParents [OfNat K 0] (argmax : List K → Nat) (ranks : List K) (tournaments : List (List Nat)) : List Nat × List Nat :=
  let parents := tournaments.map (winner argmax ranks)
  (parents.take (parents.length / 2), parents.drop (parents.length / 2))

/-! ### Cosyne permutation -/

/-- One column of `CosynePermutation._do`, `src/evotorch/operators/real.py:676-706`. `mask`: which rows take part; `rnd`: their uniform draws;
`sort`: ascending `torch.argsort`; `sortNat`: `torch.sort` of the integer column (whose entries are distinct, so it is determined). -/
def cosyneColumn [LinearOrder K] [OfNat K 1] (sort : List K → List Nat) (sortNat : List Nat → List Nat) (mask : List Bool) (rnd : List K)
    (col : List V) : List V :=
  let n := mask.length
  let k := mask.count true
  let permRand := (mask.zip rnd).map fun mr => if mr.1 then mr.2 else 1
  let permutations := sort permRand
  let permSort := sortNat ((mask.zip (List.range n)).map fun mi => if mi.1 then mi.2 else mi.2 + (n + 1))
  let origin := permSort.take k
  let target := permutations.take k
  Ranking.scatter col origin (target.filterMap fun i => col[i]?)

/-! ### Cut and splice -/

/-- `CutAndSplice._cut_and_splice`, `src/evotorch/operators/sequence.py:39-63`, for one pairing; `none` when a parent is empty
(`make_randint` with `n = 0` fails) or a draw is out of range. -/
def cutAndSplice (p1 p2 : List V) (c1 c2 : Nat) : Option (List V × List V) :=
  if c1 < p1.length ∧ c2 < p2.length then
    some (p1.take c1 ++ p2.drop c2, p2.take c2 ++ p1.drop c1)
  else none

end EvoTorch.Operators
