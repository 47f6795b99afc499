import Verif.Model.Base
import Verif.Model.BestWorst
import Verif.Model.Constraints
import Verif.Model.Ranking
import Verif.Model.Workload
import Mathlib.Algebra.Order.Round
import Mathlib.Data.Int.Log
import Mathlib.Data.Rat.Floor
/-!
Some of the arithmetic of the library as it is done by the machine: every operation rounds its exact result with a function `rnd`. Numbers are rationals;
which rationals are floating point numbers of a format, and what a rounding to the nearest is, is said in `Verif/Spec/Rounding.lean`.

Simplifications: no infinities and no NaN, so an operation whose result is too large for the format is not modelled; a division by a number is the
correctly rounded quotient (torch on CUDA multiplies by a rounded reciprocal instead, which is not modelled).
-/
namespace EvoTorch.Rounding
open BestWorst (Sense)
open Constraints (Cmp)

/-- `make_uniform` between two bounds, for one element and a floating point type (`src/evotorch/tools/misc.py:1646-1653`): `r` is what
`uniform_` has drawn. -/
def uniform (rnd : ℚ → ℚ) (r lb ub : ℚ) : ℚ :=
  let diff := rnd (ub - lb)
  let out := rnd (r * diff)
  rnd (out + lb)

/-- `Problem.compare_solutions` (`src/evotorch/core.py:2397-2424`): the difference of the two evaluations. -/
def compareSolutions (rnd : ℚ → ℚ) : Sense → ℚ → ℚ → ℚ
  | .max, a, b => rnd (a - b)
  | .min, a, b => rnd (b - a)

/-- `Problem.is_better` (`src/evotorch/core.py:2426-2440`). -/
def isBetter (rnd : ℚ → ℚ) (s : Sense) (a b : ℚ) : Bool := decide (compareSolutions rnd s a b > 0)

/-- `Problem.is_worse` (`src/evotorch/core.py:2442-2456`). -/
def isWorse (rnd : ℚ → ℚ) (s : Sense) (a b : ℚ) : Bool := decide (compareSolutions rnd s a b < 0)

/-- `_violation` (`src/evotorch/tools/constraints.py:6-19`). -/
def violation (rnd : ℚ → ℚ) (lhs : ℚ) (c : Cmp) (rhs : ℚ) : Except PyErr ℚ :=
  match c with
  | .ge => .ok (max (rnd (rhs - lhs)) 0)
  | .le => .ok (max (rnd (lhs - rhs)) 0)
  | .eq => .ok |rnd (lhs - rhs)|
  | .unknown => .error .valueError

/-- `math.ceil(total_size / max_size)` of `SolutionBatchPieces` (`src/evotorch/core.py:4639`). -/
def numPieces (rnd : ℚ → ℚ) (total maxSize : Nat) : Int := ⌈rnd ((total : ℚ) / (maxSize : ℚ))⌉

/-- The piece sizes for `max_size` (`src/evotorch/core.py:4636-4646`); a range of a negative number is empty. -/
def sizesByMax (rnd : ℚ → ℚ) (total maxSize : Nat) : Except PyErr (List Nat) :=
  if maxSize = 0 then .error .zeroDivisionError
  else .ok (Workload.maxSizeLoop total maxSize (numPieces rnd total maxSize).toNat 0)

/-- The number of the parents of the cross entropy method, `math.floor(num_samples * parenthood_ratio)` (`src/evotorch/distributions.py:538`), and the
number of the elites of Cosyne, `int(popsize * elitism_ratio)` (`src/evotorch/algorithms/ga.py:988`): the two agree for a ratio that is
not negative. -/
def shareOf (rnd : ℚ → ℚ) (n : Nat) (ratio : ℚ) : Int := ⌊rnd ((n : ℚ) * ratio)⌋

/-- The combined rank of multi-objective `take_best` for one solution (`src/evotorch/core.py:4411`); `tenth` is the number the machine takes for `0.1`. -/
def combined (rnd : ℚ → ℚ) (tenth : ℚ) (rank crowd n : Nat) : ℚ :=
  rnd (rnd rank + rnd (rnd (tenth * rnd crowd) / rnd n))

/-- Multi-objective `take_best(k)` (`src/evotorch/core.py:4408-4412`, 4415): the indices of the rows taken. The comparisons that make the ranks do not round; how
the crowding distances are rounded is left to `crowdsort`, which is any function. -/
def takeBest {n m : Nat} (rnd : ℚ → ℚ) (tenth : ℚ) (sortAsc : List ℚ → List Nat) (crowdsort : List (Fin m → ℚ) → List Nat)
    (u : Fin n → Fin m → ℚ) (k : Nat) : List Nat :=
  let st := Selection.paretoRanks crowdsort u
  let ranks := (List.finRange n).map fun i => combined rnd tenth (st.ranks i) (st.crowd i) n
  (sortAsc ranks).take k

/-- The weights of `linear` (`src/evotorch/tools/ranking.py:78`). -/
def linearWeights (rnd : ℚ → ℚ) (n : Nat) : List ℚ := (List.range n).map fun (i : Nat) => rnd (rnd i / rnd ((n : ℚ) - 1))

/-- The weights of `centered` (`src/evotorch/tools/ranking.py:50`). -/
def centeredWeights (rnd : ℚ → ℚ) (n : Nat) : List ℚ :=
  (List.range n).map fun (i : Nat) => rnd (rnd (rnd i / rnd ((n : ℚ) - 1)) - 1 / 2)

/-- `linear` (`src/evotorch/tools/ranking.py:72-81`). -/
def linear (rnd : ℚ → ℚ) (sort : Selection.Sorter ℚ) (hib : Bool) (junk x : List ℚ) : List ℚ :=
  Ranking.scatter junk (sort (!hib) x) (linearWeights rnd x.length)

/-- `centered` (`src/evotorch/tools/ranking.py:44-53`). -/
def centered (rnd : ℚ → ℚ) (sort : Selection.Sorter ℚ) (hib : Bool) (junk x : List ℚ) : List ℚ :=
  Ranking.scatter junk (sort (!hib) x) (centeredWeights rnd x.length)

end EvoTorch.Rounding
