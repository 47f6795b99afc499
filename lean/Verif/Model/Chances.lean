import Verif.Model.RandomTensors
import Verif.Model.Operators
import Mathlib.Order.Interval.Finset.Basic
import Mathlib.Data.Int.Interval
import Mathlib.Algebra.Field.Rat
/-!
Which random words the operators and tensor makers of EvoTorch consume, and the masks they compare with.
-/
namespace EvoTorch.Chances

/-- The numbers which `uniform_` can return when a word of `g` random bits is scaled to `[0, 1)` (24 bits for `float32`, 53 for `float64`); used by
`make_uniform`, `src/evotorch/tools/misc.py:1645-1648`. -/
def grid (g : Nat) : Finset ℚ := (Finset.range (2 ^ g)).image fun k : Nat => (k : ℚ) / 2 ^ g

/-- The words which `random_` can return for an integer dtype, `src/evotorch/tools/misc.py:1633-1644` and `1800-1814`. -/
noncomputable def words (t : RandomTensors.IntType) : Finset ℤ := Finset.Icc 0 t.max

/-- Which genes `PolynomialMutation._do` mutates, `src/evotorch/operators/real.py:557-564`. -/
def polyMask (prob : Option ℚ) (u : ℚ) : Bool :=
  match prob with
  | none => true
  | some p => decide (u < p)

/-- `prob_permute` and `perm_mask` of `CosynePermutation._do`, `src/evotorch/operators/real.py:669-679`, for a solution with the centered rank `rank`: `root` is
the power with exponent `1 / solution_length`. -/
def cosyneMask (permuteAll : Bool) (root : ℚ → ℚ) (rank u : ℚ) : Bool :=
  decide (u ≤ if permuteAll then 1 else 1 - root (rank + 1 / 2))

end EvoTorch.Chances
