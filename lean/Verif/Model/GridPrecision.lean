import Verif.Model.Rounding
import Verif.Model.MapElites
/-!
`MAPElites.make_feature_grid` in floating point.
-/
namespace EvoTorch.Rounding
open EvoTorch.MapElites (windows product Cell)

/-- `torch.linspace(lb, ub, steps)` without a dtype: the bounds are rounded to torch's default dtype, and all is computed in it (`rnd`). PyTorch's kernel counts from the lower bound in the first half and from the upper bound
in the second. (Each operation rounds here; a fused multiply-add would round once less.) -/
def linspace (rnd : ℚ → ℚ) (lb ub : ℚ) : ℕ → List ℚ
  | 0 => []
  | 1 => [rnd lb]
  | n + 2 =>
    let step := rnd (rnd (rnd ub - rnd lb) / rnd ((n + 1 : ℕ) : ℚ))
    (List.range (n + 2)).map fun i : ℕ =>
      if i < (n + 2) / 2 then rnd (rnd lb + rnd (step * rnd (i : ℚ))) else rnd (rnd ub - rnd (step * rnd ((n + 1 - i : ℕ) : ℚ)))

/-- The inner `_make_feature_grid` (mapelites.py 499-502): the call of `linspace` at line 500 does not pass the dtype on. Concatenating with infinities of the requested dtype gives the wider of the two dtypes, so the
edges do not change. `num_bins = 0` makes `linspace` fail. -/
def bins (rnd : ℚ → ℚ) (lb ub : ℚ) (numBins : ℕ) : Except PyErr (List (Flt ℚ × Flt ℚ)) :=
  if numBins = 0 then .error .runtimeError
  else .ok (windows ([.ninf] ++ (linspace rnd lb ub (numBins - 1)).map .fin ++ [.pinf]))

/-- `MAPElites.make_feature_grid` (mapelites.py 404-505) for floating-point dtypes: the bounds are cast to the requested dtype (`cast`, mapelites.py 455-457), then come the bins of every feature. -/
def makeFeatureGrid (cast rnd : ℚ → ℚ) (features : List (ℚ × ℚ × ℕ)) : Except PyErr (List (Cell ℚ)) := do
  let fs ← features.mapM fun f => bins rnd (cast f.1) (cast f.2.1) f.2.2
  pure (product fs)

end EvoTorch.Rounding
