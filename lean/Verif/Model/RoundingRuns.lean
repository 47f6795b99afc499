import Verif.Model.Rounding
/-!
Rounded arithmetic of updates that are repeated over a run: the controlled standard deviation, and the statistics of observations. As in `Verif/Model/Rounding.lean`, every operation rounds its exact
result with a function `rnd`; there are no infinities and no NaN.
-/
namespace EvoTorch.Rounding

/-- One element of `modify_tensor` (tools/misc.py 788-798, 809-810) for finite numbers; `torch.max` and `torch.min` do not round. A missing limit is the infinite one (tools/misc.py 776-786), which changes nothing. -/
def modify (rnd : ℚ → ℚ) (lb ub maxChange : Option ℚ) (original target : ℚ) : ℚ :=
  let low := match maxChange with
    | none => lb
    | some c => let allowed := rnd (original - rnd (|original| * c)); some (match lb with | none => allowed | some l => max l allowed)
  let high := match maxChange with
    | none => ub
    | some c => let allowed := rnd (original + rnd (|original| * c)); some (match ub with | none => allowed | some u => min u allowed)
  let result := match low with | none => target | some l => max target l
  match high with | none => result | some u => min result u

/-- The standard deviation (one element) over a run of a distribution-based searcher: `targets` are what the updates of the distribution make of it before it is limited (gaussian.py 379-419). The list of all
values, the initial one first. -/
def stdevs (rnd : ℚ → ℚ) (lb ub maxChange : Option ℚ) (sigma : ℚ) : List ℚ → List ℚ
  | [] => [sigma]
  | t :: ts => sigma :: stdevs rnd lb ub maxChange (modify rnd lb ub maxChange sigma t) ts

/-- The data of a `RunningNorm` for one component of the observations: sum, sum of squares, count. -/
structure Running where
  sum : ℚ
  sumOfSquares : ℚ
  count : ℕ

/-- `RunningNorm.update` with single observations one after the other (runningnorm.py 321-328, 391-402). -/
def running (rnd : ℚ → ℚ) : List ℚ → Option Running → Option Running
  | [], r => r
  | x :: xs, none => running rnd xs (some ⟨x, rnd (x * x), 1⟩)
  | x :: xs, some r => running rnd xs (some ⟨rnd (r.sum + x), rnd (r.sumOfSquares + rnd (x * x)), r.count + 1⟩)

/-- The variance in `RunningNorm.stats` (runningnorm.py 419-427), whose square root divides the observations. -/
def variance (rnd : ℚ → ℚ) (minVariance : ℚ) (r : Running) : ℚ :=
  let mean := rnd (r.sum / r.count)
  max (rnd (rnd (r.sumOfSquares / r.count) - rnd (mean * mean))) minVariance

end EvoTorch.Rounding
