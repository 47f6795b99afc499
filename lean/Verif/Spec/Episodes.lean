import Mathlib.Algebra.Order.Field.Basic
/-!
What the fitness of a policy should be, given what its environment reports: rewards and ends of episodes.
-/
namespace EvoTorch.Episodes.Spec
variable {K : Type} [Field K]

/-- The alive bonus at time step `t` (1 for the first step of an episode): nothing before `t0`, a linearly growing fraction of `b`
from `t0` to `t1`, and `b` from `t1` on. -/
def bonus (t0 t1 : Int) (b : K) (t : Int) : K :=
  if t < t0 then 0
  else if t < t1 then b * (((t - t0 : Int) : K) / ((t1 - t0 : Int) : K))
  else b

/-- Cut a trace into its completed episodes (their rewards); `cur` is the part of the current episode seen so far. -/
def episodesFrom (cur : List K) : List (K × Bool) → List (List K)
  | [] => []
  | (r, done) :: rest => if done then (cur ++ [r]) :: episodesFrom [] rest else episodesFrom (cur ++ [r]) rest

/-- The completed episodes of a trace. -/
def episodes (trace : List (K × Bool)) : List (List K) := episodesFrom [] trace

/-- The return of an episode: the sum of its rewards, each decreased by `dec` and increased by the bonus for its time step. -/
def ret (bonusAt : Nat → K) (dec : K) (ep : List K) : K := ((ep.zipIdx 1).map fun rt => rt.1 - dec + bonusAt rt.2).sum

end EvoTorch.Episodes.Spec
