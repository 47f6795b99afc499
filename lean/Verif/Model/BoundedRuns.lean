import Verif.Model.GA
import Verif.Model.MapElites
import Verif.Model.Operators
/-!
Whole runs of `GeneticAlgorithm`, `SteadyStateGA`, `Cosyne` and `MAPElites` with the operators of the library, on problems with bounds. The steps are those of
`Verif/Model/GA.lean` and `Verif/Model/MapElites.lean`, where operators are arbitrary functions; here they are sequences of calls of the operators of
`Verif/Model/Operators.lean`.

Simplifications. All draws are arguments, also the positions of the parents which a tournament selects (any positions: see C29 for which). Arithmetic is exact.
-/
namespace EvoTorch.BoundedRuns
open EvoTorch
open EvoTorch.GA (Row)
variable {l : Nat}

/-- The decision values of a solution. -/
abbrev Vec (l : Nat) := Fin l → ℝ

/-- `lower_bounds` and `upper_bounds` of the problem (`core.py 1811-1833`), which the operators copy (`base.py 58-59`). -/
structure Bounds (l : Nat) where
  lower : Option (Vec l)
  upper : Option (Vec l)

/-- The bound of a gene. -/
def gene (b : Option (Vec l)) (j : Fin l) : Option ℝ := b.map (· j)

/-- Sorting functions of PyTorch. -/
structure Lib where
  sort : List ℝ → List Nat
  sortNat : List Nat → List Nat

/-- One call of an operator with its settings and all it draws. Rows are numbered from 0. -/
inductive Call (l : Nat) where
  /-- `GaussianMutation`. -/
  | gaussian (prob stdev : ℝ) (u g : Nat → Vec l)
  /-- `PolynomialMutation`. -/
  | polynomial (eta : ℝ) (mutate : Nat → Fin l → Bool) (r : Nat → Vec l)
  /-- `OnePointCrossOver`, `TwoPointCrossOver`, `MultiPointCrossOver`: the pairs of parents with the draws of each pair. -/
  | multiPoint (numPoints : Nat) (pairs : List (Nat × Nat × List Nat))
  /-- `SimulatedBinaryCrossOver`. -/
  | sbx (eta : ℝ) (pairs : List (Nat × Nat)) (u : Nat → Vec l)
  /-- `CosynePermutation`. -/
  | permutation (mask : Nat → Fin l → Bool) (rnd : Nat → Vec l)

/-- `CosynePermutation._do` (`real.py 665-706`), column by column. -/
noncomputable def permute (L : Lib) (mask : Nat → Fin l → Bool) (rnd : Nat → Vec l) (vs : List (Vec l)) : List (Vec l) :=
  (List.range vs.length).map fun i j =>
    (Operators.cosyneColumn L.sort L.sortNat ((List.range vs.length).map (mask · j)) ((List.range vs.length).map (rnd · j)) (vs.map (· j))).getD i 0

/-- What a call makes of the decision values of a batch (`real.py 60-66`, `real.py 145-207`, `real.py 456-481`, `real.py 546-603`). `PolynomialMutation` can only be made for
a problem with both bounds (`real.py 530-538`); where it yields NaN (see `C26_violated_polynomial`), this model has the lower bound. -/
noncomputable def Call.apply (L : Lib) (B : Bounds l) (vs : List (Vec l)) : Call l → List (Vec l)
  | .gaussian prob stdev u g => List.ofFn (Operators.gaussianMutation (n := vs.length) (gene B.lower) (gene B.upper) prob stdev (fun i => u i) (fun i => g i) fun i => vs[i])
  | .polynomial eta mutate r =>
    match B.lower, B.upper with
    | some a, some b => List.ofFn fun i j => (Operators.polynomialMutation (n := vs.length) eta a b (fun i => mutate i) (fun i => r i) (fun i => vs[i]) i j).getD (a j)
    | _, _ => vs
  | .multiPoint numPoints pairs =>
    Operators.multiPoint numPoints (pairs.filterMap fun q => do
      let p1 ← vs[q.1]?
      let p2 ← vs[q.2.1]?
      some (p1, p2, q.2.2))
  | .sbx eta pairs u =>
    let ps := pairs.filterMap fun q => do
      let p1 ← vs[q.1]?
      let p2 ← vs[q.2]?
      some (p1, p2)
    Operators.sbx (n := ps.length) (gene B.lower) (gene B.upper) eta (fun i => u i) (fun i => ps[i].1) fun i => ps[i].2
  | .permutation mask rnd => permute L mask rnd vs

/-- The operators applied one after the other (`ga.py 56-59`); the children are not evaluated yet. -/
noncomputable def breed {K : Type} (L : Lib) (B : Bounds l) (calls : List (Call l)) (rows : List (Row (Vec l) K)) : List (Row (Vec l) K) :=
  (calls.foldl (fun vs c => c.apply L B vs) (rows.map (·.val))).map fun v => ⟨v, none⟩

/-- What one step draws from outside: two fitness functions and the calls of the operators. -/
structure Draws (l : Nat) (K : Type) where
  f1 : Vec l → K
  f2 : Vec l → K
  calls : List (Call l)

/-- The environment of a step. -/
noncomputable def Draws.env {K : Type} (L : Lib) (B : Bounds l) (d : Draws l K) : GA.Env (Vec l) K := ⟨d.f1, d.f2, breed L B d.calls⟩

/-- The decision values that a step of `GeneticAlgorithm` evaluates or has evaluated (`ga.py 145-244`). -/
noncomputable def seen {K : Type} (cfg : GA.Cfg K) (e : GA.Env (Vec l) K) (st : GA.State (Vec l) K) : List (Vec l) :=
  let r := GA.makeExtended cfg e st
  (r.2.1 ++ r.2.2).map (·.val)

/-- What one step of `Cosyne` draws: the cross-over and the mutation, and the permutation (`ga.py 1006-1033`). -/
structure CosyneDraws (l : Nat) (K : Type) where
  f0 : Vec l → K
  f : Vec l → K
  calls : List (Call l)
  mask : Nat → Fin l → Bool
  rnd : Nat → Vec l

/-- A step of `Cosyne` (`ga.py 1006-1033`). -/
noncomputable def cosyneStep {K : Type} (cfg : GA.CosyneCfg K) (L : Lib) (B : Bounds l) (st : GA.State (Vec l) K) (d : CosyneDraws l K) : GA.State (Vec l) K :=
  GA.cosyneStep cfg d.f0 d.f (breed L B d.calls) (breed L B [.permutation d.mask d.rnd]) st

end EvoTorch.BoundedRuns
