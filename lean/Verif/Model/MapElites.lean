import Verif.Model.GA
import Verif.Model.BestWorst
/-!
`MAPElites`, `src/evotorch/algorithms/mapelites.py`. An evaluation is a fitness and a list of features, in numbers with infinities and NaN.
A cell of the grid is the list of its (lower, upper) feature bounds.
-/
namespace EvoTorch.MapElites
open BestWorst (Sense Args)

/-- A row of `evals`: fitness and features. -/
structure Ev (K : Type) where
  fit : Flt K
  feats : List (Flt K)
deriving DecidableEq, Repr

abbrev Cell (K : Type) := List (Flt K × Flt K)

variable {V K : Type}

/-- `suitable` for one solution and one cell, `mapelites.py:45`; an unevaluated row has NaN features. Features and cell have the same
length (otherwise the comparison is a shape error). -/
def suitable [LinearOrder K] (cell : Cell K) : Option (Ev K) → Bool
  | none => false
  | some e => (cell.zip e.feats).all fun bf => Flt.le bf.1.1 bf.2 && Flt.le bf.2 bf.1.2

/-- `penalty`, `mapelites.py:33-40`. -/
def penalty : Sense → Flt K
  | .min => .pinf
  | .max => .ninf

/-- `fitnesses`, `mapelites.py:42` (NaN for an unevaluated row). -/
def fitness : Option (Ev K) → Flt K
  | some e => e.fit
  | none => .nan

/-- `processed_fitnesses`, `mapelites.py:46`. -/
def processed [LinearOrder K] (s : Sense) (cell : Cell K) (ev : Option (Ev K)) : Flt K :=
  if suitable cell ev then fitness ev else penalty s

/-- `_best_solution_considering_feature`, `mapelites.py:24-53`: the index selected for a cell. -/
def pick [LinearOrder K] (A : Args K) (s : Sense) (rows : List (GA.Row V (Ev K))) (cell : Cell K) : Nat :=
  let l := rows.map fun r => processed s cell r.ev
  match s with
  | .min => A.argmin l
  | .max => A.argmax l

/-- Constructor arguments, `mapelites.py:274-347`. -/
structure Cfg (K : Type) where
  A : Args K
  sense : Sense
  grid : List (Cell K)
  reEvaluate : Bool
  parentsFirst : Bool

/-- The part of the configuration used by `_make_extended_population`. -/
def Cfg.ga (cfg : Cfg K) : GA.Cfg (Ev K) := ⟨fun _ _ => [], cfg.sense, cfg.grid.length, false, cfg.reEvaluate, cfg.parentsFirst⟩

/-- The archive: the population (one solution per cell), the flags, and whether a step was made. -/
structure State (V K : Type) where
  population : List (GA.Row V (Ev K))
  filled : List Bool
  firstIter : Bool

/-- After construction, `mapelites.py:336-337`. -/
def init (vals : List V) : State V K := ⟨vals.map fun v => ⟨v, none⟩, vals.map fun _ => false, true⟩

/-- The extended population of a step, `mapelites.py:382`. -/
def extended (cfg : Cfg K) (env : GA.Env V (Ev K)) (st : State V K) : List (GA.Row V (Ev K)) :=
  let r := GA.makeExtended cfg.ga env ⟨st.population, st.firstIter⟩
  r.2.1 ++ r.2.2

/-- `MAPElites._step`, `mapelites.py:380-401`. -/
def step [LinearOrder K] (cfg : Cfg K) (st : State V K) (env : GA.Env V (Ev K)) : State V K :=
  let rows := extended cfg env st
  let chosen := cfg.grid.filterMap fun cell => rows[pick cfg.A cfg.sense rows cell]?
  { population := chosen
    filled := cfg.grid.filterMap fun cell => (rows[pick cfg.A cfg.sense rows cell]?).map fun r => suitable cell r.ev
    firstIter := false }

/-! ### `make_feature_grid` -/

/-- `torch.linspace(lb, ub, steps)` in exact arithmetic. -/
def linspace [Field K] (lb ub : K) (steps : Nat) : List K :=
  (List.range steps).map fun (i : Nat) => lb + (i : K) * ((ub - lb) / ((steps - 1 : Nat) : K))

/-- `sp.unfold(dimension=0, size=2, step=1)`, `mapelites.py:502`: consecutive pairs. -/
def windows {α : Type} : List α → List (α × α)
  | a :: b :: l => (a, b) :: windows (b :: l)
  | _ => []

/-- The inner `_make_feature_grid`, `mapelites.py:499-502`; `num_bins = 0` makes `linspace` fail (negative number of steps). -/
def bins [Field K] (lb ub : K) (numBins : Nat) : Except PyErr (List (Flt K × Flt K)) :=
  if numBins = 0 then .error .runtimeError
  else .ok (windows ([.ninf] ++ (linspace lb ub (numBins - 1)).map .fin ++ [.pinf]))

/-- `itertools.product`. -/
def product {α : Type} : List (List α) → List (List α)
  | [] => [[]]
  | l :: ls => l.flatMap fun a => (product ls).map (a :: ·)

/-- `MAPElites.make_feature_grid`, `mapelites.py:404-505`, on the list of (lower bound, upper bound, number of bins) of the features
(checks of device, dtype and shape are omitted). -/
def makeFeatureGrid [Field K] (features : List (K × K × Nat)) : Except PyErr (List (Cell K)) := do
  let fs ← features.mapM fun f => bins f.1 f.2.1 f.2.2
  pure (product fs)

end EvoTorch.MapElites
