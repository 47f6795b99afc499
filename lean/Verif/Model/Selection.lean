import Verif.Model.Base
import Verif.Model.BestWorst
import Mathlib.Data.List.Sort
import Mathlib.Data.Fintype.Basic
import Mathlib.Data.Fintype.Card
/-!
Selection: `argsort`, `take_best`, Pareto ranking and crowding.
-/
namespace EvoTorch.Selection
open BestWorst (Sense)

variable {K : Type} {n m : Nat}

/-- `torch.argsort` as a parameter (`true` for descending), for one element type. Only `IsArgsort` is assumed of it: which of several
sorting permutations is returned for ties is left open. -/
abbrev Sorter (α : Type) := Bool → List α → List Nat

/-- `SolutionBatch.argsort`, `src/evotorch/core.py:3813-3829`, on the column of evaluations of the objective. -/
def argsort (sort : Sorter K) (s : Sense) (col : List K) : List Nat := sort (s == .max) col

/-- `SolutionBatch.take_best(n)` with a given objective, `src/evotorch/core.py:4413-4415`: the indices of the rows taken. -/
def takeBestIndices (sort : Sorter K) (s : Sense) (col : List K) (k : Nat) : List Nat := (argsort sort s col).take k

/-- The utilities of a batch, `src/evotorch/core.py:3929-3933` and 4258-4287: evaluations times the objective sign. -/
def utils [Neg K] (senses : Fin m → Sense) (evals : Fin n → Fin m → K) : Fin n → Fin m → K :=
  fun i o => match senses o with
    | .max => evals i o
    | .min => -evals i o

section pareto
variable [LinearOrder K]

/-- `dominated_matrix[i, j]`: solution `j` dominates solution `i` (`src/evotorch/core.py:3489-3498`). -/
def dominatedBy (u : Fin n → Fin m → K) (i j : Fin n) : Bool :=
  decide (∀ o, u j o ≥ u i o) && decide (∃ o, u j o > u i o)

/-- State of the `while` loop of `_compute_pareto_ranks`. -/
structure PState (n : Nat) where
  ranks : Fin n → Nat
  unranked : Fin n → Bool
  nDom : Fin n → Int
  cur : Nat
  crowd : Fin n → Nat

/-- `src/evotorch/core.py:3500-3515`. -/
def pinit (u : Fin n → Fin m → K) : PState n where
  ranks := fun _ => 0
  unranked := fun _ => true
  nDom := fun i => ((Finset.univ.filter fun j => dominatedBy u i j = true).card : Int)
  cur := 0
  crowd := fun _ => 0

/-- `new_non_dominated`, `src/evotorch/core.py:3520-3522`. -/
def newND (st : PState n) (i : Fin n) : Bool := (st.nDom i == 0) && st.unranked i

/-- One iteration of the loop, `src/evotorch/core.py:3519-3535`. `crowdsort` maps the utilities of a front to the argsort of its crowding
distances (descending); `crowdsort_ranks[new_non_dominated] = …` gives the `k`-th solution of the front the `k`-th entry. -/
def pstep (crowdsort : List (Fin m → K) → List Nat) (u : Fin n → Fin m → K) (st : PState n) : PState n :=
  let front := (List.finRange n).filter (newND st)
  let perm := crowdsort (front.map u)
  { ranks := fun i => if newND st i then st.cur else st.ranks i
    unranked := fun i => if newND st i then false else st.unranked i
    nDom := fun i => st.nDom i - ((Finset.univ.filter fun j => newND st j = true ∧ dominatedBy u i j = true).card : Int)
    cur := st.cur + 1
    crowd := fun i => if newND st i then perm.getD (front.idxOf i) 0 else st.crowd i }

/-- `unranked.any()`. -/
def anyUnranked (st : PState n) : Bool := decide (∃ i, st.unranked i = true)

/-- The `while` loop, with a bound on the number of iterations (shown to be sufficient). -/
def ploop (crowdsort : List (Fin m → K) → List Nat) (u : Fin n → Fin m → K) : Nat → PState n → PState n
  | 0, st => st
  | fuel + 1, st => if anyUnranked st then ploop crowdsort u fuel (pstep crowdsort u st) else st

/-- `_compute_pareto_ranks`, `src/evotorch/core.py:3466-3537`. -/
def paretoRanks (crowdsort : List (Fin m → K) → List Nat) (u : Fin n → Fin m → K) : PState n :=
  ploop crowdsort u n (pinit u)

/-- `_pareto_sort`, `src/evotorch/core.py:3556-3570`, one front. -/
def sortedFront (st : PState n) (r : Nat) : List (Fin n) :=
  let front := (List.finRange n).filter fun i => st.ranks i == r
  (front.map st.crowd).filterMap fun k => front[k]?

/-- `torch.amax(ranks)`. -/
def maxRank (st : PState n) : Nat := ((List.finRange n).map st.ranks).foldl max 0

/-- `_pareto_sort`, `src/evotorch/core.py:3540-3570`, for `arg_pareto_sort(crowdsort)`, `src/evotorch/core.py:3856-3895` (the ranks alone: `compute_pareto_ranks`, `src/evotorch/core.py:3832-3853`): the fronts and
the ranks. The largest of no ranks is refused by torch. -/
def paretoSort (useCrowd : Bool) (crowdsort : List (Fin m → K) → List Nat) (u : Fin n → Fin m → K) : Except PyErr (List (List (Fin n)) × (Fin n → Nat)) :=
  let st := paretoRanks crowdsort u
  if n = 0 then .error .indexError
  else .ok ((List.range (maxRank st + 1)).map fun r => if useCrowd then sortedFront st r else (List.finRange n).filter fun i => st.ranks i == r, st.ranks)

end pareto

section crowding
variable [Field K] [LinearOrder K]

/-- `torch.amax` of a vector. -/
def amax (col : List K) : K := col.foldl max (col.headD 0)
/-- `torch.amin` of a vector. -/
def amin (col : List K) : K := col.foldl min (col.headD 0)

/-- `denominator`, `src/evotorch/core.py:3446-3450`; `tol` is the near-zero tolerance. -/
def denom (tol : K) (col : List K) : K := max tol (amax col - amin col)

/-- The infinite distances of the extreme solutions, `src/evotorch/core.py:3436-3437`. -/
def crowdInit (sortAsc : List K → List Nat) (rows : List (Fin m → K)) : List (Flt K) :=
  let d0 : List (Flt K) := List.replicate rows.length (.fin 0)
  let d1 := (List.finRange m).foldl (fun d o => d.set ((sortAsc (rows.map (· o))).headD 0) .pinf) d0
  (List.finRange m).foldl (fun d o => d.set ((sortAsc (rows.map (· o))).getLastD 0) .pinf) d1

/-- The loop body of `src/evotorch/core.py:3440-3461` for one objective. -/
def crowdAdd (sortAsc : List K → List Nat) (tol : K) (rows : List (Fin m → K)) (d : List (Flt K)) (o : Fin m) : List (Flt K) :=
  let col := rows.map (· o)
  let p := sortAsc col
  let s := p.map fun i => col.getD i 0
  (List.range (rows.length - 2)).foldl
    (fun d k => d.modify (p.getD (k + 1) 0) fun x => Flt.add x (.fin ((s.getD (k + 2) 0 - s.getD k 0) / denom tol col))) d

/-- `_crowding_distance_assignment`, `src/evotorch/core.py:3418-3463`. -/
def crowding (sortAsc : List K → List Nat) (tol : K) (rows : List (Fin m → K)) : List (Flt K) :=
  (List.finRange m).foldl (crowdAdd sortAsc tol rows) (crowdInit sortAsc rows)

/-- The argsort (descending) of the crowding distances of a front, `src/evotorch/core.py:3527-3529`. -/
def crowdsort (sortAsc : List K → List Nat) (sortDesc : List (Flt K) → List Nat) (tol : K) (rows : List (Fin m → K)) : List Nat :=
  sortDesc (crowding sortAsc tol rows)

/-- Multi-objective `take_best(k)`, `src/evotorch/core.py:4408-4412` and 4415: the indices of the rows taken. Exact arithmetic. -/
def takeBestMulti (sortAsc : List K → List Nat) (crowdsort : List (Fin m → K) → List Nat) (u : Fin n → Fin m → K) (k : Nat) :
    List Nat :=
  let st := paretoRanks crowdsort u
  let combined := (List.finRange n).map fun i => (st.ranks i : K) + 1 / 10 * (st.crowd i : K) / (n : K)
  (sortAsc combined).take k

end crowding

/-- A stable argsort (used in examples): indices sorted by insertion. -/
def stableArgsort {α : Type} (le : α → α → Bool) (l : List α) : List Nat :=
  (List.range l.length).insertionSort fun i j => (match l[i]?, l[j]? with
    | some x, some y => le x y
    | _, _ => true) = true

end EvoTorch.Selection
