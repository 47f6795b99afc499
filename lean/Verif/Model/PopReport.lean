import Verif.Model.BestWorst
import Verif.Model.Base
/-!
`SinglePopulationAlgorithmMixin` (`src/evotorch/algorithms/searchalgorithm.py:450-584`): the status items about the population.
-/
namespace EvoTorch.PopReport
open EvoTorch.BestWorst (Sense Args argbest)
variable {K : Type}

/-- `REPORTABLES`, `searchalgorithm.py:496`. (A set; the order is not used.) -/
def reportables : List String := ["pop_best", "pop_best_eval", "mean_eval", "median_eval"]

/-- The argument `exclude`: an iterable of names, or a string, which is an iterable too: of its characters. -/
inductive Exclude where
  | names (l : List String)
  | str (s : String)

/-- `set() if exclude is None else set(exclude)`, `searchalgorithm.py:561`. -/
def excludeSet : Option Exclude → List String
  | none => []
  | some (.names l) => l
  | some (.str s) => s.toList.map fun c => String.ofList [c]

/-- A registered status item: its key, the objective and what is reported, `ObjectiveStatusReporter.__init__`, `searchalgorithm.py:498-509`. -/
structure Item where
  key : String
  obj : Nat
  what : String
deriving DecidableEq, Repr

/-- `__init__`, `searchalgorithm.py:554-584`. `objIndex` is the attribute `obj_index` of the algorithm (`none`: it does not exist or is None). -/
def registered (objIndex : Option Nat) (numObjs : Nat) (exclude : Option Exclude) (enable : Bool) : List Item :=
  if !enable then []
  else
    let names := reportables.filter fun r => !(excludeSet exclude).contains r
    let singleObj := match objIndex with
      | some j => some j
      | none => if numObjs = 1 then some 0 else none
    match singleObj with
    | some j => names.map fun r => ⟨r, j, r⟩
    | none => (List.range numObjs).flatMap fun i => names.map fun r => ⟨"obj" ++ toString i ++ "_" ++ r, i, r⟩

/-- A column of the evaluations. -/
def column (evals : List (List (Flt K))) (j : Nat) : List (Flt K) := evals.map fun row => row.getD j .nan

/-- `_get_pop_best`, `searchalgorithm.py:525-527`: the (cloned) solution at `argbest`; here the row of its evaluations. -/
def popBest (A : Args K) (senses : List Sense) (evals : List (List (Flt K))) (j : Nat) : Option (List (Flt K)) :=
  (senses[j]?).bind fun s => evals[argbest A s (column evals j)]?

/-- `_get_pop_best_eval`, `searchalgorithm.py:529-541`. `items` are the registered items. A solution is evaluated if none of its objectives is NaN (`core.py 4928-4945`). -/
def popBestEval (A : Args K) (senses : List Sense) (items : List Item) (evals : List (List (Flt K))) (j : Nat) : Option (Flt K) :=
  let item := (items.find? fun i => i.key = "pop_best").or (items.find? fun i => i.key = "obj" ++ toString j ++ "_pop_best")
  match item.bind fun i => popBest A senses evals i.obj with
  | none => none
  | some row => if (row.take senses.length).all (fun x => !x.isNan) then row[j]? else none

/-- Division by a positive count. -/
def divNat [Div K] [NatCast K] : Flt K → Nat → Flt K
  | .fin x, n => .fin (x / n)
  | y, _ => y

/-- `_get_mean_eval`, `searchalgorithm.py:544-545`. -/
def meanEval [Zero K] [Add K] [Div K] [NatCast K] (evals : List (List (Flt K))) (j : Nat) : Flt K :=
  divNat ((column evals j).foldl Flt.add (.fin 0)) evals.length

/-- `_get_median_eval`, `searchalgorithm.py:548-549`: `torch.median` gives NaN if there is one, and the lower of the two middle elements for an even number of elements. -/
def medianEval [LE K] [DecidableLE K] (evals : List (List (Flt K))) (j : Nat) : Option (Flt K) :=
  let col := column evals j
  if col.any Flt.isNan then some .nan else ((col.mergeSort Flt.le))[(col.length - 1) / 2]?

end EvoTorch.PopReport
