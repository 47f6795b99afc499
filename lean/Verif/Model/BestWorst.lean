import Verif.Model.Base
import Verif.Model.Flt
/-!
Tracking of the best and the worst solutions by `Problem.evaluate`, and comparison of solutions.
-/
namespace EvoTorch.BestWorst

/-- Objective sense (`"min"` or `"max"`, `src/evotorch/core.py:1160-1168`; a problem created with another single string fails when its first batch is made, see C92). -/
inductive Sense where
  | min | max
  deriving DecidableEq, Repr

/-- An evaluated row: decision values and one evaluation per objective. -/
structure Row (V K : Type) (m : Nat) where
  values : V
  evals : Fin m → Flt K

/-- `torch.argmin` and `torch.argmax` of a vector, as parameters: only their documented behaviour is used (`ArgSpec`). -/
structure Args (K : Type) where
  argmin : List (Flt K) → Nat
  argmax : List (Flt K) → Nat

/-- What PyTorch promises about `argmin` and `argmax` of a non-empty vector: the index of a NaN if there is one, otherwise the
index of an extreme element (which one of several is left open). -/
structure ArgSpec {K : Type} [LinearOrder K] (A : Args K) : Prop where
  min_mem : ∀ l, l ≠ [] → A.argmin l < l.length
  max_mem : ∀ l, l ≠ [] → A.argmax l < l.length
  min_nan : ∀ l, (∃ x ∈ l, x.isNan = true) → ∀ y, l[A.argmin l]? = some y → y.isNan = true
  max_nan : ∀ l, (∃ x ∈ l, x.isNan = true) → ∀ y, l[A.argmax l]? = some y → y.isNan = true
  min_le : ∀ l, (∀ x ∈ l, x.isNan = false) → ∀ y, l[A.argmin l]? = some y → ∀ x ∈ l, Flt.lt x y = false
  max_ge : ∀ l, (∀ x ∈ l, x.isNan = false) → ∀ y, l[A.argmax l]? = some y → ∀ x ∈ l, Flt.lt y x = false

variable {V K : Type} {m : Nat} [LinearOrder K]

/-- `first_is_better`, `src/evotorch/core.py:2354-2360`. -/
def firstIsBetter : Sense → Flt K → Flt K → Bool
  | .min, a, b => Flt.lt a b
  | .max, a, b => Flt.lt b a

/-- `first_is_worse`, `src/evotorch/core.py:2362-2368`. -/
def firstIsWorse : Sense → Flt K → Flt K → Bool
  | .min, a, b => Flt.lt b a
  | .max, a, b => Flt.lt a b

/-- `SolutionBatch.argbest`, `src/evotorch/core.py:3898-3911`. -/
def argbest (A : Args K) : Sense → List (Flt K) → Nat
  | .max, l => A.argmax l
  | .min, l => A.argmin l

/-- `SolutionBatch.argworst`, `src/evotorch/core.py:3914-3927`. -/
def argworst (A : Args K) : Sense → List (Flt K) → Nat
  | .max, l => A.argmin l
  | .min, l => A.argmax l

/-- The tracked extremes of one objective: `_best_evals[i]`, `_best[i]`, `_worst_evals[i]`, `_worst[i]`. -/
structure Track (V K : Type) (m : Nat) where
  bestEval : Flt K
  best : Option (Row V K m)
  worstEval : Flt K
  worst : Option (Row V K m)

/-- Initial tracking state of an objective, `src/evotorch/core.py:2340-2352`. -/
def initTrack : Sense → Track V K m
  | .min => ⟨.pinf, none, .ninf, none⟩
  | .max => ⟨.ninf, none, .pinf, none⟩

/-- `batch.access_evals(i_obj)`. -/
def column (batch : List (Row V K m)) (o : Fin m) : List (Flt K) := batch.map fun r => r.evals o

/-- The loop body of `_get_best_and_worst` for one objective, `src/evotorch/core.py:2373-2384`. -/
def updateTrack (A : Args K) (s : Sense) (o : Fin m) (batch : List (Row V K m)) (t : Track V K m) : Track V K m :=
  let t := match batch[argbest A s (column batch o)]? with
    | none => t
    | some r => if firstIsBetter s (r.evals o) t.bestEval then { t with bestEval := r.evals o, best := some r } else t
  match batch[argworst A s (column batch o)]? with
    | none => t
    | some r => if firstIsWorse s (r.evals o) t.worstEval then { t with worstEval := r.evals o, worst := some r } else t

/-- State of the tracking: `none` until the first evaluation. -/
abbrev State (V K : Type) (m : Nat) := Option (Fin m → Track V K m)

/-- `_get_best_and_worst` (`src/evotorch/core.py:2330-2395`) with `store_solution_stats` on. The returned status is reduced to
whether building it raises: `argmin` of an empty batch raises IndexError; with one objective, `self._best[0].evals` raises
AttributeError if no best or worst solution is stored. -/
def getBestAndWorst (A : Args K) (senses : Fin m → Sense) (st : State V K m) (batch : List (Row V K m)) :
    Outcome (State V K m) Unit :=
  let t0 := st.getD fun o => initTrack (senses o)
  if batch = [] then ⟨some t0, .error .indexError⟩
  else
    let t1 := fun o => updateTrack A (senses o) o batch (t0 o)
    ⟨some t1,
      if h : m = 1 then
        if (t1 ⟨0, by omega⟩).best.isNone || (t1 ⟨0, by omega⟩).worst.isNone then .error .attributeError else .ok ()
      else .ok ()⟩

/-- A history of evaluations (exceptions are caught by the user and the problem is used further). -/
def runHistory (A : Args K) (senses : Fin m → Sense) (hist : List (List (Row V K m))) : State V K m :=
  hist.foldl (fun st b => (getBestAndWorst A senses st b).state) none

/-- `Problem.compare_solutions`, `src/evotorch/core.py:2397-2424`, on the scores of the two solutions. -/
def compareSolutions [Sub K] : Sense → Flt K → Flt K → Flt K
  | .max, a, b => Flt.sub a b
  | .min, a, b => Flt.sub b a

/-- `Problem.is_better`, `src/evotorch/core.py:2426-2440`. -/
def isBetter [Sub K] [Zero K] (s : Sense) (a b : Flt K) : Bool := Flt.lt (.fin 0) (compareSolutions s a b)

/-- `Problem.is_worse`, `src/evotorch/core.py:2442-2456`. -/
def isWorse [Sub K] [Zero K] (s : Sense) (a b : Flt K) : Bool := Flt.lt (compareSolutions s a b) (.fin 0)

/-- Reference implementation of `torch.argmin`/`torch.argmax` (first NaN, else first extreme), used only in examples. -/
def firstArg (better : Flt K → Flt K → Bool) : List (Flt K) → Nat × Flt K
  | [] => (0, .nan)
  | [x] => (0, x)
  | x :: y :: rest =>
    let r := firstArg better (y :: rest)
    if x.isNan then (0, x) else if r.2.isNan then (r.1 + 1, r.2) else if better r.2 x then (r.1 + 1, r.2) else (0, x)

/-- The reference implementation as `Args`. -/
def refArgs : Args K where
  argmin l := (firstArg (fun a b => Flt.lt a b) l).1
  argmax l := (firstArg (fun a b => Flt.lt b a) l).1

end EvoTorch.BestWorst
