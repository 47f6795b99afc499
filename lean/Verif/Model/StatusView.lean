import Verif.Model.Status
import Mathlib.Data.Nat.Notation
/-!
`LazyStatusDict`, the view of a reporter that the attribute `status` gives (`src/evotorch/algorithms/searchalgorithm.py` 179-237), and the step counter and the
time of the first step of a search algorithm (`searchalgorithm.py` 285-305, 362-447).
-/
namespace EvoTorch.StatusView
open EvoTorch.Hook (Dict dictSet dictUpdate dictGet)
open EvoTorch.Status (Reporter Getter get)

/-- A status value: a tensor or an `ObjectArray` in some memory, which can or cannot be written through this object, or something else. -/
inductive Item (A : Type) where
  | tensor (mem : ℕ) (readOnly : Bool)
  | objects (mem : ℕ) (readOnly : Bool)
  | other (x : A)
deriving DecidableEq, Repr

variable {W K A : Type} [DecidableEq K]

/-- `as_read_only_tensor` of tensors and object arrays (`readonlytensor.py` 190-224), as used in `searchalgorithm.py 205-206`. -/
def Item.view : Item A → Item A
  | .tensor m _ => .tensor m true
  | .objects m _ => .objects m true
  | .other x => .other x

/-- `__getitem__`, `searchalgorithm.py 203-207`. -/
def getitem (fuel : ℕ) (r : Reporter W K (Item A)) (k : K) : Reporter W K (Item A) × Except PyErr (Item A) :=
  ((get fuel r k).1, (get fuel r k).2.map Item.view)

/-- `__iter__`, `searchalgorithm.py 212-214`, of `iter_status_keys`, `searchalgorithm.py 133-135`. -/
def iter (r : Reporter W K (Item A)) : List K := r.getters.map (·.1)

/-- `__len__`, `searchalgorithm.py 209-210`. -/
def len (r : Reporter W K (Item A)) : ℕ := (iter r).length

/-- `__contains__`, `searchalgorithm.py 216-217`, of `has_status_key`, `searchalgorithm.py 120-131`. -/
def contains (r : Reporter W K (Item A)) (k : K) : Bool := (dictGet r.getters k).isSome

/-- The loop of `_to_string`, `searchalgorithm.py 222-227`: a line has the key, and the value or "not yet computed". -/
def lines (fuel : ℕ) : Reporter W K (Item A) → List K → Reporter W K (Item A) × Except PyErr (List (K × Option (Item A)))
  | r, [] => (r, .ok [])
  | r, k :: ks =>
    if (dictGet r.computed k).isSome then
      match get fuel r k with
      | (r', .error e) => (r', .error e)
      | (r', .ok v) => ((lines fuel r' ks).1, (lines fuel r' ks).2.map ((k, some v) :: ·))
    else ((lines fuel r ks).1, (lines fuel r ks).2.map ((k, none) :: ·))

/-- `_to_string`, `searchalgorithm.py 219-237`. -/
def toString (fuel : ℕ) (r : Reporter W K (Item A)) : Reporter W K (Item A) × Except PyErr (List (K × Option (Item A))) := lines fuel r (iter r)

/-- The loop of `dict(status)` (used in `searchalgorithm.py 397` and `searchalgorithm.py 428`): the items, key by key. -/
def items (fuel : ℕ) : Reporter W K (Item A) → List K → Reporter W K (Item A) × Except PyErr (Dict K (Item A))
  | r, [] => (r, .ok [])
  | r, k :: ks =>
    match getitem fuel r k with
    | (r', .error e) => (r', .error e)
    | (r', .ok v) => ((items fuel r' ks).1, (items fuel r' ks).2.map ((k, v) :: ·))

/-- `dict(status)`. -/
def toDict (fuel : ℕ) (r : Reporter W K (Item A)) : Reporter W K (Item A) × Except PyErr (Dict K (Item A)) := items fuel r (iter r)

/-! ### The step counter and the time of the first step -/

/-- `_steps_count` and `_first_step_datetime`, `searchalgorithm.py 304-305`. -/
structure Clock (T : Type) where
  steps : ℕ := 0
  first : Option T := none

variable {T : Type}

/-- `step` at a time, `searchalgorithm.py 380-397`: did the algorithm's own step succeed? What happens in the hooks is left out. -/
def step (c : Clock T) (now : T) (ok : Bool) : Clock T :=
  let c := if c.first.isNone then { c with first := some now } else c
  if ok then { c with steps := c.steps + 1 } else c

/-- `reset_first_step_datetime`, `searchalgorithm.py 438-442`. -/
def reset (c : Clock T) : Clock T := { c with first := none }

/-- The loop of `run`, `searchalgorithm.py 424-425`: the times of the steps and whether they succeed; an exception ends the loop. -/
def runSteps (c : Clock T) : List (T × Bool) → Clock T
  | [] => c
  | (now, ok) :: rest => if ok then runSteps (step c now ok) rest else step c now ok

/-- `run`, `searchalgorithm.py 409-425`. -/
def run (c : Clock T) (resetFirst : Bool) (steps : List (T × Bool)) : Clock T := runSteps (if resetFirst then reset c else c) steps

/-- What a user can do. -/
inductive Act (T : Type) where
  | step (now : T) (ok : Bool)
  | reset
  | run (resetFirst : Bool) (steps : List (T × Bool))

/-- One action. -/
def act (c : Clock T) : Act T → Clock T
  | .step now ok => step c now ok
  | .reset => reset c
  | .run b steps => run c b steps

/-- A history from the construction on, `searchalgorithm.py 285-305`. -/
def history (acts : List (Act T)) : Clock T := acts.foldl act {}

end EvoTorch.StatusView
