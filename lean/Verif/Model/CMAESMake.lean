import Verif.Model.CMAES
import Mathlib.Data.Int.Notation
/-!
Creation of a `CMAES` object (`src/evotorch/algorithms/cmaes.py 214-263`): the checks, the population size, the initial center.
The learning rates are in `Verif/Model/CMAES.lean`.

Simplifications: contents of the center are left out, only shapes matter; `make_tensor` keeps the shape of what it is given.
-/
namespace EvoTorch.CMAES

/-- What matters of a problem. `canFill` says whether it can generate solutions: it has initial bounds, or its own `_fill`
(core.py 1885-1904). -/
structure Prob where
  numeric : Bool
  bounded : Bool
  objectives : Nat
  length : Nat
  canFill : Bool

/-- `center_init`: left out, a `Solution` of the problem, or something that becomes a tensor of a shape. -/
inductive Center where
  | missing
  | solution
  | array (shape : List Nat)

/-- `tensor.squeeze()`. -/
def squeeze (shape : List Nat) : List Nat := shape.filter (· ≠ 1)

/-- `ensure_numeric`, `ensure_unbounded` (core.py 2636-2654). -/
def ensureSuitable (p : Prob) : Except PyErr Unit :=
  if !p.numeric then .error .valueError
  else if p.bounded then .error .valueError
  else .ok ()

/-- `normalize_obj_index` (core.py 2690-2704). -/
def objIndex (p : Prob) : Option ℤ → Except PyErr Nat
  | none => if p.objectives = 1 then .ok 0 else .error .valueError
  | some i =>
    let j := if i < 0 then p.objectives + i else i
    if j < 0 ∨ (p.objectives : ℤ) ≤ j then .error .indexError else .ok j.toNat

/-- `4 + int(np.floor(3 * np.log(d)))` (cmaes.py 232). -/
noncomputable def defaultPopsize (d : Nat) : Nat := 4 + ⌊3 * Real.log d⌋₊

/-- The population size (cmaes.py 230-233): a missing one, or 0, is the default; a negative one is refused when the batch is made. -/
noncomputable def settlePopsize (d : Nat) : Option ℤ → Except PyErr Nat
  | none => .ok (defaultPopsize d)
  | some k => if k = 0 then .ok (defaultPopsize d) else if k < 0 then .error .runtimeError else .ok k.toNat

/-- `generate_batch`, `generate_values` (core.py 1860-1904, 1948-1957). -/
def generate (p : Prob) : Except PyErr Unit := if p.canFill then .ok () else .error .runtimeError

/-- The shape of `center_init` before `squeeze` (cmaes.py 248-254). -/
def centerShape (p : Prob) : Center → Except PyErr (List Nat)
  | .missing => do
    generate p
    pure [1, p.length]
  | .solution => .ok [p.length]
  | .array s => .ok s

/-- The check of the center (cmaes.py 254-260). -/
def checkCenter (d : Nat) (shape : List Nat) : Except PyErr Unit :=
  if squeeze shape = [d] then .ok () else .error .valueError

/-- `__init__` up to the initial step size (cmaes.py 214-263). The result: the index of the objective and the population size. -/
noncomputable def create (p : Prob) (popsize : Option ℤ) (center : Center) (obj : Option ℤ) : Except PyErr (Nat × Nat) := do
  ensureSuitable p
  let i ← objIndex p obj
  let n ← settlePopsize p.length popsize
  generate p
  let s ← centerShape p center
  checkCenter p.length s
  pure (i, n)

end EvoTorch.CMAES
