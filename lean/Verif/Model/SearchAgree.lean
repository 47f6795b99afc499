import Verif.Model.Modify
import Verif.Model.Optimizers
/-!
Whole runs of the class-based `PGPE` and `CEM` (`src/evotorch/algorithms/distributed/gaussian.py`) and of the functional ones
(`src/evotorch/algorithms/functional/funcpgpe.py`, `funccem.py`). Both estimate their gradients with `Distribution.compute_gradients`; it is a parameter (`grad`) here, of the
center, the standard deviation and whatever the evaluation of the population gave (`D`). Simplification: the gradients are finite.
-/
namespace EvoTorch.SearchAgree
open EvoTorch.Modify
variable {K σ τ C G D : Type} [Field K] [LinearOrder K]

/-- The part of an optimiser which the search sees: its center, and how it follows a gradient. -/
structure Optim (σ C G : Type) where
  ask : σ → C
  tell : σ → G → σ

/-- The update of a generation by the class: `_step_non_distributed` and `_update_distribution`, `gaussian.py 356-366`, `gaussian.py 369-419`. The state consists of that of
the optimiser with the center, and of the standard deviation. -/
def classStep (O : Optim σ C G) (grad : C → List (Flt K) → D → G × List K) (ctl : Control K) (lr : K) (st : σ × List (Flt K)) (data : D) : Except PyErr (σ × List (Flt K)) := do
  let g := grad (O.ask st.1) st.2 data
  let s ← updateStdev ctl (.additive (.fin lr)) st.2 (g.2.map .fin)
  return (O.tell st.1 g.1, s)

/-- The centers and standard deviations of the distributions from which the class samples, generation by generation; the first generation does not update,
`gaussian.py 351-367`. -/
def classRun (O : Optim σ C G) (grad : C → List (Flt K) → D → G × List K) (ctl : Control K) (lr : K) : σ × List (Flt K) → List D → Except PyErr (List (C × List (Flt K)))
  | st, [] => .ok [(O.ask st.1, st.2)]
  | st, data :: rest => do
    let st' ← classStep O grad ctl lr st data
    let l ← classRun O grad ctl lr st' rest
    return (O.ask st.1, st.2) :: l

/-- `pgpe_tell`, `funcpgpe.py 330-384`; `cem_tell` and `_cem_tell` with a learning rate of 1, `funccem.py 197-232`, `funccem.py 249-289`. -/
def funcStep (O : Optim σ C G) (grad : C → List (Flt K) → D → G × List K) (lr : K) (st : σ × FuncState K) (data : D) : Except PyErr (σ × FuncState K) := do
  let g := grad (O.ask st.1) st.2.stdev data
  let s ← funcTell (.fin lr) st.2 (g.2.map .fin)
  return (O.tell st.1 g.1, s)

/-- The centers and standard deviations with which `pgpe_ask` (`funcpgpe.py 301-318`) and `cem_ask` (`funccem.py 193-194`, `funccem.py 235-246`) sample. -/
def funcRun (O : Optim σ C G) (grad : C → List (Flt K) → D → G × List K) (lr : K) : σ × FuncState K → List D → Except PyErr (List (C × List (Flt K)))
  | st, [] => .ok [(O.ask st.1, st.2.stdev)]
  | st, data :: rest => do
    let st' ← funcStep O grad lr st data
    let l ← funcRun O grad lr st' rest
    return (O.ask st.1, st.2.stdev) :: l

/-! ### Optimisers -/
open EvoTorch.Optimizers
variable {d : Nat}

/-- The class `ClipUp` with the center of the distribution (`gaussian.py 389-391`, `distributions.py 370-395`). -/
noncomputable def classClipUp (d : Nat) : Optim (ClipUp d × NVec d) (NVec d) (Fin d → ℝ) where
  ask st := st.2
  tell st g := ((st.1.ascent g).1, addVec st.2 (st.1.ascent g).2)

/-- `clipup_ask` (`funcclipup.py 111-120`) and `clipup_tell`. -/
noncomputable def funcClipUp (d : Nat) : Optim (ClipUpState d) (NVec d) (Fin d → ℝ) where
  ask s := s.center
  tell s g := clipupTell s g

/-- The class without an optimiser: `mu + learning_rate * grad` (`gaussian.py 392-394`), for CEM with rate 1 (`gaussian.py 1164`). -/
def classPlain (d : Nat) (K : Type) [Field K] : Optim (Fin d → K) (Fin d → K) (Fin d → K) where
  ask mu := mu
  tell mu g := fun j => mu j + 1 * g j

/-- `org_center + mu_grad`, `funccem.py 221`. -/
def funcPlain (d : Nat) (K : Type) [Field K] : Optim (Fin d → K) (Fin d → K) (Fin d → K) where
  ask mu := mu
  tell mu g := fun j => mu j + g j

end EvoTorch.SearchAgree
