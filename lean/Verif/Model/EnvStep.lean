import Verif.Model.Base
import Mathlib.Algebra.Order.Field.Basic
import Mathlib.Algebra.Order.Group.Abs
import Mathlib.Data.Nat.Notation
/-!
One interaction with an environment: what is sent to it (`GymNE._use_policy`, the loop of `VecGymNE`, `TorchWrapper.step`) and how its answers are read in the old and the new API
(`reset_env`, `take_step_in_env`, `TorchWrapper`).
-/
namespace EvoTorch.EnvStep
open EvoTorch

section
variable {K : Type} [Field K] [LinearOrder K]

/-! ### Actions -/

/-- An action space: a box with its bounds, or a discrete space with `n` actions `start`, ..., `start + n - 1`. -/
inductive Space (K : Type) where
  | box (low high : List K)
  | discrete (n : ℕ) (start : Int)

/-- What the environment receives: a vector or an integer. -/
inductive Act (K : Type) where
  | vector (v : List K)
  | choice (i : Int)
deriving DecidableEq

/-- `np.clip(x, low, high)`, and `torch.min(torch.max(x, low), high)` (gymne.py 346, vecrl.py 548-549). -/
def clip (low high x : List K) : List K := List.zipWith (fun h y => min y h) high (List.zipWith (fun l y => max y l) low x)

/-- `GymNE._use_policy` after the network (gymne.py 337-347). `draws` are the standard normal draws behind `make_gaussian(center=0, stdev=s)`, `argmax` is `np.argmax`. -/
def gymAction (argmax : List K → ℕ) (space : Space K) (noise : Option K) (draws out : List K) : Act K :=
  let v := match noise with
    | none => out
    | some s => List.zipWith (fun x z => x + (0 + s * z)) out draws
  match space with
  | .discrete _ _ => .choice (argmax v)
  | .box low high => .vector (clip low high v)

/-- The action of one solution in `VecGymNE` (vecgymne.py 839-847 and `TorchWrapper.step`, vecrl.py 538-552, with `discrete_to_continuous_act=True, clip_actions=True`). `draws` are the results
of `torch.rand_like`. -/
def vecAction (argmax : List K → ℕ) (space : Space K) (noise : Option K) (draws out : List K) : Act K :=
  let v := match noise with
    | none => out
    | some s => List.zipWith (fun x u => x + u * s) out draws
  match space with
  | .discrete _ _ => .choice (argmax v)
  | .box low high => .vector (clip low high v)

/-! ### Answers -/

/-- A flag as environments give it: a bool, a float (brax) or an integer. -/
inductive Flag (K : Type) where
  | bool (b : Bool)
  | float (x : K)
  | int (i : Int)

/-- `convert_to_torch_bool` (vecrl.py 223-251). -/
def Flag.convert : Flag K → Bool
  | .bool b => b
  | .float x => decide (|x| > 1 / 10000)
  | .int i => decide (i ≠ 0)

/-- Truth of a Python object, for `terminated or truncated` and `if done`. -/
def Flag.truth : Flag K → Bool
  | .bool b => b
  | .float x => decide (x ≠ 0)
  | .int i => decide (i ≠ 0)

/-- What `env.step(...)` returns: a tuple in the old API, in the new API, of another length, or something else. `D` is the type of the flags. -/
inductive StepRet (O R D I : Type) where
  | old (o : O) (r : R) (done : D) (info : I)
  | new (o : O) (r : R) (terminated truncated : D) (info : I)
  | tuple (n : ℕ)
  | other

/-- `take_step_in_env` (rl.py 83-127) for one environment. `a or b` is `a` if that is true, else `b`. -/
def takeStep {O R I : Type} : StepRet O R (Flag K) I → Except PyErr (O × R × Flag K × I)
  | .old o r d i => .ok (o, r, d, i)
  | .new o r t u i => .ok (o, r, if t.truth then t else u, i)
  | .tuple _ => .error .valueError
  | .other => .error .typeError

/-- The end of `TorchWrapper.step` with `force_classic_api` (vecrl.py 557-592), for all sub-environments at once. -/
def wrapperStep {O R I : Type} : StepRet O R (List (Flag K)) I → Except PyErr (O × R × List Bool × I)
  | .old o r d i => .ok (o, r, d.map Flag.convert, i)
  | .new o r t u i => .ok (o, r, List.zipWith (· || ·) (t.map Flag.convert) (u.map Flag.convert), i)
  | .tuple _ => .error .valueError
  | .other => .error .typeError

/-- What `env.reset()` returns: an observation, the pair of the new API, or another tuple of the given length. -/
inductive ResetRet (O I : Type) where
  | obs (o : O)
  | pair (o : O) (info : I)
  | tuple (items : List O)

/-- `TorchWrapper.reset` with `force_classic_api` (vecrl.py 488-517). -/
def wrapperReset {O I : Type} : ResetRet O I → Except PyErr O
  | .obs o => .ok o
  | .pair o _ => .ok o
  | .tuple _ => .error .valueError

/-- `reset_env` (rl.py 63-80); `none` stands for an observation which is itself a tuple. -/
def resetEnv {O I : Type} : ResetRet O I → Option O
  | .obs o => some o
  | .pair o _ => some o
  | .tuple _ => none

/-- The wrapper as a state machine (vecrl.py 409-410, vecrl.py 482-486, vecrl.py 527-536): whether the array type is known, and how many calls reached the environment. -/
structure Wrapper where
  known : Bool := false
  calls : ℕ := 0
deriving DecidableEq

/-- The user's calls: reset, and a step. -/
inductive Call where
  | reset | step
deriving DecidableEq

/-- One call. -/
def call (w : Wrapper) : Call → Outcome Wrapper Unit
  | .reset => ⟨⟨true, w.calls + 1⟩, .ok ()⟩
  | .step => if w.known then ⟨{ w with calls := w.calls + 1 }, .ok ()⟩ else ⟨w, .error .valueError⟩

/-- A sequence of calls, going on after refused ones; the results. -/
def calls : Wrapper → List Call → List (Except PyErr Unit) × Wrapper
  | w, [] => ([], w)
  | w, c :: cs => let r := calls (call w c).state cs; ((call w c).result :: r.1, r.2)

end
end EvoTorch.EnvStep
