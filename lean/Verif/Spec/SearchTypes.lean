import Verif.Model.SearchTypes
/-!
Specification for the dtypes and devices of the functional searches: which tensors a state holds, what it means that all of
them are like the center, and the dtype which holds two dtypes without loss.
-/
namespace EvoTorch.SearchTypes

/-- All tensors in a state of `cem`. -/
def CEM.tensors (s : CEM τ) : List τ := [s.center, s.stdev, s.stdevMin, s.stdevMax, s.stdevMaxChange]

/-- All tensors in a state of an optimizer. -/
def Opt.tensors : Opt τ → List τ
  | .sgd c v r m => [c, v, r, m]
  | .adam c r b1 b2 e m v t => [c, r, b1, b2, e, m, v, t]
  | .clipup c v r m s => [c, v, r, m, s]

/-- All tensors in a state of `pgpe`. -/
def PGPE.tensors (s : PGPE τ) : List τ :=
  s.optimizer.tensors ++ [s.stdev, s.stdevRate, s.stdevMin, s.stdevMax, s.stdevMaxChange]

/-- The significant bits and the exponent range of a floating point dtype: what a dtype can hold. -/
def Dt.bits : Dt → ℕ × ℕ
  | .f16 => (11, 5)
  | .bf16 => (8, 8)
  | .f32 => (24, 8)
  | .f64 => (53, 11)
  | .int64 => (0, 0)

/-- `b` can hold the numbers of `a`. -/
def Dt.fits (a b : Dt) : Prop := a.bits.1 ≤ b.bits.1 ∧ a.bits.2 ≤ b.bits.2

instance (a b : Dt) : Decidable (Dt.fits a b) := by unfold Dt.fits; infer_instance

/-- `d` is the smallest floating point dtype which can hold the numbers of all of the given dtypes. -/
def Dt.Smallest (ds : List Dt) (d : Dt) : Prop :=
  d ≠ .int64 ∧ (∀ a ∈ ds, a.fits d) ∧ ∀ b, b ≠ .int64 → (∀ a ∈ ds, a.fits b) → d.fits b

end EvoTorch.SearchTypes
