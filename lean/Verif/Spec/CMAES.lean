import Mathlib.Data.Real.Basic
import Mathlib.Data.Matrix.Mul
/-! What the CMA-ES theorems are stated with. -/
namespace EvoTorch.CMAES.Spec
variable {d n : Nat}

/-- The quadratic form of a matrix. -/
def quad (C : Matrix (Fin d) (Fin d) ℝ) (v : Fin d → ℝ) : ℝ := ∑ a, ∑ b, v a * C a b * v b

/-- Symmetric and positive definite: a covariance matrix that can be decomposed. -/
def IsPD (C : Matrix (Fin d) (Fin d) ℝ) : Prop := (∀ a b, C a b = C b a) ∧ ∀ v, v ≠ 0 → 0 < quad C v

/-- `torch.linalg.cholesky`: a factor `A` with `A Aᵀ = C` exactly for positive definite matrices. -/
def CholSpec (chol : Matrix (Fin d) (Fin d) ℝ → Option (Matrix (Fin d) (Fin d) ℝ)) : Prop :=
  (∀ C, IsPD C → ∃ A, chol C = some A) ∧
  ∀ C A, chol C = some A → IsPD C ∧ ∀ a b, C a b = ∑ k, A a k * A b k

/-- `torch.topk`: `k` different positions, none of which holds less than a position left out. -/
def TopkSpec (topk : (Fin n → ℝ) → Nat → List (Fin n)) : Prop :=
  ∀ v k, k ≤ n → (topk v k).length = k ∧ (topk v k).Nodup ∧ ∀ i ∈ topk v k, ∀ j, j ∉ topk v k → v j ≤ v i

end EvoTorch.CMAES.Spec
