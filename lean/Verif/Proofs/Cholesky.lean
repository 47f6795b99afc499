import Verif.Spec.CMAES
import Mathlib.Analysis.Matrix.Order
/-! A factorisation with the properties assumed of `torch.linalg.cholesky` exists. -/
namespace EvoTorch.CMAES
open Matrix Spec
open scoped MatrixOrder ComplexOrder
variable {d : Nat}

theorem quad_eq (C : Matrix (Fin d) (Fin d) ℝ) (v : Fin d → ℝ) : quad C v = v ⬝ᵥ (C *ᵥ v) := by
  simp only [quad, dotProduct, mulVec, Finset.mul_sum]
  refine Finset.sum_congr rfl fun a _ => Finset.sum_congr rfl fun b _ => ?_
  ring

theorem isPD_iff (C : Matrix (Fin d) (Fin d) ℝ) : IsPD C ↔ C.PosDef := by
  rw [posDef_iff_dotProduct_mulVec]
  constructor
  · rintro ⟨h1, h2⟩
    refine ⟨?_, fun x hx => ?_⟩
    · ext a b; simp [h1 b a]
    · have := h2 x hx; rw [quad_eq] at this; simpa using this
  · rintro ⟨h1, h2⟩
    refine ⟨fun a b => ?_, fun x hx => ?_⟩
    · have := congrFun (congrFun h1 b) a; simpa using this
    · have := h2 hx; rw [quad_eq]; simpa using this

theorem exists_factor (C : Matrix (Fin d) (Fin d) ℝ) (h : IsPD C) :
    ∃ A : Matrix (Fin d) (Fin d) ℝ, ∀ a b, C a b = ∑ k, A a k * A b k := by
  have hpd := ((isPD_iff C).mp h).posSemidef
  have h0 : 0 ≤ C := nonneg_iff_posSemidef.mpr hpd
  refine ⟨CFC.sqrt C, fun a b => ?_⟩
  have hs : CFC.sqrt C * CFC.sqrt C = C := CFC.sqrt_mul_sqrt_self C h0
  have hh : (CFC.sqrt C).PosSemidef := nonneg_iff_posSemidef.mp (CFC.sqrt_nonneg C)
  conv_lhs => rw [← hs, Matrix.mul_apply]
  refine Finset.sum_congr rfl fun k _ => ?_
  have := congrFun (congrFun hh.isHermitian b) k
  simp at this
  rw [this]

open Classical in
/-- A factorisation: some factor for positive definite matrices, failure otherwise. -/
noncomputable def exampleChol (C : Matrix (Fin d) (Fin d) ℝ) : Option (Matrix (Fin d) (Fin d) ℝ) :=
  if h : IsPD C then some (exists_factor C h).choose else none

theorem exampleChol_spec : CholSpec (exampleChol (d := d)) := by
  constructor
  · intro C h; exact ⟨(exists_factor C h).choose, by simp only [exampleChol, h, dif_pos]⟩
  · intro C A h
    unfold exampleChol at h
    split at h
    · rename_i hc
      simp at h; subst h
      exact ⟨hc, (exists_factor C hc).choose_spec⟩
    · simp at h

end EvoTorch.CMAES
