import Verif.Proofs.CMAESNeutral
/-!
Fourth moments of standard normal draws.
-/
namespace EvoTorch.GaussianScore
open MeasureTheory ProbabilityTheory
variable {d n : ℕ}

theorem integrable_pow_std (k : ℕ) : Integrable (fun x : ℝ => x ^ k) γ := by
  have h := (memLp_id_gaussianReal (μ := 0) (v := 1) k).integrable_norm_pow'
  refine h.mono' (by fun_prop) (ae_of_all _ fun x => ?_)
  simp

theorem fourth_std : ∫ x, x ^ 4 ∂γ = 3 := by
  have hi : Integrable (fun z : ℝ => (1 + z ^ 2) * (fun y : ℝ => y ^ 2) (0 + √2 * 1 * z)) γ := by
    have : (fun z : ℝ => (1 + z ^ 2) * (fun y : ℝ => y ^ 2) (0 + √2 * 1 * z)) = fun z => (√2) ^ 2 * z ^ 2 + (√2) ^ 2 * z ^ 4 := by funext z; ring
    rw [this]
    exact ((integrable_pow_std 2).const_mul _).add ((integrable_pow_std 4).const_mul _)
  have h1 := hasDerivAt_stdev (F := fun y => y ^ 2) (by fun_prop) 0 one_pos hi
  have e : (fun u : ℝ => ∫ z, (0 + u * z) ^ 2 ∂γ) = fun u => u ^ 2 := by
    funext u
    have : (fun z : ℝ => (0 + u * z) ^ 2) = fun z => u ^ 2 * z ^ 2 := by funext z; ring
    rw [this, integral_const_mul, sq_std, mul_one]
  simp only [e] at h1
  have h2 : HasDerivAt (fun u : ℝ => u ^ 2) 2 1 := by simpa using hasDerivAt_pow 2 (1 : ℝ)
  have h3 := h1.unique h2
  have e2 : (fun z : ℝ => (z ^ 2 - 1) / 1 * (0 + 1 * z) ^ 2) = fun z => z ^ 4 - z ^ 2 := by funext z; ring
  rw [e2, integral_sub (integrable_pow_std 4) (integrable_pow_std 2), sq_std] at h3
  linarith

/-- The fourth moments of the draws of a direction. -/
theorem fourth_z (k l j : Fin d) : Integrable (fun z : Fin d → ℝ => z k * z l * z j ^ 2) (std d) ∧
    ∫ z, z k * z l * z j ^ 2 ∂std d = if k = l then (if k = j then 3 else 1) else 0 := by
  have hi : Integrable (fun z : Fin d → ℝ => z k * z l * z j ^ 2) (std d) := by
    have h4 : ∀ i : Fin d, Integrable (fun z : Fin d → ℝ => z i ^ 4) (std d) := fun i => integrable_coord (fun x => x ^ 4) (integrable_pow_std 4) i
    refine Integrable.mono' (((h4 k).add (h4 l)).add (h4 j)) (by fun_prop) (ae_of_all _ fun z => ?_)
    simp only [Pi.add_apply, Real.norm_eq_abs]
    rw [abs_le]
    constructor <;> nlinarith [sq_nonneg (z k ^ 2 - z l ^ 2), sq_nonneg (z k * z l - z j ^ 2), sq_nonneg (z k * z l + z j ^ 2), sq_nonneg (z k ^ 2), sq_nonneg (z l ^ 2), sq_nonneg (z j ^ 2)]
  refine ⟨hi, ?_⟩
  by_cases hkl : k = l
  · subst hkl
    rw [if_pos rfl]
    by_cases hkj : k = j
    · subst hkj
      have e : (fun z : Fin d → ℝ => z k * z k * z k ^ 2) = fun z => (fun x : ℝ => x ^ 4) (z k) := by funext z; ring
      rw [if_pos rfl, e, integral_coord (fun x => x ^ 4) (by fun_prop) k, fourth_std]
    · have e : (fun z : Fin d → ℝ => z k * z k * z j ^ 2) = fun z => (fun x : ℝ => x ^ 2) (z k) * (fun x : ℝ => x ^ 2) (z j) := by funext z; ring
      have := (pop_cross γ k j hkj (fun x => x ^ 2) (fun x => x ^ 2) (by fun_prop) (by fun_prop) integrable_sq_std integrable_sq_std).2
      rw [if_neg hkj, e]
      refine Eq.trans this ?_
      rw [sq_std, one_mul]
  · rw [if_neg hkl]
    have h := CMAES.integral_preserved (CMAES.flip_preserving l) (G := fun z : Fin d → ℝ => z k * z l * z j ^ 2) (by fun_prop)
    have e : (fun z : Fin d → ℝ => (fun z : Fin d → ℝ => z k * z l * z j ^ 2) (fun j => if j = l then - z j else z j)) = fun z => -(z k * z l * z j ^ 2) := by
      funext z
      by_cases hj : j = l <;> simp [hkl, hj]
    rw [e, integral_neg] at h
    linarith

end EvoTorch.GaussianScore
