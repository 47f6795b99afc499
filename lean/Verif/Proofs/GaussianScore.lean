import Verif.Spec.ExpectedFitness
import Mathlib.Probability.Distributions.Gaussian.Real
import Mathlib.Analysis.Calculus.ParametricIntegral
import Mathlib.MeasureTheory.Integral.Pi
import Mathlib.Tactic.FieldSimp
import Mathlib.Tactic.Linarith
import Mathlib.Tactic.Positivity
/-!
Derivatives of Gaussian expectations with respect to the mean and the standard deviation (one dimension).
-/
namespace EvoTorch.GaussianScore
open MeasureTheory ProbabilityTheory Real Filter Topology

/-- The normal density. -/
noncomputable def p (m s y : ℝ) : ℝ := (√(2 * π) * s)⁻¹ * exp (-(y - m) ^ 2 / (2 * s ^ 2))

theorem p_pos (m : ℝ) {s : ℝ} (hs : 0 < s) (y : ℝ) : 0 < p m s y := by
  unfold p
  positivity

theorem measurable_p (m s : ℝ) : Measurable (p m s) := by
  unfold p
  fun_prop

theorem pdf_eq (m : ℝ) {s : ℝ} (hs : 0 < s) (y : ℝ) : gaussianPDFReal m (NNReal.mk (s ^ 2) (sq_nonneg s)) y = p m s y := by
  unfold gaussianPDFReal p
  congr 2
  show √(2 * π * s ^ 2) = _
  rw [Real.sqrt_mul (by positivity), Real.sqrt_sq hs.le]

theorem map_std (m s : ℝ) : γ.map (fun z => m + s * z) = gaussianReal m (NNReal.mk (s ^ 2) (sq_nonneg s)) := by
  have h : (fun z : ℝ => m + s * z) = (fun y => m + y) ∘ (fun z => s * z) := rfl
  rw [h, ← Measure.map_map (by fun_prop) (by fun_prop), gaussianReal_map_const_mul, gaussianReal_map_const_add]
  simp

theorem var_ne {s : ℝ} (hs : 0 < s) : (NNReal.mk (s ^ 2) (sq_nonneg s)) ≠ 0 := by
  intro h
  have h2 : (NNReal.mk (s ^ 2) (sq_nonneg s) : ℝ) = 0 := by rw [h]; rfl
  have h3 : s ^ 2 = 0 := h2
  exact hs.ne' (by simpa using h3)

theorem integral_std {F : ℝ → ℝ} (hF : Measurable F) (m : ℝ) {s : ℝ} (hs : 0 < s) : ∫ z, F (m + s * z) ∂γ = ∫ y, p m s y * F y := by
  have h1 : ∫ z, F (m + s * z) ∂γ = ∫ y, F y ∂(γ.map fun z => m + s * z) := (integral_map (by fun_prop) hF.aestronglyMeasurable).symm
  rw [h1, map_std, integral_gaussianReal_eq_integral_smul (var_ne hs)]
  simp only [pdf_eq m hs, smul_eq_mul]

theorem integrable_std {F : ℝ → ℝ} (hF : Measurable F) (m : ℝ) {s : ℝ} (hs : 0 < s) : Integrable (fun z => F (m + s * z)) γ ↔ Integrable (fun y => p m s y * F y) := by
  have h1 : Integrable (fun z => F (m + s * z)) γ ↔ Integrable F (γ.map fun z => m + s * z) := (integrable_map_measure hF.aestronglyMeasurable (by fun_prop)).symm
  rw [h1, map_std, gaussianReal_of_var_ne_zero _ (var_ne hs), integrable_withDensity_iff_integrable_smul' (measurable_gaussianPDF _ _) (ae_of_all _ fun _ => gaussianPDF_lt_top)]
  simp only [toReal_gaussianPDF, pdf_eq m hs, smul_eq_mul]

theorem deriv_mean (s y t : ℝ) : HasDerivAt (fun t => p t s y) (p t s y * ((y - t) / s ^ 2)) t := by
  unfold p
  have h1 : HasDerivAt (fun t : ℝ => -(y - t) ^ 2 / (2 * s ^ 2)) ((y - t) / s ^ 2) t := by
    have := (((hasDerivAt_id t).const_sub y).pow 2).neg.div_const (2 * s ^ 2)
    refine this.congr_deriv ?_
    simp
    by_cases hs : s = 0
    · simp [hs]
    · field_simp
  exact (h1.exp.const_mul _).congr_deriv (by ring)

theorem deriv_stdev (m y : ℝ) {u : ℝ} (hu : 0 < u) : HasDerivAt (fun u => p m u y) (p m u y * (((y - m) ^ 2 - u ^ 2) / u ^ 3)) u := by
  unfold p
  have hpi : (√(2 * π)) ≠ 0 := by positivity
  have h1 : HasDerivAt (fun u : ℝ => -(y - m) ^ 2 / (2 * u ^ 2)) ((y - m) ^ 2 / u ^ 3) u := by
    have h2 : HasDerivAt (fun u : ℝ => 2 * u ^ 2) (4 * u) u := (((hasDerivAt_id u).pow 2).const_mul 2).congr_deriv (by simp; ring)
    refine ((hasDerivAt_const u (-(y - m) ^ 2)).div h2 (by positivity)).congr_deriv ?_
    field_simp
    ring
  have h2 : HasDerivAt (fun u : ℝ => (√(2 * π) * u)⁻¹) (-(√(2 * π)) / (√(2 * π) * u) ^ 2) u :=
    (((hasDerivAt_id u).const_mul (√(2 * π))).inv (mul_ne_zero hpi hu.ne')).congr_deriv (by simp)
  refine (h2.mul h1.exp).congr_deriv ?_
  field_simp
  ring

/-- Densities with a slightly different mean are bounded by a wider one. -/
theorem p_le_mean {m s t y : ℝ} (hs : 0 < s) (ht : |t - m| ≤ s) : p t s y ≤ √2 * exp (1 / 2) * p m (√2 * s) y := by
  have h2 : (0 : ℝ) < √2 := by positivity
  have hsq : (√2) ^ 2 = (2 : ℝ) := Real.sq_sqrt (by norm_num)
  unfold p
  have e1 : √2 * exp (1 / 2) * ((√(2 * π) * (√2 * s))⁻¹ * exp (-(y - m) ^ 2 / (2 * (√2 * s) ^ 2))) = (√(2 * π) * s)⁻¹ * exp (1 / 2 + -(y - m) ^ 2 / (2 * (√2 * s) ^ 2)) := by
    rw [exp_add]
    field_simp
  rw [e1]
  refine mul_le_mul_of_nonneg_left (exp_le_exp.2 ?_) (by positivity)
  rw [mul_pow, hsq]
  have h3 : (t - m) ^ 2 ≤ s ^ 2 := sq_le_sq' (by linarith [(abs_le.1 ht).1]) (abs_le.1 ht).2
  have h4 : (y - m) ^ 2 ≤ 2 * (y - t) ^ 2 + 2 * (t - m) ^ 2 := by nlinarith [sq_nonneg ((y - t) - (t - m))]
  rw [← sub_nonneg]
  have e2 : 1 / 2 + -(y - m) ^ 2 / (2 * (2 * s ^ 2)) - -(y - t) ^ 2 / (2 * s ^ 2) = (2 * s ^ 2 - (y - m) ^ 2 + 2 * (y - t) ^ 2) / (4 * s ^ 2) := by
    field_simp
    ring
  rw [e2]
  refine div_nonneg ?_ (by positivity)
  nlinarith

/-- Densities with a slightly different standard deviation are bounded by a wider one. -/
theorem p_le_stdev {m s u y : ℝ} (hs : 0 < s) (hu : |u - s| ≤ s / 4) : p m u y ≤ 2 * p m (√2 * s) y := by
  obtain ⟨h1, h2⟩ := abs_le.1 hu
  have hu0 : 0 < u := by linarith
  have hsq : (√2) ^ 2 = (2 : ℝ) := Real.sq_sqrt (by norm_num)
  have hr2 : (0 : ℝ) < √2 := by positivity
  have hr : √2 ≤ 3 / 2 := by
    rw [Real.sqrt_le_left (by norm_num)]; norm_num
  unfold p
  have e1 : 2 * ((√(2 * π) * (√2 * s))⁻¹ * exp (-(y - m) ^ 2 / (2 * (√2 * s) ^ 2))) = (√(2 * π) * (√2 * s / 2))⁻¹ * exp (-(y - m) ^ 2 / (2 * (√2 * s) ^ 2)) := by
    field_simp
  rw [e1]
  refine mul_le_mul ?_ (exp_le_exp.2 ?_) (by positivity) (by positivity)
  · refine inv_anti₀ (by positivity) (mul_le_mul_of_nonneg_left ?_ (by positivity))
    nlinarith
  · rw [mul_pow, hsq, neg_div, neg_div, neg_le_neg_iff]
    refine div_le_div_of_nonneg_left (by positivity) (by positivity) ?_
    nlinarith

/-- **Derivative with respect to the mean.** -/
theorem hasDerivAt_mean {F : ℝ → ℝ} (hF : Measurable F) (m : ℝ) {s : ℝ} (hs : 0 < s) (hint : Integrable (fun z => (1 + z ^ 2) * F (m + √2 * s * z)) γ) :
    HasDerivAt (fun t => ∫ z, F (t + s * z) ∂γ) (∫ z, z / s * F (m + s * z) ∂γ) m := by
  have hr2 : (0 : ℝ) < √2 := by positivity
  have hs2 : 0 < √2 * s := by positivity
  have hsq : (√2) ^ 2 = (2 : ℝ) := Real.sq_sqrt (by norm_num)
  have hbound : Integrable fun y => p m (√2 * s) y * ((1 + ((y - m) / (√2 * s)) ^ 2) * F y) := by
    rw [← integrable_std (F := fun y => (1 + ((y - m) / (√2 * s)) ^ 2) * F y) (by fun_prop) m hs2]
    refine hint.congr (ae_of_all _ fun z => ?_)
    simp only [add_sub_cancel_left, mul_div_cancel_left₀ _ hs2.ne']
  have hle : ∀ y : ℝ, 1 ≤ 1 + ((y - m) / (√2 * s)) ^ 2 := fun y => by nlinarith [sq_nonneg ((y - m) / (√2 * s))]
  have hint0 : Integrable fun y => p m s y * F y := by
    refine (hbound.norm.const_mul (√2 * exp (1 / 2))).mono' ((measurable_p m s).mul hF).aestronglyMeasurable (ae_of_all _ fun y => ?_)
    rw [norm_mul, norm_mul, norm_mul, norm_of_nonneg (p_pos m hs y).le, norm_of_nonneg (p_pos m hs2 y).le, norm_of_nonneg (by positivity : (0 : ℝ) ≤ 1 + ((y - m) / (√2 * s)) ^ 2)]
    have h1 := p_le_mean (y := y) hs (by simpa using hs.le : |m - m| ≤ s)
    have h2 := hle y
    have h3 : p m s y * ‖F y‖ ≤ √2 * exp (1 / 2) * p m (√2 * s) y * ‖F y‖ := mul_le_mul_of_nonneg_right h1 (norm_nonneg _)
    refine h3.trans ?_
    have h4 : 0 ≤ √2 * exp (1 / 2) * p m (√2 * s) y * ‖F y‖ := by have := (p_pos m hs2 y).le; positivity
    nlinarith
  have key := hasDerivAt_integral_of_dominated_loc_of_deriv_le (μ := volume) (F := fun t y => p t s y * F y) (F' := fun t y => p t s y * ((y - t) / s ^ 2) * F y) (x₀ := m)
    (s := Metric.ball m s) (bound := fun y => √2 * exp (1 / 2) * (3 / s) * ‖p m (√2 * s) y * ((1 + ((y - m) / (√2 * s)) ^ 2) * F y)‖)
    (Metric.ball_mem_nhds m hs) (Eventually.of_forall fun t => ((measurable_p t s).mul hF).aestronglyMeasurable) hint0
    (((measurable_p m s).mul (by fun_prop)).mul hF).aestronglyMeasurable
    (ae_of_all _ fun y t ht => ?_) (hbound.norm.const_mul _) (ae_of_all _ fun y t _ => (deriv_mean s y t).mul_const _)
  · have h := key.2
    have e1 : (fun t => ∫ z, F (t + s * z) ∂γ) = fun t => ∫ y, p t s y * F y := by
      funext t
      exact integral_std hF t hs
    rw [e1]
    refine h.congr_deriv ?_
    have := integral_std (F := fun y => (y - m) / s / s * F y) (by fun_prop) m hs
    simp only [add_sub_cancel_left, mul_div_cancel_left₀ _ hs.ne'] at this
    rw [this]
    refine integral_congr_ae (ae_of_all _ fun y => ?_)
    simp only
    field_simp
  · rw [Metric.mem_ball, Real.dist_eq] at ht
    have h1 := p_le_mean (y := y) hs ht.le
    have hp := (p_pos t hs y).le
    have hp2 := (p_pos m hs2 y).le
    rw [norm_mul, norm_mul, norm_mul, norm_mul, norm_of_nonneg hp, norm_of_nonneg hp2, norm_of_nonneg (by positivity : (0 : ℝ) ≤ 1 + ((y - m) / (√2 * s)) ^ 2)]
    have h2 : ‖(y - t) / s ^ 2‖ ≤ 3 / s * (1 + ((y - m) / (√2 * s)) ^ 2) := by
      rw [norm_eq_abs, abs_div, abs_of_pos (by positivity : 0 < s ^ 2), div_le_iff₀ (by positivity)]
      have e2 : 3 / s * (1 + ((y - m) / (√2 * s)) ^ 2) * s ^ 2 = 3 * s + 3 * (y - m) ^ 2 / (2 * s) := by
        rw [div_pow, mul_pow, hsq]; field_simp
      rw [e2]
      have h3 : |y - t| ≤ |y - m| + s := by
        have : y - t = (y - m) - (t - m) := by ring
        rw [this]
        exact (abs_sub _ _).trans (by linarith)
      have h4 : |y - m| ≤ 2 * s + 3 * (y - m) ^ 2 / (2 * s) := by
        rw [← sq_abs (y - m)]
        have : 0 ≤ (2 * s - |y - m|) ^ 2 := sq_nonneg _
        have e3 : 2 * s + 3 * |y - m| ^ 2 / (2 * s) - |y - m| = (4 * s ^ 2 + 3 * |y - m| ^ 2 - 2 * s * |y - m|) / (2 * s) := by field_simp; ring
        have : 0 ≤ (4 * s ^ 2 + 3 * |y - m| ^ 2 - 2 * s * |y - m|) / (2 * s) := div_nonneg (by nlinarith [sq_nonneg (s - |y - m|)]) (by positivity)
        linarith
      linarith
    calc p t s y * ‖(y - t) / s ^ 2‖ * ‖F y‖ ≤ (√2 * exp (1 / 2) * p m (√2 * s) y) * (3 / s * (1 + ((y - m) / (√2 * s)) ^ 2)) * ‖F y‖ := by
          refine mul_le_mul_of_nonneg_right (mul_le_mul h1 h2 (norm_nonneg _) (by positivity)) (norm_nonneg _)
      _ = _ := by ring

/-- **Derivative with respect to the standard deviation.** -/
theorem hasDerivAt_stdev {F : ℝ → ℝ} (hF : Measurable F) (m : ℝ) {s : ℝ} (hs : 0 < s) (hint : Integrable (fun z => (1 + z ^ 2) * F (m + √2 * s * z)) γ) :
    HasDerivAt (fun u => ∫ z, F (m + u * z) ∂γ) (∫ z, (z ^ 2 - 1) / s * F (m + s * z) ∂γ) s := by
  have hr2 : (0 : ℝ) < √2 := by positivity
  have hs2 : 0 < √2 * s := by positivity
  have hsq : (√2) ^ 2 = (2 : ℝ) := Real.sq_sqrt (by norm_num)
  have hbound : Integrable fun y => p m (√2 * s) y * ((1 + ((y - m) / (√2 * s)) ^ 2) * F y) := by
    rw [← integrable_std (F := fun y => (1 + ((y - m) / (√2 * s)) ^ 2) * F y) (by fun_prop) m hs2]
    refine hint.congr (ae_of_all _ fun z => ?_)
    simp only [add_sub_cancel_left, mul_div_cancel_left₀ _ hs2.ne']
  have hle : ∀ y : ℝ, 1 ≤ 1 + ((y - m) / (√2 * s)) ^ 2 := fun y => by nlinarith [sq_nonneg ((y - m) / (√2 * s))]
  have hint0 : Integrable fun y => p m s y * F y := by
    refine (hbound.norm.const_mul 2).mono' ((measurable_p m s).mul hF).aestronglyMeasurable (ae_of_all _ fun y => ?_)
    rw [norm_mul, norm_mul, norm_mul, norm_of_nonneg (p_pos m hs y).le, norm_of_nonneg (p_pos m hs2 y).le, norm_of_nonneg (by positivity : (0 : ℝ) ≤ 1 + ((y - m) / (√2 * s)) ^ 2)]
    have h1 := p_le_stdev (m := m) (u := s) (y := y) hs (by simp; linarith)
    have h2 := hle y
    have h3 : p m s y * ‖F y‖ ≤ 2 * p m (√2 * s) y * ‖F y‖ := mul_le_mul_of_nonneg_right h1 (norm_nonneg _)
    refine h3.trans ?_
    have h4 : 0 ≤ 2 * p m (√2 * s) y * ‖F y‖ := by have := (p_pos m hs2 y).le; positivity
    nlinarith
  have hpos : ∀ u ∈ Metric.ball s (s / 4), 0 < u := fun u hu => by
    rw [Metric.mem_ball, Real.dist_eq] at hu
    linarith [(abs_lt.1 hu).1]
  have key := hasDerivAt_integral_of_dominated_loc_of_deriv_le (μ := volume) (F := fun u y => p m u y * F y) (F' := fun u y => p m u y * (((y - m) ^ 2 - u ^ 2) / u ^ 3) * F y) (x₀ := s)
    (s := Metric.ball s (s / 4)) (bound := fun y => 2 * (16 / s) * ‖p m (√2 * s) y * ((1 + ((y - m) / (√2 * s)) ^ 2) * F y)‖)
    (Metric.ball_mem_nhds s (by positivity)) (Eventually.of_forall fun t => ((measurable_p m t).mul hF).aestronglyMeasurable) hint0
    (((measurable_p m s).mul (by fun_prop)).mul hF).aestronglyMeasurable
    (ae_of_all _ fun y u hu => ?_) (hbound.norm.const_mul _) (ae_of_all _ fun y u hu => (deriv_stdev m y (hpos u hu)).mul_const _)
  · have h := key.2
    have e1 : (fun u => ∫ z, F (m + u * z) ∂γ) =ᶠ[𝓝 s] fun u => ∫ y, p m u y * F y := by
      filter_upwards [Metric.ball_mem_nhds s (by positivity : 0 < s / 4)] with u hu
      exact integral_std hF m (hpos u hu)
    refine (h.congr_of_eventuallyEq e1).congr_deriv ?_
    have := integral_std (F := fun y => (((y - m) / s) ^ 2 - 1) / s * F y) (by fun_prop) m hs
    simp only [add_sub_cancel_left, mul_div_cancel_left₀ _ hs.ne'] at this
    rw [this]
    refine integral_congr_ae (ae_of_all _ fun y => ?_)
    simp only
    field_simp
  · have hu0 := hpos u hu
    rw [Metric.mem_ball, Real.dist_eq] at hu
    have h1 := p_le_stdev (m := m) (y := y) hs hu.le
    have hp := (p_pos m hu0 y).le
    have hp2 := (p_pos m hs2 y).le
    rw [norm_mul, norm_mul, norm_mul, norm_mul, norm_of_nonneg hp, norm_of_nonneg hp2, norm_of_nonneg (by positivity : (0 : ℝ) ≤ 1 + ((y - m) / (√2 * s)) ^ 2)]
    obtain ⟨hu1, hu2⟩ := abs_lt.1 hu
    have h2 : ‖((y - m) ^ 2 - u ^ 2) / u ^ 3‖ ≤ 16 / s * (1 + ((y - m) / (√2 * s)) ^ 2) := by
      rw [norm_eq_abs, abs_div, abs_of_pos (by positivity : 0 < u ^ 3), div_le_iff₀ (by positivity)]
      have e2 : 16 / s * (1 + ((y - m) / (√2 * s)) ^ 2) = (16 * s ^ 2 + 8 * (y - m) ^ 2) / s ^ 3 := by
        rw [div_pow, mul_pow, hsq]; field_simp; ring
      rw [e2, div_mul_eq_mul_div, le_div_iff₀ (by positivity)]
      have h3 : |(y - m) ^ 2 - u ^ 2| ≤ (y - m) ^ 2 + u ^ 2 := by
        refine (abs_sub _ _).trans ?_
        rw [abs_of_nonneg (sq_nonneg _), abs_of_nonneg (sq_nonneg _)]
      have h4 : s ^ 3 ≤ 8 * u ^ 3 := by
        have : s ≤ 2 * u := by linarith
        calc s ^ 3 ≤ (2 * u) ^ 3 := pow_le_pow_left₀ hs.le this 3
          _ = 8 * u ^ 3 := by ring
      have h5 : u ^ 2 ≤ 2 * s ^ 2 := by nlinarith
      have h6 : (0 : ℝ) ≤ s ^ 3 := by positivity
      calc |(y - m) ^ 2 - u ^ 2| * s ^ 3 ≤ ((y - m) ^ 2 + u ^ 2) * s ^ 3 := mul_le_mul_of_nonneg_right h3 h6
        _ ≤ ((y - m) ^ 2 + 2 * s ^ 2) * (8 * u ^ 3) := mul_le_mul (by linarith) h4 h6 (by positivity)
        _ = (16 * s ^ 2 + 8 * (y - m) ^ 2) * u ^ 3 := by ring
    calc p m u y * ‖((y - m) ^ 2 - u ^ 2) / u ^ 3‖ * ‖F y‖ ≤ (2 * p m (√2 * s) y) * (16 / s * (1 + ((y - m) / (√2 * s)) ^ 2)) * ‖F y‖ := by
          refine mul_le_mul_of_nonneg_right (mul_le_mul h1 h2 (norm_nonneg _) (by positivity)) (norm_nonneg _)
      _ = _ := by ring

end EvoTorch.GaussianScore
