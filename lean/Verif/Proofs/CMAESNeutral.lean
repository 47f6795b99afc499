import Verif.Proofs.CMAES
import Verif.Proofs.GaussianPop
import Mathlib.Analysis.SpecialFunctions.Gaussian.GaussianIntegral
import Mathlib.Analysis.MeanInequalities
/-!
Moments of standard normal draws, used for generations of CMA-ES whose ranking carries no information.
-/
namespace EvoTorch.CMAES
open MeasureTheory ProbabilityTheory
open EvoTorch.GaussianScore (γ std draws)
variable {d n : Nat}

theorem mean_z (k : Fin d) : Integrable (fun z : Fin d → ℝ => z k) (std d) ∧ ∫ z, z k ∂std d = 0 :=
  ⟨GaussianScore.integrable_coord (fun x => x) GaussianScore.integrable_id_std k,
    (GaussianScore.integral_coord (fun x => x) measurable_id k).trans GaussianScore.mean_std⟩

/-- The covariance of the draws is the identity. -/
theorem second_z (k l : Fin d) : Integrable (fun z : Fin d → ℝ => z k * z l) (std d) ∧ ∫ z, z k * z l ∂std d = if k = l then 1 else 0 := by
  by_cases h : k = l
  · subst h
    have e : (fun z : Fin d → ℝ => z k * z k) = fun z => (fun x : ℝ => x ^ 2) (z k) := by funext z; ring
    rw [e, if_pos rfl]
    exact ⟨GaussianScore.integrable_coord _ GaussianScore.integrable_sq_std k,
      (GaussianScore.integral_coord (fun x => x ^ 2) (by fun_prop) k).trans GaussianScore.sq_std⟩
  · have := GaussianScore.pop_cross γ k l h (fun x => x) (fun x => x) measurable_id measurable_id GaussianScore.integrable_id_std GaussianScore.integrable_id_std
    refine ⟨this.1, ?_⟩
    rw [if_neg h, this.2, GaussianScore.mean_std, zero_mul]

theorem measurable_normSq : Measurable (normSq : (Fin d → ℝ) → ℝ) := by
  unfold normSq
  fun_prop

theorem abs_mul_le_normSq (z : Fin d → ℝ) (k l : Fin d) : |z k * z l| ≤ normSq z := by
  have h1 : z k ^ 2 ≤ normSq z := Finset.single_le_sum (f := fun j => z j ^ 2) (fun _ _ => sq_nonneg _) (Finset.mem_univ k)
  have h2 : z l ^ 2 ≤ normSq z := Finset.single_le_sum (f := fun j => z j ^ 2) (fun _ _ => sq_nonneg _) (Finset.mem_univ l)
  rw [abs_le]
  constructor <;> nlinarith [sq_nonneg (z k + z l), sq_nonneg (z k - z l)]

theorem normSq_nonneg (z : Fin d → ℝ) : 0 ≤ normSq z := Finset.sum_nonneg fun _ _ => sq_nonneg _

theorem ratio_le (z : Fin d → ℝ) (k l : Fin d) : |z k * z l / normSq z| ≤ 1 := by
  rw [abs_div, abs_of_nonneg (normSq_nonneg z)]
  exact div_le_one_of_le₀ (abs_mul_le_normSq z k l) (normSq_nonneg z)

theorem measurable_ratio (k l : Fin d) : Measurable fun z : Fin d → ℝ => z k * z l / normSq z :=
  ((measurable_pi_apply k).mul (measurable_pi_apply l)).div measurable_normSq

theorem integrable_ratio (k l : Fin d) : Integrable (fun z : Fin d → ℝ => z k * z l / normSq z) (std d) :=
  (integrable_const (1 : ℝ)).mono' (measurable_ratio k l).aestronglyMeasurable
    (Filter.Eventually.of_forall fun z => ratio_le z k l)

/-- Changing the sign of one draw. -/
theorem flip_preserving (k : Fin d) : MeasurePreserving (fun (z : Fin d → ℝ) j => if j = k then - z j else z j) (std d) (std d) := by
  have := measurePreserving_pi (fun _ : Fin d => γ) (fun _ : Fin d => γ) (f := fun j x => if j = k then -x else x) fun j => by
    by_cases h : j = k
    · simp only [h, if_true]
      exact ⟨measurable_neg, GaussianScore.neg_std⟩
    · simp only [h, if_false]
      exact MeasurePreserving.id _
  exact this

/-- Rearranging the draws. -/
theorem perm_preserving (e : Fin d ≃ Fin d) : MeasurePreserving (fun (z : Fin d → ℝ) j => z (e j)) (std d) (std d) := by
  have := measurePreserving_piCongrLeft (fun _ : Fin d => γ) e.symm
  convert this using 1
  funext z j
  have := Equiv.piCongrLeft_apply_apply (fun _ : Fin d => ℝ) e.symm z (e j)
  simp only [Equiv.symm_apply_apply] at this
  exact this.symm

theorem integral_preserved {T : (Fin d → ℝ) → Fin d → ℝ} (h : MeasurePreserving T (std d) (std d)) {G : (Fin d → ℝ) → ℝ} (hG : Measurable G) :
    ∫ z, G (T z) ∂std d = ∫ z, G z ∂std d := by
  conv_rhs => rw [← h.map_eq]
  rw [integral_map h.measurable.aemeasurable hG.aestronglyMeasurable]

/-- The draws are almost surely not all zero. -/
theorem ae_ne_zero (hd : 1 ≤ d) : ∀ᵐ z ∂std d, z ≠ 0 := by
  have hsub : {z : Fin d → ℝ | ¬ z ≠ 0} ⊆ Function.eval (⟨0, hd⟩ : Fin d) ⁻¹' {0} := by
    intro z hz
    have : z = 0 := not_not.1 hz
    simp [this]
  rw [ae_iff]
  refine measure_mono_null hsub ?_
  have hp := measurePreserving_eval (fun _ : Fin d => γ) ⟨0, hd⟩
  rw [hp.measure_preimage (measurableSet_singleton _).nullMeasurableSet]
  have : NullSingletonClass γ := nullSingletonClass_gaussianReal one_ne_zero
  exact measure_singleton _

/-- The direction of the draws has no preferred axis. -/
theorem ratio_mean (hd : 1 ≤ d) (k l : Fin d) : ∫ z : Fin d → ℝ, z k * z l / normSq z ∂std d = if k = l then 1 / (d : ℝ) else 0 := by
  by_cases h : k = l
  · subst h
    rw [if_pos rfl]
    have hall : ∀ l : Fin d, ∫ z : Fin d → ℝ, z l * z l / normSq z ∂std d = ∫ z : Fin d → ℝ, z k * z k / normSq z ∂std d := by
      intro l
      rw [← integral_preserved (perm_preserving (Equiv.swap k l)) (measurable_ratio k k)]
      congr 1
      funext z
      have : normSq (fun j => z (Equiv.swap k l j)) = normSq z :=
        Equiv.sum_comp (Equiv.swap k l) fun j => z j ^ 2
      simp only [this, Equiv.swap_apply_left]
    have hsum : ∑ l : Fin d, ∫ z : Fin d → ℝ, z l * z l / normSq z ∂std d = 1 := by
      rw [← integral_finsetSum _ fun l _ => integrable_ratio l l]
      have hne := ae_ne_zero hd
      have : (fun z : Fin d → ℝ => ∑ l, z l * z l / normSq z) =ᵐ[std d] fun _ => 1 := by
        filter_upwards [hne] with z hz
        rw [← Finset.sum_div]
        have : ∑ l, z l * z l = normSq z := Finset.sum_congr rfl fun j _ => by ring
        rw [this, div_self (normSq_pos hz).ne']
      rw [integral_congr_ae this]
      simp
    rw [Finset.sum_congr rfl fun l _ => hall l] at hsum
    simp only [Finset.sum_const, Finset.card_univ, Fintype.card_fin, nsmul_eq_mul] at hsum
    have hd' : (d : ℝ) ≠ 0 := by exact_mod_cast (by omega : d ≠ 0)
    rw [eq_div_iff hd', mul_comm]
    exact hsum
  · rw [if_neg h]
    have := integral_preserved (flip_preserving k) (measurable_ratio k l)
    have e : ∀ z : Fin d → ℝ, (fun z : Fin d → ℝ => z k * z l / normSq z) (fun j => if j = k then - z j else z j) = - (z k * z l / normSq z) := by
      intro z
      have hn : normSq (fun j => if j = k then - z j else z j) = normSq z := by
        refine Finset.sum_congr rfl fun j _ => ?_
        by_cases hj : j = k <;> simp [hj]
      show (if k = k then - z k else z k) * (if l = k then - z l else z l) / normSq _ = _
      rw [hn, if_pos rfl, if_neg (Ne.symm h)]
      ring
    have e' : ∫ z, (fun z : Fin d → ℝ => z k * z l / normSq z) (fun j => if j = k then - z j else z j) ∂std d = - ∫ z, z k * z l / normSq z ∂std d := by
      rw [← integral_neg]
      exact integral_congr_ae (Filter.Eventually.of_forall e)
    have := e'.symm.trans this
    linarith

/-- The average reciprocal of the squared length of the draws, if there is one, is larger than the reciprocal of the average. -/
theorem recip_mean (hd : 1 ≤ d) (hi : Integrable (fun z : Fin d → ℝ => 1 / normSq z) (std d)) : 1 / (d : ℝ) < ∫ z : Fin d → ℝ, 1 / normSq z ∂std d := by
  have hd' : (0 : ℝ) < d := by exact_mod_cast hd
  have hne := ae_ne_zero hd
  have hn2 : Integrable (fun z : Fin d → ℝ => normSq z) (std d) ∧ ∫ z, normSq z ∂std d = d := by
    have e : (fun z : Fin d → ℝ => normSq z) = fun z => ∑ j, z j * z j := by
      funext z
      exact Finset.sum_congr rfl fun j _ => by ring
    rw [e]
    refine ⟨integrable_finsetSum _ fun j _ => (second_z j j).1, ?_⟩
    rw [integral_finsetSum _ fun j _ => (second_z j j).1]
    simp [(second_z _ _).2]
  -- the gap `(d - x)² / (d² x)`
  let g : (Fin d → ℝ) → ℝ := fun z => 1 / normSq z + normSq z / d ^ 2 - 2 / d
  have hg : Integrable g (std d) := (hi.add (hn2.1.div_const _)).sub (integrable_const _)
  have hg0 : 0 ≤ᵐ[std d] g := by
    filter_upwards [hne] with z hz
    have hp := normSq_pos hz
    have : g z = (d - normSq z) ^ 2 / (d ^ 2 * normSq z) := by
      simp only [g]
      field_simp
      ring
    rw [Pi.zero_apply, this]
    positivity
  have hint : ∫ z, g z ∂std d = (∫ z : Fin d → ℝ, 1 / normSq z ∂std d) - 1 / d := by
    have e1 : ∫ z, g z ∂std d = ∫ z, (1 / normSq z + normSq z / d ^ 2) ∂std d - ∫ _z : Fin d → ℝ, 2 / (d : ℝ) ∂std d :=
      integral_sub (hi.add (hn2.1.div_const _)) (integrable_const _)
    rw [e1, integral_add hi (hn2.1.div_const _), integral_div, hn2.2]
    simp only [integral_const, probReal_univ, one_smul]
    field_simp
    ring
  have hpos : 0 < ∫ z, g z ∂std d := by
    rw [integral_pos_iff_support_of_nonneg_ae hg0 hg]
    by_contra hc
    have h0 : (std d) (Function.support g) = 0 := by simpa using hc
    -- then almost surely the squared length is `d`
    have hae : ∀ᵐ z ∂std d, normSq z = d := by
      have : ∀ᵐ z ∂std d, g z = 0 := by
        rw [ae_iff]
        exact h0
      filter_upwards [this, hne] with z hz hz'
      have hp := normSq_pos hz'
      have : g z = (d - normSq z) ^ 2 / (d ^ 2 * normSq z) := by
        simp only [g]
        field_simp
        ring
      rw [this, div_eq_zero_iff] at hz
      rcases hz with hz | hz
      · have := pow_eq_zero_iff (two_ne_zero) |>.1 hz
        linarith
      · exact absurd hz (by positivity)
    -- but large draws are possible
    have hbig : 0 < (std d) (Set.univ.pi fun _ : Fin d => Set.Ioi (2 : ℝ)) := by
      rw [Measure.pi_pi]
      refine pos_iff_ne_zero.2 (Finset.prod_ne_zero_iff.2 fun j _ => ?_)
      have : IsOpen (Set.Ioi (2 : ℝ)) := isOpen_Ioi
      have hac : (volume : Measure ℝ) ≪ γ := gaussianReal_absolutelyContinuous' 0 one_ne_zero
      intro h
      have := hac h
      simp at this
    rw [ae_iff] at hae
    have hsub : (Set.univ.pi fun _ : Fin d => Set.Ioi (2 : ℝ)) ⊆ {z | ¬ normSq z = d} := by
      intro z hz hc
      have : (d : ℝ) * 4 ≤ normSq z := by
        have : ∑ _j : Fin d, (4 : ℝ) ≤ normSq z := Finset.sum_le_sum fun j _ => by
          have h2 : 2 < z j := hz j (Set.mem_univ j)
          nlinarith
        simpa using this
      linarith
    exact absurd (measure_mono_null hsub hae) hbig.ne'
  rw [hint] at hpos
  linarith

/-- Normal draws have negative moments of order less than one. -/
theorem integrable_abs_rpow {r : ℝ} (hr : -1 < r) : Integrable (fun x : ℝ => |x| ^ r) γ := by
  have hm : Measurable fun x : ℝ => |x| ^ r := by fun_prop
  have h1 := (GaussianScore.integrable_std hm 0 one_pos).2 ?_
  · simpa using h1
  have hI : IntegrableOn (fun x : ℝ => |x| ^ r * Real.exp (-(1 / 2) * x ^ 2)) (Set.Ioi 0) :=
    (integrableOn_rpow_mul_exp_neg_mul_sq (b := 1 / 2) (by norm_num) hr).congr_fun (fun x hx => by
      rw [abs_of_pos hx]) measurableSet_Ioi
  have hN : IntegrableOn (fun x : ℝ => |x| ^ r * Real.exp (-(1 / 2) * x ^ 2)) (Set.Iio 0) := by
    have := hI.comp_neg
    simpa using this
  have hall : Integrable (fun x : ℝ => |x| ^ r * Real.exp (-(1 / 2) * x ^ 2)) := by
    rw [← integrableOn_univ]
    have hu : (Set.univ : Set ℝ) = (Set.Iio 0 ∪ Set.Ioi 0) ∪ {0} := by
      ext x
      rcases lt_trichotomy x 0 with h | h | h <;> simp [h, em]
    rw [hu]
    exact (hN.union hI).union (by simp)
  refine (hall.const_mul (√(2 * Real.pi) * 1)⁻¹).congr (Filter.Eventually.of_forall fun x => ?_)
  simp only [GaussianScore.p]
  ring_nf

/-- In three dimensions and more, the reciprocal of the squared length of the draws has an average. -/
theorem integrable_recip (hd : 3 ≤ d) : Integrable (fun z : Fin d → ℝ => 1 / normSq z) (std d) := by
  have hd' : (3 : ℝ) ≤ d := by exact_mod_cast hd
  have hd0 : (0 : ℝ) < d := by linarith
  have hr : -1 < -(2 / (d : ℝ)) := by
    rw [neg_lt_neg_iff, div_lt_one hd0]
    linarith
  have hprod : Integrable (fun z : Fin d → ℝ => ∏ j, |z j| ^ (-(2 / (d : ℝ)))) (std d) :=
    Integrable.fintype_prod (f := fun _ x => |x| ^ (-(2 / (d : ℝ)))) fun _ => integrable_abs_rpow hr
  have hne : ∀ᵐ z ∂std d, ∀ j, z j ≠ 0 := by
    rw [ae_all_iff]
    intro j
    have : NullSingletonClass γ := nullSingletonClass_gaussianReal one_ne_zero
    have h0 : ∀ᵐ x ∂γ, x ≠ 0 := by
      rw [ae_iff]
      simp
    exact (measurePreserving_eval (fun _ : Fin d => γ) j).quasiMeasurePreserving.ae h0
  refine (hprod.const_mul (1 / d)).mono' (measurable_const.div measurable_normSq).aestronglyMeasurable ?_
  filter_upwards [hne] with z hz
  have hamgm := Real.geom_mean_le_arith_mean_weighted Finset.univ (fun _ : Fin d => 1 / (d : ℝ)) (fun j => z j ^ 2) (fun _ _ => by positivity)
    (by simp [hd0.ne']) (fun _ _ => sq_nonneg _)
  have hsum : ∑ j : Fin d, 1 / (d : ℝ) * z j ^ 2 = 1 / d * normSq z := by rw [← Finset.mul_sum]; rfl
  rw [hsum] at hamgm
  have hg : ∏ j, (z j ^ 2) ^ (1 / (d : ℝ)) = (∏ j, |z j| ^ (-(2 / (d : ℝ))))⁻¹ := by
    rw [← Finset.prod_inv_distrib]
    refine Finset.prod_congr rfl fun j _ => ?_
    rw [Real.rpow_neg (abs_nonneg _), inv_inv, ← sq_abs, ← Real.rpow_natCast, ← Real.rpow_mul (abs_nonneg _)]
    congr 1
    push_cast
    ring
  have hpos : 0 < ∏ j, |z j| ^ (-(2 / (d : ℝ))) := Finset.prod_pos fun j _ => Real.rpow_pos_of_pos (abs_pos.2 (hz j)) _
  rw [hg] at hamgm
  have hnn := normSq_nonneg z
  have hn0 : 0 < normSq z := by
    refine normSq_pos fun h => ?_
    exact hz ⟨0, by omega⟩ (by rw [h]; rfl)
  show |1 / normSq z| ≤ _
  rw [abs_of_nonneg (one_div_nonneg.2 hnn), div_le_iff₀ hn0]
  have h2 := mul_le_mul_of_nonneg_left hamgm hpos.le
  rw [mul_inv_cancel₀ hpos.ne'] at h2
  calc (1 : ℝ) ≤ _ := h2
    _ = _ := by ring

end EvoTorch.CMAES
