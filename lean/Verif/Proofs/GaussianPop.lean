import Verif.Proofs.GaussianScore
import Mathlib.Probability.Independence.Integration
/-!
Gaussian expectations in several dimensions, and expectations over populations of independent draws.
-/
namespace EvoTorch.GaussianScore
open MeasureTheory ProbabilityTheory Real Filter Topology

variable {d : ℕ} {f : (Fin d → ℝ) → ℝ}

theorem measurable_sample (mu sigma : Fin d → ℝ) : Measurable (sample mu sigma) := by
  unfold sample
  fun_prop

/-- Weights bounded by a multiple of the second moment are integrable. -/
theorem Tame.weight (h : Tame f) (mu sigma : Fin d → ℝ) (hs : ∀ j, 0 < sigma j) (j : Fin d) (w : ℝ → ℝ) (hw : Measurable w) (c : ℝ) (hc : ∀ x, |w x| ≤ c * (1 + x ^ 2)) :
    Integrable (fun z => w (z j) * f (sample mu sigma z)) (std d) := by
  refine ((h.integrable mu sigma hs j).norm.const_mul c).mono' ?_ (ae_of_all _ fun z => ?_)
  · exact ((hw.comp (measurable_pi_apply j)).mul (h.measurable.comp (measurable_sample mu sigma))).aestronglyMeasurable
  · rw [norm_mul, norm_mul, norm_of_nonneg (by positivity : (0 : ℝ) ≤ 1 + z j ^ 2), ← mul_assoc]
    exact mul_le_mul_of_nonneg_right (hc (z j)) (norm_nonneg _)

theorem Tame.self (h : Tame f) (mu sigma : Fin d → ℝ) (hs : ∀ j, 0 < sigma j) (j : Fin d) : Integrable (fun z => f (sample mu sigma z)) (std d) := by
  have := h.weight mu sigma hs j (fun _ => 1) (by fun_prop) 1 (fun x => by simp; positivity)
  simpa using this

theorem Tame.first (h : Tame f) (mu sigma : Fin d → ℝ) (hs : ∀ j, 0 < sigma j) (j : Fin d) : Integrable (fun z => z j * f (sample mu sigma z)) (std d) :=
  h.weight mu sigma hs j (fun x => x) (by fun_prop) 1 (fun x => by rw [one_mul, ← sq_abs x]; nlinarith [sq_nonneg (1 - |x|), abs_nonneg x])

theorem Tame.second (h : Tame f) (mu sigma : Fin d → ℝ) (hs : ∀ j, 0 < sigma j) (j : Fin d) : Integrable (fun z => (z j ^ 2 - 1) * f (sample mu sigma z)) (std d) :=
  h.weight mu sigma hs j (fun x => x ^ 2 - 1) (by fun_prop) 1 (fun x => by rw [one_mul, abs_le]; constructor <;> nlinarith [sq_nonneg x])

/-! ### Derivatives -/

theorem split_integral {n : ℕ} (j : Fin (n + 1)) (G : (Fin (n + 1) → ℝ) → ℝ) (hG : Integrable G (std (n + 1))) :
    ∫ z, G z ∂std (n + 1) = ∫ y, ∫ w, G (j.insertNth y w) ∂std n ∂γ := by
  have hmp := (measurePreserving_piFinSuccAbove (fun _ : Fin (n + 1) => γ) j).symm
  rw [← hmp.integral_comp', integral_prod]
  · rfl
  · exact hmp.integrable_comp_of_integrable hG

theorem split_integrable {n : ℕ} (j : Fin (n + 1)) (G : (Fin (n + 1) → ℝ) → ℝ) (hG : Integrable G (std (n + 1))) : Integrable (fun y => ∫ w, G (j.insertNth y w) ∂std n) γ := by
  have hmp := (measurePreserving_piFinSuccAbove (fun _ : Fin (n + 1) => γ) j).symm
  exact (hmp.integrable_comp_of_integrable hG).integral_prod_left

theorem sample_insert {n : ℕ} (j : Fin (n + 1)) (mu sigma : Fin (n + 1) → ℝ) (t s y : ℝ) (w : Fin n → ℝ) :
    sample (Function.update mu j t) (Function.update sigma j s) (j.insertNth y w) =
      j.insertNth (t + s * y) (sample (fun i => mu (j.succAbove i)) (fun i => sigma (j.succAbove i)) w) := by
  funext i
  unfold sample
  refine j.succAboveCases ?_ (fun i => ?_) i
  · simp
  · simp

theorem insert_measurable {n : ℕ} (j : Fin (n + 1)) : Measurable fun p : ℝ × (Fin n → ℝ) => (j.insertNth p.1 p.2 : Fin (n + 1) → ℝ) := (MeasurableEquiv.piFinSuccAbove (fun _ : Fin (n + 1) => ℝ) j).symm.measurable

/-- The expected fitness as an integral over one coordinate. -/
noncomputable def marginal {n : ℕ} (f : (Fin (n + 1) → ℝ) → ℝ) (j : Fin (n + 1)) (mu sigma : Fin (n + 1) → ℝ) (x : ℝ) : ℝ :=
  ∫ w, f (j.insertNth x (sample (fun i => mu (j.succAbove i)) (fun i => sigma (j.succAbove i)) w)) ∂std n

theorem marginal_measurable {n : ℕ} {f : (Fin (n + 1) → ℝ) → ℝ} (hf : Measurable f) (j : Fin (n + 1)) (mu sigma : Fin (n + 1) → ℝ) : Measurable (marginal f j mu sigma) := by
  have h : StronglyMeasurable fun p : ℝ × (Fin n → ℝ) => f (j.insertNth p.1 (sample (fun i => mu (j.succAbove i)) (fun i => sigma (j.succAbove i)) p.2)) := by
    have h2 : Measurable fun p : ℝ × (Fin n → ℝ) => (p.1, sample (fun i => mu (j.succAbove i)) (fun i => sigma (j.succAbove i)) p.2) :=
      measurable_fst.prodMk ((measurable_sample _ _).comp measurable_snd)
    exact (hf.comp ((insert_measurable j).comp h2)).stronglyMeasurable
  exact h.integral_prod_right.measurable

theorem J_marginal {n : ℕ} {f : (Fin (n + 1) → ℝ) → ℝ} (h : Tame f) (j : Fin (n + 1)) (mu sigma : Fin (n + 1) → ℝ) (hs : ∀ j, 0 < sigma j) (t s : ℝ) (h0 : 0 < s) (w : ℝ → ℝ) (hw : Measurable w) (c : ℝ)
    (hc : ∀ x, |w x| ≤ c * (1 + x ^ 2)) :
    ∫ z, w (z j) * f (sample (Function.update mu j t) (Function.update sigma j s) z) ∂std (n + 1) = ∫ y, w y * marginal f j mu sigma (t + s * y) ∂γ ∧
    Integrable (fun y => w y * marginal f j mu sigma (t + s * y)) γ := by
  have hs' : ∀ i, 0 < Function.update sigma j s i := by
    intro i
    by_cases hi : i = j
    · subst hi; simpa using h0
    · simpa [hi] using hs i
  have hi := h.weight (Function.update mu j t) (Function.update sigma j s) hs' j w hw c hc
  have e : ∀ y, (∫ v, w ((j.insertNth y v : Fin (n + 1) → ℝ) j) * f (sample (Function.update mu j t) (Function.update sigma j s) (j.insertNth y v)) ∂std n) = w y * marginal f j mu sigma (t + s * y) := by
    intro y
    simp only [Fin.insertNth_apply_same, sample_insert, integral_const_mul, marginal]
  constructor
  · rw [split_integral j _ hi]
    simp only [e]
  · have := split_integrable j _ hi
    simpa only [e] using this

theorem hasDerivAt_J_mu (h : Tame f) (mu sigma : Fin d → ℝ) (hs : ∀ j, 0 < sigma j) (j : Fin d) :
    HasDerivAt (fun t => J f (Function.update mu j t) sigma) (∫ z, z j / sigma j * f (sample mu sigma z) ∂std d) (mu j) := by
  obtain ⟨n, rfl⟩ : ∃ n, d = n + 1 := ⟨d - 1, by have := j.2; omega⟩
  have hm := marginal_measurable h.measurable j mu sigma
  have hI := (J_marginal h j mu sigma hs (mu j) (√2 * sigma j) (by have := hs j; positivity) (fun x => 1 + x ^ 2) (by fun_prop) 1 (fun x => by rw [one_mul, abs_of_nonneg (by positivity)])).2
  have hd := hasDerivAt_mean hm (mu j) (hs j) hI
  have e1 : (fun t => J f (Function.update mu j t) sigma) = fun t => ∫ z, marginal f j mu sigma (t + sigma j * z) ∂γ := by
    funext t
    have := (J_marginal h j mu sigma hs t (sigma j) (hs j) (fun _ => 1) (by fun_prop) 1 (fun x => by simp; positivity)).1
    simpa [J] using this
  rw [e1]
  refine hd.congr_deriv ?_
  have hsj := hs j
  have := (J_marginal h j mu sigma hs (mu j) (sigma j) (hs j) (fun x => x / sigma j) (by fun_prop) (1 / sigma j) (fun x => by
    rw [abs_div, abs_of_pos hsj, div_mul_eq_mul_div, one_mul, div_le_div_iff_of_pos_right hsj, ← sq_abs x]
    nlinarith [sq_nonneg (1 - |x|), abs_nonneg x])).1
  simpa using this.symm

theorem hasDerivAt_J_sigma (h : Tame f) (mu sigma : Fin d → ℝ) (hs : ∀ j, 0 < sigma j) (j : Fin d) :
    HasDerivAt (fun u => J f mu (Function.update sigma j u)) (∫ z, (z j ^ 2 - 1) / sigma j * f (sample mu sigma z) ∂std d) (sigma j) := by
  obtain ⟨n, rfl⟩ : ∃ n, d = n + 1 := ⟨d - 1, by have := j.2; omega⟩
  have hm := marginal_measurable h.measurable j mu sigma
  have hI := (J_marginal h j mu sigma hs (mu j) (√2 * sigma j) (by have := hs j; positivity) (fun x => 1 + x ^ 2) (by fun_prop) 1 (fun x => by rw [one_mul, abs_of_nonneg (by positivity)])).2
  have hd := hasDerivAt_stdev hm (mu j) (hs j) hI
  have e1 : (fun u => J f mu (Function.update sigma j u)) =ᶠ[𝓝 (sigma j)] fun u => ∫ z, marginal f j mu sigma (mu j + u * z) ∂γ := by
    filter_upwards [lt_mem_nhds (hs j)] with u hu
    have := (J_marginal h j mu sigma hs (mu j) u hu (fun _ => 1) (by fun_prop) 1 (fun x => by simp; positivity)).1
    simpa [J] using this
  refine (hd.congr_of_eventuallyEq e1).congr_deriv ?_
  have hsj := hs j
  have := (J_marginal h j mu sigma hs (mu j) (sigma j) (hs j) (fun x => (x ^ 2 - 1) / sigma j) (by fun_prop) (1 / sigma j) (fun x => by
    rw [abs_div, abs_of_pos hsj, div_mul_eq_mul_div, one_mul, div_le_div_iff_of_pos_right hsj, abs_le]
    constructor <;> nlinarith [sq_nonneg x])).1
  simpa using this.symm

/-! ### Populations -/

section Population
variable {X : Type} [MeasurableSpace X] (P : Measure X) [IsProbabilityMeasure P]

/-- Different members of a population are independent. -/
theorem pop_cross {n : ℕ} (i k : Fin n) (hik : i ≠ k) (a b : X → ℝ) (ma : Measurable a) (mb : Measurable b) (ha : Integrable a P) (hb : Integrable b P) :
    Integrable (fun x : Fin n → X => a (x i) * b (x k)) (Measure.pi fun _ => P) ∧ ∫ x : Fin n → X, a (x i) * b (x k) ∂(Measure.pi fun _ => P) = (∫ x, a x ∂P) * ∫ x, b x ∂P := by
  have hind : IndepFun (fun x : Fin n → X => x i) (fun x => x k) (Measure.pi fun _ => P) := (iIndepFun_pi (μ := fun _ : Fin n => P) (X := fun _ x => x) (fun _ => aemeasurable_id)).indepFun hik
  have hind' : IndepFun (fun x : Fin n → X => a (x i)) (fun x => b (x k)) (Measure.pi fun _ => P) := hind.comp ma mb
  have ha' : Integrable (fun x : Fin n → X => a (x i)) (Measure.pi fun _ => P) := integrable_comp_eval (μ := fun _ : Fin n => P) ha
  have hb' : Integrable (fun x : Fin n → X => b (x k)) (Measure.pi fun _ => P) := integrable_comp_eval (μ := fun _ : Fin n => P) hb
  refine ⟨hind'.integrable_mul ha' hb', ?_⟩
  rw [hind'.integral_fun_mul_eq_mul_integral ha'.aestronglyMeasurable hb'.aestronglyMeasurable,
    integral_comp_eval (μ := fun _ : Fin n => P) (f := a) ma.aestronglyMeasurable, integral_comp_eval (μ := fun _ : Fin n => P) (f := b) mb.aestronglyMeasurable]

/-- The expectation of a sum over the members of a population. -/
theorem pop_sum {n : ℕ} (a : X → ℝ) (ha : Integrable a P) : ∫ x : Fin n → X, ∑ i, a (x i) ∂(Measure.pi fun _ => P) = n * ∫ x, a x ∂P := by
  rw [integral_finsetSum _ fun i _ => integrable_comp_eval (μ := fun _ : Fin n => P) ha]
  simp [integral_comp_eval (μ := fun _ : Fin n => P) (f := a) ha.aestronglyMeasurable]

/-- The expectation of a weighted sum whose weights are centred by the average over the population. -/
theorem pop_centred {n : ℕ} (hn : 0 < n) (a b : X → ℝ) (ma : Measurable a) (mb : Measurable b) (ha : Integrable a P) (hb : Integrable b P) (hab : Integrable (fun x => a x * b x) P) (hb0 : ∫ x, b x ∂P = 0) :
    ∫ x : Fin n → X, ∑ i, (a (x i) - (∑ k, a (x k)) / n) * b (x i) ∂(Measure.pi fun _ => P) = (n - 1) * ∫ x, a x * b x ∂P := by
  have hn' : (n : ℝ) ≠ 0 := by positivity
  have hint : ∀ i k : Fin n, Integrable (fun x : Fin n → X => a (x k) * b (x i)) (Measure.pi fun _ => P) := by
    intro i k
    by_cases h : k = i
    · subst h; exact integrable_comp_eval (μ := fun _ : Fin n => P) (f := fun x => a x * b x) hab
    · exact (pop_cross P k i h a b ma mb ha hb).1
  have hval : ∀ i k : Fin n, ∫ x : Fin n → X, a (x k) * b (x i) ∂(Measure.pi fun _ => P) = if k = i then ∫ x, a x * b x ∂P else 0 := by
    intro i k
    by_cases h : k = i
    · subst h
      rw [if_pos rfl]
      exact integral_comp_eval (μ := fun _ : Fin n => P) (f := fun x => a x * b x) (ma.mul mb).aestronglyMeasurable
    · rw [if_neg h, (pop_cross P k i h a b ma mb ha hb).2, hb0, mul_zero]
  have e : ∀ x : Fin n → X, ∑ i, (a (x i) - (∑ k, a (x k)) / n) * b (x i) = ∑ i, a (x i) * b (x i) - (1 / n) * ∑ i, ∑ k, a (x k) * b (x i) := by
    intro x
    rw [Finset.mul_sum, ← Finset.sum_sub_distrib]
    refine Finset.sum_congr rfl fun i _ => ?_
    rw [← Finset.sum_mul]
    ring
  simp only [e]
  rw [integral_sub (integrable_finsetSum _ fun i _ => hint i i) ((integrable_finsetSum _ fun i _ => integrable_finsetSum _ fun k _ => hint i k).const_mul _), integral_const_mul,
    integral_finsetSum _ fun i _ => hint i i, integral_finsetSum _ fun i _ => integrable_finsetSum _ fun k _ => hint i k]
  have e2 : ∀ i : Fin n, ∫ x : Fin n → X, ∑ k, a (x k) * b (x i) ∂(Measure.pi fun _ => P) = ∫ x, a x * b x ∂P := by
    intro i
    rw [integral_finsetSum _ fun k _ => hint i k]
    simp [hval]
  simp only [e2, hval, if_true, Finset.sum_const, Finset.card_univ, Fintype.card_fin, nsmul_eq_mul]
  field_simp

end Population

/-! ### Moments -/

theorem integral_coord (w : ℝ → ℝ) (hw : Measurable w) (j : Fin d) : ∫ z, w (z j) ∂std d = ∫ x, w x ∂γ := integral_comp_eval (μ := fun _ : Fin d => γ) (f := w) hw.aestronglyMeasurable

theorem integrable_coord (w : ℝ → ℝ) (hw : Integrable w γ) (j : Fin d) : Integrable (fun z => w (z j)) (std d) := integrable_comp_eval (μ := fun _ : Fin d => γ) hw

theorem integrable_id_std : Integrable (fun x : ℝ => x) γ := by
  have := memLp_id_gaussianReal (μ := 0) (v := 1) 1
  rw [ENNReal.coe_one] at this
  exact memLp_one_iff_integrable.1 this

theorem integrable_sq_std : Integrable (fun x : ℝ => x ^ 2) γ := by
  have := memLp_id_gaussianReal (μ := 0) (v := 1) 2
  exact (memLp_two_iff_integrable_sq (by fun_prop)).1 this

theorem mean_std : ∫ x, x ∂γ = 0 := integral_id_gaussianReal

theorem sq_std : ∫ x, x ^ 2 ∂γ = 1 := by
  have h := variance_id_gaussianReal (μ := 0) (v := 1)
  rw [variance_eq_integral (by fun_prop)] at h
  simpa [mean_std] using h

theorem neg_std : γ.map (fun x => -x) = γ := by
  have := gaussianReal_map_neg (μ := 0) (v := 1)
  simpa using this

/-- The draws are symmetric. -/
theorem neg_preserving : MeasurePreserving (fun (z : Fin d → ℝ) j => - z j) (std d) (std d) := by
  have hm : Measurable fun (z : Fin d → ℝ) j => - z j := measurable_pi_lambda _ fun j => (measurable_pi_apply j).neg
  refine ⟨hm, ?_⟩
  have := Measure.pi_map_pi (μ := fun _ : Fin d => γ) (f := fun _ x => -x) (fun _ => by fun_prop)
  rw [this]
  simp only [neg_std]

theorem integral_neg_std (G : (Fin d → ℝ) → ℝ) (hG : Measurable G) : ∫ z, G (fun j => - z j) ∂std d = ∫ z, G z ∂std d := by
  have h := neg_preserving (d := d)
  conv_rhs => rw [← h.map_eq]
  rw [integral_map h.measurable.aemeasurable hG.aestronglyMeasurable]

theorem integrable_neg_std (G : (Fin d → ℝ) → ℝ) (hG : Integrable G (std d)) : Integrable (fun z => G fun j => - z j) (std d) :=
  neg_preserving.integrable_comp_of_integrable hG

/-- Functions with second moments under every search distribution are tame. -/
theorem tame_of_memLp (hf : Measurable f) (h : ∀ mu sigma : Fin d → ℝ, MemLp (fun z => f (sample mu sigma z)) 2 (std d)) : Tame f := by
  refine ⟨hf, fun mu sigma _ j => ?_⟩
  have h1 : MemLp (fun z : Fin d → ℝ => 1 + z j ^ 2) 2 (std d) := by
    refine (memLp_const (1 : ℝ)).add ?_
    rw [memLp_two_iff_integrable_sq (by fun_prop : Measurable fun z : Fin d → ℝ => z j ^ 2).aestronglyMeasurable]
    have h4 := (memLp_id_gaussianReal (μ := 0) (v := 1) 4).integrable_norm_pow (p := 4) (by norm_num)
    have := integrable_coord (fun x => ‖id x‖ ^ 4) h4 j
    refine this.congr (ae_of_all _ fun z => ?_)
    simp only [id, norm_eq_abs]
    rw [show (4 : ℕ) = 2 * 2 by norm_num, pow_mul, sq_abs, ← pow_mul]
  exact h1.integrable_mul (h mu sigma)

/-- Bounded fitness functions are tame. -/
theorem tame_of_bounded (hf : Measurable f) (c : ℝ) (hc : ∀ x, |f x| ≤ c) : Tame f :=
  tame_of_memLp hf fun mu sigma => MemLp.of_bound (hf.comp (measurable_sample mu sigma)).aestronglyMeasurable c (ae_of_all _ fun z => hc _)

theorem memLp_coord (j : Fin d) (a b : ℝ) : MemLp (fun z : Fin d → ℝ => (a + b * z j) ^ 2) 2 (std d) := by
  rw [memLp_two_iff_integrable_sq (by fun_prop : Measurable fun z : Fin d → ℝ => (a + b * z j) ^ 2).aestronglyMeasurable]
  have h1 : MemLp (fun x : ℝ => a + b * x) 4 γ := (memLp_const a).add ((memLp_id_gaussianReal (μ := 0) (v := 1) 4).const_mul b)
  have h4 := h1.integrable_norm_pow (p := 4) (by norm_num)
  have := integrable_coord (fun x => ‖a + b * x‖ ^ 4) h4 j
  refine this.congr (ae_of_all _ fun z => ?_)
  simp only [norm_eq_abs]
  rw [show (4 : ℕ) = 2 * 2 by norm_num, pow_mul, sq_abs, ← pow_mul]

/-- The sphere function is tame. -/
theorem tame_sphere : Tame fun x : Fin d → ℝ => ∑ j, x j ^ 2 := by
  refine tame_of_memLp (by fun_prop) fun mu sigma => ?_
  exact memLp_finsetSum _ fun j _ => memLp_coord j (mu j) (sigma j)

end EvoTorch.GaussianScore
