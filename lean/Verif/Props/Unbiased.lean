import Verif.Model.Distribution
import Verif.Spec.ExpectedFitness
import Verif.Proofs.GaussianPop
/-!
C121: on average, the search gradients follow the slope of the expected fitness.
-/
namespace EvoTorch.Unbiased
open EvoTorch.Distribution EvoTorch.GaussianScore MeasureTheory ProbabilityTheory

variable {n m d : ℕ}

/-- The draws of a population, as rows of a noise tensor. -/
def rows (z : Fin n → Fin d → ℝ) (i : Nat) : Vec ℝ d := if h : i < n then z ⟨i, h⟩ else fun _ => 0

/-- The gradients computed from a population of the separable Gaussian: the solutions are drawn, evaluated by `f`, given raw ranks, and the sums are divided by the number of solutions. -/
noncomputable def plainEstimate (maximize : Bool) (f : (Fin d → ℝ) → ℝ) (mu sigma : Vec ℝ d) (z : Fin n → Fin d → ℝ) : Grads ℝ d :=
  let samples := makeGaussian n (rows z) mu sigma
  plainGradients (some .numSolutions) (some .numSolutions) mu sigma false samples (Ranking.raw maximize (samples.map f))

/-- The same for the symmetric separable Gaussian with `m` directions, hence `2 m` solutions; the sums are divided by the number of directions. -/
noncomputable def symmetricEstimate (maximize : Bool) (f : (Fin d → ℝ) → ℝ) (mu sigma : Vec ℝ d) (z : Fin m → Fin d → ℝ) : Except PyErr (Grads ℝ d) :=
  (makeGaussianSymmetric (2 * m) (rows z) mu sigma).map fun samples =>
    symmetricGradients (some .numDirections) (some .numDirections) mu sigma false samples (Ranking.raw maximize (samples.map f))

/-- What is to be increased: the fitness, or its negative when minimizing. -/
def utility (maximize : Bool) (f : (Fin d → ℝ) → ℝ) (x : Fin d → ℝ) : ℝ := if maximize then f x else - f x

/-! ### Rows and sums -/

theorem makeGaussian_eq (mu sigma : Vec ℝ d) (z : Fin n → Fin d → ℝ) : makeGaussian n (rows z) mu sigma = List.ofFn fun i => sample mu sigma (z i) := by
  refine List.ext_getElem (by simp [makeGaussian]) fun i h1 h2 => ?_
  have hi : i < n := by simpa using h2
  simp only [makeGaussian, List.getElem_map, List.getElem_range, List.getElem_ofFn, rows, hi, dif_pos]
  funext j
  simp [sample]
  ring

theorem raw_eq (maximize : Bool) (f : (Fin d → ℝ) → ℝ) (xs : List (Fin d → ℝ)) : Ranking.raw maximize (xs.map f) = xs.map (utility maximize f) := by
  cases maximize <;> simp [Ranking.raw, utility, Function.comp_def]

theorem center_eq (u : Fin n → ℝ) : centerWeights false (List.ofFn u) = List.ofFn fun i => u i - (∑ k, u k) / n := by
  simp [centerWeights, Ranking.mean, List.map_ofFn, Function.comp_def, List.sum_ofFn]

theorem weightedSum_eq (w : Fin n → ℝ) (r : Fin n → Vec ℝ d) (j : Fin d) : weightedSum (List.ofFn w) (List.ofFn r) j = ∑ i, w i * r i j := by
  have : List.zipWith (fun w (row : Vec ℝ d) => w * row j) (List.ofFn w) (List.ofFn r) = List.ofFn fun i => w i * r i j := by
    refine List.ext_getElem (by simp) fun i h1 h2 => ?_
    simp
  rw [weightedSum, this, List.sum_ofFn]

theorem plain_mu (maximize : Bool) (f : (Fin d → ℝ) → ℝ) (mu sigma : Vec ℝ d) (z : Fin n → Fin d → ℝ) (j : Fin d) :
    (plainEstimate maximize f mu sigma z).mu j = (∑ i, (utility maximize f (sample mu sigma (z i)) - (∑ k, utility maximize f (sample mu sigma (z k))) / n) * (sigma j * z i j)) / n := by
  unfold plainEstimate plainGradients
  simp only [raw_eq]
  simp only [makeGaussian_eq, List.map_ofFn, Function.comp_def, center_eq, divideGrad, weightedSum_eq, List.length_ofFn]
  simp [sample]

theorem plain_sigma (maximize : Bool) (f : (Fin d → ℝ) → ℝ) (mu sigma : Vec ℝ d) (hs : ∀ j, 0 < sigma j) (z : Fin n → Fin d → ℝ) (j : Fin d) :
    (plainEstimate maximize f mu sigma z).sigma j = (∑ i, (utility maximize f (sample mu sigma (z i)) - (∑ k, utility maximize f (sample mu sigma (z k))) / n) * (sigma j * (z i j ^ 2 - 1))) / n := by
  unfold plainEstimate plainGradients
  simp only [raw_eq]
  simp only [makeGaussian_eq, List.map_ofFn, Function.comp_def, center_eq, divideGrad, weightedSum_eq, List.length_ofFn]
  congr 1
  refine Finset.sum_congr rfl fun i _ => ?_
  have := (hs j).ne'
  simp only [sample]
  field_simp
  ring

theorem utility_tame (maximize : Bool) {f : (Fin d → ℝ) → ℝ} (h : Tame f) : Tame (utility maximize f) := by
  cases maximize
  · refine ⟨h.measurable.neg, fun mu sigma hs j => ?_⟩
    have := (h.integrable mu sigma hs j).neg
    simpa [utility] using this
  · exact h

theorem slopeMu_eq {f : (Fin d → ℝ) → ℝ} (h : Tame f) (mu sigma : Vec ℝ d) (hs : ∀ j, 0 < sigma j) (j : Fin d) :
    sigma j * slopeMu f mu sigma j = ∫ z, f (sample mu sigma z) * z j ∂std d := by
  rw [slopeMu, (hasDerivAt_J_mu h mu sigma hs j).deriv, ← integral_const_mul]
  refine integral_congr_ae (ae_of_all _ fun z => ?_)
  have := (hs j).ne'
  simp only
  field_simp

theorem slopeSigma_eq {f : (Fin d → ℝ) → ℝ} (h : Tame f) (mu sigma : Vec ℝ d) (hs : ∀ j, 0 < sigma j) (j : Fin d) :
    sigma j * slopeSigma f mu sigma j = ∫ z, f (sample mu sigma z) * (z j ^ 2 - 1) ∂std d := by
  rw [slopeSigma, (hasDerivAt_J_sigma h mu sigma hs j).deriv, ← integral_const_mul]
  refine integral_congr_ae (ae_of_all _ fun z => ?_)
  have := (hs j).ne'
  simp only
  field_simp

theorem mean_coord (j : Fin d) : ∫ z, z j ∂std d = 0 := by
  rw [integral_coord (fun x => x) (by fun_prop) j, mean_std]

theorem var_coord (j : Fin d) : ∫ z, (z j ^ 2 - 1) ∂std d = 0 := by
  rw [integral_coord (fun x => x ^ 2 - 1) (by fun_prop) j, integral_sub integrable_sq_std (integrable_const _), sq_std]
  simp

theorem int_coord (j : Fin d) : Integrable (fun z => z j) (std d) := integrable_coord _ integrable_id_std j

theorem int_coord2 (j : Fin d) : Integrable (fun z => z j ^ 2 - 1) (std d) := integrable_coord (fun x => x ^ 2 - 1) (integrable_sq_std.sub (integrable_const _)) j

/-- The expectation of a centred weighted sum, with a factor and a divisor. -/
theorem expect {a : (Fin d → ℝ) → ℝ} (hn : 0 < n) (s : ℝ) (b : (Fin d → ℝ) → ℝ) (ma : Measurable a) (mb : Measurable b) (ha : Integrable a (std d)) (hb : Integrable b (std d))
    (hab : Integrable (fun z => a z * b z) (std d)) (hb0 : ∫ z, b z ∂std d = 0) :
    ∫ z, (∑ i, (a (z i) - (∑ k, a (z k)) / n) * (s * b (z i))) / n ∂draws n d = (n - 1) / n * (s * ∫ z, a z * b z ∂std d) := by
  have := pop_centred (std d) hn a (fun z => s * b z) ma (mb.const_mul s) ha (hb.const_mul s) ((hab.const_mul s).congr (ae_of_all _ fun z => by simp only; ring)) (by rw [integral_const_mul, hb0, mul_zero])
  rw [integral_div, this]
  have e : ∫ z, a z * (s * b z) ∂std d = s * ∫ z, a z * b z ∂std d := by
    rw [← integral_const_mul]
    exact integral_congr_ae (ae_of_all _ fun z => by simp only; ring)
  rw [e]
  ring

/-! ### The separable Gaussian -/

/-- The expected fitness has a slope in every coordinate of the mean and of the standard deviations, so the slopes below are not the junk value of a derivative that does not exist. -/
theorem C121_slopes {f : (Fin d → ℝ) → ℝ} (h : Tame f) (mu sigma : Vec ℝ d) (hs : ∀ j, 0 < sigma j) (j : Fin d) :
    HasDerivAt (fun t => J f (Function.update mu j t) sigma) (slopeMu f mu sigma j) (mu j) ∧ HasDerivAt (fun u => J f mu (Function.update sigma j u)) (slopeSigma f mu sigma j) (sigma j) :=
  ⟨(hasDerivAt_J_mu h mu sigma hs j).differentiableAt.hasDerivAt, (hasDerivAt_J_sigma h mu sigma hs j).differentiableAt.hasDerivAt⟩

/-- With independent normal draws, the average gradient for the mean is the slope of the expected utility, scaled by the variance and by the share `(n - 1) / n` that centring leaves. -/
theorem C121_plain_mu (maximize : Bool) {f : (Fin d → ℝ) → ℝ} (h : Tame f) (hn : 0 < n) (mu sigma : Vec ℝ d) (hs : ∀ j, 0 < sigma j) (j : Fin d) :
    ∫ z, (plainEstimate maximize f mu sigma z).mu j ∂draws n d = (n - 1) / n * (sigma j ^ 2 * slopeMu (utility maximize f) mu sigma j) := by
  have hu := utility_tame maximize h
  have hm := hu.measurable.comp (measurable_sample mu sigma)
  simp only [plain_mu]
  rw [expect (a := fun z => utility maximize f (sample mu sigma z)) hn (sigma j) (fun z => z j) hm (measurable_pi_apply j) (hu.self mu sigma hs j) (int_coord j)
    ((hu.first mu sigma hs j).congr (ae_of_all _ fun z => by simp only; ring)) (mean_coord j), ← slopeMu_eq hu mu sigma hs j]
  ring

/-- The same for the standard deviations. -/
theorem C121_plain_sigma (maximize : Bool) {f : (Fin d → ℝ) → ℝ} (h : Tame f) (hn : 0 < n) (mu sigma : Vec ℝ d) (hs : ∀ j, 0 < sigma j) (j : Fin d) :
    ∫ z, (plainEstimate maximize f mu sigma z).sigma j ∂draws n d = (n - 1) / n * (sigma j ^ 2 * slopeSigma (utility maximize f) mu sigma j) := by
  have hu := utility_tame maximize h
  have hm := hu.measurable.comp (measurable_sample mu sigma)
  simp only [plain_sigma maximize f mu sigma hs]
  rw [expect (a := fun z => utility maximize f (sample mu sigma z)) hn (sigma j) (fun z => z j ^ 2 - 1) hm (by fun_prop) (hu.self mu sigma hs j) (int_coord2 j)
    ((hu.second mu sigma hs j).congr (ae_of_all _ fun z => by simp only; ring)) (var_coord j), ← slopeSigma_eq hu mu sigma hs j]
  ring

/-! ### The symmetric separable Gaussian -/

theorem range_pairs {α : Type} (g : Nat → α) : ∀ m, (List.range (2 * m)).map g = (List.range m).flatMap fun i => [g (2 * i), g (2 * i + 1)]
  | 0 => rfl
  | m + 1 => by
    rw [show 2 * (m + 1) = 2 * m + 1 + 1 by ring, List.range_succ, List.range_succ, List.map_append, List.map_append, range_pairs g m, List.range_succ, List.flatMap_append]
    simp

theorem ofFn_range {α : Type} (g : Nat → α) (m : ℕ) : (List.range m).map g = List.ofFn fun i : Fin m => g i := by
  refine List.ext_getElem (by simp) fun i h1 h2 => ?_
  simp

theorem symmetric_samples (mu sigma : Vec ℝ d) (z : Fin m → Fin d → ℝ) :
    makeGaussianSymmetric (2 * m) (rows z) mu sigma = .ok ((List.ofFn z).flatMap fun v => [sample mu sigma v, sample mu sigma fun j => - v j]) := by
  unfold makeGaussianSymmetric
  rw [if_neg (by omega)]
  simp only [List.map_map, Except.ok.injEq]
  rw [range_pairs]
  have e : List.ofFn z = (List.range m).map (rows z) := by
    rw [ofFn_range]
    congr 1
    funext i
    simp [rows]
  rw [e, List.flatMap_map]
  congr 1
  funext i
  have h1 : (2 * i + 1) / 2 = i := by omega
  have h2 : (2 * i) / 2 = i := by omega
  have h3 : (2 * i + 1) % 2 = 1 := by omega
  simp only [Function.comp, h1, h2, h3, Nat.mul_mod_right, if_true]
  congr 1
  · funext j; simp [sample]; ring
  · congr 1
    funext j; simp [sample]; ring

theorem evens_pairs {α β : Type} (p q : α → β) : ∀ l : List α, evens (l.flatMap fun a => [p a, q a]) = l.map p
  | [] => rfl
  | a :: l => by simp [evens, evens_pairs p q l]

theorem odds_pairs {α β : Type} (p q : α → β) : ∀ l : List α, odds (l.flatMap fun a => [p a, q a]) = l.map q
  | [] => rfl
  | a :: l => by simp [odds, odds_pairs p q l]

theorem sum_pairs {α : Type} (p q : α → ℝ) : ∀ l : List α, (l.flatMap fun a => [p a, q a]).sum = (l.map fun a => p a + q a).sum
  | [] => rfl
  | a :: l => by simp [sum_pairs p q l]; ring

theorem length_pairs {α β : Type} (p q : α → β) : ∀ l : List α, (l.flatMap fun a => [p a, q a]).length = 2 * l.length
  | [] => rfl
  | a :: l => by simp [length_pairs p q l]; ring

theorem map_pairs {α β δ : Type} (g : β → δ) (p q : α → β) (l : List α) : (l.flatMap fun a => [p a, q a]).map g = l.flatMap fun a => [g (p a), g (q a)] := by
  simp [List.map_flatMap]

/-- The two fitnesses of a direction. -/
def plus (u : (Fin d → ℝ) → ℝ) (mu sigma : Vec ℝ d) (z : Fin d → ℝ) : ℝ := u (sample mu sigma z)
def minus (u : (Fin d → ℝ) → ℝ) (mu sigma : Vec ℝ d) (z : Fin d → ℝ) : ℝ := u (sample mu sigma fun j => - z j)

theorem symmetric_eq (hm : 0 < m) (maximize : Bool) (f : (Fin d → ℝ) → ℝ) (mu sigma : Vec ℝ d) (hs : ∀ j, 0 < sigma j) (z : Fin m → Fin d → ℝ) :
    ∃ g, symmetricEstimate maximize f mu sigma z = .ok g ∧
      (∀ j, g.mu j = (∑ i, (plus (utility maximize f) mu sigma (z i) - minus (utility maximize f) mu sigma (z i)) / 2 * (sigma j * z i j)) / m) ∧
      (∀ j, g.sigma j = (∑ i, ((plus (utility maximize f) mu sigma (z i) + minus (utility maximize f) mu sigma (z i)) / 2 - (∑ k, (plus (utility maximize f) mu sigma (z k) + minus (utility maximize f) mu sigma (z k)) / 2) / m) * (sigma j * (z i j ^ 2 - 1))) / m) := by
  have hm' : (m : ℝ) ≠ 0 := by positivity
  have key : ∀ (a b : ℝ) (xs ys : Fin m → ℝ), Ranking.mean ((List.ofFn z).flatMap fun v => [plus (utility maximize f) mu sigma v, minus (utility maximize f) mu sigma v]) =
      (∑ k, (plus (utility maximize f) mu sigma (z k) + minus (utility maximize f) mu sigma (z k)) / 2) / m := by
    intro _ _ _ _
    rw [Ranking.mean, sum_pairs, length_pairs, List.map_ofFn, List.sum_ofFn, List.length_ofFn, ← Finset.sum_div]
    simp only [Function.comp]
    push_cast
    field_simp
  have key := key 0 0 0 0
  have zip : ∀ (g : ℝ → ℝ → ℝ) (a b : Fin m → ℝ), List.zipWith g (List.ofFn a) (List.ofFn b) = List.ofFn fun i => g (a i) (b i) := by
    intro g a b
    refine List.ext_getElem (by simp) fun i h1 h2 => ?_
    simp
  refine ⟨_, by unfold symmetricEstimate; rw [symmetric_samples]; rfl, fun j => ?_, fun j => ?_⟩
  · simp only [symmetricGradients, raw_eq]
    simp only [map_pairs, centerWeights, Bool.false_eq_true, if_false, evens_pairs, odds_pairs, divideGrad, length_pairs, List.length_ofFn]
    change weightedSum (List.zipWith _ (List.map (fun a => plus (utility maximize f) mu sigma a - Ranking.mean ((List.ofFn z).flatMap fun v => [plus (utility maximize f) mu sigma v, minus (utility maximize f) mu sigma v])) _)
      (List.map (fun a => minus (utility maximize f) mu sigma a - Ranking.mean ((List.ofFn z).flatMap fun v => [plus (utility maximize f) mu sigma v, minus (utility maximize f) mu sigma v])) _)) _ j / _ = _
    rw [key, Nat.mul_div_cancel_left m (by norm_num)]
    simp only [List.map_ofFn, Function.comp_def, zip, weightedSum_eq]
    congr 1
    refine Finset.sum_congr rfl fun i _ => ?_
    simp only [sample]
    ring
  · simp only [symmetricGradients, raw_eq]
    simp only [map_pairs, centerWeights, Bool.false_eq_true, if_false, evens_pairs, odds_pairs, divideGrad, length_pairs, List.length_ofFn]
    change weightedSum (List.zipWith _ (List.map (fun a => plus (utility maximize f) mu sigma a - Ranking.mean ((List.ofFn z).flatMap fun v => [plus (utility maximize f) mu sigma v, minus (utility maximize f) mu sigma v])) _)
      (List.map (fun a => minus (utility maximize f) mu sigma a - Ranking.mean ((List.ofFn z).flatMap fun v => [plus (utility maximize f) mu sigma v, minus (utility maximize f) mu sigma v])) _)) _ j / _ = _
    rw [key, Nat.mul_div_cancel_left m (by norm_num)]
    simp only [List.map_ofFn, Function.comp_def, zip, weightedSum_eq]
    congr 1
    refine Finset.sum_congr rfl fun i _ => ?_
    have := (hs j).ne'
    simp only [sample]
    field_simp
    ring

theorem minus_integral {u : (Fin d → ℝ) → ℝ} (h : Tame u) (mu sigma : Vec ℝ d) (b : (Fin d → ℝ) → ℝ) (mb : Measurable b) (c : ℝ) (hb : ∀ z, b (fun j => - z j) = c * b z) :
    c * ∫ z, minus u mu sigma z * b z ∂std d = ∫ z, plus u mu sigma z * b z ∂std d := by
  have hm := h.measurable.comp (measurable_sample mu sigma)
  have := integral_neg_std (fun z => plus u mu sigma z * b z) (hm.mul mb)
  rw [← this, ← integral_const_mul]
  refine integral_congr_ae (ae_of_all _ fun z => ?_)
  simp only [hb, plus, minus]
  ring

theorem minus_integrable {u : (Fin d → ℝ) → ℝ} (mu sigma : Vec ℝ d) (b : (Fin d → ℝ) → ℝ) (c : ℝ) (hc : c * c = 1) (hb : ∀ z, b (fun j => - z j) = c * b z) (h : Integrable (fun z => plus u mu sigma z * b z) (std d)) :
    Integrable (fun z => minus u mu sigma z * b z) (std d) := by
  have := (integrable_neg_std _ h).const_mul c
  refine this.congr (ae_of_all _ fun z => ?_)
  simp only [hb, plus, minus]
  linear_combination (u (sample mu sigma fun j => - z j) * b z) * hc

/-- With mirrored draws, the average gradient for the mean is exactly the slope of the expected utility scaled by the variance. For the standard deviations the share `(m - 1) / m` remains. -/
theorem C121_symmetric (maximize : Bool) {f : (Fin d → ℝ) → ℝ} (h : Tame f) (hm : 0 < m) (mu sigma : Vec ℝ d) (hs : ∀ j, 0 < sigma j) :
    ∃ est : (Fin m → Fin d → ℝ) → Grads ℝ d, (∀ z, symmetricEstimate maximize f mu sigma z = .ok (est z)) ∧
      (∀ j, ∫ z, (est z).mu j ∂draws m d = sigma j ^ 2 * slopeMu (utility maximize f) mu sigma j) ∧
      (∀ j, ∫ z, (est z).sigma j ∂draws m d = (m - 1) / m * (sigma j ^ 2 * slopeSigma (utility maximize f) mu sigma j)) := by
  have hm' : (m : ℝ) ≠ 0 := by positivity
  have hu := utility_tame maximize h
  choose est h1 h2 h3 using fun z => symmetric_eq hm maximize f mu sigma hs z
  have mp : Measurable (plus (utility maximize f) mu sigma) := hu.measurable.comp (measurable_sample mu sigma)
  have mn : Measurable (minus (utility maximize f) mu sigma) := mp.comp neg_preserving.measurable
  refine ⟨est, h1, fun j => ?_, fun j => ?_⟩
  · have ip : Integrable (fun z => plus (utility maximize f) mu sigma z * z j) (std d) := (hu.first mu sigma hs j).congr (ae_of_all _ fun z => by simp only [plus]; ring)
    have im := minus_integrable mu sigma (fun z => z j) (-1) (by norm_num) (fun z => by simp) ip
    have e := minus_integral hu mu sigma (fun z => z j) (measurable_pi_apply j) (-1) (fun z => by simp)
    simp only [h2]
    have hi : Integrable (fun z => (plus (utility maximize f) mu sigma z - minus (utility maximize f) mu sigma z) / 2 * (sigma j * z j)) (std d) :=
      ((ip.sub im).const_mul (sigma j / 2)).congr (ae_of_all _ fun z => by simp only [Pi.sub_apply]; ring)
    rw [integral_div, pop_sum (std d) (fun z => (plus (utility maximize f) mu sigma z - minus (utility maximize f) mu sigma z) / 2 * (sigma j * z j)) hi]
    have e2 : ∫ z, (plus (utility maximize f) mu sigma z - minus (utility maximize f) mu sigma z) / 2 * (sigma j * z j) ∂std d =
        sigma j / 2 * (∫ z, plus (utility maximize f) mu sigma z * z j ∂std d - ∫ z, minus (utility maximize f) mu sigma z * z j ∂std d) := by
      rw [← integral_sub ip im, ← integral_const_mul]
      exact integral_congr_ae (ae_of_all _ fun z => by simp only; ring)
    have e3 : ∫ z, minus (utility maximize f) mu sigma z * z j ∂std d = - ∫ z, plus (utility maximize f) mu sigma z * z j ∂std d := by linarith
    have e4 := slopeMu_eq hu mu sigma hs j
    rw [e2, e3]
    have e5 : ∫ z, plus (utility maximize f) mu sigma z * z j ∂std d = sigma j * slopeMu (utility maximize f) mu sigma j := e4.symm
    rw [e5]
    field_simp
    ring
  · have ip : Integrable (fun z => plus (utility maximize f) mu sigma z * (z j ^ 2 - 1)) (std d) := (hu.second mu sigma hs j).congr (ae_of_all _ fun z => by simp only [plus]; ring)
    have im := minus_integrable mu sigma (fun z => z j ^ 2 - 1) 1 (by norm_num) (fun z => by simp) ip
    have e := minus_integral hu mu sigma (fun z => z j ^ 2 - 1) (by fun_prop) 1 (fun z => by simp)
    have i0 : Integrable (plus (utility maximize f) mu sigma) (std d) := hu.self mu sigma hs j
    have i1 : Integrable (minus (utility maximize f) mu sigma) (std d) := integrable_neg_std _ i0
    simp only [h3]
    rw [expect (a := fun z => (plus (utility maximize f) mu sigma z + minus (utility maximize f) mu sigma z) / 2) hm (sigma j) (fun z => z j ^ 2 - 1) ((mp.add mn).div_const 2) (by fun_prop)
      ((i0.add i1).div_const 2) (int_coord2 j) (((ip.add im).div_const 2).congr (ae_of_all _ fun z => by simp only [Pi.add_apply]; ring)) (var_coord j)]
    have e2 : ∫ z, (plus (utility maximize f) mu sigma z + minus (utility maximize f) mu sigma z) / 2 * (z j ^ 2 - 1) ∂std d =
        (∫ z, plus (utility maximize f) mu sigma z * (z j ^ 2 - 1) ∂std d + ∫ z, minus (utility maximize f) mu sigma z * (z j ^ 2 - 1) ∂std d) / 2 := by
      rw [← integral_add ip im, ← integral_div]
      exact integral_congr_ae (ae_of_all _ fun z => by simp only; ring)
    have e5 : ∫ z, plus (utility maximize f) mu sigma z * (z j ^ 2 - 1) ∂std d = sigma j * slopeSigma (utility maximize f) mu sigma j := (slopeSigma_eq hu mu sigma hs j).symm
    rw [one_mul] at e
    rw [e2, e, e5]
    ring

/-- Hence the average step of a population of two or more solutions does not point downhill, and it points uphill unless the expected utility is level in every coordinate of the mean. -/
theorem C121_uphill (maximize : Bool) {f : (Fin d → ℝ) → ℝ} (h : Tame f) (hn : 2 ≤ n) (mu sigma : Vec ℝ d) (hs : ∀ j, 0 < sigma j) :
    0 ≤ ∑ j, slopeMu (utility maximize f) mu sigma j * ∫ z, (plainEstimate maximize f mu sigma z).mu j ∂draws n d ∧
    ((∃ j, slopeMu (utility maximize f) mu sigma j ≠ 0) → 0 < ∑ j, slopeMu (utility maximize f) mu sigma j * ∫ z, (plainEstimate maximize f mu sigma z).mu j ∂draws n d) := by
  have hn' : (2 : ℝ) ≤ n := by exact_mod_cast hn
  have hc : (0 : ℝ) < (n - 1) / n := div_pos (by linarith) (by linarith)
  have e : ∀ j, slopeMu (utility maximize f) mu sigma j * ∫ z, (plainEstimate maximize f mu sigma z).mu j ∂draws n d = (n - 1) / n * (sigma j * slopeMu (utility maximize f) mu sigma j) ^ 2 := by
    intro j
    rw [C121_plain_mu maximize h (by omega) mu sigma hs j]
    ring
  simp only [e]
  refine ⟨Finset.sum_nonneg fun j _ => by positivity, fun ⟨j, hj⟩ => Finset.sum_pos' (fun j _ => by positivity) ⟨j, Finset.mem_univ j, ?_⟩⟩
  have := (hs j).ne'
  positivity

/-- With one solution and no mirroring, the gradients are zero. -/
theorem C121_one_solution (maximize : Bool) (f : (Fin d → ℝ) → ℝ) (mu sigma : Vec ℝ d) (hs : ∀ j, 0 < sigma j) (z : Fin 1 → Fin d → ℝ) (j : Fin d) :
    (plainEstimate maximize f mu sigma z).mu j = 0 ∧ (plainEstimate maximize f mu sigma z).sigma j = 0 := by
  rw [plain_mu, plain_sigma maximize f mu sigma hs]
  simp

/-- Bounded measurable functions, and the sphere function, are among the fitness functions considered. -/
theorem C121_cases (f : (Fin d → ℝ) → ℝ) (hf : Measurable f) (c : ℝ) (hc : ∀ x, |f x| ≤ c) : Tame f ∧ Tame fun x : Fin d → ℝ => ∑ j, x j ^ 2 :=
  ⟨tame_of_bounded hf c hc, tame_sphere⟩

/-- For the sphere function in one dimension, minimized with standard deviation 1 around 3 by ten solutions, the average gradient of the mean is `-6` times `9 / 10`. -/
example : ∫ z, (plainEstimate (n := 10) (d := 1) false (fun x => ∑ j, x j ^ 2) (fun _ => 3) (fun _ => 1) z).mu 0 ∂draws 10 1 = 9 / 10 * (-6) := by
  have h := C121_plain_mu (n := 10) false (tame_sphere (d := 1)) (by norm_num) (fun _ => 3) (fun _ => 1) (fun _ => by norm_num) 0
  rw [h]
  have e : slopeMu (utility false fun x : Fin 1 → ℝ => ∑ j, x j ^ 2) (fun _ => 3) (fun _ => 1) 0 = -6 := by
    have hJ : (fun t => J (utility false fun x : Fin 1 → ℝ => ∑ j, x j ^ 2) (Function.update (fun _ => 3) 0 t) (fun _ => 1)) = fun t => - (t ^ 2 + 1) := by
      funext t
      have h1 : ∀ z : Fin 1 → ℝ, utility false (fun x : Fin 1 → ℝ => ∑ j, x j ^ 2) (sample (Function.update (fun _ => 3) 0 t) (fun _ => 1) z) = - (t ^ 2 + 1) + (-2 * t * z 0 + -1 * (z 0 ^ 2 - 1)) := by
        intro z
        simp [utility, sample]
        ring
      simp only [J, h1]
      have hi : Integrable (fun z : Fin 1 → ℝ => -2 * t * z 0 + -1 * (z 0 ^ 2 - 1)) (std 1) := ((int_coord 0).const_mul _).add ((int_coord2 0).const_mul _)
      rw [integral_add (integrable_const _) hi, integral_add ((int_coord 0).const_mul _) ((int_coord2 0).const_mul _), integral_const_mul, integral_const_mul, mean_coord, var_coord]
      simp
    rw [slopeMu, hJ]
    have : HasDerivAt (fun t : ℝ => - (t ^ 2 + 1)) (-6) 3 := by
      have := ((hasDerivAt_pow 2 (3 : ℝ)).add_const 1).neg
      refine this.congr_deriv ?_
      norm_num
    exact this.deriv
  rw [e]
  norm_num

end EvoTorch.Unbiased
