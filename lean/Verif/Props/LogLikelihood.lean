import Verif.Model.Distribution
import Verif.Model.ExpGaussian
import Verif.Props.Distribution
import Verif.Props.ExpGaussian
import Mathlib.Probability.Distributions.Gaussian.Real
import Mathlib.Analysis.Calculus.FDeriv.Analytic
import Mathlib.Analysis.Calculus.Deriv.Slope
import Mathlib.Topology.Instances.Matrix
/-! Property C114: the search gradients of PGPE, SNES and XNES are gradients of the weighted log-likelihood of the samples. -/
namespace EvoTorch.LogLikelihood
open Matrix Filter Topology
variable {d : Nat}

/-! ### Specification -/

/-- The logarithm of the density of the normal distribution with mean `m` and standard deviation `s` (Mathlib's `gaussianPDFReal`). -/
noncomputable def logNormal (m s x : ℝ) : ℝ := Real.log (ProbabilityTheory.gaussianPDFReal m (Real.toNNReal (s ^ 2)) x)

/-- The log-likelihood of a vector under the distribution with independent normal components. -/
noncomputable def logSep (mu sigma x : Fin d → ℝ) : ℝ := ∑ j, logNormal (mu j) (sigma j) (x j)

/-- The log-likelihood of a vector under the normal distribution with mean `mu` and covariance matrix `A Aᵀ`. -/
noncomputable def logFull (mu : Fin d → ℝ) (A : Matrix (Fin d) (Fin d) ℝ) (x : Fin d → ℝ) : ℝ :=
  -(1/2) * (∑ i, (A⁻¹.mulVec (x - mu)) i ^ 2) - Real.log |A.det| - (d / 2 : ℝ) * Real.log (2 * Real.pi)

/-- The weighted log-likelihood of the samples. -/
noncomputable def weighted (ws : List ℝ) (xs : List (Fin d → ℝ)) (f : (Fin d → ℝ) → ℝ) : ℝ := (List.zipWith (fun w x => w * f x) ws xs).sum

/-- The weights with mean zero. -/
noncomputable def centred (ws : List ℝ) : List ℝ := ws.map fun w => w - ws.sum / ws.length

/-! ### Weighted sums -/

theorem weighted_hasDerivAt (ws : List ℝ) (xs : List (Fin d → ℝ)) (f : ℝ → (Fin d → ℝ) → ℝ) (f' : (Fin d → ℝ) → ℝ) (t : ℝ) (h : ∀ x, HasDerivAt (fun u => f u x) (f' x) t) :
    HasDerivAt (fun u => weighted ws xs (f u)) (weighted ws xs f') t := by
  induction ws generalizing xs with
  | nil => simpa [weighted] using hasDerivAt_const t (0 : ℝ)
  | cons w ws ih =>
    cases xs with
    | nil => simpa [weighted] using hasDerivAt_const t (0 : ℝ)
    | cons x xs =>
      exact ((h x).const_mul w).add (ih xs)

theorem weighted_add (ws : List ℝ) (xs : List (Fin d → ℝ)) (f g : (Fin d → ℝ) → ℝ) : weighted ws xs (fun x => f x + g x) = weighted ws xs f + weighted ws xs g := by
  induction ws generalizing xs with
  | nil => simp [weighted]
  | cons w ws ih =>
    cases xs with
    | nil => simp [weighted]
    | cons x xs =>
      have := ih xs
      simp only [weighted, List.zipWith_cons_cons, List.sum_cons] at this ⊢
      rw [this]; ring

theorem weighted_mul (ws : List ℝ) (xs : List (Fin d → ℝ)) (c : ℝ) (f : (Fin d → ℝ) → ℝ) : weighted ws xs (fun x => c * f x) = c * weighted ws xs f := by
  induction ws generalizing xs with
  | nil => simp [weighted]
  | cons w ws ih =>
    cases xs with
    | nil => simp [weighted]
    | cons x xs =>
      have := ih xs
      simp only [weighted, List.zipWith_cons_cons, List.sum_cons] at this ⊢
      rw [this]; ring

theorem weighted_sum {ι : Type} (s : Finset ι) (ws : List ℝ) (xs : List (Fin d → ℝ)) (f : ι → (Fin d → ℝ) → ℝ) :
    weighted ws xs (fun x => ∑ j ∈ s, f j x) = ∑ j ∈ s, weighted ws xs (f j) := by
  classical
  induction s using Finset.induction_on with
  | empty =>
    simp only [Finset.sum_empty]
    have := weighted_mul ws xs 0 (fun _ => (0 : ℝ))
    simpa using this
  | insert a s ha ih => simp only [Finset.sum_insert ha]; rw [weighted_add, ih]

/-- A positive derivative: small steps increase the function. -/
theorem eventually_increases (f : ℝ → ℝ) (f' : ℝ) (h : HasDerivAt f f' 0) (hp : 0 < f') : ∀ᶠ t in 𝓝[>] (0 : ℝ), f 0 < f t := by
  have h1 := (hasDerivAt_iff_tendsto_slope.1 h).eventually (eventually_gt_nhds hp)
  have h2 : ∀ᶠ t in 𝓝[>] (0 : ℝ), 0 < slope f 0 t := h1.filter_mono (nhdsWithin_mono _ fun t ht => ne_of_gt ht)
  filter_upwards [h2, self_mem_nhdsWithin] with t ht ht0
  have ht0' : (0 : ℝ) < t := ht0
  rw [slope_def_field, sub_zero] at ht
  have := (div_pos_iff_of_pos_right ht0').1 ht
  linarith

/-! ### Separable distributions -/

theorem logNormal_eq (m s x : ℝ) (hs : 0 < s) : logNormal m s x = -(x - m) ^ 2 / (2 * s ^ 2) - Real.log s - Real.log (Real.sqrt (2 * Real.pi)) := by
  have h2 : 0 < Real.sqrt (2 * Real.pi) := Real.sqrt_pos.2 (by positivity)
  unfold logNormal ProbabilityTheory.gaussianPDFReal
  have hv : ((Real.toNNReal (s ^ 2) : NNReal) : ℝ) = s ^ 2 := Real.coe_toNNReal _ (sq_nonneg s)
  rw [hv, Real.sqrt_mul (by positivity), Real.sqrt_sq hs.le, Real.log_mul (by positivity) (Real.exp_pos _).ne', Real.log_exp, Real.log_inv, Real.log_mul h2.ne' hs.ne']
  ring

/-- The derivative of the log-density along a curve of parameters. -/
theorem logNormal_curve (m s : ℝ → ℝ) (m' s' x : ℝ) (hm : HasDerivAt m m' 0) (hs : HasDerivAt s s' 0) (h0 : 0 < s 0) :
    HasDerivAt (fun t => logNormal (m t) (s t) x) (m' * (x - m 0) / s 0 ^ 2 + s' * ((x - m 0) ^ 2 - s 0 ^ 2) / s 0 ^ 3) 0 := by
  have hpos : ∀ᶠ t in 𝓝 (0 : ℝ), 0 < s t := hs.continuousAt.eventually (eventually_gt_nhds h0)
  have heq : (fun t => logNormal (m t) (s t) x) =ᶠ[𝓝 0] fun t => -(x - m t) ^ 2 / (2 * s t ^ 2) - Real.log (s t) - Real.log (Real.sqrt (2 * Real.pi)) := by
    filter_upwards [hpos] with t ht
    exact logNormal_eq _ _ _ ht
  refine HasDerivAt.congr_of_eventuallyEq ?_ heq
  have h1 := ((((hm.const_sub x).pow 2).neg).div ((hs.pow 2).const_mul 2) (by simp only [Pi.pow_apply]; positivity)).sub (hs.log h0.ne')
  have h2 := h1.sub_const (Real.log (Real.sqrt (2 * Real.pi)))
  refine h2.congr_deriv ?_
  simp only [Pi.neg_apply, Pi.pow_apply]
  field_simp
  ring

theorem logSep_curve (m s : ℝ → Fin d → ℝ) (m' s' x : Fin d → ℝ) (hm : ∀ j, HasDerivAt (fun t => m t j) (m' j) 0) (hs : ∀ j, HasDerivAt (fun t => s t j) (s' j) 0) (h0 : ∀ j, 0 < s 0 j) :
    HasDerivAt (fun t => logSep (m t) (s t) x) (∑ j, (m' j * (x j - m 0 j) / s 0 j ^ 2 + s' j * ((x j - m 0 j) ^ 2 - s 0 j ^ 2) / s 0 j ^ 3)) 0 :=
  HasDerivAt.fun_sum fun j _ => logNormal_curve (fun t => m t j) (fun t => s t j) (m' j) (s' j) (x j) (hm j) (hs j) (h0 j)

/-- The derivative of the weighted log-likelihood along a curve of parameters. -/
theorem weighted_curve (ws : List ℝ) (xs : List (Fin d → ℝ)) (m s : ℝ → Fin d → ℝ) (m' s' : Fin d → ℝ) (hm : ∀ j, HasDerivAt (fun t => m t j) (m' j) 0) (hs : ∀ j, HasDerivAt (fun t => s t j) (s' j) 0)
    (h0 : ∀ j, 0 < s 0 j) :
    HasDerivAt (fun t => weighted ws xs (logSep (m t) (s t)))
      (∑ j, (m' j / s 0 j ^ 2 * weighted ws xs (fun x => x j - m 0 j) + s' j / s 0 j ^ 2 * weighted ws xs (fun x => ((x j - m 0 j) ^ 2 - s 0 j ^ 2) / s 0 j))) 0 := by
  refine (weighted_hasDerivAt ws xs (fun t => logSep (m t) (s t)) _ 0 fun x => logSep_curve m s m' s' x hm hs h0).congr_deriv ?_
  rw [weighted_sum]
  refine Finset.sum_congr rfl fun j _ => ?_
  rw [← weighted_mul, ← weighted_mul, ← weighted_add]
  congr 1
  funext x
  have := (h0 j).ne'
  field_simp

/-! ### PGPE -/
section PGPE
open Distribution

/-- By what a gradient is divided. -/
noncomputable def divisor (ws : List ℝ) : Option DivideBy → ℝ
  | none => 1
  | some .numSolutions => ws.length
  | some .numDirections => (ws.length / 2 : ℕ)
  | some .totalWeight => (ws.map fun w => |w|).sum

/-- The utilities with which the gradients are computed. -/
noncomputable def utilities (alreadyCentred : Bool) (weights : List ℝ) : List ℝ := if alreadyCentred then weights else centred weights

theorem absK_eq (x : ℝ) : absK x = |x| := by
  unfold absK
  split
  · rw [abs_of_neg ‹_›]
  · rw [abs_of_nonneg (by linarith)]

theorem centerWeights_eq (c : Bool) (ws : List ℝ) : centerWeights c ws = utilities c ws := by
  unfold centerWeights utilities centred Ranking.mean
  rfl

theorem divideGrad_mul (opt : Option DivideBy) (g : Vec ℝ d) (ws : List ℝ) (h : divisor ws opt ≠ 0) (j : Fin d) : divisor ws opt * divideGrad opt g ws j = g j := by
  rcases opt with _ | (_ | _ | _)
  · simp [divisor, divideGrad]
  · simp only [divisor] at h
    simp only [divisor, divideGrad]
    field_simp
  · simp only [divisor] at h
    simp only [divisor, divideGrad]
    field_simp
  · simp only [divisor] at h
    have : (ws.map absK).sum = (ws.map fun w => |w|).sum := by rw [show (absK : ℝ → ℝ) = fun w => |w| from funext absK_eq]
    simp only [divisor, divideGrad, this]
    field_simp

theorem weightedSum_eq (ws : List ℝ) (xs : List (Fin d → ℝ)) (f : (Fin d → ℝ) → Fin d → ℝ) (j : Fin d) : weightedSum ws (xs.map f) j = weighted ws xs fun x => f x j := by
  simp [weightedSum, weighted, List.zipWith_map_right]

/-- C114: the gradients of `SeparableGaussian` (PGPE): moving the parameters in any direction `(p, q)` changes the weighted log-likelihood of the samples at the rate given by the gradients, up to the factor `σ²` of each
coordinate and the requested division. The weights are centred unless they were already. -/
theorem C114_pgpe_gradients (divMu divSigma : Option DivideBy) (mu sigma : Fin d → ℝ) (hsig : ∀ j, 0 < sigma j) (c : Bool) (samples : List (Fin d → ℝ)) (weights : List ℝ)
    (h1 : divisor (utilities c weights) divMu ≠ 0) (h2 : divisor (utilities c weights) divSigma ≠ 0) (p q : Fin d → ℝ) :
    let g := plainGradients divMu divSigma mu sigma c samples weights
    HasDerivAt (fun t : ℝ => weighted (utilities c weights) samples (logSep (fun j => mu j + t * p j) (fun j => sigma j + t * q j)))
      (∑ j, (p j * (divisor (utilities c weights) divMu * g.mu j) + q j * (divisor (utilities c weights) divSigma * g.sigma j)) / sigma j ^ 2) 0 := by
  intro g
  have hlin : ∀ a b : ℝ, HasDerivAt (fun t : ℝ => a + t * b) b 0 := fun a b => by
    simpa using ((hasDerivAt_id (0 : ℝ)).mul_const b).const_add a
  refine (weighted_curve (utilities c weights) samples (fun t j => mu j + t * p j) (fun t j => sigma j + t * q j) p q (fun j => hlin _ _) (fun j => hlin _ _) (by simpa using hsig)).congr_deriv ?_
  refine Finset.sum_congr rfl fun j _ => ?_
  have e1 : divisor (utilities c weights) divMu * g.mu j = weighted (utilities c weights) samples fun x => x j - mu j := by
    simp only [g, plainGradients, centerWeights_eq]
    rw [divideGrad_mul _ _ _ h1, weightedSum_eq]
  have e2 : divisor (utilities c weights) divSigma * g.sigma j = weighted (utilities c weights) samples fun x => ((x j - mu j) ^ 2 - sigma j ^ 2) / sigma j := by
    simp only [g, plainGradients, centerWeights_eq, List.map_map]
    rw [divideGrad_mul _ _ _ h2, weightedSum_eq]
    rfl
  rw [e1, e2]
  simp only [zero_mul, add_zero]
  ring

/-- C114: a small enough update of PGPE with plain learning rates increases the weighted log-likelihood of the samples, unless the gradients vanish. -/
theorem C114_pgpe_improves (divMu divSigma : Option DivideBy) (mu sigma : Fin d → ℝ) (hsig : ∀ j, 0 < sigma j) (c : Bool) (samples : List (Fin d → ℝ)) (weights : List ℝ)
    (h1 : 0 < divisor (utilities c weights) divMu) (h2 : 0 < divisor (utilities c weights) divSigma) (a b : ℝ) (ha : 0 < a) (hb : 0 < b)
    (hne : (plainGradients divMu divSigma mu sigma c samples weights).mu ≠ 0 ∨ (plainGradients divMu divSigma mu sigma c samples weights).sigma ≠ 0) :
    ∀ᶠ η in 𝓝[>] (0 : ℝ), let s := updateSeparable (η * a) (η * b) mu sigma (plainGradients divMu divSigma mu sigma c samples weights)
      weighted (utilities c weights) samples (logSep mu sigma) < weighted (utilities c weights) samples (logSep s.1 s.2) := by
  set g := plainGradients divMu divSigma mu sigma c samples weights with hg
  have hd := C114_pgpe_gradients divMu divSigma mu sigma hsig c samples weights h1.ne' h2.ne' (fun j => a * g.mu j) (fun j => b * g.sigma j)
  have hpos : 0 < ∑ j, ((a * g.mu j) * (divisor (utilities c weights) divMu * g.mu j) + (b * g.sigma j) * (divisor (utilities c weights) divSigma * g.sigma j)) / sigma j ^ 2 := by
    have hnn : ∀ j, 0 ≤ ((a * g.mu j) * (divisor (utilities c weights) divMu * g.mu j) + (b * g.sigma j) * (divisor (utilities c weights) divSigma * g.sigma j)) / sigma j ^ 2 := by
      intro j
      have e1 : (a * g.mu j) * (divisor (utilities c weights) divMu * g.mu j) = a * divisor (utilities c weights) divMu * g.mu j ^ 2 := by ring
      have e2 : (b * g.sigma j) * (divisor (utilities c weights) divSigma * g.sigma j) = b * divisor (utilities c weights) divSigma * g.sigma j ^ 2 := by ring
      rw [e1, e2]
      positivity
    refine Finset.sum_pos' (fun j _ => hnn j) ?_
    have : ∃ j, g.mu j ≠ 0 ∨ g.sigma j ≠ 0 := by
      rcases hne with h | h
      · obtain ⟨j, hj⟩ := Function.ne_iff.1 h
        exact ⟨j, .inl hj⟩
      · obtain ⟨j, hj⟩ := Function.ne_iff.1 h
        exact ⟨j, .inr hj⟩
    obtain ⟨j, hj⟩ := this
    refine ⟨j, Finset.mem_univ j, ?_⟩
    have e1 : (a * g.mu j) * (divisor (utilities c weights) divMu * g.mu j) = a * divisor (utilities c weights) divMu * g.mu j ^ 2 := by ring
    have e2 : (b * g.sigma j) * (divisor (utilities c weights) divSigma * g.sigma j) = b * divisor (utilities c weights) divSigma * g.sigma j ^ 2 := by ring
    rw [e1, e2]
    have hs := hsig j
    refine div_pos ?_ (by positivity)
    rcases hj with hj | hj
    · have : 0 < a * divisor (utilities c weights) divMu * g.mu j ^ 2 := by positivity
      have : 0 ≤ b * divisor (utilities c weights) divSigma * g.sigma j ^ 2 := by positivity
      linarith
    · have : 0 ≤ a * divisor (utilities c weights) divMu * g.mu j ^ 2 := by positivity
      have : 0 < b * divisor (utilities c weights) divSigma * g.sigma j ^ 2 := by positivity
      linarith
  have := eventually_increases _ _ hd hpos
  simp only [zero_mul, add_zero] at this
  filter_upwards [this] with η hη
  simp only [updateSeparable, mul_assoc]
  exact hη

/-- C114: on antithetic samples the gradients of `SymmetricSeparableGaussian` divided by the number of directions are the same gradients divided by the number of solutions. -/
theorem C114_symmetric_gradients (mu sigma : Fin d → ℝ) (hsig : ∀ j, 0 < sigma j) (c : Bool) (noises : List (Fin d → ℝ)) (weights : List ℝ) (hw : weights.length = 2 * noises.length) (hn : noises ≠ [])
    (p q : Fin d → ℝ) :
    let samples := Distribution.Spec.antithetic mu noises
    let g := symmetricGradients (some .numDirections) (some .numDirections) mu sigma c samples weights
    HasDerivAt (fun t : ℝ => weighted (utilities c weights) samples (logSep (fun j => mu j + t * p j) (fun j => sigma j + t * q j)))
      (weights.length * ∑ j, (p j * g.mu j + q j * g.sigma j) / sigma j ^ 2) 0 := by
  intro samples g
  have hlen : (utilities c weights).length = weights.length := by unfold utilities centred; split <;> simp
  have hpos : 0 < noises.length := List.length_pos_iff.2 hn
  have hdiv : divisor (utilities c weights) (some .numSolutions) ≠ 0 := by
    simp only [divisor, hlen, hw]
    positivity
  obtain ⟨e1, e2⟩ := C50_symmetric_gradient mu sigma noises weights c hw
  refine (C114_pgpe_gradients (some .numSolutions) (some .numSolutions) mu sigma hsig c samples weights hdiv hdiv p q).congr_deriv ?_
  rw [Finset.mul_sum]
  refine Finset.sum_congr rfl fun j _ => ?_
  simp only [g, samples, e1, e2, divisor, hlen]
  ring

example : (∀ j, (0 : ℝ) < (![1] : Fin 1 → ℝ) j) ∧ 0 < divisor (utilities false [2, 0]) (some .numSolutions) ∧ 0 < divisor (utilities false [2, 0]) (some .totalWeight) ∧
    (plainGradients (some .numSolutions) (some .totalWeight) (![0] : Fin 1 → ℝ) ![1] false [![1], ![-1]] [2, 0]).mu ≠ 0 := by
  refine ⟨by simp, ?_, ?_, fun h => ?_⟩
  · norm_num [divisor, utilities, centred]
  · norm_num [divisor, utilities, centred]
  · have := congrFun h 0
    norm_num [plainGradients, divideGrad, weightedSum, centerWeights, Ranking.mean] at this

end PGPE

/-! ### SNES -/
section SNES
open Distribution

/-- The utilities with which SNES computes its gradients. -/
noncomputable def snesUtilities (nes : Bool) (weights : List ℝ) : List ℝ := if nes then weights else weights.map fun w => w / (weights.map fun w => |w|).sum

/-- C114: the gradients of `ExpSeparableGaussian` (SNES): the center moves along `p`, the standard deviations along `σ exp(t q / 2)`. -/
theorem C114_snes_gradients (mu sigma : Fin d → ℝ) (hsig : ∀ j, 0 < sigma j) (nes : Bool) (samples : List (Fin d → ℝ)) (weights : List ℝ) (p q : Fin d → ℝ) :
    let g := expGradients mu sigma nes samples weights
    HasDerivAt (fun t : ℝ => weighted (snesUtilities nes weights) samples (logSep (fun j => mu j + t * p j) (fun j => sigma j * Real.exp (t * q j / 2))))
      (∑ j, (p j * g.mu j / sigma j ^ 2 + q j * g.sigma j / 2)) 0 := by
  intro g
  have hlin : ∀ a b : ℝ, HasDerivAt (fun t : ℝ => a + t * b) b 0 := fun a b => by
    simpa using ((hasDerivAt_id (0 : ℝ)).mul_const b).const_add a
  have hexp : ∀ a b : ℝ, HasDerivAt (fun t : ℝ => a * Real.exp (t * b / 2)) (a * (b / 2)) 0 := fun a b => by
    have h1 : HasDerivAt (fun t : ℝ => t * b / 2) (b / 2) 0 := by simpa using ((hasDerivAt_id (0 : ℝ)).mul_const b).div_const 2
    have := (h1.exp).const_mul a
    simpa using this
  have hw : (if nes then weights else weights.map fun w => w / (weights.map absK).sum) = snesUtilities nes weights := by
    unfold snesUtilities
    have : (weights.map absK).sum = (weights.map fun w => |w|).sum := by rw [show (absK : ℝ → ℝ) = fun w => |w| from funext absK_eq]
    rw [this]
  refine (weighted_curve (snesUtilities nes weights) samples (fun t j => mu j + t * p j) (fun t j => sigma j * Real.exp (t * q j / 2)) p (fun j => sigma j * (q j / 2)) (fun j => hlin _ _)
    (fun j => hexp _ _) (by simpa using hsig)).congr_deriv ?_
  refine Finset.sum_congr rfl fun j _ => ?_
  have hs := (hsig j).ne'
  have e1 : g.mu j = weighted (snesUtilities nes weights) samples fun x => x j - mu j := by
    simp only [g, expGradients, hw]
    rw [weightedSum_eq]
  have e2 : g.sigma j = weighted (snesUtilities nes weights) samples fun x => 1 / sigma j * (((x j - mu j) ^ 2 - sigma j ^ 2) / sigma j) := by
    simp only [g, expGradients, hw, List.map_map]
    rw [weightedSum_eq]
    congr 1
    funext x
    simp only [Function.comp_def]
    field_simp
  rw [weighted_mul] at e2
  simp only [zero_mul, add_zero, zero_div, Real.exp_zero, mul_one]
  rw [e1, e2]
  field_simp

/-- C114: a small enough update of SNES increases the weighted log-likelihood of the samples, unless the gradients vanish. -/
theorem C114_snes_improves (mu sigma : Fin d → ℝ) (hsig : ∀ j, 0 < sigma j) (nes : Bool) (samples : List (Fin d → ℝ)) (weights : List ℝ) (a b : ℝ) (ha : 0 < a) (hb : 0 < b)
    (hne : (expGradients mu sigma nes samples weights).mu ≠ 0 ∨ (expGradients mu sigma nes samples weights).sigma ≠ 0) :
    ∀ᶠ η in 𝓝[>] (0 : ℝ), let g := expGradients mu sigma nes samples weights
      weighted (snesUtilities nes weights) samples (logSep mu sigma) <
        weighted (snesUtilities nes weights) samples (logSep (updateSeparable (η * a) 0 mu sigma g).1 (ExpGaussian.snesUpdateSigma (η * b) sigma g.sigma)) := by
  set g := expGradients mu sigma nes samples weights with hg
  have hd := C114_snes_gradients mu sigma hsig nes samples weights (fun j => a * g.mu j) (fun j => b * g.sigma j)
  have hpos : 0 < ∑ j, ((a * g.mu j) * g.mu j / sigma j ^ 2 + (b * g.sigma j) * g.sigma j / 2) := by
    have e : ∀ j, (a * g.mu j) * g.mu j / sigma j ^ 2 + (b * g.sigma j) * g.sigma j / 2 = a * g.mu j ^ 2 / sigma j ^ 2 + b * g.sigma j ^ 2 / 2 := fun j => by ring
    simp only [e]
    refine Finset.sum_pos' (fun j _ => by have := hsig j; positivity) ?_
    rcases hne with h | h
    · obtain ⟨j, hj⟩ := Function.ne_iff.1 h
      have hj' : g.mu j ≠ 0 := hj
      have hs := hsig j
      refine ⟨j, Finset.mem_univ j, ?_⟩
      have : 0 < a * g.mu j ^ 2 / sigma j ^ 2 := by positivity
      have : 0 ≤ b * g.sigma j ^ 2 / 2 := by positivity
      linarith
    · obtain ⟨j, hj⟩ := Function.ne_iff.1 h
      have hj' : g.sigma j ≠ 0 := hj
      have hs := hsig j
      refine ⟨j, Finset.mem_univ j, ?_⟩
      have : 0 ≤ a * g.mu j ^ 2 / sigma j ^ 2 := by positivity
      have : 0 < b * g.sigma j ^ 2 / 2 := by positivity
      linarith
  have := eventually_increases _ _ hd hpos
  simp only [zero_mul, add_zero, zero_div, Real.exp_zero, mul_one] at this
  filter_upwards [this] with η hη
  have e2 : (fun j => sigma j * Real.exp (η * (b * g.sigma j) / 2)) = ExpGaussian.snesUpdateSigma (η * b) sigma g.sigma := by
    funext j
    simp only [ExpGaussian.snesUpdateSigma]
    congr 2
    ring
  rw [e2] at hη
  simp only [updateSeparable, mul_assoc]
  exact hη

example : (∀ j, (0 : ℝ) < (![1] : Fin 1 → ℝ) j) ∧ (expGradients (![0] : Fin 1 → ℝ) ![1] true [![1], ![-1]] [1, -1]).mu ≠ 0 := by
  refine ⟨by simp, fun h => ?_⟩
  have := congrFun h 0
  norm_num [expGradients, weightedSum] at this

end SNES

/-! ### XNES -/
section XNES
open ExpGaussian

/-- The entries of `exp (t H)`. -/
theorem exp_entry (H : Matrix (Fin d) (Fin d) ℝ) (i j : Fin d) : HasDerivAt (fun t : ℝ => NormedSpace.exp (t • H) i j) (H i j) 0 := by
  letI : NormedRing (Matrix (Fin d) (Fin d) ℝ) := Matrix.linftyOpNormedRing
  letI : NormedAlgebra ℝ (Matrix (Fin d) (Fin d) ℝ) := Matrix.linftyOpNormedAlgebra
  have h1 := hasDerivAt_exp_smul_const (𝕂 := ℝ) H (0 : ℝ)
  have h2 := (LinearMap.toContinuousLinearMap (Matrix.entryLinearMap ℝ ℝ i j)).hasFDerivAt (x := NormedSpace.exp ((0 : ℝ) • H))
  have h3 := h2.comp_hasDerivAt (0 : ℝ) h1
  rw [zero_smul, NormedSpace.exp_zero, one_mul] at h3
  exact h3

/-- The derivative of the determinant at the identity is the trace. -/
theorem det_curve (E : ℝ → Matrix (Fin d) (Fin d) ℝ) (H : Matrix (Fin d) (Fin d) ℝ) (h0 : E 0 = 1) (h : ∀ i j, HasDerivAt (fun t => E t i j) (H i j) 0) :
    HasDerivAt (fun t => (E t).det) H.trace 0 := by
  have h1 : HasDerivAt (fun t => ∑ σ : Equiv.Perm (Fin d), ((Equiv.Perm.sign σ : ℤ) : ℝ) * ∏ i, E t (σ i) i)
      (∑ σ : Equiv.Perm (Fin d), ((Equiv.Perm.sign σ : ℤ) : ℝ) * ∑ i, (∏ j ∈ Finset.univ.erase i, E 0 (σ j) j) • H (σ i) i) 0 :=
    HasDerivAt.fun_sum fun σ _ => (HasDerivAt.fun_finsetProd fun i _ => h (σ i) i).const_mul _
  have h2 : (fun t => (E t).det) = fun t => ∑ σ : Equiv.Perm (Fin d), ((Equiv.Perm.sign σ : ℤ) : ℝ) * ∏ i, E t (σ i) i := by
    funext t
    rw [Matrix.det_apply']
  rw [h2]
  refine h1.congr_deriv ?_
  rw [Finset.sum_eq_single (1 : Equiv.Perm (Fin d))]
  · simp only [Equiv.Perm.sign_one, Units.val_one, Int.cast_one, one_mul, Equiv.Perm.one_apply, h0, Matrix.trace, Matrix.diag_apply]
    refine Finset.sum_congr rfl fun i _ => ?_
    rw [Finset.prod_congr rfl fun j _ => Matrix.one_apply_eq j]
    simp
  · intro σ _ hσ
    rw [Finset.sum_eq_zero, mul_zero]
    intro i _
    have : ∃ j, j ≠ i ∧ σ j ≠ j := by
      by_contra hc
      push Not at hc
      apply hσ
      ext j
      by_cases hj : j = i
      · subst hj
        by_contra hne
        have h3 : σ j ≠ j := fun e => hne (by simp [e])
        have h4 := hc (σ j) h3
        exact h3 (σ.injective h4)
      · simp [hc j hj]
    obtain ⟨j, hj, hne⟩ := this
    rw [Finset.prod_eq_zero (Finset.mem_erase.2 ⟨hj, Finset.mem_univ j⟩), zero_smul]
    rw [h0, Matrix.one_apply_ne hne]
  · simp

/-- The derivative of the log-likelihood along the curve `mu + A (t v)`, `A exp (t H / 2)`. -/
theorem logFull_curve (mu : Fin d → ℝ) (A Ainv : Matrix (Fin d) (Fin d) ℝ) (hA : A * Ainv = 1) (v : Fin d → ℝ) (H : Matrix (Fin d) (Fin d) ℝ) (x : Fin d → ℝ) :
    HasDerivAt (fun t : ℝ => logFull (mu + A.mulVec (t • v)) (A * NormedSpace.exp ((t / 2) • H)) x)
      (v ⬝ᵥ Ainv.mulVec (x - mu) + 1 / 2 * (Ainv.mulVec (x - mu) ⬝ᵥ H.mulVec (Ainv.mulVec (x - mu)) - H.trace)) 0 := by
  set z := Ainv.mulVec (x - mu) with hz
  have hA' : Ainv * A = 1 := mul_eq_one_comm.1 hA
  have hdetA : A.det ≠ 0 := by
    intro h
    have := congrArg Matrix.det hA
    rw [Matrix.det_mul, h, zero_mul, Matrix.det_one] at this
    exact one_ne_zero this.symm
  let G : Matrix (Fin d) (Fin d) ℝ := (1 / 2 : ℝ) • H
  have hsm : ∀ t : ℝ, (t / 2) • H = t • G := fun t => by simp only [G, smul_smul]; congr 1; ring
  have hneg : ∀ t : ℝ, NormedSpace.exp (t • G) * NormedSpace.exp (t • (-G)) = 1 := by
    intro t
    rw [smul_neg, ← Matrix.exp_add_of_commute _ _ (Commute.neg_right (Commute.refl (t • G)))]
    simp
  have hinv : ∀ t : ℝ, (A * NormedSpace.exp (t • G))⁻¹ = NormedSpace.exp (t • (-G)) * Ainv := by
    intro t
    apply Matrix.inv_eq_right_inv
    rw [Matrix.mul_assoc, ← Matrix.mul_assoc (NormedSpace.exp (t • G)), hneg, Matrix.one_mul, hA]
  have hloc : ∀ t : ℝ, (A * NormedSpace.exp (t • G))⁻¹.mulVec (x - (mu + A.mulVec (t • v))) = (NormedSpace.exp (t • (-G))).mulVec (z - t • v) := by
    intro t
    rw [hinv, ← Matrix.mulVec_mulVec]
    congr 1
    rw [show x - (mu + A.mulVec (t • v)) = (x - mu) - A.mulVec (t • v) by abel, Matrix.mulVec_sub, Matrix.mulVec_mulVec, hA', Matrix.one_mulVec]
  have hcomp : ∀ i, HasDerivAt (fun t : ℝ => ((NormedSpace.exp (t • (-G))).mulVec (z - t • v)) i) (-(1 / 2) * (H.mulVec z) i - v i) 0 := by
    intro i
    have h1 : HasDerivAt (fun t : ℝ => ∑ j, NormedSpace.exp (t • (-G)) i j * (z j - t * v j)) (∑ j, ((-G) i j * (z j - 0 * v j) + NormedSpace.exp ((0 : ℝ) • (-G)) i j * (-v j))) 0 :=
      HasDerivAt.fun_sum fun j _ => by
        have h2 : HasDerivAt (fun t : ℝ => z j - t * v j) (-v j) 0 := by simpa using ((hasDerivAt_id (0 : ℝ)).mul_const (v j)).const_sub (z j)
        exact (exp_entry (-G) i j).mul h2
    have h3 : (fun t : ℝ => ((NormedSpace.exp (t • (-G))).mulVec (z - t • v)) i) = fun t : ℝ => ∑ j, NormedSpace.exp (t • (-G)) i j * (z j - t * v j) := by
      funext t
      simp [Matrix.mulVec, dotProduct]
    rw [h3]
    refine h1.congr_deriv ?_
    rw [Finset.sum_add_distrib]
    have e1 : ∑ j, (-G) i j * (z j - 0 * v j) = -(1 / 2) * (H.mulVec z) i := by
      simp only [Matrix.mulVec, dotProduct, Finset.mul_sum, G, Matrix.neg_apply, Matrix.smul_apply, smul_eq_mul]
      exact Finset.sum_congr rfl fun j _ => by ring
    have e2 : ∑ j, NormedSpace.exp ((0 : ℝ) • (-G)) i j * (-v j) = -v i := by
      rw [zero_smul, NormedSpace.exp_zero, Finset.sum_eq_single i]
      · simp
      · intro j _ hj
        rw [Matrix.one_apply_ne (Ne.symm hj), zero_mul]
      · simp
    rw [e1, e2]
    ring
  have hsq : HasDerivAt (fun t : ℝ => ∑ i, ((NormedSpace.exp (t • (-G))).mulVec (z - t • v)) i ^ 2) (∑ i, 2 * z i * (-(1 / 2) * (H.mulVec z) i - v i)) 0 := by
    refine HasDerivAt.fun_sum fun i _ => ?_
    have := (hcomp i).pow 2
    refine this.congr_deriv ?_
    simp
  have hdet : HasDerivAt (fun t : ℝ => Real.log |(A * NormedSpace.exp (t • G)).det|) G.trace 0 := by
    have h1 := det_curve (fun t : ℝ => NormedSpace.exp (t • G)) G (by simp) (exp_entry G)
    have h2 : HasDerivAt (fun t : ℝ => (A * NormedSpace.exp (t • G)).det) (A.det * G.trace) 0 := by
      simp only [Matrix.det_mul]
      exact h1.const_mul _
    have h3 := h2.log (by simpa using hdetA)
    simp only [Real.log_abs]
    refine h3.congr_deriv ?_
    simp only [zero_smul, NormedSpace.exp_zero, Matrix.mul_one]
    field_simp
  have hall := ((hsq.const_mul (-(1 / 2))).sub hdet).sub_const ((d / 2 : ℝ) * Real.log (2 * Real.pi))
  have hfun : (fun t : ℝ => logFull (mu + A.mulVec (t • v)) (A * NormedSpace.exp ((t / 2) • H)) x) =
      fun t : ℝ => -(1 / 2) * (∑ i, ((NormedSpace.exp (t • (-G))).mulVec (z - t • v)) i ^ 2) - Real.log |(A * NormedSpace.exp (t • G)).det| - (d / 2 : ℝ) * Real.log (2 * Real.pi) := by
    funext t
    unfold logFull
    rw [hsm, hloc]
  rw [hfun]
  refine hall.congr_deriv ?_
  have e1 : -(1 / 2) * ∑ i, 2 * z i * (-(1 / 2) * (H.mulVec z) i - v i) = v ⬝ᵥ z + 1 / 2 * (z ⬝ᵥ H.mulVec z) := by
    simp only [dotProduct, Finset.mul_sum]
    rw [← Finset.sum_add_distrib]
    exact Finset.sum_congr rfl fun i _ => by ring
  rw [e1]
  simp only [G, Matrix.trace_smul, smul_eq_mul]
  ring

theorem delta_dot (ws : List ℝ) (zs : List (Fin d → ℝ)) (v : Fin d → ℝ) : v ⬝ᵥ (List.zipWith (fun (w : ℝ) z => w • z) ws zs).sum = weighted ws zs fun z => v ⬝ᵥ z := by
  induction ws generalizing zs with
  | nil => simp [weighted]
  | cons w ws ih =>
    cases zs with
    | nil => simp [weighted]
    | cons z zs =>
      have := ih zs
      simp only [weighted, List.zipWith_cons_cons, List.sum_cons, dotProduct_add, dotProduct_smul, smul_eq_mul] at this ⊢
      rw [this]

theorem M_dot (ws : List ℝ) (zs : List (Fin d → ℝ)) (H : Matrix (Fin d) (Fin d) ℝ) :
    ∑ i, ∑ j, H i j * (List.zipWith (fun (w : ℝ) z => w • (Matrix.of (fun i j => z i * z j) - (1 : Matrix (Fin d) (Fin d) ℝ))) ws zs).sum i j = weighted ws zs fun z => z ⬝ᵥ H.mulVec z - H.trace := by
  induction ws generalizing zs with
  | nil => simp [weighted]
  | cons w ws ih =>
    cases zs with
    | nil => simp [weighted]
    | cons z zs =>
      have := ih zs
      simp only [weighted, List.zipWith_cons_cons, List.sum_cons] at this ⊢
      simp only [Matrix.add_apply, mul_add, Finset.sum_add_distrib, this]
      congr 1
      simp only [Matrix.smul_apply, Matrix.sub_apply, Matrix.of_apply, smul_eq_mul]
      have e1 : ∑ i, ∑ j, H i j * (w * (z i * z j - (1 : Matrix (Fin d) (Fin d) ℝ) i j)) = w * (∑ i, ∑ j, z i * (H i j * z j) - ∑ i, ∑ j, H i j * (1 : Matrix (Fin d) (Fin d) ℝ) i j) := by
        rw [← Finset.sum_sub_distrib, Finset.mul_sum]
        refine Finset.sum_congr rfl fun i _ => ?_
        rw [← Finset.sum_sub_distrib, Finset.mul_sum]
        exact Finset.sum_congr rfl fun j _ => by ring
      rw [e1]
      have e2 : ∑ i, ∑ j, z i * (H i j * z j) = z ⬝ᵥ H.mulVec z := by
        simp only [dotProduct, Matrix.mulVec, Finset.mul_sum]
      have e3 : ∑ i, ∑ j, H i j * (1 : Matrix (Fin d) (Fin d) ℝ) i j = H.trace := by
        simp [Matrix.trace, Matrix.one_apply]
      rw [e2, e3]

/-- C114: the gradients of `ExpGaussian` (XNES): moving the distribution along `mu + A (t v)`, `A exp (t H / 2)` changes the weighted log-likelihood of the samples at the rate `⟨v, d⟩ + ⟨H, M⟩ / 2`, where `d` and `M` are
the computed gradients. The weights are centred unless they were already. -/
theorem C114_xnes_gradients (s : State d) (hA : s.A * s.Ainv = 1) (c : Bool) (samples : List (Fin d → ℝ)) (weights : List ℝ) (v : Fin d → ℝ) (H : Matrix (Fin d) (Fin d) ℝ) :
    let g := gradients s c samples weights
    HasDerivAt (fun t : ℝ => weighted (utilities c weights) samples (logFull (s.mu + s.A.mulVec (t • v)) (s.A * NormedSpace.exp ((t / 2) • H))))
      (v ⬝ᵥ g.delta + 1 / 2 * ∑ i, ∑ j, H i j * g.M i j) 0 := by
  intro g
  refine (weighted_hasDerivAt (utilities c weights) samples _ _ 0 fun x => logFull_curve s.mu s.A s.Ainv hA v H x).congr_deriv ?_
  have hw : (if c then weights else weights.map fun w => w - weights.sum / weights.length) = utilities c weights := rfl
  simp only [g, gradients, hw]
  rw [delta_dot, M_dot, weighted_add, weighted_mul]
  have hm : ∀ f : (Fin d → ℝ) → ℝ, weighted (utilities c weights) (samples.map (toLocal s)) f = weighted (utilities c weights) samples fun x => f (toLocal s x) := by
    intro f
    simp [weighted, List.zipWith_map_right]
  rw [hm, hm]
  rfl

/-- C114: a small enough update of XNES increases the weighted log-likelihood of the samples, unless the gradients vanish. -/
theorem C114_xnes_improves (s : State d) (hA : s.A * s.Ainv = 1) (c : Bool) (samples : List (Fin d → ℝ)) (weights : List ℝ) (a b : ℝ) (ha : 0 < a) (hb : 0 < b)
    (hne : (gradients s c samples weights).delta ≠ 0 ∨ (gradients s c samples weights).M ≠ 0) :
    ∀ᶠ η in 𝓝[>] (0 : ℝ), ∃ s', update (some (η * a)) (η * b) s (gradients s c samples weights) = .ok s' ∧
      weighted (utilities c weights) samples (logFull s.mu s.A) < weighted (utilities c weights) samples (logFull s'.mu s'.A) := by
  set g := gradients s c samples weights with hg
  have hd := C114_xnes_gradients s hA c samples weights (a • g.delta) (b • g.M)
  have hpos : 0 < (a • g.delta) ⬝ᵥ g.delta + 1 / 2 * ∑ i, ∑ j, (b • g.M) i j * g.M i j := by
    have e1 : (a • g.delta) ⬝ᵥ g.delta = a * ∑ i, g.delta i ^ 2 := by
      rw [smul_dotProduct, smul_eq_mul]
      simp [dotProduct, pow_two]
    have e2 : ∑ i, ∑ j, (b • g.M) i j * g.M i j = b * ∑ i, ∑ j, g.M i j ^ 2 := by
      simp only [Finset.mul_sum, Matrix.smul_apply, smul_eq_mul]
      exact Finset.sum_congr rfl fun i _ => Finset.sum_congr rfl fun j _ => by ring
    rw [e1, e2]
    have n1 : 0 ≤ ∑ i, g.delta i ^ 2 := Finset.sum_nonneg fun i _ => sq_nonneg _
    have n2 : 0 ≤ ∑ i, ∑ j, g.M i j ^ 2 := Finset.sum_nonneg fun i _ => Finset.sum_nonneg fun j _ => sq_nonneg _
    rcases hne with h | h
    · obtain ⟨i, hi⟩ := Function.ne_iff.1 h
      have hi' : g.delta i ≠ 0 := hi
      have : 0 < ∑ i, g.delta i ^ 2 := Finset.sum_pos' (fun i _ => sq_nonneg _) ⟨i, Finset.mem_univ i, by positivity⟩
      positivity
    · have : ∃ i j, g.M i j ≠ 0 := by
        by_contra hc
        push Not at hc
        exact h (by ext i j; exact hc i j)
      obtain ⟨i, j, hij⟩ := this
      have : 0 < ∑ i, ∑ j, g.M i j ^ 2 :=
        Finset.sum_pos' (fun i _ => Finset.sum_nonneg fun j _ => sq_nonneg _) ⟨i, Finset.mem_univ i, Finset.sum_pos' (fun j _ => sq_nonneg _) ⟨j, Finset.mem_univ j, by positivity⟩⟩
      positivity
  have := eventually_increases _ _ hd hpos
  filter_upwards [this] with η hη
  refine ⟨_, rfl, ?_⟩
  have e0 : s.mu + s.A.mulVec ((0 : ℝ) • a • g.delta) = s.mu := by simp
  have e0' : s.A * NormedSpace.exp (((0 : ℝ) / 2) • b • g.M) = s.A := by simp
  have e1 : η • a • g.delta = (η * a) • g.delta := by rw [smul_smul]
  have e2 : (η / 2) • b • g.M = (1 / 2 : ℝ) • (η * b) • g.M := by rw [smul_smul, smul_smul]; congr 1; ring
  rw [e0, e0', e1, e2] at hη
  exact hη

/-- The specification of the full Gaussian agrees with the separable one on diagonal matrices, and in general is the density of `mu + A z` for a standard normal `z` by the change of variables. -/
theorem logFull_spec (mu x : Fin d → ℝ) : (∀ sigma : Fin d → ℝ, (∀ j, 0 < sigma j) → logFull mu (Matrix.diagonal sigma) x = logSep mu sigma x) ∧
    ∀ A : Matrix (Fin d) (Fin d) ℝ, logFull mu A x = logSep 0 1 (A⁻¹.mulVec (x - mu)) - Real.log |A.det| := by
  have hc : ∑ _j : Fin d, Real.log (Real.sqrt (2 * Real.pi)) = (d / 2 : ℝ) * Real.log (2 * Real.pi) := by
    rw [Real.log_sqrt (by positivity)]
    simp
    ring
  constructor
  · intro sigma hs
    have hinv : (Matrix.diagonal sigma)⁻¹ = Matrix.diagonal fun j => (sigma j)⁻¹ := by
      apply Matrix.inv_eq_right_inv
      rw [Matrix.diagonal_mul_diagonal, ← Matrix.diagonal_one]
      congr 1
      funext j
      exact mul_inv_cancel₀ (hs j).ne'
    unfold logFull logSep
    rw [hinv, Matrix.det_diagonal, Real.log_abs, Real.log_prod (fun j _ => (hs j).ne'), ← hc, Finset.mul_sum, ← Finset.sum_sub_distrib, ← Finset.sum_sub_distrib]
    refine Finset.sum_congr rfl fun j _ => ?_
    rw [logNormal_eq _ _ _ (hs j), Matrix.mulVec_diagonal]
    have := (hs j).ne'
    simp only [Pi.sub_apply]
    field_simp
  · intro A
    unfold logFull logSep
    have : ∀ j, logNormal ((0 : Fin d → ℝ) j) ((1 : Fin d → ℝ) j) ((A⁻¹.mulVec (x - mu)) j) = -(1 / 2) * (A⁻¹.mulVec (x - mu)) j ^ 2 - Real.log (Real.sqrt (2 * Real.pi)) := fun j => by
      rw [logNormal_eq _ _ _ (by simp)]
      simp
      ring
    simp only [this, Finset.sum_sub_distrib, hc, ← Finset.mul_sum]
    ring

example : ∃ s : State 1, s.A * s.Ainv = 1 ∧ (gradients s false [![1], ![-1]] [2, 0]).delta ≠ 0 := by
  refine ⟨⟨0, 1, 1⟩, by simp, fun h => ?_⟩
  have := congrFun h 0
  norm_num [gradients, toLocal] at this

end XNES

end EvoTorch.LogLikelihood
