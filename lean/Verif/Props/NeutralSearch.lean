import Verif.Model.Generations
import Verif.Proofs.CMAESNeutral
import Verif.Props.Selection
import Mathlib.Analysis.Matrix.Spectrum
import Mathlib.Algebra.Order.Chebyshev
/-!
C173: if the fitnesses carry no information about the solutions, the distribution-based searches do not drift on average.
-/
namespace EvoTorch.NeutralSearch
open EvoTorch.Generations EvoTorch.Distribution MeasureTheory ProbabilityTheory
open EvoTorch.GaussianScore (γ std draws)
open EvoTorch.BestWorst (Sense)
open EvoTorch.Selection (Sorter SorterSpec exampleSorter exampleSorter_spec)

variable {n d : ℕ}

/-! ### Generations whose fitnesses are given

The fitnesses `fits` are a given list, which does not depend on the draws. -/

/-- The utilities of given fitnesses (`distributions.py 273-296`). -/
noncomputable def given (sort : Sorter ℝ) (m : Method) (sense : Sense) (fits : List ℝ) : List ℝ := rank sort m (decide (sense = .max)) fits

/-- A generation of SNES. -/
noncomputable def snes (sort : Sorter ℝ) (m : Method) (sense : Sense) (lrMu lrSigma : ℝ) (fits : List ℝ) (s : Vec ℝ d × Vec ℝ d) (zs : List (Vec ℝ d)) : Vec ℝ d × Vec ℝ d :=
  let g := expGradients s.1 s.2 (decide (m = .nes)) (sample zs s) (given sort m sense fits)
  (fun j => s.1 j + lrMu * g.mu j, ExpGaussian.snesUpdateSigma lrSigma s.2 g.sigma)

/-- A generation of XNES. -/
noncomputable def xnes (sort : Sorter ℝ) (m : Method) (sense : Sense) (lrMu lrSigma : ℝ) (fits : List ℝ) (s : ExpGaussian.State d) (zs : List (Vec ℝ d)) : Except PyErr (ExpGaussian.State d) :=
  ExpGaussian.update (some lrMu) lrSigma s (ExpGaussian.gradients s m.alreadyCentered (zs.map (ExpGaussian.toGlobal s)) (given sort m sense fits))

/-- A generation of PGPE. -/
noncomputable def pgpe (sort : Sorter ℝ) (p : Pgpe) (fits : List ℝ) (s : Vec ℝ d × Vec ℝ d) (zs : List (Vec ℝ d)) : Except PyErr (Vec ℝ d × Vec ℝ d) :=
  if p.symmetric then
    (makeGaussianSymmetric (2 * zs.length) (fun i => zs.getD i 0) s.1 s.2).bind fun samples =>
      .ok (updateSeparable p.lrMu p.lrSigma s.1 s.2 (symmetricGradients p.divMu p.divSigma s.1 s.2 p.method.alreadyCentered samples (given sort p.method p.sense fits)))
  else
    .ok (updateSeparable p.lrMu p.lrSigma s.1 s.2 (plainGradients p.divMu p.divSigma s.1 s.2 p.method.alreadyCentered (sample zs s) (given sort p.method p.sense fits)))

/-- A generation of CEM. -/
noncomputable def cem (sort : Sorter ℝ) (ratio : ℝ) (sense : Sense) (fits : List ℝ) (s : Vec ℝ d × Vec ℝ d) (zs : List (Vec ℝ d)) : Vec ℝ d × Vec ℝ d :=
  cemUpdate sort ratio (decide (sense = .max)) s.1 s.2 (sample zs s) fits

/-- These are the generations of the model, for the fitnesses of the population. -/
theorem snesGen_given (sort : Sorter ℝ) (m : Method) (sense : Sense) (lrMu lrSigma : ℝ) (f : Vec ℝ d → ℝ) (s : Vec ℝ d × Vec ℝ d) (zs : List (Vec ℝ d)) :
    snesGen sort m sense lrMu lrSigma f s zs = snes sort m sense lrMu lrSigma ((sample zs s).map f) s zs := rfl

theorem xnesGen_given (sort : Sorter ℝ) (m : Method) (sense : Sense) (lrMu lrSigma : ℝ) (f : Vec ℝ d → ℝ) (s : ExpGaussian.State d) (zs : List (Vec ℝ d)) :
    xnesGen sort m sense lrMu lrSigma f s zs = xnes sort m sense lrMu lrSigma ((zs.map (ExpGaussian.toGlobal s)).map f) s zs := rfl

theorem cemGen_given (sort : Sorter ℝ) (ratio : ℝ) (sense : Sense) (f : Vec ℝ d → ℝ) (s : Vec ℝ d × Vec ℝ d) (zs : List (Vec ℝ d)) :
    cemGen sort ratio sense f s zs = cem sort ratio sense ((sample zs s).map f) s zs := rfl

/-! ### Sums over a population -/

theorem weightedSum_getD (w : List ℝ) (r : Fin n → Vec ℝ d) (j : Fin d) : weightedSum w (List.ofFn r) j = ∑ i : Fin n, w.getD i 0 * r i j := by
  unfold weightedSum
  induction n generalizing w with
  | zero => simp
  | succ n ih =>
    cases w with
    | nil => simp
    | cons a w =>
      rw [List.ofFn_succ, List.zipWith_cons_cons, List.sum_cons, ih, Fin.sum_univ_succ]
      simp

theorem zipSmul_getD {E : Type} [AddCommMonoid E] [Module ℝ E] (w : List ℝ) (r : Fin n → E) : (List.zipWith (fun w z => w • z) w (List.ofFn r)).sum = ∑ i : Fin n, w.getD i 0 • r i := by
  induction n generalizing w with
  | zero => simp
  | succ n ih =>
    cases w with
    | nil => simp
    | cons a w =>
      rw [List.ofFn_succ, List.zipWith_cons_cons, List.sum_cons, ih, Fin.sum_univ_succ]
      simp

theorem sample_ofFn (z : Fin n → Fin d → ℝ) (s : Vec ℝ d × Vec ℝ d) : sample (List.ofFn z) s = List.ofFn fun i j => z i j * s.2 j + s.1 j := by
  refine List.ext_getElem (by simp [sample, makeGaussian]) fun i h1 h2 => ?_
  have hi : i < n := by simpa using h2
  simp [sample, makeGaussian, hi]

/-- A sum with fixed weights over a population, of a function with mean zero. -/
theorem pop_mean {G : (Fin d → ℝ) → ℝ} (hG : Integrable G (std d)) (h0 : ∫ z, G z ∂std d = 0) (c : Fin n → ℝ) :
    Integrable (fun z : Fin n → Fin d → ℝ => ∑ i, c i * G (z i)) (draws n d) ∧ ∫ z : Fin n → Fin d → ℝ, ∑ i, c i * G (z i) ∂draws n d = 0 := by
  have hi : ∀ i : Fin n, Integrable (fun z : Fin n → Fin d → ℝ => c i * G (z i)) (draws n d) := fun i => (integrable_comp_eval (μ := fun _ : Fin n => std d) hG).const_mul _
  refine ⟨integrable_finsetSum _ fun i _ => hi i, ?_⟩
  rw [integral_finsetSum _ fun i _ => hi i]
  refine Finset.sum_eq_zero fun i _ => ?_
  rw [integral_const_mul, integral_comp_eval (μ := fun _ : Fin n => std d) (f := G) hG.aestronglyMeasurable, h0, mul_zero]

theorem mean_coord (j : Fin d) : Integrable (fun z : Fin d → ℝ => z j) (std d) ∧ ∫ z, z j ∂std d = 0 := CMAES.mean_z j

theorem mean_square (j k : Fin d) : Integrable (fun z : Fin d → ℝ => z j * z k - if j = k then 1 else 0) (std d) ∧ ∫ z : Fin d → ℝ, (z j * z k - if j = k then 1 else 0) ∂std d = 0 := by
  have h := CMAES.second_z j k
  refine ⟨h.1.sub (integrable_const _), ?_⟩
  rw [integral_sub h.1 (integrable_const _), h.2]
  simp

theorem mean_sq (j : Fin d) : Integrable (fun z : Fin d → ℝ => z j ^ 2 - 1) (std d) ∧ ∫ z : Fin d → ℝ, (z j ^ 2 - 1) ∂std d = 0 := by
  have := mean_square j j
  simpa [pow_two] using this

/-- A constant plus a term with mean zero. -/
theorem add_mean {F : (Fin n → Fin d → ℝ) → ℝ} (h : Integrable F (draws n d) ∧ ∫ z, F z ∂draws n d = 0) (a c : ℝ) :
    Integrable (fun z => a + c * F z) (draws n d) ∧ ∫ z, a + c * F z ∂draws n d = a := by
  refine ⟨(integrable_const _).add (h.1.const_mul c), ?_⟩
  rw [integral_add (integrable_const _) (h.1.const_mul c), integral_const_mul, h.2]
  simp

/-! ### SNES -/

/-- C173 for SNES: in a generation the center is on average unchanged, and so is the logarithm of every standard deviation, in whose terms the update of SNES is additive. -/
theorem C173_snes (sort : Sorter ℝ) (m : Method) (sense : Sense) (lrMu lrSigma : ℝ) (fits : List ℝ) (s : Vec ℝ d × Vec ℝ d) (hs : ∀ j, 0 < s.2 j) (j : Fin d) :
    (Integrable (fun z : Fin n → Fin d → ℝ => (snes sort m sense lrMu lrSigma fits s (List.ofFn z)).1 j) (draws n d) ∧
      ∫ z : Fin n → Fin d → ℝ, (snes sort m sense lrMu lrSigma fits s (List.ofFn z)).1 j ∂draws n d = s.1 j) ∧
    (Integrable (fun z : Fin n → Fin d → ℝ => Real.log ((snes sort m sense lrMu lrSigma fits s (List.ofFn z)).2 j)) (draws n d) ∧
      ∫ z : Fin n → Fin d → ℝ, Real.log ((snes sort m sense lrMu lrSigma fits s (List.ofFn z)).2 j) ∂draws n d = Real.log (s.2 j)) := by
  obtain ⟨w, hw⟩ : ∃ w : List ℝ, w = (if decide (m = .nes) then given sort m sense fits else (given sort m sense fits).map fun w => w / ((given sort m sense fits).map absK).sum) := ⟨_, rfl⟩
  have hj := (hs j).ne'
  have e1 : ∀ z : Fin n → Fin d → ℝ, (snes sort m sense lrMu lrSigma fits s (List.ofFn z)).1 j = s.1 j + lrMu * ∑ i : Fin n, (w.getD i 0 * s.2 j) * z i j := by
    intro z
    simp only [snes, expGradients, ← hw, sample_ofFn, List.map_ofFn, Function.comp_def, weightedSum_getD]
    congr 2
    exact Finset.sum_congr rfl fun i _ => by ring
  have e2 : ∀ z : Fin n → Fin d → ℝ, Real.log ((snes sort m sense lrMu lrSigma fits s (List.ofFn z)).2 j) = Real.log (s.2 j) + (0.5 * lrSigma) * ∑ i : Fin n, w.getD i 0 * (z i j ^ 2 - 1) := by
    intro z
    simp only [snes, ExpGaussian.snesUpdateSigma, expGradients, ← hw, sample_ofFn, List.map_ofFn, Function.comp_def, weightedSum_getD]
    rw [Real.log_mul hj (Real.exp_ne_zero _), Real.log_exp, mul_assoc]
    congr 3
    refine Finset.sum_congr rfl fun i _ => ?_
    field_simp
    ring
  simp only [e1, e2]
  exact ⟨add_mean (pop_mean (mean_coord j).1 (mean_coord j).2 _) _ _, add_mean (pop_mean (mean_sq j).1 (mean_sq j).2 _) _ _⟩

/-! ### PGPE -/

theorem divideGrad_eq (opt : Option DivideBy) (w : List ℝ) : ∃ c : ℝ, ∀ (g : Vec ℝ d) (j : Fin d), divideGrad opt g w j = c * g j := by
  cases opt with
  | none => exact ⟨1, fun g j => (one_mul _).symm⟩
  | some b => cases b <;> exact ⟨_, fun g j => div_eq_inv_mul _ _⟩

theorem symmetric_evens (z : Fin n → Fin d → ℝ) (s : Vec ℝ d × Vec ℝ d) : ∃ xs, makeGaussianSymmetric (2 * (List.ofFn z).length) (fun i => (List.ofFn z).getD i 0) s.1 s.2 = .ok xs ∧
    evens xs = List.ofFn fun i j => z i j * s.2 j + s.1 j := by
  have pairs : ∀ (g : Nat → Vec ℝ d) k, evens ((List.range (2 * k)).map g) = (List.range k).map fun i => g (2 * i) := by
    intro g k
    induction k generalizing g with
    | zero => rfl
    | succ k ih =>
      rw [show 2 * (k + 1) = 2 * k + 1 + 1 by ring, List.range_succ_eq_map, List.range_succ_eq_map]
      simp only [List.map_cons, List.map_map, evens]
      rw [List.range_succ_eq_map]
      simp only [List.map_cons, List.map_map]
      congr 1
      rw [ih]
      rfl
  refine ⟨_, by rw [makeGaussianSymmetric, if_neg (by omega)], ?_⟩
  simp only [List.map_map, pairs]
  refine List.ext_getElem (by simp) fun i h1 h2 => ?_
  have hi : i < n := by simpa using h2
  simp [hi]

/-- A generation of PGPE. -/
theorem pgpe_step (sort : Sorter ℝ) (p : Pgpe) (fits : List ℝ) (s : Vec ℝ d × Vec ℝ d) :
    ∃ next : (Fin n → Fin d → ℝ) → Vec ℝ d × Vec ℝ d, (∀ z, pgpe sort p fits s (List.ofFn z) = .ok (next z)) ∧
      ∀ j, (Integrable (fun z => (next z).1 j) (draws n d) ∧ ∫ z, (next z).1 j ∂draws n d = s.1 j) ∧
      (Integrable (fun z => (next z).2 j) (draws n d) ∧ ∫ z, (next z).2 j ∂draws n d = s.2 j) := by
  have main : ∀ (next : (Fin n → Fin d → ℝ) → Vec ℝ d × Vec ℝ d) (c1 c2 : ℝ) (w1 w2 : List ℝ) (j : Fin d),
      (∀ z, (next z).1 j = s.1 j + p.lrMu * (c1 * weightedSum w1 (List.ofFn fun (i : Fin n) j => z i j * s.2 j + s.1 j - s.1 j) j)) →
      (∀ z, (next z).2 j = s.2 j + p.lrSigma * (c2 * weightedSum w2 (List.ofFn fun (i : Fin n) j => ((z i j * s.2 j + s.1 j - s.1 j) ^ 2 - s.2 j ^ 2) / s.2 j) j)) →
      (Integrable (fun z => (next z).1 j) (draws n d) ∧ ∫ z, (next z).1 j ∂draws n d = s.1 j) ∧
      (Integrable (fun z => (next z).2 j) (draws n d) ∧ ∫ z, (next z).2 j ∂draws n d = s.2 j) := by
    intro next c1 c2 w1 w2 j h1 h2
    have e1 : ∀ z, (next z).1 j = s.1 j + (p.lrMu * c1) * ∑ i : Fin n, (w1.getD i 0 * s.2 j) * z i j := by
      intro z
      rw [h1, weightedSum_getD, mul_assoc]
      congr 3
      exact Finset.sum_congr rfl fun i _ => by ring
    have e2 : ∀ z, (next z).2 j = s.2 j + (p.lrSigma * c2) * ∑ i : Fin n, (w2.getD i 0 * s.2 j) * (z i j ^ 2 - 1) := by
      intro z
      rw [h2, weightedSum_getD, mul_assoc]
      congr 3
      refine Finset.sum_congr rfl fun i _ => ?_
      by_cases hj : s.2 j = 0
      · simp [hj]
      · field_simp
        ring
    simp only [e1, e2]
    exact ⟨add_mean (pop_mean (mean_coord j).1 (mean_coord j).2 _) _ _, add_mean (pop_mean (mean_sq j).1 (mean_sq j).2 _) _ _⟩
  cases hsym : p.symmetric with
  | false =>
    refine ⟨_, fun z => by simp only [pgpe, hsym]; rfl, fun j => ?_⟩
    obtain ⟨c1, hc1⟩ := divideGrad_eq (d := d) p.divMu (centerWeights p.method.alreadyCentered (given sort p.method p.sense fits))
    obtain ⟨c2, hc2⟩ := divideGrad_eq (d := d) p.divSigma (centerWeights p.method.alreadyCentered (given sort p.method p.sense fits))
    refine main _ c1 c2 (centerWeights p.method.alreadyCentered (given sort p.method p.sense fits)) (centerWeights p.method.alreadyCentered (given sort p.method p.sense fits)) j (fun z => ?_) fun z => ?_
    · simp only [updateSeparable, plainGradients, sample_ofFn, hc1, List.map_ofFn, Function.comp_def]
    · simp only [updateSeparable, plainGradients, sample_ofFn, hc2, List.map_ofFn, Function.comp_def]
  | true =>
    choose xs hx he using fun z : Fin n → Fin d → ℝ => symmetric_evens z s
    refine ⟨fun z => updateSeparable p.lrMu p.lrSigma s.1 s.2 (symmetricGradients p.divMu p.divSigma s.1 s.2 p.method.alreadyCentered (xs z) (given sort p.method p.sense fits)),
      fun z => by simp only [pgpe, hsym, if_true, hx]; rfl, fun j => ?_⟩
    obtain ⟨c1, hc1⟩ := divideGrad_eq (d := d) p.divMu (centerWeights p.method.alreadyCentered (given sort p.method p.sense fits))
    obtain ⟨c2, hc2⟩ := divideGrad_eq (d := d) p.divSigma (centerWeights p.method.alreadyCentered (given sort p.method p.sense fits))
    obtain ⟨ws, hws⟩ : ∃ ws, ws = centerWeights p.method.alreadyCentered (given sort p.method p.sense fits) := ⟨_, rfl⟩
    refine main _ c1 c2 (List.zipWith (fun a b => (a - b) / 2) (evens ws) (odds ws)) (List.zipWith (fun a b => (a + b) / 2) (evens ws) (odds ws)) j (fun z => ?_) fun z => ?_
    · simp only [updateSeparable, symmetricGradients, hc1, he, List.map_ofFn, Function.comp_def, hws]
    · simp only [updateSeparable, symmetricGradients, hc2, he, List.map_ofFn, Function.comp_def, hws]

/-- C173 for PGPE, with mirrored solutions or not, whatever the gradients are divided by: in a generation the center and the standard deviations are on average unchanged. -/
theorem C173_pgpe (sort : Sorter ℝ) (p : Pgpe) (fits : List ℝ) (s : Vec ℝ d × Vec ℝ d) (_ : ∀ j, s.2 j ≠ 0) :
    ∃ next : (Fin n → Fin d → ℝ) → Vec ℝ d × Vec ℝ d, (∀ z, pgpe sort p fits s (List.ofFn z) = .ok (next z)) ∧
      ∀ j, (Integrable (fun z => (next z).1 j) (draws n d) ∧ ∫ z, (next z).1 j ∂draws n d = s.1 j) ∧
      (Integrable (fun z => (next z).2 j) (draws n d) ∧ ∫ z, (next z).2 j ∂draws n d = s.2 j) :=
  pgpe_step sort p fits s

/-! ### XNES -/

/-- The determinant of the exponential of a symmetric matrix. -/
theorem det_exp {M : Matrix (Fin d) (Fin d) ℝ} (h : M.IsHermitian) : (NormedSpace.exp M).det = Real.exp M.trace := by
  have e := h.spectral_theorem
  rw [Unitary.conjStarAlgAut_apply] at e
  have hu : (h.eigenvectorUnitary : Matrix (Fin d) (Fin d) ℝ) * star (h.eigenvectorUnitary : Matrix (Fin d) (Fin d) ℝ) = 1 := Unitary.mul_star_self_of_mem h.eigenvectorUnitary.2
  have hi : (star (h.eigenvectorUnitary : Matrix (Fin d) (Fin d) ℝ)) = (h.eigenvectorUnitary : Matrix (Fin d) (Fin d) ℝ)⁻¹ := (Matrix.inv_eq_right_inv hu).symm
  have hun : IsUnit (h.eigenvectorUnitary : Matrix (Fin d) (Fin d) ℝ) := IsUnit.of_mul_eq_one _ hu
  have e2 : NormedSpace.exp M = (h.eigenvectorUnitary : Matrix (Fin d) (Fin d) ℝ) * NormedSpace.exp (Matrix.diagonal h.eigenvalues) * (h.eigenvectorUnitary : Matrix (Fin d) (Fin d) ℝ)⁻¹ := by
    rw [← Matrix.exp_conj _ _ hun, ← hi]
    congr 1
  rw [e2, Matrix.det_conj hun, Matrix.exp_diagonal, Matrix.det_diagonal, h.trace_eq_sum_eigenvalues]
  simp only [RCLike.ofReal_real_eq_id, id]
  rw [Real.exp_sum]
  refine Finset.prod_congr rfl fun i _ => ?_
  rw [Pi.coe_exp, Real.exp_eq_exp_ℝ]

/-- C173 for XNES: in a generation the center is on average unchanged, and so is the logarithm of the volume of the search distribution, the determinant of the matrix which shapes it. -/
theorem C173_xnes (sort : Sorter ℝ) (m : Method) (sense : Sense) (lrMu lrSigma : ℝ) (fits : List ℝ) (s : ExpGaussian.State d) (hs : s.Ainv * s.A = 1) :
    ∃ next : (Fin n → Fin d → ℝ) → ExpGaussian.State d, (∀ z, xnes sort m sense lrMu lrSigma fits s (List.ofFn z) = .ok (next z)) ∧
      (∀ j, Integrable (fun z => (next z).mu j) (draws n d) ∧ ∫ z, (next z).mu j ∂draws n d = s.mu j) ∧
      (Integrable (fun z => Real.log |(next z).A.det|) (draws n d) ∧ ∫ z, Real.log |(next z).A.det| ∂draws n d = Real.log |s.A.det|) ∧
      ∀ z, (next z).Ainv * (next z).A = 1 := by
  obtain ⟨w, hw⟩ : ∃ w : List ℝ, w = (if m.alreadyCentered then given sort m sense fits else (given sort m sense fits).map fun w => w - (given sort m sense fits).sum / (given sort m sense fits).length) := ⟨_, rfl⟩
  have hl : ∀ z : Fin n → Fin d → ℝ, ((List.ofFn z).map (ExpGaussian.toGlobal s)).map (ExpGaussian.toLocal s) = List.ofFn z := by
    intro z
    rw [List.map_map]
    conv_rhs => rw [← List.map_id (List.ofFn z)]
    congr 1
    funext v
    simp [ExpGaussian.toLocal, ExpGaussian.toGlobal, Matrix.mulVec_mulVec, hs]
  have hdet : s.A.det ≠ 0 := by
    intro h0
    have := congrArg Matrix.det hs
    simp [h0] at this
  let D : (Fin n → Fin d → ℝ) → Fin d → ℝ := fun z => ∑ i : Fin n, w.getD i 0 • z i
  let M : (Fin n → Fin d → ℝ) → Matrix (Fin d) (Fin d) ℝ := fun z => ∑ i : Fin n, w.getD i 0 • (Matrix.of (fun a b => z i a * z i b) - 1)
  have hM : ∀ z, (M z).IsHermitian := by
    intro z
    refine Matrix.IsHermitian.ext fun a b => ?_
    simp only [M, Matrix.sum_apply, Matrix.smul_apply, Matrix.sub_apply, Matrix.of_apply, Matrix.one_apply, star_trivial]
    refine Finset.sum_congr rfl fun i _ => ?_
    simp only [eq_comm, mul_comm]
  have hg : ∀ z : Fin n → Fin d → ℝ, ExpGaussian.gradients s m.alreadyCentered ((List.ofFn z).map (ExpGaussian.toGlobal s)) (given sort m sense fits) = ⟨D z, M z⟩ := by
    intro z
    unfold ExpGaussian.gradients
    simp only [hl, ← hw]
    have e1 := zipSmul_getD w z
    have e2 := zipSmul_getD w (fun i => Matrix.of (fun a b => z i a * z i b) - (1 : Matrix (Fin d) (Fin d) ℝ))
    have e3 : List.zipWith (fun (w : ℝ) (z : Fin d → ℝ) => w • (Matrix.of (fun i j => z i * z j) - (1 : Matrix (Fin d) (Fin d) ℝ))) w (List.ofFn z) =
        List.zipWith (fun w z => w • z) w (List.ofFn fun i => Matrix.of (fun a b => z i a * z i b) - (1 : Matrix (Fin d) (Fin d) ℝ)) := by
      rw [show (List.ofFn fun i => Matrix.of (fun a b => z i a * z i b) - (1 : Matrix (Fin d) (Fin d) ℝ)) = (List.ofFn z).map fun v => Matrix.of (fun a b => v a * v b) - 1 by simp [List.map_ofFn, Function.comp_def],
        List.zipWith_map_right]
    rw [e1, e3, e2]
  have hinv : ∀ X : Matrix (Fin d) (Fin d) ℝ, NormedSpace.exp ((-1/2 : ℝ) • X) * s.Ainv * (s.A * NormedSpace.exp ((1/2 : ℝ) • X)) = 1 := by
    intro X
    have : NormedSpace.exp ((-1/2 : ℝ) • X) * s.Ainv * (s.A * NormedSpace.exp ((1/2 : ℝ) • X)) = NormedSpace.exp ((-1/2 : ℝ) • X) * (s.Ainv * s.A) * NormedSpace.exp ((1/2 : ℝ) • X) := by
      simp only [Matrix.mul_assoc]
    rw [this, hs, mul_one, show (-1/2 : ℝ) • X = -((1/2 : ℝ) • X) by rw [← neg_smul]; norm_num, Matrix.exp_neg]
    exact Matrix.nonsing_inv_mul _ ((Matrix.isUnit_iff_isUnit_det _).mp (Matrix.isUnit_exp _))
  refine ⟨_, fun z => by simp only [xnes, hg]; rfl, fun j => ?_, ?_, fun z => hinv _⟩
  · have e : ∀ z : Fin n → Fin d → ℝ, (s.mu + s.A.mulVec (lrMu • D z)) j = s.mu j + lrMu * ∑ k, s.A j k * D z k := by
      intro z
      simp only [Pi.add_apply, Matrix.mulVec_smul, Pi.smul_apply, smul_eq_mul]
      rfl
    simp only [e]
    refine add_mean ?_ _ _
    have hk : ∀ k, Integrable (fun z : Fin n → Fin d → ℝ => s.A j k * D z k) (draws n d) ∧ ∫ z : Fin n → Fin d → ℝ, s.A j k * D z k ∂draws n d = 0 := by
      intro k
      have h := pop_mean (mean_coord k).1 (mean_coord k).2 (fun i : Fin n => w.getD i 0)
      have e : ∀ z : Fin n → Fin d → ℝ, D z k = ∑ i : Fin n, w.getD i 0 * z i k := fun z => by simp [D]
      simp only [e]
      exact ⟨h.1.const_mul _, by rw [integral_const_mul, h.2, mul_zero]⟩
    refine ⟨integrable_finsetSum _ fun k _ => (hk k).1, ?_⟩
    rw [integral_finsetSum _ fun k _ => (hk k).1]
    exact Finset.sum_eq_zero fun k _ => (hk k).2
  · have e : ∀ z : Fin n → Fin d → ℝ, Real.log |(s.A * NormedSpace.exp ((1/2 : ℝ) • (lrSigma • M z))).det| = Real.log |s.A.det| + (1/2 * lrSigma) * ∑ i : Fin n, w.getD i 0 * ∑ k, (z i k ^ 2 - 1) := by
      intro z
      have hh : ((1/2 : ℝ) • (lrSigma • M z)).IsHermitian := by
        refine Matrix.IsHermitian.ext fun a b => ?_
        have := (hM z).apply a b
        simp only [star_trivial] at this
        simp [this]
      have ht : (M z).trace = ∑ i : Fin n, w.getD i 0 * ∑ k, (z i k ^ 2 - 1) := by
        simp only [M, Matrix.trace_sum, Matrix.trace_smul, smul_eq_mul]
        refine Finset.sum_congr rfl fun i _ => ?_
        congr 1
        simp [Matrix.trace, pow_two]
      rw [Matrix.det_mul, det_exp hh, abs_mul, abs_of_pos (Real.exp_pos _), Real.log_mul (abs_ne_zero.mpr hdet) (Real.exp_ne_zero _), Real.log_exp, Matrix.trace_smul, Matrix.trace_smul, ht]
      simp only [smul_eq_mul]
      ring
    simp only [e]
    have hG : Integrable (fun z : Fin d → ℝ => ∑ k, (z k ^ 2 - 1)) (std d) ∧ ∫ z : Fin d → ℝ, ∑ k, (z k ^ 2 - 1) ∂std d = 0 := by
      refine ⟨integrable_finsetSum _ fun k _ => (mean_sq k).1, ?_⟩
      rw [integral_finsetSum _ fun k _ => (mean_sq k).1]
      exact Finset.sum_eq_zero fun k _ => (mean_sq k).2
    exact add_mean (pop_mean hG.1 hG.2 _) _ _

/-! ### CEM -/

/-- The number of elites. -/
noncomputable abbrev numElites (n : ℕ) (ratio : ℝ) : ℕ := ⌊(n : ℝ) * ratio⌋.toNat

/-- With given fitnesses the elites are given members of the population. -/
theorem elites_given {sort : Sorter ℝ} (hsort : SorterSpec sort) {ratio : ℝ} (h1 : ratio ≤ 1) (w : List ℝ) (hw : w.length = n) :
    ∃ e : Fin (numElites n ratio) → Fin n, Function.Injective e ∧ ∀ xs : Fin n → Vec ℝ d, elites sort ratio (List.ofFn xs) w = List.ofFn fun a => xs (e a) := by
  have hk : numElites n ratio ≤ n := by
    have : ⌊(n : ℝ) * ratio⌋ ≤ (n : ℤ) := by
      rw [Int.floor_le_iff]
      push_cast
      nlinarith [Nat.cast_nonneg (α := ℝ) n]
    unfold numElites
    omega
  obtain ⟨idx, hidx⟩ : ∃ idx, idx = (sort true w).take (numElites n ratio) := ⟨_, rfl⟩
  have hp := (hsort w).2
  have hlen : idx.length = numElites n ratio := by
    rw [hidx, List.length_take, hp.length, hw]
    omega
  have hnd : idx.Nodup := by
    rw [hidx]
    exact (List.take_sublist _ _).nodup hp.nodup
  have hlt : ∀ i ∈ idx, i < n := by
    intro i hi
    rw [hidx] at hi
    rw [← hw]
    exact hp.lt ((List.take_sublist _ _).subset hi)
  refine ⟨fun a => ⟨idx[a.1]'(by rw [hlen]; exact a.2), hlt _ (List.getElem_mem _)⟩, fun a b hab => ?_, fun xs => ?_⟩
  · have := Fin.mk.inj hab
    exact Fin.ext ((List.Nodup.getElem_inj_iff hnd).mp this)
  · have hg : ∀ l : List Nat, (∀ i ∈ l, i < n) → l.filterMap (fun i => (List.ofFn xs)[i]?) = l.map fun i => if h : i < n then xs ⟨i, h⟩ else 0 := by
      intro l hl
      induction l with
      | nil => rfl
      | cons i l ih =>
        have hi : i < n := hl i (by simp)
        rw [List.filterMap_cons, List.getElem?_eq_getElem (by simpa using hi), List.map_cons, ih fun i h => hl i (by simp [h])]
        simp [hi]
    have : elites sort ratio (List.ofFn xs) w = gather (List.ofFn xs) idx := by
      rw [hidx, elites, List.length_ofFn]
    rw [this, gather, hg idx hlt]
    refine List.ext_getElem (by simp [hlen]) fun i h3 h4 => ?_
    have : idx[i]'(by simpa using h3) < n := hlt _ (List.getElem_mem _)
    simp [this]

/-- What a generation of CEM computes, in terms of the draws of the elites. -/
theorem cem_eq {sort : Sorter ℝ} (hsort : SorterSpec sort) {ratio : ℝ} (h1 : ratio ≤ 1) (sense : Sense) (fits : List ℝ) (hf : fits.length = n) (s : Vec ℝ d × Vec ℝ d)
    (hk : 1 ≤ numElites n ratio) :
    ∃ e : Fin (numElites n ratio) → Fin n, Function.Injective e ∧ ∀ (z : Fin n → Fin d → ℝ) j,
      (cem sort ratio sense fits s (List.ofFn z)).1 j = s.1 j + s.2 j / numElites n ratio * ∑ a, z (e a) j ∧
      (cem sort ratio sense fits s (List.ofFn z)).2 j =
        Real.sqrt (s.2 j ^ 2 * (∑ a, z (e a) j ^ 2 - (∑ a, z (e a) j) ^ 2 / numElites n ratio) / ((numElites n ratio : ℝ) - 1)) := by
  have hw : (Ranking.raw (decide (sense = .max)) fits).length = n := by
    rw [← hf]; unfold Ranking.raw; split <;> simp
  obtain ⟨e, he, hes⟩ := elites_given (d := d) hsort h1 _ hw
  have hk' : (numElites n ratio : ℝ) ≠ 0 := by exact_mod_cast (by omega : numElites n ratio ≠ 0)
  refine ⟨e, he, fun z j => ?_⟩
  have hm : meanRows (List.ofFn fun a => fun j => z (e a) j * s.2 j + s.1 j) j = s.1 j + s.2 j / numElites n ratio * ∑ a, z (e a) j := by
    simp only [meanRows, List.map_ofFn, Function.comp_def, List.sum_ofFn, List.length_ofFn, Finset.sum_add_distrib, ← Finset.sum_mul, Finset.sum_const, Finset.card_univ, Fintype.card_fin, nsmul_eq_mul]
    field_simp
    ring
  simp only [cem, cemUpdate, updateSeparable, parenthoodGradients, sample_ofFn, hes, one_mul, add_sub_cancel]
  refine ⟨hm, ?_⟩
  rw [stdRows]
  simp only [hm, List.map_ofFn, Function.comp_def, List.sum_ofFn, List.length_ofFn]
  congr 2
  have : ∀ a, (z (e a) j * s.2 j + s.1 j - (s.1 j + s.2 j / numElites n ratio * ∑ a, z (e a) j)) ^ 2 =
      s.2 j ^ 2 * (z (e a) j ^ 2 - 2 * ((∑ a, z (e a) j) / numElites n ratio) * z (e a) j + ((∑ a, z (e a) j) / numElites n ratio) ^ 2) := fun a => by ring
  simp only [this, ← Finset.mul_sum, Finset.sum_add_distrib, Finset.sum_sub_distrib, Finset.sum_const, Finset.card_univ, Fintype.card_fin, nsmul_eq_mul]
  field_simp
  ring

theorem sum_sq_nonneg {k : ℕ} (u : Fin k → ℝ) (hk : 1 ≤ k) : 0 ≤ ∑ a, u a ^ 2 - (∑ a, u a) ^ 2 / k := by
  have h := sq_sum_le_card_mul_sum_sq (s := Finset.univ) (f := u)
  have hk' : (0 : ℝ) < k := by exact_mod_cast hk
  rw [sub_nonneg, div_le_iff₀ hk']
  simpa [mul_comm] using h

/-- The spread of independent draws: on average one less than their number. -/
theorem spread_mean {k : ℕ} (hk : 1 ≤ k) (e : Fin k → Fin n) (he : Function.Injective e) (j : Fin d) :
    Integrable (fun z : Fin n → Fin d → ℝ => ∑ a, z (e a) j ^ 2 - (∑ a, z (e a) j) ^ 2 / k) (draws n d) ∧
      ∫ z : Fin n → Fin d → ℝ, (∑ a, z (e a) j ^ 2 - (∑ a, z (e a) j) ^ 2 / k) ∂draws n d = k - 1 := by
  have hk' : (k : ℝ) ≠ 0 := by exact_mod_cast (by omega : k ≠ 0)
  have prod : ∀ a b : Fin k, Integrable (fun z : Fin n → Fin d → ℝ => z (e a) j * z (e b) j) (draws n d) ∧ ∫ z : Fin n → Fin d → ℝ, z (e a) j * z (e b) j ∂draws n d = if a = b then 1 else 0 := by
    intro a b
    by_cases h : a = b
    · subst h
      have h2 := CMAES.second_z j j
      refine ⟨integrable_comp_eval (μ := fun _ : Fin n => std d) (i := e a) h2.1, ?_⟩
      rw [integral_comp_eval (μ := fun _ : Fin n => std d) (i := e a) (f := fun z : Fin d → ℝ => z j * z j) h2.1.aestronglyMeasurable, h2.2]
      simp
    · have hm := mean_coord j
      have := GaussianScore.pop_cross (std d) (e a) (e b) (fun hh => h (he hh)) (fun z => z j) (fun z => z j) (by fun_prop) (by fun_prop) hm.1 hm.1
      refine ⟨this.1, ?_⟩
      rw [this.2, hm.2, if_neg h, zero_mul]
  have e1 : ∀ z : Fin n → Fin d → ℝ, ∑ a, z (e a) j ^ 2 - (∑ a, z (e a) j) ^ 2 / k = ∑ a, z (e a) j * z (e a) j - 1 / k * ∑ a, ∑ b, z (e a) j * z (e b) j := by
    intro z
    rw [pow_two (∑ a, z (e a) j), Finset.sum_mul_sum]
    simp only [pow_two]
    ring
  have i1 : Integrable (fun z : Fin n → Fin d → ℝ => ∑ a, z (e a) j * z (e a) j) (draws n d) := integrable_finsetSum _ fun a _ => (prod a a).1
  have i2 : ∀ a, Integrable (fun z : Fin n → Fin d → ℝ => ∑ b, z (e a) j * z (e b) j) (draws n d) := fun a => integrable_finsetSum _ fun b _ => (prod a b).1
  have i3 : Integrable (fun z : Fin n → Fin d → ℝ => 1 / (k : ℝ) * ∑ a, ∑ b, z (e a) j * z (e b) j) (draws n d) := (integrable_finsetSum _ fun a _ => i2 a).const_mul _
  simp only [e1]
  refine ⟨i1.sub i3, ?_⟩
  rw [integral_sub i1 i3, integral_const_mul, integral_finsetSum _ fun a _ => (prod a a).1, integral_finsetSum _ fun a _ => i2 a]
  have : ∀ a : Fin k, ∫ z : Fin n → Fin d → ℝ, ∑ b, z (e a) j * z (e b) j ∂draws n d = 1 := by
    intro a
    rw [integral_finsetSum _ fun b _ => (prod a b).1]
    simp only [(prod _ _).2]
    simp
  simp only [this, (prod _ _).2]
  simp
  field_simp

/-- C173 for CEM: in a generation the center is on average unchanged, and so is the variance (the square of the standard deviation) in every coordinate. There must be at least two elites, as a single one has no standard deviation. -/
theorem C173_cem {sort : Sorter ℝ} (hsort : SorterSpec sort) {ratio : ℝ} (h1 : ratio ≤ 1) (hk : 2 ≤ numElites n ratio) (sense : Sense) (fits : List ℝ) (hf : fits.length = n)
    (s : Vec ℝ d × Vec ℝ d) (j : Fin d) :
    (Integrable (fun z : Fin n → Fin d → ℝ => (cem sort ratio sense fits s (List.ofFn z)).1 j) (draws n d) ∧
      ∫ z : Fin n → Fin d → ℝ, (cem sort ratio sense fits s (List.ofFn z)).1 j ∂draws n d = s.1 j) ∧
    (Integrable (fun z : Fin n → Fin d → ℝ => (cem sort ratio sense fits s (List.ofFn z)).2 j ^ 2) (draws n d) ∧
      ∫ z : Fin n → Fin d → ℝ, (cem sort ratio sense fits s (List.ofFn z)).2 j ^ 2 ∂draws n d = s.2 j ^ 2) := by
  obtain ⟨e, he, hz⟩ := cem_eq hsort h1 sense fits hf s (by omega)
  have hk' : (2 : ℝ) ≤ numElites n ratio := by exact_mod_cast hk
  have hk1 : (numElites n ratio : ℝ) - 1 ≠ 0 := by linarith
  have e1 := fun z : Fin n → Fin d → ℝ => (hz z j).1
  have e2 : ∀ z : Fin n → Fin d → ℝ, (cem sort ratio sense fits s (List.ofFn z)).2 j ^ 2 = s.2 j ^ 2 / (numElites n ratio - 1) * (∑ a, z (e a) j ^ 2 - (∑ a, z (e a) j) ^ 2 / numElites n ratio) := by
    intro z
    rw [(hz z j).2, Real.sq_sqrt]
    · ring
    · exact div_nonneg (mul_nonneg (sq_nonneg _) (sum_sq_nonneg (fun a => z (e a) j) (by omega))) (by linarith)
  have hs := spread_mean (by omega : 1 ≤ numElites n ratio) e he j
  simp only [e1, e2]
  refine ⟨add_mean ⟨integrable_finsetSum _ fun a _ => integrable_comp_eval (μ := fun _ : Fin n => std d) (i := e a) (mean_coord j).1, ?_⟩ _ _, hs.1.const_mul _, ?_⟩
  · rw [integral_finsetSum _ fun a _ => integrable_comp_eval (μ := fun _ : Fin n => std d) (i := e a) (mean_coord j).1]
    refine Finset.sum_eq_zero fun a _ => ?_
    rw [integral_comp_eval (μ := fun _ : Fin n => std d) (i := e a) (f := fun z : Fin d → ℝ => z j) (mean_coord j).1.aestronglyMeasurable, (mean_coord j).2]
  · rw [integral_const_mul, hs.2]
    field_simp

instance : Measure.IsOpenPosMeasure γ := (gaussianReal_absolutelyContinuous' 0 one_ne_zero).isOpenPosMeasure

/-- C173 for CEM: the standard deviation itself is on average strictly smaller after a generation, although the ranking carries no information. -/
theorem C173_cem_stdev_shrinks {sort : Sorter ℝ} (hsort : SorterSpec sort) {ratio : ℝ} (h1 : ratio ≤ 1) (hk : 2 ≤ numElites n ratio) (sense : Sense) (fits : List ℝ) (hf : fits.length = n)
    (s : Vec ℝ d × Vec ℝ d) (j : Fin d) (hs : 0 < s.2 j) :
    Integrable (fun z : Fin n → Fin d → ℝ => (cem sort ratio sense fits s (List.ofFn z)).2 j) (draws n d) ∧
      ∫ z : Fin n → Fin d → ℝ, (cem sort ratio sense fits s (List.ofFn z)).2 j ∂draws n d < s.2 j := by
  obtain ⟨e, he, hz⟩ := cem_eq hsort h1 sense fits hf s (by omega)
  obtain ⟨i2, m2⟩ := (C173_cem hsort h1 hk sense fits hf s j).2
  have hk' : (2 : ℝ) ≤ numElites n ratio := by exact_mod_cast hk
  obtain ⟨S, hS⟩ : ∃ S : (Fin n → Fin d → ℝ) → ℝ, S = fun z => (cem sort ratio sense fits s (List.ofFn z)).2 j := ⟨_, rfl⟩
  have hS' : S = fun z => Real.sqrt (s.2 j ^ 2 * (∑ a, z (e a) j ^ 2 - (∑ a, z (e a) j) ^ 2 / numElites n ratio) / ((numElites n ratio : ℝ) - 1)) := by
    rw [hS]; funext z; exact (hz z j).2
  have hc : Continuous S := by
    rw [hS']
    fun_prop
  have h0 : ∀ z, 0 ≤ S z := fun z => by rw [hS']; exact Real.sqrt_nonneg _
  have i2 : Integrable (fun z => S z ^ 2) (draws n d) := by rw [hS]; exact i2
  have m2 : ∫ z, S z ^ 2 ∂draws n d = s.2 j ^ 2 := by rw [hS]; exact m2
  have i1 : Integrable S (draws n d) := by
    refine Integrable.mono' (i2.add (integrable_const (1 : ℝ))) hc.aestronglyMeasurable (ae_of_all _ fun z => ?_)
    rw [Real.norm_eq_abs, abs_of_nonneg (h0 z), Pi.add_apply]
    nlinarith [sq_nonneg (S z - 1), h0 z]
  obtain ⟨m, hm⟩ : ∃ m, m = ∫ z, S z ∂draws n d := ⟨_, rfl⟩
  have hi : Integrable (fun z => (S z - m) ^ 2) (draws n d) := by
    have : (fun z => (S z - m) ^ 2) = fun z => S z ^ 2 - (2 * m) * S z + m ^ 2 := by funext z; ring
    rw [this]
    exact (i2.sub (i1.const_mul _)).add (integrable_const _)
  have hv : ∫ z, (S z - m) ^ 2 ∂draws n d = s.2 j ^ 2 - m ^ 2 := by
    have : (fun z => (S z - m) ^ 2) = fun z => (S z ^ 2 - (2 * m) * S z) + m ^ 2 := by funext z; ring
    have j1 : Integrable (fun z => S z ^ 2 - (2 * m) * S z) (draws n d) := i2.sub (i1.const_mul _)
    rw [this, integral_add j1 (integrable_const _), integral_sub i2 (i1.const_mul _), integral_const_mul, m2, ← hm]
    simp
    ring
  have hne : ∃ z, (S z - m) ^ 2 ≠ 0 := by
    by_contra hcon
    push Not at hcon
    have hz0 : S 0 = 0 := by rw [hS']; simp
    have hm0 : m = 0 := by
      have := hcon 0
      rw [hz0] at this
      nlinarith
    have : ∀ z, S z ^ 2 = 0 := fun z => by have := hcon z; rwa [hm0, sub_zero] at this
    simp only [this, integral_zero] at m2
    nlinarith
  obtain ⟨z, hz⟩ := hne
  have : (std d).IsOpenPosMeasure := Measure.pi.isOpenPosMeasure _
  have : (draws n d).IsOpenPosMeasure := Measure.pi.isOpenPosMeasure _
  have hpos := integral_pos_of_integrable_nonneg_nonzero (μ := draws n d) (by fun_prop : Continuous fun z => (S z - m) ^ 2) hi (fun z => sq_nonneg _) hz
  rw [hv] at hpos
  rw [hS] at i1 hm
  refine ⟨i1, ?_⟩
  rw [← hm]
  nlinarith

/-! ### Runs -/

/-- The average of `F` after some generations, for given fitnesses in every generation. A failing generation would count as zero. -/
noncomputable def meanAfter {σ : Type} (n : ℕ) {d : ℕ} (gen : List ℝ → σ → List (Vec ℝ d) → Except PyErr σ) (F : σ → ℝ) : List (List ℝ) → σ → ℝ
  | [], s => F s
  | fits :: rest, s => ∫ z : Fin n → Fin d → ℝ, (gen fits s (List.ofFn z)).toOption.elim 0 (meanAfter n gen F rest) ∂draws n d

/-- C173 over a whole run: SNES. -/
theorem C173_snes_run (sort : Sorter ℝ) (m : Method) (sense : Sense) (lrMu lrSigma : ℝ) (fitss : List (List ℝ)) (s : Vec ℝ d × Vec ℝ d) (hs : ∀ j, 0 < s.2 j) (j : Fin d) :
    meanAfter n (fun fits s zs => .ok (snes sort m sense lrMu lrSigma fits s zs)) (fun s => s.1 j) fitss s = s.1 j ∧
    meanAfter n (fun fits s zs => .ok (snes sort m sense lrMu lrSigma fits s zs)) (fun s => Real.log (s.2 j)) fitss s = Real.log (s.2 j) := by
  induction fitss generalizing s with
  | nil => exact ⟨rfl, rfl⟩
  | cons fits rest ih =>
    have hpos : ∀ zs j, 0 < (snes sort m sense lrMu lrSigma fits s zs).2 j := fun zs j => mul_pos (hs j) (Real.exp_pos _)
    have h := C173_snes (n := n) sort m sense lrMu lrSigma fits s hs j
    simp only [meanAfter, Except.toOption, Option.elim]
    constructor
    · simp only [(ih _ (hpos _)).1]; exact h.1.2
    · simp only [(ih _ (hpos _)).2]; exact h.2.2

/-- C173 over a whole run: XNES. -/
theorem C173_xnes_run (sort : Sorter ℝ) (m : Method) (sense : Sense) (lrMu lrSigma : ℝ) (fitss : List (List ℝ)) (s : ExpGaussian.State d) (hs : s.Ainv * s.A = 1) :
    (∀ j, meanAfter n (xnes sort m sense lrMu lrSigma) (fun s => s.mu j) fitss s = s.mu j) ∧
    meanAfter n (xnes sort m sense lrMu lrSigma) (fun s => Real.log |s.A.det|) fitss s = Real.log |s.A.det| := by
  induction fitss generalizing s with
  | nil => exact ⟨fun _ => rfl, rfl⟩
  | cons fits rest ih =>
    obtain ⟨next, e, h1, h2, h3⟩ := C173_xnes (n := n) sort m sense lrMu lrSigma fits s hs
    simp only [meanAfter, e, Except.toOption, Option.elim]
    constructor
    · intro j; simp only [(ih _ (h3 _)).1]; exact (h1 j).2
    · simp only [(ih _ (h3 _)).2]; exact h2.2

/-- C173 over a whole run: PGPE. Should a standard deviation become exactly zero on the way, the model computes `0 / 0 = 0` for its gradient; the code would compute NaN. -/
theorem C173_pgpe_run (sort : Sorter ℝ) (p : Pgpe) (fitss : List (List ℝ)) (s : Vec ℝ d × Vec ℝ d) (j : Fin d) :
    meanAfter n (pgpe sort p) (fun s => s.1 j) fitss s = s.1 j ∧ meanAfter n (pgpe sort p) (fun s => s.2 j) fitss s = s.2 j := by
  induction fitss generalizing s with
  | nil => exact ⟨rfl, rfl⟩
  | cons fits rest ih =>
    obtain ⟨next, e, h⟩ := pgpe_step (n := n) sort p fits s
    simp only [meanAfter, e, Except.toOption, Option.elim]
    constructor
    · simp only [(ih _).1]; exact (h j).1.2
    · simp only [(ih _).2]; exact (h j).2.2

/-- C173 over a whole run: CEM. -/
theorem C173_cem_run {sort : Sorter ℝ} (hsort : SorterSpec sort) {ratio : ℝ} (h1 : ratio ≤ 1) (hk : 2 ≤ numElites n ratio) (sense : Sense) (fitss : List (List ℝ)) (hf : ∀ fits ∈ fitss, fits.length = n)
    (s : Vec ℝ d × Vec ℝ d) (j : Fin d) :
    meanAfter n (fun fits s zs => .ok (cem sort ratio sense fits s zs)) (fun s => s.1 j) fitss s = s.1 j ∧
    meanAfter n (fun fits s zs => .ok (cem sort ratio sense fits s zs)) (fun s => s.2 j ^ 2) fitss s = s.2 j ^ 2 := by
  induction fitss generalizing s with
  | nil => exact ⟨rfl, rfl⟩
  | cons fits rest ih =>
    have ih := fun s => ih (fun f hm => hf f (.tail _ hm)) s
    have h := C173_cem hsort h1 hk sense fits (hf fits (.head _)) s j
    simp only [meanAfter, Except.toOption, Option.elim]
    constructor
    · simp only [(ih _).1]; exact h.1.2
    · simp only [(ih _).2]; exact h.2.2

/-! ### A flat fitness -/

/-- C173: a fitness function which is the same everywhere gives such generations: the center of every search is on average unchanged. -/
theorem C173_flat {sort : Sorter ℝ} (hsort : SorterSpec sort) (m : Method) (sense : Sense) (lrMu lrSigma c : ℝ) {ratio : ℝ} (h1 : ratio ≤ 1) (hk : 2 ≤ numElites n ratio)
    (s : Vec ℝ d × Vec ℝ d) (hs : ∀ j, 0 < s.2 j) (j : Fin d) :
    ∫ z : Fin n → Fin d → ℝ, (snesGen sort m sense lrMu lrSigma (fun _ => c) s (List.ofFn z)).1 j ∂draws n d = s.1 j ∧
    ∫ z : Fin n → Fin d → ℝ, (cemGen sort ratio sense (fun _ => c) s (List.ofFn z)).1 j ∂draws n d = s.1 j := by
  have e : ∀ z : Fin n → Fin d → ℝ, (sample (List.ofFn z) s).map (fun _ => c) = List.replicate n c := fun z => by
    rw [sample_ofFn, List.map_const', List.length_ofFn]
  simp only [snesGen_given, cemGen_given, e]
  exact ⟨(C173_snes sort m sense lrMu lrSigma _ s hs j).1.2, (C173_cem hsort h1 hk sense _ (by simp) s j).1.2⟩

/-! ### The hypotheses can be met -/

example (j : Fin 3) : ∫ z : Fin 4 → Fin 3 → ℝ, (snes exampleSorter .nes .min 1 (1/10) [3, 1, 2, 1] (0, 1) (List.ofFn z)).1 j ∂draws 4 3 = 0 :=
  (C173_snes exampleSorter .nes .min 1 (1/10) [3, 1, 2, 1] ((0 : Vec ℝ 3), 1) (fun _ => one_pos) j).1.2

example (j : Fin 3) : ∫ z : Fin 4 → Fin 3 → ℝ, (cem exampleSorter (1/2) .min [3, 1, 2, 1] (0, 1) (List.ofFn z)).2 j ∂draws 4 3 < 1 :=
  (C173_cem_stdev_shrinks exampleSorter_spec (by norm_num) (by norm_num [numElites]) .min [3, 1, 2, 1] rfl ((0 : Vec ℝ 3), 1) j one_pos).2

example (j : Fin 3) : meanAfter 4 (xnes exampleSorter .nes .max 1 (1/10)) (fun s => s.mu j) [[3, 1, 2, 1], [0, 0, 5, 5]] (⟨0, 1, 1⟩ : ExpGaussian.State 3) = 0 :=
  (C173_xnes_run exampleSorter .nes .max 1 (1/10) _ _ (by simp)).1 j

example (j : Fin 3) : ∃ next : (Fin 4 → Fin 3 → ℝ) → Vec ℝ 3 × Vec ℝ 3,
    (∀ z, pgpe exampleSorter ⟨true, some .numDirections, some .numDirections, .centered, .max, 1/2, 1/10⟩ [3, 1, 2, 1, 0, 0, 5, 4] (0, 1) (List.ofFn z) = .ok (next z)) ∧
      ∫ z, (next z).2 j ∂draws 4 3 = 1 := by
  obtain ⟨next, h1, h3⟩ := C173_pgpe (n := 4) exampleSorter ⟨true, some .numDirections, some .numDirections, .centered, .max, 1/2, 1/10⟩ [3, 1, 2, 1, 0, 0, 5, 4] ((0 : Vec ℝ 3), 1) (fun _ => one_ne_zero)
  exact ⟨next, h1, (h3 j).2.2⟩

end EvoTorch.NeutralSearch
