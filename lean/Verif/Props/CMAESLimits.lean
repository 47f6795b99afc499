import Verif.Props.CMAES
import Mathlib.Analysis.SpecialFunctions.Log.Deriv
import Mathlib.Analysis.Complex.ExponentialBounds
/-! C71, C72, C82: the cases in which CMA-ES does not do what is claimed, and examples meeting the hypotheses. -/
namespace EvoTorch.CMAES
open Matrix Spec Selection
open BestWorst (Sense)

/-! ### Examples -/

/-- A `topk`: the first `k` positions in descending order. -/
noncomputable def exampleTopk (n : Nat) : Topk n := fun v k =>
  ((List.finRange n).filter fun i : Fin n => (i : Nat) < k).map
    (exists_idx (n := n) (exampleSorter true (List.ofFn v))
      (by have := (exampleSorter_spec (K := ℝ) (List.ofFn v)).2.1; rwa [List.length_ofFn] at this)).choose

theorem exampleTopk_spec (n : Nat) : TopkSpec (exampleTopk n) := by
  intro v k hk
  unfold exampleTopk
  generalize_proofs hp
  obtain ⟨hb, hl⟩ := hp.choose_spec
  generalize hp.choose = idx at *
  have hpw := (exampleSorter_spec (K := ℝ) (List.ofFn v)).2.2
  rw [hl, List.pairwise_ofFn] at hpw
  refine ⟨by rw [List.length_map]; exact filter_lt_length n k hk, ((List.nodup_finRange n).filter _).map hb.1, ?_⟩
  intro i hi j hj
  simp only [List.mem_map, List.mem_filter, List.mem_finRange, true_and, decide_eq_true_eq] at hi hj
  obtain ⟨a, ha, rfl⟩ := hi
  obtain ⟨b, rfl⟩ := hb.2 j
  have hbk : k ≤ (b : Nat) := by
    by_contra hlt; exact hj ⟨b, by omega, rfl⟩
  have hab : a < b := by rw [Fin.lt_def]; omega
  exact hpw hab _ _ (by simp) (by simp)

theorem muEff_two : muEff 2 = 1 := by
  have h : (0 : ℝ) < rawWeight 2 0 := raw_pos (by decide)
  have hm : mu 2 = 1 := by decide
  unfold muEff sumPos
  rw [hm]
  simp [List.range_succ]
  exact h.ne'

/-- The default rates of the non-separable variant for two coordinates and two solutions. -/
theorem rates_two (o : Options) (hsep : o.separable = false) (h1 : o.c1 = none) (hmu : o.cMu = none)
    (hr1 : o.c1Ratio = 1) (hrmu : o.cMuRatio = 1) (hc : o.cC = none) (hrc : o.cCRatio = 1) : SafeRates o 2 2 ∧ 1 / 35 ≤ cMu o 2 2 := by
  have hv := C71_default_rates o hsep h1 hmu hr1 hrmu 2 (by norm_num) (le_refl 2)
  have hc1 : c1 o 2 2 = 2 / 3 / 11.89 := by
    simp only [c1, hsep, h1, hr1, muEff_two, Option.getD_none]
    norm_num
  have hcmu : cMu o 2 2 = 1 / 34 := by
    simp only [cMu, hsep, hmu, hrmu, muEff_two, Option.getD_none, hc1]
    norm_num
  have hcc : cC o 2 2 = 4.5 / 7 := by
    simp only [cC, hsep, hc, hrc, muEff_two, Option.getD_none]
    norm_num
  refine ⟨⟨hv, ?_, ?_⟩, ?_⟩
  · rw [hc1, hcmu]; norm_num
  · rw [hcc]; norm_num
  · rw [hcmu]; norm_num

/-- A population of two draws, the first of which is the better solution. -/
noncomputable def exampleEnv : Env 2 2 :=
  { zs := ![![10, 10], ![10, -10]], sorted := fun _ => [0, 1], topk := exampleTopk 2, freq := 1 }

theorem exampleEnv_good : GoodEnv exampleEnv := by
  refine ⟨?_, fun _ => by simp [exampleEnv, List.range_succ], rfl⟩
  intro i h
  have := congrFun h 0
  fin_cases i <;> simp [exampleEnv] at this

/-- The hypotheses of C82 (and of C71) are met by the default options. -/
example : SafeRates Options.default 2 2 ∧ Options.default.limits = false ∧ CholSpec (exampleChol (d := 2)) ∧
    GoodEnv exampleEnv ∧ TopkSpec exampleEnv.topk :=
  ⟨(rates_two _ rfl rfl rfl rfl rfl rfl rfl).1, rfl, exampleChol_spec, exampleEnv_good, exampleTopk_spec 2⟩

/-- The hypotheses of the separable theorem are met, with limits. -/
example : SafeRates
    { Options.default with
      separable := true, c1 := some 0.1, cMu := some 0.2, cC := some 0.5, stdevMin := some 0.1, stdevMax := some 2 } 2 2 ∧ ∀ h, (some (2 : ℝ)) = some h → 0 < h := by
  refine ⟨⟨⟨?_, ?_, ?_⟩, ?_, ?_⟩, ?_⟩ <;> norm_num [c1, cMu, cC, Options.default]

/-! ### C72: limits break the covariance -/

/-- The default options with `stdev_max = 1`. -/
noncomputable def limitedOptions : Options := { Options.default with stdevMax := some 1 }

theorem limited_hw (k : Fin 2) : assignedWeights limitedOptions 2 2 [0, 1] k = weight limitedOptions 2 2 k := by
  have hid : (List.ofFn fun k : Fin 2 => ((id k : Fin 2) : Nat)) = [0, 1] := by decide
  rw [← hid]; exact assignedWeights_idx limitedOptions 2 (idx := id) Function.injective_id k

theorem limited_hw0 : weight limitedOptions 2 2 0 = 1 := by
  have hm2 : mu 2 = 1 := by decide
  have h := weight_sum_pos (o := limitedOptions) (d := 2) (le_refl 2)
  rw [hm2] at h; simpa [List.range_succ] using h

theorem limited_shaped : shapedFull (Full.init (0 : Fin 2 → ℝ) 1).A exampleEnv.zs = exampleEnv.zs := by
  funext i; simp [shapedFull, Full.init]

theorem limited_recombine (j : Fin 2) : recombine (exampleEnv.topk (assignedWeights limitedOptions 2 2 [0, 1]) (mu 2))
    (assignedWeights limitedOptions 2 2 [0, 1]) exampleEnv.zs j = 10 := by
  obtain ⟨hsafe, _⟩ := rates_two limitedOptions rfl rfl rfl rfl rfl rfl rfl
  have hm2 : mu 2 = 1 := by decide
  rw [recombine_best (topk := exampleEnv.topk) (idx := id) (exampleTopk_spec 2) Function.bijective_id]
  · simp only [Fin.sum_univ_two, id, limited_hw, hm2]
    fin_cases j <;> simp [limited_hw0, exampleEnv]
  · intro k hk; rw [id, limited_hw]; exact weight_pos hk
  · intro k hk; rw [id, limited_hw]; exact weight_nonpos (le_refl 2) (.inr hsafe.toValidRates) hk

theorem limited_sigma : 1 ≤ (stepCore limitedOptions exampleEnv (Full.init (0 : Fin 2 → ℝ) 1).toCore
    (shapedFull (Full.init (0 : Fin 2 → ℝ) 1).A exampleEnv.zs)).1.sigma := by
  have hsorted : ∀ xs, exampleEnv.sorted xs = [0, 1] := fun _ => rfl
  simp only [stepCore, hsorted, updateSigma]
  have hcs : cSigma limitedOptions 2 2 = 1 / 2 := by
    simp only [cSigma, muEff_two, limitedOptions, Options.default, Option.getD_none]; norm_num
  have hvds : varianceDiscountSigma limitedOptions 2 2 = Real.sqrt (3 / 4) := by
    simp only [varianceDiscountSigma, hcs, muEff_two]; norm_num
  have hp : ∀ j, updatePSigma limitedOptions 2 (Full.init (0 : Fin 2 → ℝ) 1).toCore
      (recombine (exampleEnv.topk (assignedWeights limitedOptions 2 2 [0, 1]) (mu 2))
      (assignedWeights limitedOptions 2 2 [0, 1]) exampleEnv.zs) j = Real.sqrt (3 / 4) * 10 := by
    intro j; simp only [updatePSigma, limited_recombine, hvds]; simp [Full.init]
  have hnorm : 12 ≤ norm (updatePSigma limitedOptions 2 (Full.init (0 : Fin 2 → ℝ) 1).toCore
      (recombine (exampleEnv.topk (assignedWeights limitedOptions 2 2 [0, 1]) (mu 2))
      (assignedWeights limitedOptions 2 2 [0, 1]) exampleEnv.zs)) := by
    unfold norm normSq
    simp only [hp, Fin.sum_univ_two, mul_pow, Real.sq_sqrt (show (0 : ℝ) ≤ 3 / 4 by norm_num)]
    apply Real.le_sqrt_of_sq_le; norm_num
  have hu : unbiasedExpectation 2 ≤ 2 ∧ 0 < unbiasedExpectation 2 := by
    have h2 : Real.sqrt 2 ≤ 2 := Real.sqrt_le_left (by norm_num) |>.mpr (by norm_num)
    have h3 : 0 < Real.sqrt 2 := Real.sqrt_pos.mpr (by norm_num)
    unfold unbiasedExpectation
    push_cast
    constructor
    · nlinarith
    · have : (0 : ℝ) < 1 - 1 / (4 * 2) + 1 / (21 * 2 ^ 2) := by norm_num
      positivity
  have hdamp : 0 < dampSigma limitedOptions 2 2 := by
    simp only [dampSigma, hcs, limitedOptions, Options.default, Option.getD_none]
    have := le_max_left (0 : ℝ) (Real.sqrt ((muEff 2 - 1) / ((2 : Nat) + 1)) - 1)
    rw [one_mul]
    have hcs' := hcs
    simp only [limitedOptions, Options.default] at hcs'
    rw [hcs']
    linarith
  have hcsa : limitedOptions.csaSquared = false := rfl
  simp only [hcsa, Bool.false_eq_true, if_false]
  have hexp : 0 ≤ cSigma limitedOptions 2 2 / dampSigma limitedOptions 2 2 *
      (norm (updatePSigma limitedOptions 2 (Full.init (0 : Fin 2 → ℝ) 1).toCore
      (recombine (exampleEnv.topk (assignedWeights limitedOptions 2 2 [0, 1]) (mu 2))
      (assignedWeights limitedOptions 2 2 [0, 1]) exampleEnv.zs)) / unbiasedExpectation 2 - 1) := by
    apply mul_nonneg
    · rw [hcs]; exact div_nonneg (by norm_num) hdamp.le
    · rw [sub_nonneg, le_div_iff₀ hu.2]; linarith [hu.1]
  have h1 := Real.one_le_exp hexp
  have h2 : (Full.init (0 : Fin 2 → ℝ) 1).sigma = 1 := rfl
  rw [h2, one_mul]
  exact h1

theorem limited_diagonal (a : Fin 2) : nextCFull limitedOptions exampleEnv (Full.init 0 1) a a ≤ 1 := by
  have hs := limited_sigma
  have hlim : limitedOptions.limits = true := rfl
  have hmx : limitedOptions.stdevMax = some 1 := rfl
  have hmn : limitedOptions.stdevMin = none := rfl
  simp only [nextCFull, hlim, if_true, limitFull, hmx, hmn, limitVariance, clamp, Option.elim]
  generalize updateCFull _ _ _ _ _ _ _ a a = v
  generalize (stepCore _ _ _ _).1.sigma = sg at hs
  have h0 : 0 ≤ min (sg * Real.sqrt v) 1 := le_min (mul_nonneg (by linarith) (Real.sqrt_nonneg _)) zero_le_one
  have h1 : min (sg * Real.sqrt v) 1 ≤ 1 := min_le_right _ _
  have h2 : min (sg * Real.sqrt v) 1 / sg ≤ 1 := by rw [div_le_one (by linarith)]; linarith
  have h3 : 0 ≤ min (sg * Real.sqrt v) 1 / sg := div_nonneg h0 (by linarith)
  nlinarith

theorem limited_off_diagonal (a b : Fin 2) (hab : a ≠ b) :
    nextCFull limitedOptions exampleEnv (Full.init 0 1) a b ≥ 2 := by
  obtain ⟨hsafe, hmu⟩ := rates_two limitedOptions rfl rfl rfl rfl rfl rfl rfl
  have hn : (2 : Nat) ≤ 2 := le_refl 2
  have hw := limited_hw
  have hw0 := limited_hw0
  have hw1 : weight limitedOptions 2 2 1 ≤ 0 := weight_nonpos hn (.inr hsafe.toValidRates) (by decide)
  have hy := limited_shaped
  have hrec := limited_recombine
  have hlim : limitedOptions.limits = true := rfl
  simp only [nextCFull, hlim, if_true, limitFull, hab, if_false, hy]
  simp only [updateCFull, stepCore]
  have hsorted : ∀ xs, exampleEnv.sorted xs = [0, 1] := fun _ => rfl
  simp only [hsorted]
  generalize hh : hSig _ _ _ = h
  have hcc := c1a_bounds hsafe.c1_nonneg hsafe.cC_range (h := h) (by rw [← hh]; exact hSig_cases _ _ _)
  have hpc : updatePC limitedOptions 2 (Full.init (0 : Fin 2 → ℝ) 1).toCore
      (recombine (exampleEnv.topk (assignedWeights limitedOptions 2 2 [0, 1]) (mu 2))
      (assignedWeights limitedOptions 2 2 [0, 1]) exampleEnv.zs) h =
      fun _ => h * varianceDiscountC limitedOptions 2 2 * 10 := by
    funext j
    simp only [updatePC, hrec]
    simp [Full.init]
  rw [hpc]
  have hC : (Full.init (0 : Fin 2 → ℝ) 1).C a b = 0 := by simp [Full.init, hab]
  rw [hC]
  simp only [Fin.sum_univ_two, reweight, hw, hw0]
  have h0 : (0 : ℝ) < 1 := one_pos
  have hact : limitedOptions.active = true := rfl
  simp only [hact, if_true]
  have e0 : exampleEnv.zs 0 a * exampleEnv.zs 0 b = 100 := by
    fin_cases a <;> fin_cases b <;> simp_all [exampleEnv] <;> norm_num
  have e1 : exampleEnv.zs 1 a * exampleEnv.zs 1 b = -100 := by
    fin_cases a <;> fin_cases b <;> simp_all [exampleEnv] <;> norm_num
  have en : normSq (exampleEnv.zs 1) = 200 := by simp [normSq, exampleEnv]; norm_num
  rw [e0, e1, en]
  simp only [Fin.val_zero, Fin.val_one, hw0, h0, not_lt.mpr hw1, if_true, if_false]
  have h5 : 0 ≤ c1a limitedOptions 2 2 h * ((weightedPc limitedOptions 2 2 h * (h * varianceDiscountC limitedOptions 2 2 * 10)) *
      (weightedPc limitedOptions 2 2 h * (h * varianceDiscountC limitedOptions 2 2 * 10)) - 0) :=
    mul_nonneg hcc.1 (by rw [sub_zero]; exact mul_self_nonneg _)
  have h6 : cMu limitedOptions 2 2 * 100 ≤ cMu limitedOptions 2 2 * ((1 * 100 +
      ((2 : Nat) : ℝ) * weight limitedOptions 2 2 1 / 200 * -100) - sumWeights limitedOptions 2 2 * 0) := by
    apply mul_le_mul_of_nonneg_left _ hsafe.cMu_pos.le
    have : ((2 : Nat) : ℝ) * weight limitedOptions 2 2 1 / 200 * -100 = - weight limitedOptions 2 2 1 := by push_cast; ring
    rw [this]; linarith
  linarith

/-- **C72**, the second half, is **violated** by the non-separable variant: with the default options, `stdev_init = 1` and
`stdev_max = 1`, the first step can fail. For the draws (10, 10) and (10, -10) of two solutions, the first being the better
one, only the diagonal of the covariance is limited, so that it is no longer positive definite, and its decomposition is an
error. -/
theorem C72_violated_limits_break_covariance {chol : Matrix (Fin 2) (Fin 2) ℝ → Option (Matrix (Fin 2) (Fin 2) ℝ)}
    (hch : CholSpec chol) :
    stepFull chol limitedOptions exampleEnv (Full.init 0 1) = .error .runtimeError := by
  have hnot : ¬ IsPD (nextCFull limitedOptions exampleEnv (Full.init 0 1)) := by
    intro h
    have hv : (![1, -1] : Fin 2 → ℝ) ≠ 0 := by
      intro h0; have := congrFun h0 0; simp at this
    have := h.2 _ hv
    simp only [quad, Fin.sum_univ_two, Matrix.cons_val_zero, Matrix.cons_val_one] at this
    have h00 := limited_diagonal 0
    have h11 := limited_diagonal 1
    have h01 := limited_off_diagonal 0 1 (by decide)
    have h10 := limited_off_diagonal 1 0 (by decide)
    linarith
  have hnone : chol (nextCFull limitedOptions exampleEnv (Full.init 0 1)) = none := by
    cases hc : chol (nextCFull limitedOptions exampleEnv (Full.init 0 1)) with
    | none => rfl
    | some A => exact absurd (hch.2 _ _ hc).1 hnot
  have hf : exampleEnv.freq = 1 := rfl
  simp only [stepFull, hf, Nat.mod_one, if_true, hnone, Option.elim]

/-! ### The default learning rates of the separable variant -/

theorem list_sum_ge {l : List Nat} {f : Nat → ℝ} {c : ℝ} (h : ∀ i ∈ l, c ≤ f i) : l.length * c ≤ (l.map f).sum := by
  induction l with
  | nil => simp
  | cons a l ih =>
    have h1 := ih fun i hi => h i (by simp [hi])
    have h2 := h a (by simp)
    simp only [List.map_cons, List.sum_cons, List.length_cons]
    push_cast
    linarith

theorem list_sum_le {l : List Nat} {f g : Nat → ℝ} (h : ∀ i ∈ l, f i ≤ g i) : (l.map f).sum ≤ (l.map g).sum := by
  induction l with
  | nil => simp
  | cons a l ih =>
    have h1 := ih fun i hi => h i (by simp [hi])
    have h2 := h a (by simp)
    simp only [List.map_cons, List.sum_cons]
    linarith

theorem list_sum_mul (l : List Nat) (f : Nat → ℝ) (c : ℝ) : (l.map fun i => c * f i).sum = c * (l.map f).sum := by
  induction l with
  | nil => simp
  | cons a l ih => simp only [List.map_cons, List.sum_cons, ih]; ring

/-- The default options of the separable variant. -/
noncomputable def sepOptions : Options := { Options.default with separable := true }

theorem big_mu : mu 1024 = 512 := by decide

theorem big_sumPos : 256 * Real.log 2 ≤ sumPos 1024 id (rawWeight 1024) := by
  unfold sumPos
  rw [big_mu, show (512 : Nat) = 256 + 256 from rfl, List.range_add, List.map_append, List.sum_append]
  have h1 : ((List.range 256).length : ℝ) * Real.log 2 ≤ ((List.range 256).map fun i => id (rawWeight 1024 i)).sum := by
    apply list_sum_ge
    intro i hi
    have hi' : i + 1 ≤ 256 := by have := List.mem_range.mp hi; omega
    have hi'' : ((i : ℝ) + 1) ≤ 256 := by exact_mod_cast hi'
    simp only [id, rawWeight]
    rw [← Real.log_div (by norm_num) (by positivity)]
    apply Real.log_le_log (by norm_num)
    rw [le_div_iff₀ (by positivity)]
    push_cast
    linarith
  have h2 : 0 ≤ (((List.range 256).map (256 + ·)).map fun i => id (rawWeight 1024 i)).sum := by
    apply list_sum_nonneg
    intro i hi
    simp only [List.mem_map, List.mem_range] at hi
    obtain ⟨a, ha, rfl⟩ := hi
    exact (raw_pos (by rw [big_mu]; omega)).le
  rw [List.length_range] at h1
  push_cast at h1
  linarith

theorem big_muEff : 25.6 ≤ muEff 1024 := by
  have hl : 0 < Real.log 2 := Real.log_pos (by norm_num)
  have hS := sumPos_pos (n := 1024) (by norm_num)
  have hQ := sumPosSq_pos (n := 1024) (by norm_num)
  have h1 := big_sumPos
  have h2 : sumPos 1024 (· ^ 2) (rawWeight 1024) ≤ 10 * Real.log 2 * sumPos 1024 id (rawWeight 1024) := by
    unfold sumPos
    rw [← list_sum_mul]
    apply list_sum_le
    intro i hi
    have hp := raw_pos (List.mem_range.mp hi)
    have hle : rawWeight 1024 i ≤ 10 * Real.log 2 := by
      unfold rawWeight
      have h3 : 10 * Real.log 2 = Real.log (2 ^ 10) := by rw [Real.log_pow]; push_cast; ring
      have h4 : Real.log ((((1024 : Nat) : ℝ) + 1) / 2) ≤ Real.log (2 ^ 10) := Real.log_le_log (by norm_num) (by norm_num)
      have h5 : 0 ≤ Real.log ((i : ℝ) + 1) := Real.log_nonneg (by have : (0 : ℝ) ≤ i := Nat.cast_nonneg i; linarith)
      rw [h3]
      generalize Real.log ((((1024 : Nat) : ℝ) + 1) / 2) = x at *
      generalize Real.log ((2 : ℝ) ^ 10) = y at *
      linarith
    simp only [id]
    nlinarith
  unfold muEff
  rw [le_div_iff₀ hQ]
  nlinarith

theorem sqrt_two_bounds : 1.41 ≤ Real.sqrt 2 ∧ Real.sqrt 2 ≤ 1.42 := by
  constructor
  · exact Real.le_sqrt_of_sq_le (by norm_num)
  · rw [Real.sqrt_le_left (by norm_num)]; norm_num

theorem big_cMu : 1.1 ≤ cMu sepOptions 2 1024 ∧ cMu sepOptions 2 1024 < 2 := by
  have hx := big_muEff
  have h : cMu sepOptions 2 1024 = (0.25 + muEff 1024 + 1 / muEff 1024 - 2) / (2 + 4 * Real.sqrt 2 + muEff 1024 / 2) := by
    simp only [cMu, sepOptions, Options.default, Option.getD_none, if_true, Nat.cast_ofNat]
    ring_nf
  obtain ⟨hr1, hr2⟩ := sqrt_two_bounds
  have h0 : 0 < 1 / muEff 1024 := by positivity
  have h1 : 1 / muEff 1024 ≤ 1 := by rw [div_le_one (by linarith)]; linarith
  rw [h]
  constructor
  · rw [le_div_iff₀ (by linarith)]; linarith
  · rw [div_lt_iff₀ (by linarith)]; linarith

theorem big_c1 : 0 < c1 sepOptions 2 1024 ∧ c1 sepOptions 2 1024 * muEff 1024 ≤ 2 ∧ c1 sepOptions 2 1024 ≤ 1 := by
  have hx := big_muEff
  have h : c1 sepOptions 2 1024 = 1 / (2 + 2 * Real.sqrt 2 + muEff 1024 / 2) := by
    simp only [c1, sepOptions, Options.default, Option.getD_none, if_true, Nat.cast_ofNat]
    try ring_nf
  obtain ⟨hr1, hr2⟩ := sqrt_two_bounds
  have hp : 0 < 2 + 2 * Real.sqrt 2 + muEff 1024 / 2 := by linarith
  rw [h]
  refine ⟨by positivity, ?_, ?_⟩
  · rw [div_mul_eq_mul_div, one_mul, div_le_iff₀ hp]; linarith
  · rw [div_le_one hp]; linarith

theorem big_alpha : alpha sepOptions 2 1024 ≤ - (1 / 22) ∧ -2 ≤ alpha sepOptions 2 1024 := by
  obtain ⟨h1, h2⟩ := big_cMu
  obtain ⟨h3, _, h4⟩ := big_c1
  have hm := muEff_pos (n := 1024) (by norm_num)
  constructor
  · refine (alpha_le_posDef _ _ _).trans ?_
    rw [div_le_iff₀ (by push_cast; linarith)]
    push_cast
    linarith
  · have hs : 0 ≤ sumNeg 1024 (· ^ 2) (rawWeight 1024) := list_sum_nonneg fun i _ => sq_nonneg _
    unfold alpha
    refine le_min ?_ (le_min ?_ ?_)
    · have := div_nonneg h3.le (by linarith : (0 : ℝ) ≤ cMu sepOptions 2 1024); linarith
    · have : 0 ≤ 2 * (sumNeg 1024 id (rawWeight 1024) ^ 2 / sumNeg 1024 (· ^ 2) (rawWeight 1024)) / (muEff 1024 + 2) :=
        div_nonneg (mul_nonneg two_pos.le (div_nonneg (sq_nonneg _) hs)) (by linarith)
      linarith
    · rw [le_div_iff₀ (by push_cast; linarith)]
      push_cast
      linarith

theorem raw_neg {i : Nat} (h : 512 ≤ i) : rawWeight 1024 i < 0 := by
  unfold rawWeight
  have h3 : (512 : ℝ) ≤ i := by exact_mod_cast h
  have : Real.log (((1024 : Nat) + 1) / 2) < Real.log ((i : ℝ) + 1) := by
    apply Real.log_lt_log (by norm_num); push_cast; linarith
  linarith

theorem big_weight_neg {i : Nat} (h : 512 ≤ i) :
    weight sepOptions 2 1024 i = alpha sepOptions 2 1024 * rawWeight 1024 i / sumNeg 1024 abs (rawWeight 1024) := by
  have : ¬ i < mu 1024 := by rw [big_mu]; omega
  simp [weight, this, sepOptions, Options.default]

theorem big_weight_pos (i : Nat) : 0 < weight sepOptions 2 1024 i := by
  by_cases h : i < mu 1024
  · exact weight_pos h
  · rw [big_mu] at h
    rw [big_weight_neg (by omega)]
    exact div_pos (mul_pos_of_neg_of_neg (by linarith [big_alpha.1]) (raw_neg (by omega))) (sumNegAbs_pos (by norm_num))

theorem big_weight_neg_mono {i j : Nat} (h : 512 ≤ i) (hij : i < j) : weight sepOptions 2 1024 i < weight sepOptions 2 1024 j := by
  rw [big_weight_neg h, big_weight_neg (by omega)]
  apply div_lt_div_of_pos_right _ (sumNegAbs_pos (by norm_num))
  exact mul_lt_mul_of_neg_left (raw_anti hij) (by linarith [big_alpha.1])

theorem big_weight_last : weight sepOptions 2 1024 511 < weight sepOptions 2 1024 1023 := by
  have hS := big_sumPos
  have hSp := sumPos_pos (n := 1024) (by norm_num)
  have hlog : 0.6931471803 < Real.log 2 := Real.log_two_gt_d9
  have h1 : weight sepOptions 2 1024 511 ≤ 1 / 100000 := by
    have : (511 : Nat) < mu 1024 := by decide
    simp only [weight, this, if_true]
    rw [div_le_iff₀ hSp]
    have hr : rawWeight 1024 511 ≤ 1 / 1024 := by
      unfold rawWeight
      rw [← Real.log_div (by norm_num) (by norm_num)]
      refine (Real.log_le_sub_one_of_pos (by norm_num)).trans ?_
      norm_num
    linarith
  have h2 : 1 / 11264 ≤ weight sepOptions 2 1024 1023 := by
    rw [big_weight_neg (by norm_num), le_div_iff₀ (sumNegAbs_pos (by norm_num))]
    have hr := raw_neg (i := 1023) (by norm_num)
    have hb : sumNeg 1024 abs (rawWeight 1024) ≤ 512 * |rawWeight 1024 1023| := by
      unfold sumNeg
      have hle : ((List.range (1024 - mu 1024)).map fun i => |rawWeight 1024 (mu 1024 + i)|).sum ≤
          ((List.range (1024 - mu 1024)).map fun _ => |rawWeight 1024 1023|).sum := by
        apply list_sum_le
        intro i hi
        have hi' : i < 512 := by have := List.mem_range.mp hi; rw [big_mu] at this; omega
        rw [big_mu, abs_of_neg (raw_neg (by omega)), abs_of_neg hr]
        rcases Nat.lt_or_ge (512 + i) 1023 with hlt | hge
        · have := raw_anti (n := 1024) hlt; linarith
        · have : 512 + i = 1023 := by omega
          rw [this]
      refine hle.trans (le_of_eq ?_)
      rw [List.map_const', List.sum_replicate, List.length_range, big_mu]
      simp
    rw [abs_of_neg hr] at hb
    have := big_alpha.1
    nlinarith
  linarith

/-- **C71** is **violated** by the separable variant with its default options: for 1024 solutions in two dimensions, whatever
their evaluations (sorted from best to worst by `idx`), the *worst* solution is among the recombined ones, with a positive
weight. The default learning rates have `c_mu > 1`, which turns the factor `alpha` of the worse half negative. -/
theorem C71_violated_separable_recombines_the_worst {topk : Topk 1024} (ht : TopkSpec topk) (idx : Fin 1024 → Fin 1024)
    (hb : Function.Bijective idx) :
    idx 1023 ∈ topk (assignedWeights sepOptions 2 1024 (List.ofFn fun k => (idx k : Nat))) (mu 1024) ∧
    0 < assignedWeights sepOptions 2 1024 (List.ofFn fun k => (idx k : Nat)) (idx 1023) := by
  have hw : ∀ k, assignedWeights sepOptions 2 1024 (List.ofFn fun k => (idx k : Nat)) (idx k) = weight sepOptions 2 1024 k :=
    fun k => assignedWeights_idx sepOptions 2 hb.1 k
  refine ⟨?_, by rw [hw]; exact big_weight_pos _⟩
  by_contra hni
  obtain ⟨hlen, hnd, hmax⟩ := ht (assignedWeights sepOptions 2 1024 (List.ofFn fun k => (idx k : Nat))) (mu 1024) (by decide)
  generalize topk _ _ = top at *
  have hsub : top ⊆ (bestList idx).erase (idx 511) := by
    intro i hi
    obtain ⟨k, rfl⟩ := hb.2 i
    have hge := hmax _ hi _ hni
    rw [hw, hw] at hge
    have h1023 : ((1023 : Fin 1024) : Nat) = 1023 := rfl
    rw [h1023] at hge
    rw [List.Nodup.mem_erase_iff (bestList_nodup hb.1), mem_bestList hb.1, big_mu]
    refine ⟨fun h => ?_, ?_⟩
    · have := hb.1 h; subst this
      have h511 : ((511 : Fin 1024) : Nat) = 511 := rfl
      rw [h511] at hge
      linarith [big_weight_last]
    · by_contra hk
      have hk' : (k : Nat) < 1024 := k.isLt
      rcases Nat.lt_or_ge k 1023 with hlt | hge'
      · linarith [big_weight_neg_mono (i := k) (j := 1023) (by omega) hlt]
      · have hk1 : k = 1023 := Fin.ext (by rw [h1023]; omega)
        subst hk1; exact hni hi
  have := (List.subperm_of_subset hnd hsub).length_le
  rw [hlen, List.length_erase_of_mem ((mem_bestList hb.1 511).mpr (by decide)), bestList_length, big_mu] at this
  omega

theorem big_cC : 0 ≤ cC sepOptions 2 1024 ∧ cC sepOptions 2 1024 ≤ 2 := by
  have hx := big_muEff
  have h : cC sepOptions 2 1024 = (3 / 2 + muEff 1024 / 2) / (Real.sqrt 2 + 1 / 2 + muEff 1024) := by
    simp only [cC, sepOptions, Options.default, Option.getD_none, if_true, Nat.cast_ofNat]
    ring_nf
  obtain ⟨hr1, hr2⟩ := sqrt_two_bounds
  rw [h]
  exact ⟨by positivity, by rw [div_le_iff₀ (by linarith)]; linarith⟩

theorem big_sumWeights : 1 ≤ sumWeights sepOptions 2 1024 ∧ sumWeights sepOptions 2 1024 ≤ 3 := by
  rw [sumWeights_eq (by norm_num)]
  have : negMass sepOptions 2 1024 = alpha sepOptions 2 1024 := rfl
  rw [this]
  have := big_alpha
  constructor <;> linarith

/-- **C82** is **violated** by the separable variant with its default options: in two dimensions with 1024 solutions, the first
step yields a *negative* variance for all draws whose first coordinates are between -1/20 and 1/20, whatever the evaluations. Its square root is NaN. -/
theorem C82_violated_separable_negative_variance (e : Env 2 1024) (ht : TopkSpec e.topk)
    (hs : ∀ xs, (e.sorted xs).Perm (List.range 1024)) (hz : ∀ i, |e.zs i 0| ≤ 1 / 20) (m : Fin 2 → ℝ) (stdevInit : ℝ) :
    (stepSep sepOptions e (Sep.init m stdevInit)).C 0 < 0 := by
  have hlim : sepOptions.limits = false := rfl
  have hy : shapedSep (Sep.init m stdevInit).A e.zs = e.zs := by
    funext i j; simp [shapedSep, Sep.init]
  simp only [stepSep, hlim, Bool.false_eq_true, if_false, hy]
  obtain ⟨idx, hb, hidx⟩ := exists_idx _ (hs (samples (Sep.init m stdevInit).toCore e.zs))
  simp only [updateCSep, stepCore, hidx]
  generalize hh : hSig _ _ _ = h
  have hcc := c1a_bounds big_c1.1.le big_cC (h := h) (by rw [← hh]; exact hSig_cases _ _ _)
  set w := assignedWeights sepOptions 2 1024 (List.ofFn fun k => (idx k : Nat)) with hwdef
  have hwpos : ∀ i, 0 < w i := fun i => big_weight_pos _
  have hwsum : (∑ i, w i) = sumWeights sepOptions 2 1024 := by
    rw [← (Equiv.ofBijective idx hb).sum_comp]
    simp only [Equiv.ofBijective_apply, sumWeights]
    rw [sum_range_fin]
    exact Finset.sum_congr rfl fun k _ => assignedWeights_idx sepOptions 2 hb.1 k
  have hre : ∀ i, reweight sepOptions e.zs w i = w i := by
    intro i; simp [reweight, hwpos i]
  have hC : (Sep.init m stdevInit).C 0 = 1 := rfl
  simp only [hre, hC]
  have hz2 : ∀ i, e.zs i 0 ^ 2 ≤ 1 / 400 := by
    intro i
    have := pow_le_pow_left₀ (abs_nonneg _) (hz i) 2
    rw [sq_abs] at this; linarith
  -- the rank-mu part
  have h1 : (∑ i, w i * (e.zs i 0 ^ 2 - 1)) ≤ - (399 / 400) := by
    have : (∑ i, w i * (e.zs i 0 ^ 2 - 1)) ≤ ∑ i, w i * (- (399 / 400)) := by
      apply Finset.sum_le_sum
      intro i _
      exact mul_le_mul_of_nonneg_left (by linarith [hz2 i]) (hwpos i).le
    rw [← Finset.sum_mul, hwsum] at this
    linarith [big_sumWeights.1]
  -- the evolution path
  obtain ⟨_, hnd, _⟩ := ht w (mu 1024) (by decide)
  have h2 : |recombine (e.topk w (mu 1024)) w e.zs 0| ≤ 3 / 20 := by
    unfold recombine
    rw [← List.sum_toFinset _ hnd]
    refine (Finset.abs_sum_le_sum_abs _ _).trans ?_
    have : (∑ i ∈ (e.topk w (mu 1024)).toFinset, |w i * e.zs i 0|) ≤ ∑ i, w i * (1 / 20) := by
      refine (Finset.sum_le_univ_sum_of_nonneg fun i => abs_nonneg _).trans ?_
      apply Finset.sum_le_sum
      intro i _
      rw [abs_mul, abs_of_pos (hwpos i)]
      exact mul_le_mul_of_nonneg_left (hz i) (hwpos i).le
    rw [← Finset.sum_mul, hwsum] at this
    linarith [big_sumWeights.2]
  have hpc : updatePC sepOptions 1024 (Sep.init m stdevInit).toCore (recombine (e.topk w (mu 1024)) w e.zs) h 0 ^ 2 ≤
      muEff 1024 * (9 / 400) := by
    have hp0 : (Sep.init m stdevInit).pC 0 = 0 := rfl
    simp only [updatePC, hp0, mul_zero, zero_add, mul_pow]
    have hv : varianceDiscountC sepOptions 2 1024 ^ 2 ≤ muEff 1024 := by
      have hm := muEff_pos (n := 1024) (by norm_num)
      unfold varianceDiscountC
      have hcc2 : 0 ≤ cC sepOptions 2 1024 * (2 - cC sepOptions 2 1024) := mul_nonneg big_cC.1 (by linarith [big_cC.2])
      rw [Real.sq_sqrt (mul_nonneg hcc2 hm.le)]
      have : cC sepOptions 2 1024 * (2 - cC sepOptions 2 1024) ≤ 1 := by nlinarith [sq_nonneg (cC sepOptions 2 1024 - 1)]
      nlinarith
    have hr : recombine (e.topk w (mu 1024)) w e.zs 0 ^ 2 ≤ 9 / 400 := by
      have := pow_le_pow_left₀ (abs_nonneg _) h2 2
      rw [sq_abs] at this; linarith
    have hh2 : h ^ 2 ≤ 1 := by
      rcases (by rw [← hh]; exact hSig_cases _ _ _ : h = 1 ∨ h = 0) with rfl | rfl <;> norm_num
    have hv0 := sq_nonneg (varianceDiscountC sepOptions 2 1024)
    have ha : h ^ 2 * varianceDiscountC sepOptions 2 1024 ^ 2 ≤ muEff 1024 := by nlinarith [sq_nonneg h]
    exact mul_le_mul ha hr (sq_nonneg _) (by linarith)
  generalize updatePC sepOptions 1024 (Sep.init m stdevInit).toCore (recombine (e.topk w (mu 1024)) w e.zs) h 0 ^ 2 = P at hpc ⊢
  have h3 : c1a sepOptions 2 1024 h * (P - 1) ≤ 18 / 400 := by
    have hm := muEff_pos (n := 1024) (by norm_num)
    have hcm := big_c1.2.1
    have h5 : c1a sepOptions 2 1024 h * P ≤ c1a sepOptions 2 1024 h * (muEff 1024 * (9 / 400)) :=
      mul_le_mul_of_nonneg_left hpc hcc.1
    have h6 : c1a sepOptions 2 1024 h * muEff 1024 ≤ 2 := (mul_le_mul_of_nonneg_right hcc.2 hm.le).trans hcm
    nlinarith [hcc.1]
  have h4 : cMu sepOptions 2 1024 * (∑ i, w i * (e.zs i 0 ^ 2 - 1)) ≤ 1.1 * (- (399 / 400)) := by
    have := big_cMu.1
    nlinarith
  linarith

/-- Non-vacuity of the two violations. -/
example : TopkSpec (exampleTopk 1024) ∧ Function.Bijective (id : Fin 1024 → Fin 1024) ∧
    (∀ i : Fin 1024, |(fun (_ : Fin 1024) (_ : Fin 2) => (1 / 20 : ℝ)) i 0| ≤ 1 / 20) :=
  ⟨exampleTopk_spec 1024, Function.bijective_id, fun _ => by norm_num [abs_of_pos]⟩

end EvoTorch.CMAES
