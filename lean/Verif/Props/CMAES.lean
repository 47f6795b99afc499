import Verif.Proofs.CMAES
import Verif.Proofs.Cholesky
import Verif.Props.Selection
import Mathlib.Data.Fin.VecNotation
import Mathlib.Tactic.FinCases
/-! C47 (CMA-ES part), C71: recombination, C72: standard deviation limits, C82: the covariance stays positive definite. -/
namespace EvoTorch.CMAES
open Matrix Spec Selection
open BestWorst (Sense)
variable {d n : Nat}

/-! ### C47 -/

theorem stepCore_sigma_pos (o : Options) (e : Env d n) (c : Core d) (ys : Fin n → Fin d → ℝ) (h : 0 < c.sigma) :
    0 < (stepCore o e c ys).1.sigma := mul_pos h (Real.exp_pos _)

/-- **C47**, separable CMA-ES: whatever the options, draws, evaluations and the length of the run, the step size stays
positive. -/
theorem C47_cmaes_separable_sigma_positive (o : Options) (es : List (Env d n)) (s : Sep d) (h : 0 < s.sigma) :
    0 < (runSep o s es).sigma := by
  unfold runSep
  induction es generalizing s with
  | nil => exact h
  | cons e es ih => exact ih _ (stepCore_sigma_pos o e s.toCore _ h)

theorem stepFull_core {chol : Matrix (Fin d) (Fin d) ℝ → Option (Matrix (Fin d) (Fin d) ℝ)} {o : Options} {e : Env d n}
    {s s' : Full d} (h : stepFull chol o e s = .ok s') :
    s'.toCore = (stepCore o e s.toCore (shapedFull s.A e.zs)).1 ∧ s'.C = nextCFull o e s := by
  simp only [stepFull] at h
  split at h
  · cases hc : chol (nextCFull o e s) with
    | none => simp [hc] at h
    | some A => simp [hc] at h; subst h; exact ⟨rfl, rfl⟩
  · simp at h; subst h; exact ⟨rfl, rfl⟩

/-- **C47**, non-separable CMA-ES: the step size stays positive as long as the run goes on. -/
theorem C47_cmaes_sigma_positive (chol : Matrix (Fin d) (Fin d) ℝ → Option (Matrix (Fin d) (Fin d) ℝ)) (o : Options)
    (es : List (Env d n)) (s s' : Full d) (h : 0 < s.sigma) (hr : runFull chol o s es = .ok s') : 0 < s'.sigma := by
  induction es generalizing s with
  | nil => simp [runFull] at hr; subst hr; exact h
  | cons e es ih =>
    simp only [runFull] at hr
    cases hs : stepFull chol o e s with
    | error x => simp [hs, bind, Except.bind] at hr
    | ok s1 =>
      simp only [hs, bind, Except.bind] at hr
      refine ih s1 ?_ hr
      have := (stepFull_core hs).1
      have h2 := stepCore_sigma_pos o e s.toCore (shapedFull s.A e.zs) h
      rw [← this] at h2
      exact h2

/-- Non-vacuity: the initial state has a positive step size. -/
example : 0 < (Full.init (fun _ : Fin 2 => 0) 3).sigma ∧ 0 < (Sep.init (fun _ : Fin 2 => 0) 3).sigma := by
  simp [Full.init, Sep.init]

/-! ### C71 -/

/-- The new center, in terms of the samples from best to worst. -/
theorem center_weights {sort : Sorter ℝ} (hsort : SorterSpec sort) (sense : Sense) (f : (Fin d → ℝ) → ℝ)
    (o : Options) (hn : 2 ≤ n) (ho : o.active = false ∨ ValidRates o d n) (e : Env d n) (ht : TopkSpec e.topk)
    (he : e.sorted = fun xs => argsort sort sense (List.ofFn fun i => f (xs i))) (c : Core d) (ys : Fin n → Fin d → ℝ) :
    ∃ idx : Fin n → Fin n, Function.Bijective idx ∧
      (∀ a b : Fin n, a ≤ b → NotWorse sense (f (samples c ys (idx a))) (f (samples c ys (idx b)))) ∧
      ∀ j, (stepCore o e c ys).1.m j =
        (1 - o.cM) * c.m j + o.cM * ∑ k : Fin n, if (k : Nat) < n / 2 then weight o d n k * samples c ys (idx k) j else 0 := by
  have hperm := (argsort_spec hsort sense (List.ofFn fun i => f (samples c ys i)))
  have hp1 := hperm.1
  rw [List.length_ofFn] at hp1
  obtain ⟨idx, hb, hidx⟩ := exists_idx _ hp1
  refine ⟨idx, hb, ?_, ?_⟩
  · intro a b hab
    rcases eq_or_lt_of_le hab with rfl | hlt
    · cases sense <;> exact le_refl _
    · have hpw := hperm.2
      rw [hidx, List.pairwise_ofFn] at hpw
      exact hpw hlt _ _ (by simp) (by simp)
  · intro j
    have hw : ∀ k, assignedWeights o d n (e.sorted (samples c ys)) (idx k) = weight o d n k := by
      intro k; rw [he]; simp only; rw [hidx]; exact assignedWeights_idx o d hb.1 k
    have hrec := recombine_best (d := d) ht hb (w := assignedWeights o d n (e.sorted (samples c ys)))
      (fun k hk => by rw [hw]; exact weight_pos hk) (fun k hk => by rw [hw]; exact weight_nonpos hn ho hk) ys j
    have hone := weight_sum_pos (o := o) (d := d) hn
    rw [← sum_mu] at hone
    simp only [stepCore, updateM]
    rw [hrec]
    simp only [hw]
    have hs : (∑ k : Fin n, if (k : Nat) < n / 2 then weight o d n k * samples c ys (idx k) j else 0) =
        c.m j + c.sigma * ∑ k : Fin n, if (k : Nat) < mu n then weight o d n k * ys (idx k) j else 0 := by
      rw [Finset.mul_sum]
      conv_rhs => rw [← mul_one (c.m j), ← hone, Finset.mul_sum, ← Finset.sum_add_distrib]
      apply Finset.sum_congr rfl
      intro k _
      by_cases hk : (k : Nat) < mu n
      · have : (k : Nat) < n / 2 := hk
        simp only [hk, this, if_true, samples]; ring
      · have : ¬ (k : Nat) < n / 2 := hk
        simp only [hk, this, if_false]; ring
    rw [hs]; ring

/-- **C71.** For every population (of at least two solutions), every evaluation function and either sense, every state, and
for the options with which the weights of the worse half are not positive (no `active`, or learning rates `c_1 + c_mu ≤ 1`,
in particular the default learning rates of the non-separable variant: `C71_default_rates`): the new center is
`(1 - c_m) m + c_m Σ w_k x_k` where `x_0, x_1, ...` are the samples from best to worst, and `w` are positive weights for
`k < n / 2` only, strictly decreasing in the rank and with sum one. With `c_m = 1` that is a convex combination of the best
half of the samples. -/
theorem C71_center_is_convex_combination_partial {sort : Sorter ℝ} (hsort : SorterSpec sort) (sense : Sense) (f : (Fin d → ℝ) → ℝ)
    (o : Options) (hn : 2 ≤ n) (ho : o.active = false ∨ ValidRates o d n) (e : Env d n) (ht : TopkSpec e.topk)
    (he : e.sorted = fun xs => argsort sort sense (List.ofFn fun i => f (xs i))) (c : Core d) (ys : Fin n → Fin d → ℝ) :
    ∃ (idx : Fin n → Fin n) (w : Nat → ℝ), Function.Bijective idx ∧
      (∀ a b : Fin n, a ≤ b → NotWorse sense (f (samples c ys (idx a))) (f (samples c ys (idx b)))) ∧
      (∀ k < n / 2, 0 < w k) ∧ (∀ a b, a < b → b < n / 2 → w b < w a) ∧ ((List.range (n / 2)).map w).sum = 1 ∧
      ∀ j, (stepCore o e c ys).1.m j =
        (1 - o.cM) * c.m j + o.cM * ∑ k : Fin n, if (k : Nat) < n / 2 then w k * samples c ys (idx k) j else 0 := by
  obtain ⟨idx, h1, h2, h3⟩ := center_weights hsort sense f o hn ho e ht he c ys
  exact ⟨idx, weight o d n, h1, h2, fun k hk => weight_pos hk, fun a b hab h => weight_anti hab h, weight_sum_pos hn, h3⟩

theorem muEff_default_bound {x : ℝ} (hx : 0 < x) : 0 < 0.25 + x - 2 + 1 / x := by
  have : 0.25 + x - 2 + 1 / x = ((x - 1) ^ 2 + 0.25 * x) / x := by field_simp; ring
  rw [this]
  exact div_pos (by nlinarith [sq_nonneg (x - 1)]) hx

/-- The default learning rates of the non-separable variant satisfy the hypothesis of C71, for every dimension and every
population of at least two solutions. -/
theorem C71_default_rates (o : Options) (hsep : o.separable = false) (h1 : o.c1 = none) (hmu : o.cMu = none)
    (hr1 : o.c1Ratio = 1) (hrmu : o.cMuRatio = 1) (d : Nat) (hd : 1 ≤ d) (hn : 2 ≤ n) : ValidRates o d n := by
  have hm := muEff_pos hn
  have hn' : (2 : ℝ) ≤ n := by exact_mod_cast hn
  have hd' : (1 : ℝ) ≤ d := by exact_mod_cast hd
  have hden : (5 : ℝ) ≤ ((d : ℝ) + 1.3) ^ 2 := by nlinarith
  have hc1 : c1 o d n = min 1 ((n : ℝ) / 6) * 2 / (((d : ℝ) + 1.3) ^ 2 + muEff n) := by simp [c1, hsep, h1, hr1]
  have hc1pos : 0 < c1 o d n := by
    rw [hc1]
    have : (0 : ℝ) < min 1 ((n : ℝ) / 6) := lt_min one_pos (by positivity)
    positivity
  have hc1lt : c1 o d n < 1 := by
    rw [hc1, div_lt_one (by positivity)]
    have : min 1 ((n : ℝ) / 6) ≤ 1 := min_le_left _ _
    linarith
  have hcmu : cMu o d n = min (1 - c1 o d n) (2 * ((0.25 + muEff n - 2 + 1 / muEff n) / (((d : ℝ) + 2) ^ 2 + muEff n))) := by
    simp [cMu, hsep, hmu, hrmu]
  refine ⟨hc1pos.le, ?_, ?_⟩
  · rw [hcmu]
    refine lt_min (by linarith) ?_
    have := muEff_default_bound hm
    positivity
  · rw [hcmu]
    have := min_le_left (1 - c1 o d n) (2 * ((0.25 + muEff n - 2 + 1 / muEff n) / (((d : ℝ) + 2) ^ 2 + muEff n)))
    linarith

/-! ### C82 -/

/-- Learning rates for which the covariance is proved to stay positive definite. -/
structure SafeRates (o : Options) (d n : Nat) : Prop extends ValidRates o d n where
  sum_lt : c1 o d n + cMu o d n < 1
  cC_range : 0 ≤ cC o d n ∧ cC o d n ≤ 2

/-- What is assumed of the surroundings of a step: the draws are not the zero vector, the population is sorted by some
permutation, and `C` is decomposed at every step. -/
structure GoodEnv (e : Env d n) : Prop where
  zs_ne : ∀ i, e.zs i ≠ 0
  sorted : ∀ xs, (e.sorted xs).Perm (List.range n)
  freq : e.freq = 1

theorem nextC_pd {o : Options} (hn : 2 ≤ n) (ho : SafeRates o d n) (hl : o.limits = false) {e : Env d n} (he : GoodEnv e)
    {s : Full d} (hC : IsPD s.C) (hA : ∀ a b, s.C a b = ∑ k, s.A a k * s.A b k) : IsPD (nextCFull o e s) := by
  simp only [nextCFull, hl]
  constructor
  · intro a b
    simp only [Bool.false_eq_true, if_false, updateCFull]
    rw [hC.1 a b, mul_comm (_ * _) (_ * _)]
    congr 3
    refine Finset.sum_congr rfl fun i _ => ?_
    ring
  · intro v hv
    simp only [Bool.false_eq_true, if_false]
    rw [quad_updateC]
    have hd : 1 ≤ d := by
      rcases Nat.eq_zero_or_pos d with rfl | h
      · exact absurd (funext fun x => x.elim0) hv
      · exact h
    obtain ⟨idx, hb, hidx⟩ := exists_idx _ (he.sorted (samples s.toCore (shapedFull s.A e.zs)))
    have hq := hC.2 v hv
    have hcc := c1a_bounds ho.c1_nonneg ho.cC_range
      (hSig_cases (updatePSigma o n s.toCore (recombine (e.topk (assignedWeights o d n (e.sorted (samples s.toCore
        (shapedFull s.A e.zs)))) (mu n)) (assignedWeights o d n (e.sorted (samples s.toCore (shapedFull s.A e.zs)))) e.zs))
        (cSigma o d n) s.steps)
    have hr := rankMu_bound (o := o) (d := d) hn (.inr ho.toValidRates) hb e.zs he.zs_ne (quad s.C v)
      (fun i => dot v (shapedFull s.A e.zs i) ^ 2) (fun i => sq_nonneg _) (fun i => dot_mulVec_sq_le s.A s.C hA v (e.zs i)) hq.le
    obtain ⟨hN0, hN1, hN2⟩ := negMass_bound hd hn ho.toValidRates ho.sum_lt
    rw [sumWeights_eq hn]
    simp only [stepCore]
    rw [← hidx] at hr
    generalize hh : hSig _ _ _ = h at hcc ⊢
    have h1 : 0 ≤ c1a o d n h * weightedPc o d n h ^ 2 *
        dot v (updatePC o n s.toCore (recombine (e.topk (assignedWeights o d n (e.sorted (samples s.toCore
        (shapedFull s.A e.zs)))) (mu n)) (assignedWeights o d n (e.sorted (samples s.toCore (shapedFull s.A e.zs))))
        (shapedFull s.A e.zs)) h) ^ 2 := mul_nonneg (mul_nonneg hcc.1 (sq_nonneg _)) (sq_nonneg _)
    have h2 := mul_le_mul_of_nonneg_left hr ho.cMu_pos.le
    have h3 : 0 < 1 - c1a o d n h - cMu o d n * (1 - negMass o d n) - d * cMu o d n * negMass o d n := by
      rcases hN2 with h0 | h0
      · rw [h0]; have := ho.sum_lt; nlinarith [hcc.2]
      · have := mul_pos ho.cMu_pos h0; nlinarith [hcc.2]
    have h4 := mul_pos h3 hq
    nlinarith [h1, h2, h4]

/-- **C82**, without standard deviation limits, non-separable, active or not, `C` decomposed at every step: for learning
rates with `c_1 + c_mu < 1` and `0 ≤ c_c ≤ 2`, every population size of at least two, every evaluation function and every
history of non-zero draws, no step fails, and the covariance of the state is positive definite and decomposed. -/
theorem C82_covariance_stays_positive_definite_partial
    {chol : Matrix (Fin d) (Fin d) ℝ → Option (Matrix (Fin d) (Fin d) ℝ)} (hch : CholSpec chol) (o : Options) (hn : 2 ≤ n)
    (ho : SafeRates o d n) (hl : o.limits = false) (m : Fin d → ℝ) (stdevInit : ℝ) (es : List (Env d n))
    (hes : ∀ e ∈ es, GoodEnv e) :
    ∃ s, runFull chol o (Full.init m stdevInit) es = .ok s ∧ IsPD s.C ∧ ∀ a b, s.C a b = ∑ k, s.A a k * s.A b k := by
  have key : ∀ s : Full d, IsPD s.C → (∀ a b, s.C a b = ∑ k, s.A a k * s.A b k) →
      ∃ s', runFull chol o s es = .ok s' ∧ IsPD s'.C ∧ ∀ a b, s'.C a b = ∑ k, s'.A a k * s'.A b k := by
    induction es with
    | nil => intro s h1 h2; exact ⟨s, rfl, h1, h2⟩
    | cons e es ih =>
      intro s h1 h2
      have he := hes e (by simp)
      have hpd := nextC_pd hn ho hl he h1 h2
      obtain ⟨A, hA⟩ := hch.1 _ hpd
      have hA2 := (hch.2 _ _ hA).2
      have hstep : stepFull chol o e s = 
          .ok { toCore := (stepCore o e s.toCore (shapedFull s.A e.zs)).1, C := nextCFull o e s, A := A } := by
        simp only [stepFull, he.freq, Nat.mod_one, if_true, hA, Option.elim]
      obtain ⟨s', hs', h3⟩ := ih (fun e' he' => hes e' (by simp [he']))
        { toCore := (stepCore o e s.toCore (shapedFull s.A e.zs)).1, C := nextCFull o e s, A := A } hpd hA2
      refine ⟨s', ?_, h3⟩
      simp only [runFull, hstep, bind, Except.bind]
      exact hs'
  apply key
  · constructor
    · intro a b; simp [Full.init, Matrix.one_apply, eq_comm]
    · intro v hv
      have : quad (1 : Matrix (Fin d) (Fin d) ℝ) v = normSq v := by
        simp [quad, normSq, Matrix.one_apply, sq]
      simp only [Full.init]; rw [this]
      exact normSq_pos hv
  · intro a b; simp [Full.init, Matrix.one_apply]

/-! ### C72 -/

theorem clamp_bounds {lo hi : Option ℝ} (hlh : ∀ l h, lo = some l → hi = some h → l ≤ h) (x : ℝ) :
    (∀ l, lo = some l → l ≤ clamp lo hi x) ∧ ∀ h, hi = some h → clamp lo hi x ≤ h := by
  unfold clamp
  cases lo <;> cases hi <;> simp_all

theorem clamp_pos {lo hi : Option ℝ} (hhi : ∀ h, hi = some h → 0 < h) {x : ℝ} (hx : 0 < x) : 0 < clamp lo hi x := by
  unfold clamp
  cases lo <;> cases hi <;> simp_all

theorem clamp_nonneg {lo hi : Option ℝ} (hhi : ∀ h, hi = some h → 0 ≤ h) {x : ℝ} (hx : 0 ≤ x) : 0 ≤ clamp lo hi x := by
  unfold clamp
  cases lo <;> cases hi <;> simp_all

theorem stdev_limitVariance {sigma : ℝ} (hs : 0 < sigma) {lo hi : Option ℝ} (hhi : ∀ h, hi = some h → 0 ≤ h) (v : ℝ) :
    sigma * Real.sqrt (limitVariance sigma lo hi v) = clamp lo hi (sigma * Real.sqrt v) := by
  have h0 : 0 ≤ clamp lo hi (sigma * Real.sqrt v) := clamp_nonneg hhi (mul_nonneg hs.le (Real.sqrt_nonneg _))
  unfold limitVariance
  rw [Real.sqrt_sq (div_nonneg h0 hs.le)]
  field_simp

/-- **C72**, the range, non-separable: after every step with limits (`stdev_min ≤ stdev_max`, `stdev_max` not negative), from
every state with a positive step size, for every draw and evaluation, the standard deviation `sigma * sqrt(C_jj)` of every
coordinate lies within the limits. -/
theorem C72_stdevs_within_limits_partial {chol : Matrix (Fin d) (Fin d) ℝ → Option (Matrix (Fin d) (Fin d) ℝ)} {o : Options}
    (hlh : ∀ l h, o.stdevMin = some l → o.stdevMax = some h → l ≤ h) (hhi : ∀ h, o.stdevMax = some h → 0 ≤ h)
    {e : Env d n} {s s' : Full d} (hs : 0 < s.sigma) (hstep : stepFull chol o e s = .ok s') (j : Fin d) :
    (∀ l, o.stdevMin = some l → l ≤ s'.sigma * Real.sqrt (s'.C j j)) ∧
    ∀ h, o.stdevMax = some h → s'.sigma * Real.sqrt (s'.C j j) ≤ h := by
  by_cases hl : o.limits = true
  · have hc := stepFull_core hstep
    have hsig : s'.sigma = (stepCore o e s.toCore (shapedFull s.A e.zs)).1.sigma := congrArg Core.sigma hc.1
    have hpos := stepCore_sigma_pos o e s.toCore (shapedFull s.A e.zs) hs
    rw [hc.2, hsig]
    simp only [nextCFull, hl, if_true, limitFull]
    rw [stdev_limitVariance hpos hhi]
    exact clamp_bounds hlh _
  · simp only [Options.limits, Bool.or_eq_true, not_or, Option.isSome_iff_ne_none, ne_eq, not_not] at hl
    simp [hl.1, hl.2]

/-- **C72**, the range, separable. -/
theorem C72_separable_stdevs_within_limits_partial {o : Options}
    (hlh : ∀ l h, o.stdevMin = some l → o.stdevMax = some h → l ≤ h) (hhi : ∀ h, o.stdevMax = some h → 0 ≤ h)
    (e : Env d n) (s : Sep d) (hs : 0 < s.sigma) (j : Fin d) :
    (∀ l, o.stdevMin = some l → l ≤ (stepSep o e s).sigma * Real.sqrt ((stepSep o e s).C j)) ∧
    ∀ h, o.stdevMax = some h → (stepSep o e s).sigma * Real.sqrt ((stepSep o e s).C j) ≤ h := by
  by_cases hl : o.limits = true
  · have hpos := stepCore_sigma_pos o e s.toCore (shapedSep s.A e.zs) hs
    simp only [stepSep, hl, if_true, limitSep]
    rw [stdev_limitVariance hpos hhi]
    exact clamp_bounds hlh _
  · simp only [Options.limits, Bool.or_eq_true, not_or, Option.isSome_iff_ne_none, ne_eq, not_not] at hl
    simp [hl.1, hl.2]

theorem updateCSep_pos {o : Options} (hd : 1 ≤ d) (hn : 2 ≤ n) (ho : SafeRates o d n) {e : Env d n} (he : GoodEnv e)
    (C pC : Fin d → ℝ) (hC : ∀ j, 0 < C j) {h : ℝ} (hh : h = 1 ∨ h = 0) (xs : Fin n → Fin d → ℝ) (j : Fin d) :
    0 < updateCSep o C pC e.zs (shapedSep (fun j => Real.sqrt (C j)) e.zs) (assignedWeights o d n (e.sorted xs)) h j := by
  obtain ⟨idx, hb, hidx⟩ := exists_idx _ (he.sorted xs)
  have hcc := c1a_bounds ho.c1_nonneg ho.cC_range hh
  have hy : ∀ i, shapedSep (fun j => Real.sqrt (C j)) e.zs i j ^ 2 = C j * e.zs i j ^ 2 := by
    intro i; simp only [shapedSep, mul_pow, Real.sq_sqrt (hC j).le]
  have hr := rankMu_bound (o := o) (d := d) hn (.inr ho.toValidRates) hb e.zs he.zs_ne (C j)
    (fun i => shapedSep (fun j => Real.sqrt (C j)) e.zs i j ^ 2) (fun i => sq_nonneg _) (fun i => by
      rw [hy]
      exact mul_le_mul_of_nonneg_left (Finset.single_le_sum (f := fun j => e.zs i j ^ 2) (fun _ _ => sq_nonneg _)
        (Finset.mem_univ j)) (hC j).le) (hC j).le
  obtain ⟨hN0, hN1, hN2⟩ := negMass_bound hd hn ho.toValidRates ho.sum_lt
  have hd' : (0 : ℝ) < d := by exact_mod_cast hd
  -- the sum of the reweighted weights
  have hsum : (∑ i, reweight o e.zs (assignedWeights o d n (List.ofFn fun k => (idx k : Nat))) i) ≤ 1 ∧
      (0 < negMass o d n → (∑ i, reweight o e.zs (assignedWeights o d n (List.ofFn fun k => (idx k : Nat))) i) < 1) := by
    rw [← (Equiv.ofBijective idx hb).sum_comp]
    simp only [Equiv.ofBijective_apply]
    have hterm : ∀ k : Fin n, reweight o e.zs (assignedWeights o d n (List.ofFn fun k => (idx k : Nat))) (idx k) ≤
        if (k : Nat) < mu n then weight o d n k else 0 := by
      intro k
      have hw := assignedWeights_idx o d hb.1 k
      unfold reweight; rw [hw]
      by_cases hk : (k : Nat) < mu n
      · have hp := weight_pos (o := o) (d := d) hk
        simp [hk, hp]
      · have hp := weight_nonpos (o := o) (d := d) hn (.inr ho.toValidRates) (not_lt.mp hk)
        simp only [hk, if_false, not_lt.mpr hp]
        split
        · exact div_nonpos_of_nonpos_of_nonneg (mul_nonpos_of_nonneg_of_nonpos hd'.le hp) (normSq_pos (he.zs_ne _)).le
        · exact hp
    have hone := sum_mu n (weight o d n)
    rw [weight_sum_pos hn] at hone
    refine ⟨?_, fun hN => ?_⟩
    · rw [← hone]; exact Finset.sum_le_sum fun k _ => hterm k
    · rw [← hone]
      apply Finset.sum_lt_sum (fun k _ => hterm k)
      have hneg := sum_neg_weights (o := o) (d := d) hn
      have hlt0 : (∑ k : Fin n, if (k : Nat) < mu n then 0 else weight o d n k) < 0 := by rw [hneg]; linarith
      obtain ⟨k, _, hk⟩ := Finset.exists_lt_of_sum_lt (f := fun k : Fin n => if (k : Nat) < mu n then 0 else weight o d n k)
        (g := fun _ => (0 : ℝ)) (s := Finset.univ) (by simpa using hlt0)
      refine ⟨k, Finset.mem_univ _, ?_⟩
      have hw := assignedWeights_idx o d hb.1 k
      by_cases hkm : (k : Nat) < mu n
      · simp [hkm] at hk
      · simp only [hkm, if_false] at hk ⊢
        have ha : o.active = true := by
          by_contra ha; simp [weight, hkm, ha] at hk
        unfold reweight; rw [hw]
        simp only [ha, if_true, not_lt.mpr hk.le, if_false]
        exact div_neg_of_neg_of_pos (mul_neg_of_pos_of_neg hd' hk) (normSq_pos (he.zs_ne _))
  rw [← hidx] at hr hsum
  simp only [updateCSep, mul_sub, Finset.sum_sub_distrib, ← Finset.sum_mul]
  generalize (∑ i, reweight o e.zs (assignedWeights o d n (e.sorted xs)) i) = S at hsum ⊢
  generalize (∑ i, reweight o e.zs (assignedWeights o d n (e.sorted xs)) i *
    shapedSep (fun j => Real.sqrt (C j)) e.zs i j ^ 2) = R at hr ⊢
  have hc := hC j
  have h1 : 0 ≤ c1a o d n h * pC j ^ 2 := mul_nonneg hcc.1 (sq_nonneg _)
  have h2 := mul_le_mul_of_nonneg_left hr ho.cMu_pos.le
  have h3 : 0 < 1 - c1a o d n h - cMu o d n * S - d * cMu o d n * negMass o d n := by
    rcases hN2 with h0 | h0
    · rw [h0]; have := ho.sum_lt; nlinarith [hcc.2, mul_le_mul_of_nonneg_left hsum.1 ho.cMu_pos.le]
    · have := mul_lt_mul_of_pos_left (hsum.2 h0) ho.cMu_pos; nlinarith [hcc.2]
  have h4 := mul_pos h3 hc
  nlinarith [h1, h2, h4]

/-- **C82** and the second half of **C72**, separable, active or not, with or without limits (with a positive `stdev_max`),
`C` decomposed at every step: for learning rates with `c_1 + c_mu < 1` and `0 ≤ c_c ≤ 2` every variance stays positive, and
the factor is its square root, after every history of non-zero draws. -/
theorem C82_separable_variances_stay_positive_partial (o : Options) (hn : 2 ≤ n) (ho : SafeRates o d n)
    (hhi : ∀ h, o.stdevMax = some h → 0 < h) (m : Fin d → ℝ) {stdevInit : ℝ} (hsd : 0 < stdevInit) (es : List (Env d n))
    (hes : ∀ e ∈ es, GoodEnv e) (j : Fin d) :
    0 < (runSep o (Sep.init m stdevInit) es).C j ∧
    (runSep o (Sep.init m stdevInit) es).A j = Real.sqrt ((runSep o (Sep.init m stdevInit) es).C j) := by
  have hd : 1 ≤ d := j.pos
  have key : ∀ s : Sep d, 0 < s.sigma → (∀ j, 0 < s.C j) → (∀ j, s.A j = Real.sqrt (s.C j)) →
      (∀ j, 0 < (runSep o s es).C j) ∧ ∀ j, (runSep o s es).A j = Real.sqrt ((runSep o s es).C j) := by
    unfold runSep
    induction es with
    | nil => intro s _ h1 h2; exact ⟨h1, h2⟩
    | cons e es ih =>
      intro s h0 h1 h2
      have he := hes e (by simp)
      have hsig := stepCore_sigma_pos o e s.toCore (shapedSep s.A e.zs) h0
      have hA : s.A = fun j => Real.sqrt (s.C j) := funext h2
      apply ih (fun e' he' => hes e' (by simp [he'])) (stepSep o e s)
      · exact hsig
      · intro j
        simp only [stepSep]
        have hpos : 0 < updateCSep o s.C (stepCore o e s.toCore (shapedSep s.A e.zs)).1.pC e.zs (shapedSep s.A e.zs)
            (stepCore o e s.toCore (shapedSep s.A e.zs)).2.1 (stepCore o e s.toCore (shapedSep s.A e.zs)).2.2 j := by
          have hA2 : shapedSep (n := n) s.A e.zs = shapedSep (fun j => Real.sqrt (s.C j)) e.zs := by rw [hA]
          rw [hA2]
          exact updateCSep_pos hd hn ho he s.C _ h1 (hSig_cases _ _ _) _ j
        split
        · simp only [limitSep, limitVariance]
          have := clamp_pos (lo := o.stdevMin) hhi (mul_pos hsig (Real.sqrt_pos.mpr hpos))
          exact pow_pos (div_pos this hsig) 2
        · exact hpos
      · intro j
        simp only [stepSep, he.freq, Nat.mod_one, if_true]
  have := key (Sep.init m stdevInit) hsd (fun _ => by simp [Sep.init]) (fun _ => by simp [Sep.init])
  exact ⟨this.1 j, this.2 j⟩

/-! ### C83 -/

/-- **C83**, proved part: creation succeeds exactly if the decomposition interval is not limited or neither `c_1` nor `c_mu`
is given as a Python number. -/
theorem C83_init_with_rates_partial (limit : Bool) (g1 gmu : Option Kind) :
    initDecompose limit g1 gmu = .ok () ↔ limit = false ∨ (g1 ≠ some .python ∧ gmu ≠ some .python) := by
  rcases g1 with _ | (_ | _) <;> rcases gmu with _ | (_ | _) <;> cases limit <;>
    simp [initDecompose, rateKind, Kind.arith, Kind.cpu, bind, Except.bind]

/-- **C83** is **violated**: with the default `limit_C_decomposition`, a `c_1` or a `c_mu` given as a Python number, the
documented type, is an `AttributeError`. -/
theorem C83_violated_python_rates (g : Option Kind) :
    initDecompose true (some .python) g = .error .attributeError ∧
    initDecompose true none (some .python) = .error .attributeError := by
  constructor <;> rfl

end EvoTorch.CMAES
