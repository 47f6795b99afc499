import Verif.Proofs.CMAES
import Verif.Props.CMAES
import Mathlib.Probability.Moments.Variance
import Mathlib.Probability.Distributions.Gaussian.Real
/-! Property C116: the control of the step size of CMA-ES, its evolution paths and the schedule of the decompositions. -/
namespace EvoTorch.CMAES
open Matrix Spec ProbabilityTheory MeasureTheory
variable {d n : Nat}

/-! ### Step size -/

/-- C116: the step size grows, shrinks or stays exactly when the evolution path is longer than, shorter than or as long as expected. -/
theorem C116_step_size (o : Options) (hrate : 0 < cSigma o d n / dampSigma o d n) (sigma : ℝ) (hs : 0 < sigma) (p : Fin d → ℝ) (hd : 1 ≤ d) :
    let longer : ℝ → Prop := fun x => if o.csaSquared then x < normSq p / d else x * unbiasedExpectation d < norm p
    let shorter : ℝ → Prop := fun x => if o.csaSquared then normSq p / d < x else norm p < x * unbiasedExpectation d
    (sigma < updateSigma o n sigma p ↔ longer 1) ∧ (updateSigma o n sigma p < sigma ↔ shorter 1) := by
  have hu : 0 < unbiasedExpectation d := by
    have hd' : (1 : ℝ) ≤ d := by exact_mod_cast hd
    unfold unbiasedExpectation
    have h1 : 1 / (4 * (d : ℝ)) ≤ 1 / 4 := by
      rw [div_le_div_iff₀ (by positivity) (by norm_num)]
      linarith
    have h2 : 0 < 1 / (21 * (d : ℝ) ^ 2) := by positivity
    have h3 : 0 < Real.sqrt d := Real.sqrt_pos.2 (by positivity)
    exact mul_pos h3 (by linarith)
  set e := if o.csaSquared then (normSq p / d - 1) / 2 else norm p / unbiasedExpectation d - 1 with he
  have hup : updateSigma o n sigma p = sigma * Real.exp (cSigma o d n / dampSigma o d n * e) := rfl
  have h1 : sigma < updateSigma o n sigma p ↔ 0 < e := by
    rw [hup, lt_mul_iff_one_lt_right hs, Real.one_lt_exp_iff]
    exact mul_pos_iff_of_pos_left hrate
  have h2 : updateSigma o n sigma p < sigma ↔ e < 0 := by
    rw [hup, mul_lt_iff_lt_one_right hs, Real.exp_lt_one_iff]
    constructor
    · intro h
      by_contra hc
      exact absurd h (not_lt.2 (mul_nonneg hrate.le (not_lt.1 hc)))
    · exact fun h => mul_neg_of_pos_of_neg hrate h
  intro longer shorter
  rw [h1, h2]
  simp only [longer, shorter, he]
  cases o.csaSquared
  · simp only [Bool.false_eq_true, if_false, one_mul]
    constructor
    · rw [sub_pos, lt_div_iff₀ hu, one_mul]
    · rw [sub_neg, div_lt_iff₀ hu, one_mul]
  · simp only [if_true]
    constructor
    · constructor <;> intro h <;> linarith
    · constructor <;> intro h <;> linarith

/-- C116: with the default settings (any population of at least two) the rates make sense: `0 < c_sigma < 1` and the step size is adapted. -/
theorem C116_default_rates (o : Options) (hn : 2 ≤ n) (h1 : o.cSigma = none) (h2 : o.cSigmaRatio = 1) (h3 : o.dampSigma = none) (h4 : o.dampSigmaRatio = 1) :
    0 < cSigma o d n ∧ cSigma o d n < 1 ∧ 0 < cSigma o d n / dampSigma o d n := by
  have hm := muEff_pos hn
  have hd : (0 : ℝ) ≤ d := Nat.cast_nonneg d
  have hc : cSigma o d n = (muEff n + 2) / (d + muEff n + 3) := by simp [cSigma, h1, h2]
  have hc0 : 0 < cSigma o d n := by rw [hc]; positivity
  refine ⟨hc0, ?_, div_pos hc0 ?_⟩
  · rw [hc, div_lt_one (by positivity)]
    linarith
  · simp only [dampSigma, h3, h4, one_mul, Option.getD_none]
    have := le_max_left 0 (Real.sqrt ((muEff n - 1) / (d + 1)) - 1)
    linarith

/-- C116: and the rate of the other path is in `(0, 1]`. -/
theorem C116_default_covariance_path_rate (o : Options) (hn : 2 ≤ n) (hd : 1 ≤ d) (h1 : o.cC = none) (h2 : o.cCRatio = 1) :
    0 < cC o d n ∧ cC o d n ≤ 1 := by
  have hm := muEff_pos hn
  have hd' : (1 : ℝ) ≤ d := by exact_mod_cast hd
  have hs : (1 : ℝ) ≤ Real.sqrt d := Real.one_le_sqrt.2 hd'
  have hq : 0 < muEff n / d := by positivity
  have hi : 0 < 1 / (d : ℝ) := by positivity
  simp only [cC, h1, h2, one_mul, Option.getD_none]
  split
  · refine ⟨by positivity, ?_⟩
    rw [div_le_one (by positivity)]
    linarith
  · have he : 2 * muEff n / d = 2 * (muEff n / d) := by ring
    rw [he]
    refine ⟨by positivity, ?_⟩
    rw [div_le_one (by positivity)]
    linarith

example : 0 < cSigma Options.default 3 6 / dampSigma Options.default 3 6 ∧ 0 ≤ cSigma Options.default 3 6 ∧ cSigma Options.default 3 6 ≤ 2 := by
  have h := C116_default_rates (d := 3) (n := 6) Options.default (by omega) rfl rfl rfl rfl
  exact ⟨h.2.2, h.1.le, by linarith [h.2.1]⟩

/-! ### Evolution paths -/

theorem list_sum_mul_left' (l : List Nat) (f : Nat → ℝ) (c : ℝ) : (l.map fun i => c * f i).sum = c * (l.map f).sum := by
  induction l with
  | nil => simp
  | cons a l ih => simp [ih, mul_add]

/-- The squared positive weights sum to `1 / mu_eff`. -/
theorem weight_sq_sum (o : Options) (hn : 2 ≤ n) : ((List.range (mu n)).map fun i => weight o d n i ^ 2).sum = 1 / muEff n := by
  have hs := sumPos_pos hn
  have e : ((List.range (mu n)).map fun i => weight o d n i ^ 2) = (List.range (mu n)).map fun i => (1 / sumPos n id (rawWeight n) ^ 2) * rawWeight n i ^ 2 := by
    refine List.map_congr_left fun i hi => ?_
    simp only [weight, List.mem_range.1 hi, if_true]
    rw [div_pow]
    ring
  rw [e, list_sum_mul_left' _ (fun i => rawWeight n i ^ 2)]
  have : ((List.range (mu n)).map fun i => rawWeight n i ^ 2).sum = sumPos n (· ^ 2) (rawWeight n) := rfl
  rw [this, muEff]
  field_simp

/-- The squares of the two factors of a path sum to one. -/
theorem discount_sq {c : ℝ} (hn : 2 ≤ n) (h0 : 0 ≤ c) (h2 : c ≤ 2) : Real.sqrt (c * (2 - c) * muEff n) ^ 2 * (1 / muEff n) = c * (2 - c) := by
  have hm := muEff_pos hn
  rw [Real.sq_sqrt (mul_nonneg (mul_nonneg h0 (by linarith)) hm.le)]
  field_simp

theorem path_variance {c : ℝ} (hn : 2 ≤ n) (o : Options) (h0 : 0 ≤ c) (h2 : c ≤ 2) {Ω : Type} [MeasurableSpace Ω] (P : Measure Ω)
    [IsProbabilityMeasure P] (X : Option (Fin n) → Ω → ℝ) (hX : ∀ i, MemLp (X i) 2 P) (hv : ∀ i, variance (X i) P = 1)
    (hi : Pairwise fun i j => IndepFun (X i) (X j) P) (idx : Fin n → Fin n) (hidx : Function.Injective idx) :
    variance (fun ω => (1 - c) * X none ω + Real.sqrt (c * (2 - c) * muEff n) *
      ∑ k : Fin n, if (k : Nat) < mu n then weight o d n k * X (some (idx k)) ω else 0) P = 1 := by
  set disc := Real.sqrt (c * (2 - c) * muEff n) with hdisc
  let a : Option (Fin n) → ℝ := fun i => i.elim (1 - c) fun k => disc * if (k : Nat) < mu n then weight o d n k else 0
  let Y : Option (Fin n) → Ω → ℝ := fun i => X (i.map idx)
  have hinj : Function.Injective (Option.map idx) := Option.map_injective hidx
  have he : (fun ω => (1 - c) * X none ω + disc * ∑ k : Fin n, if (k : Nat) < mu n then weight o d n k * X (some (idx k)) ω else 0) =
      ∑ i, fun ω => a i * Y i ω := by
    funext ω
    rw [Finset.sum_apply, Fintype.sum_option, Finset.mul_sum]
    simp only [a, Y, Option.elim, Option.map]
    congr 1
    refine Finset.sum_congr rfl fun k _ => ?_
    split <;> ring
  rw [he, IndepFun.variance_sum (fun i _ => (hX _).const_mul (a i))
    (fun i _ j _ hij => (hi (hinj.ne hij)).comp (measurable_const_mul (a i)) (measurable_const_mul (a j)))]
  simp only [variance_const_mul, Y, hv, mul_one]
  rw [Fintype.sum_option]
  simp only [a, Option.elim, mul_pow]
  have hsq : (∑ k : Fin n, (if (k : Nat) < mu n then weight o d n k else 0) ^ 2) = 1 / muEff n := by
    rw [← weight_sq_sum (d := d) o hn, ← sum_mu]
    exact Finset.sum_congr rfl fun k _ => by split <;> simp
  rw [← Finset.mul_sum, hsq, hdisc, discount_sq hn h0 h2]
  ring

/-- The recombination of any per-solution values is that of the best half, by rank. -/
theorem recombine_ranked (o : Options) (hn : 2 ≤ n) (ho : o.active = false ∨ ValidRates o d n) {topk : Topk n} (ht : TopkSpec topk)
    {idx : Fin n → Fin n} (hb : Function.Bijective idx) (vs : Fin n → Fin d → ℝ) (j : Fin d) :
    recombine (topk (assignedWeights o d n (List.ofFn fun k => (idx k : Nat))) (mu n)) (assignedWeights o d n (List.ofFn fun k => (idx k : Nat))) vs j =
      ∑ k : Fin n, if (k : Nat) < mu n then weight o d n k * vs (idx k) j else 0 := by
  rw [recombine_best ht hb]
  · simp only [assignedWeights_idx o d hb.1]
  · intro k hk
    rw [assignedWeights_idx o d hb.1]
    exact weight_pos hk
  · intro k hk
    rw [assignedWeights_idx o d hb.1]
    exact weight_nonpos hn ho hk

/-- C116: if the order of the population carries no information (it is some fixed order, whatever was drawn), the path that controls
the step size neither grows nor shrinks: when a component of the previous path and of the draws are independent with variance one,
then the component of the next path has variance one. -/
theorem C116_path_keeps_unit_variance (o : Options) (hn : 2 ≤ n) (ho : o.active = false ∨ ValidRates o d n)
    (hs : 0 ≤ cSigma o d n ∧ cSigma o d n ≤ 2) {topk : Topk n} (ht : TopkSpec topk) (order : List Nat) (hp : order.Perm (List.range n))
    {Ω : Type} [MeasurableSpace Ω] (P : Measure Ω) [IsProbabilityMeasure P] (c : Ω → Core d) (z ys : Ω → Fin n → Fin d → ℝ) (freq : Nat) (j : Fin d)
    (X : Option (Fin n) → Ω → ℝ) (hx0 : ∀ ω, X none ω = (c ω).pSigma j) (hx1 : ∀ i ω, X (some i) ω = z ω i j)
    (hX : ∀ i, MemLp (X i) 2 P) (hv : ∀ i, variance (X i) P = 1) (hi : Pairwise fun i k => IndepFun (X i) (X k) P) :
    variance (fun ω => (stepCore o { zs := z ω, sorted := fun _ => order, topk := topk, freq := freq } (c ω) (ys ω)).1.pSigma j) P = 1 := by
  obtain ⟨idx, hb, rfl⟩ := exists_idx order hp
  rw [← path_variance (d := d) hn o hs.1 hs.2 P X hX hv hi idx hb.1]
  congr 1
  funext ω
  simp only [stepCore, updatePSigma, varianceDiscountSigma, hx0, hx1]
  rw [recombine_ranked o hn ho ht hb]

/-- C116: the same for the path that feeds the covariance matrix, given that it is not stalled (`h_sig = 1`); then this is the path of
the step. -/
theorem C116_covariance_path_keeps_unit_variance (o : Options) (hn : 2 ≤ n) (ho : o.active = false ∨ ValidRates o d n)
    (hs : 0 ≤ cC o d n ∧ cC o d n ≤ 2) {topk : Topk n} (ht : TopkSpec topk) (order : List Nat) (hp : order.Perm (List.range n))
    {Ω : Type} [MeasurableSpace Ω] (P : Measure Ω) [IsProbabilityMeasure P] (c : Ω → Core d) (z ys : Ω → Fin n → Fin d → ℝ) (freq : Nat) (j : Fin d)
    (X : Option (Fin n) → Ω → ℝ) (hx0 : ∀ ω, X none ω = (c ω).pC j) (hx1 : ∀ i ω, X (some i) ω = ys ω i j)
    (hX : ∀ i, MemLp (X i) 2 P) (hv : ∀ i, variance (X i) P = 1) (hi : Pairwise fun i k => IndepFun (X i) (X k) P) :
    let w := assignedWeights o d n order
    let next : Ω → Fin d → ℝ := fun ω => updatePC o n (c ω) (recombine (topk w (mu n)) w (ys ω)) 1
    variance (fun ω => next ω j) P = 1 ∧
    ∀ ω, (stepCore o { zs := z ω, sorted := fun _ => order, topk := topk, freq := freq } (c ω) (ys ω)).2.2 = 1 →
      (stepCore o { zs := z ω, sorted := fun _ => order, topk := topk, freq := freq } (c ω) (ys ω)).1.pC = next ω := by
  obtain ⟨idx, hb, rfl⟩ := exists_idx order hp
  intro w next
  constructor
  · rw [← path_variance (d := d) hn o hs.1 hs.2 P X hX hv hi idx hb.1]
    congr 1
    funext ω
    simp only [next, w, updatePC, varianceDiscountC, hx0, hx1, one_mul]
    rw [recombine_ranked o hn ho ht hb]
  · intro ω h
    simp only [stepCore] at h
    simp only [stepCore, h, next, w]

/-- Such components exist: independent standard normal draws. -/
example : ∃ (X : Option (Fin 4) → (Option (Fin 4) → ℝ) → ℝ) (P : Measure (Option (Fin 4) → ℝ)), IsProbabilityMeasure P ∧
    (∀ i, MemLp (X i) 2 P) ∧ (∀ i, variance (X i) P = 1) ∧ Pairwise fun i k => IndepFun (X i) (X k) P := by
  have hL : ∀ i : Option (Fin 4), MemLp (fun ω : Option (Fin 4) → ℝ => ω i) 2 (Measure.pi fun _ => gaussianReal 0 1) := fun i =>
    (memLp_id_gaussianReal (μ := 0) (v := 1) 2).comp_measurePreserving (measurePreserving_eval (fun _ => gaussianReal 0 1) i)
  refine ⟨fun i ω => ω i, Measure.pi fun _ => gaussianReal 0 1, inferInstance, hL, fun i => ?_, fun i k hik => ?_⟩
  · have h := (measurePreserving_eval (fun _ : Option (Fin 4) => gaussianReal 0 1) i)
    have h2 := variance_id_gaussianReal (μ := 0) (v := 1)
    rw [← h.map_eq, variance_map aemeasurable_id h.measurable.aemeasurable] at h2
    exact h2
  · exact (iIndepFun_pi (μ := fun _ : Option (Fin 4) => gaussianReal 0 1) (X := fun _ x => x) fun i => aemeasurable_id).indepFun hik

/-- C116: that path stalls exactly when the step-size path is too long for the current generation. -/
theorem C116_stall (o : Options) (e : Env d n) (c : Core d) (ys : Fin n → Fin d → ℝ) (hd : 1 ≤ d) (hc : 0 < cSigma o d n ∧ cSigma o d n < 1) :
    let r := stepCore o e c ys
    (r.2.2 = 1 ∨ r.2.2 = 0) ∧
    (r.2.2 = 1 ↔ normSq r.1.pSigma < (2 + 4 / (d + 1)) * d * (1 - (1 - cSigma o d n) ^ (2 * c.steps + 1))) ∧
    (r.2.2 = 0 → r.1.pC = fun j => (1 - cC o d n) * c.pC j) := by
  have hd' : (0 : ℝ) < d := by exact_mod_cast hd
  have hpow : (1 - cSigma o d n) ^ (2 * c.steps + 1) < 1 := pow_lt_one₀ (by linarith) (by linarith) (by omega)
  have hden : 0 < 1 - (1 - cSigma o d n) ^ (2 * c.steps + 1) := by linarith
  intro r
  refine ⟨hSig_cases _ _ _, ?_, ?_⟩
  · have : r.2.2 = hSig r.1.pSigma (cSigma o d n) c.steps := rfl
    rw [this, hSig]
    have hiff : normSq r.1.pSigma / (1 - (1 - cSigma o d n) ^ (2 * c.steps + 1)) / d - 1 < 1 + 4 / (d + 1) ↔
        normSq r.1.pSigma < (2 + 4 / (d + 1)) * d * (1 - (1 - cSigma o d n) ^ (2 * c.steps + 1)) := by
      rw [sub_lt_iff_lt_add, div_lt_iff₀ hd', div_lt_iff₀ hden]
      have : (1 + 4 / ((d : ℝ) + 1) + 1) = 2 + 4 / (d + 1) := by ring
      rw [this]
    simp only [hiff]
    split
    · simp [*]
    · simp [*]
  · intro h
    have h' : hSig r.1.pSigma (cSigma o d n) c.steps = 0 := h
    funext j
    show (1 - cC o d n) * c.pC j + hSig r.1.pSigma (cSigma o d n) c.steps * varianceDiscountC o d n * _ = _
    rw [h']
    ring

/-! ### Schedule -/

theorem stepSep_schedule (o : Options) (e : Env d n) (s : Sep d) :
    (stepSep o e s).steps = s.steps + 1 ∧
    (¬ e.freq ∣ s.steps + 1 → (stepSep o e s).A = s.A) ∧ (e.freq ∣ s.steps + 1 → ∀ j, (stepSep o e s).A j = Real.sqrt ((stepSep o e s).C j)) := by
  refine ⟨rfl, fun h => ?_, fun h j => ?_⟩
  · have h' : ¬ (s.steps + 1) % e.freq = 0 := fun x => h (Nat.dvd_of_mod_eq_zero x)
    simp only [stepSep, h', if_false]
  · have h' : (s.steps + 1) % e.freq = 0 := Nat.mod_eq_zero_of_dvd h
    simp only [stepSep, h', if_true]

/-- C116: in a separable search, the number of steps is the number of generations; the decomposition used for sampling is
renewed by generation `k` exactly when `freq` divides `k`, and is kept otherwise. -/
theorem C116_separable_schedule (o : Options) (m : Fin d → ℝ) (stdev : ℝ) (es : List (Env d n)) (e : Env d n) :
    let s := runSep o (Sep.init m stdev) es
    let s' := runSep o (Sep.init m stdev) (es ++ [e])
    s.steps = es.length ∧ (¬ e.freq ∣ es.length + 1 → s'.A = s.A) ∧ (e.freq ∣ es.length + 1 → ∀ j, s'.A j = Real.sqrt (s'.C j)) := by
  have hsteps : ∀ (es : List (Env d n)) (s : Sep d), (runSep o s es).steps = s.steps + es.length := by
    intro es
    induction es with
    | nil => exact fun s => rfl
    | cons e es ih =>
      intro s
      have : runSep o s (e :: es) = runSep o (stepSep o e s) es := rfl
      rw [this, ih, (stepSep_schedule o e s).1, List.length_cons]
      omega
  intro s s'
  have h1 : s.steps = es.length := by
    show (runSep o _ es).steps = _
    rw [hsteps]
    show 0 + _ = _
    omega
  have h2 : s' = stepSep o e s := by
    show runSep o _ (es ++ [e]) = _
    simp only [runSep, List.foldl_append, List.foldl_cons, List.foldl_nil]
    rfl
  refine ⟨h1, ?_⟩
  rw [h2, ← h1]
  exact (stepSep_schedule o e s).2

theorem stepFull_schedule {chol : Matrix (Fin d) (Fin d) ℝ → Option (Matrix (Fin d) (Fin d) ℝ)} {o : Options} {e : Env d n} {s s' : Full d}
    (h : stepFull chol o e s = .ok s') :
    s'.steps = s.steps + 1 ∧ (¬ e.freq ∣ s.steps + 1 → s'.A = s.A) ∧ (e.freq ∣ s.steps + 1 → chol s'.C = some s'.A) := by
  unfold stepFull at h
  by_cases hf : (s.steps + 1) % e.freq = 0
  · simp only [hf, if_true] at h
    cases hc : chol (nextCFull o e s) with
    | none => simp [hc] at h
    | some A =>
      simp only [hc, Option.elim, Except.ok.injEq] at h
      subst h
      exact ⟨rfl, fun hn => absurd (Nat.dvd_of_mod_eq_zero hf) hn, fun _ => hc⟩
  · simp only [hf, if_false, Except.ok.injEq] at h
    subst h
    exact ⟨rfl, fun _ => rfl, fun hd => absurd (Nat.mod_eq_zero_of_dvd hd) hf⟩

/-- C116: the same schedule without the separability, as long as no decomposition fails. -/
theorem C116_full_schedule (chol : Matrix (Fin d) (Fin d) ℝ → Option (Matrix (Fin d) (Fin d) ℝ)) (o : Options) (m : Fin d → ℝ) (stdev : ℝ)
    (es : List (Env d n)) (e : Env d n) (s s' : Full d) (h1 : runFull chol o (Full.init m stdev) es = .ok s) (h2 : runFull chol o s [e] = .ok s') :
    runFull chol o (Full.init m stdev) (es ++ [e]) = .ok s' ∧
    s.steps = es.length ∧ (¬ e.freq ∣ es.length + 1 → s'.A = s.A) ∧ (e.freq ∣ es.length + 1 → chol s'.C = some s'.A) := by
  have happ : ∀ (es : List (Env d n)) (t : Full d), runFull chol o t es = .ok s → runFull chol o t (es ++ [e]) = .ok s' ∧ s.steps = t.steps + es.length := by
    intro es
    induction es with
    | nil =>
      intro t ht
      rw [runFull, Except.ok.injEq] at ht
      subst ht
      exact ⟨h2, rfl⟩
    | cons e' es ih =>
      intro t ht
      rw [runFull] at ht
      cases hst : stepFull chol o e' t with
      | error x => rw [hst] at ht; simp [bind, Except.bind] at ht
      | ok t' =>
        rw [hst] at ht
        have := ih t' ht
        refine ⟨?_, ?_⟩
        · rw [List.cons_append, runFull, hst]
          exact this.1
        · rw [this.2, (stepFull_schedule hst).1, List.length_cons]
          omega
  have ha := happ es _ h1
  have hs : s.steps = es.length := by
    rw [ha.2]
    show 0 + _ = _
    omega
  refine ⟨ha.1, hs, ?_⟩
  rw [runFull] at h2
  cases hst : stepFull chol o e s with
  | error x => rw [hst] at h2; simp [bind, Except.bind] at h2
  | ok t =>
    rw [hst] at h2
    have : t = s' := by simpa [bind, Except.bind, runFull] using h2
    subst this
    have := (stepFull_schedule hst).2
    rwa [hs] at this

/-- C116: how often: with `limit_C_decomposition` the period is at least one, and it is the integer part of
`1 / (10 d (c_1 + c_mu))` when that is at least one and the denominator is at least `1e-8`; without it, every generation decomposes. -/
theorem C116_period (o : Options) (limit : Bool) :
    1 ≤ decomposeFreq o limit d n ∧ (limit = false → decomposeFreq o limit d n = 1) ∧
    (limit = true → 1 / 10 ^ 8 ≤ 10 * d * (c1 o d n + cMu o d n) → 10 * d * (c1 o d n + cMu o d n) ≤ 1 →
      (decomposeFreq o limit d n : ℝ) ≤ 1 / (10 * d * (c1 o d n + cMu o d n)) ∧ 1 / (10 * d * (c1 o d n + cMu o d n)) < decomposeFreq o limit d n + 1) := by
  refine ⟨?_, ?_, ?_⟩
  · unfold decomposeFreq
    split
    · have := le_max_left 1 ⌊safeDivideOne (10 * d * (c1 o d n + cMu o d n))⌋
      omega
    · exact le_rfl
  · rintro rfl
    rfl
  · rintro rfl hlo hhi
    set x := 10 * (d : ℝ) * (c1 o d n + cMu o d n) with hx
    have hx0 : 0 < x := lt_of_lt_of_le (by positivity) hlo
    have hsd : safeDivideOne x = 1 / x := by
      have : ¬ |x| < 1 / 10 ^ 8 := by rw [abs_of_pos hx0]; exact not_lt.2 hlo
      simp only [safeDivideOne, this, if_false]
    have h1 : (1 : ℝ) ≤ 1 / x := by rwa [le_div_iff₀ hx0, one_mul]
    have hfl : (1 : Int) ≤ ⌊1 / x⌋ := Int.le_floor.2 (by exact_mod_cast h1)
    have hd : ((decomposeFreq o true d n : Nat) : ℝ) = (⌊1 / x⌋ : ℝ) := by
      unfold decomposeFreq
      simp only [if_true, ← hx, hsd, max_eq_right hfl]
      have : ((⌊1 / x⌋.toNat : Nat) : Int) = ⌊1 / x⌋ := Int.toNat_of_nonneg (by omega)
      exact_mod_cast this
    rw [hd]
    exact ⟨Int.floor_le _, Int.lt_floor_add_one _⟩

end EvoTorch.CMAES
