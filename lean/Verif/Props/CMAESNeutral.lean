import Verif.Proofs.CMAESNeutral
import Verif.Props.CMAESControl
import Verif.Props.CMAESLimits
/-! Property C172: if the ranking carries no information, CMA-ES does not change the covariance on average. -/
namespace EvoTorch.CMAES
open Matrix Spec ProbabilityTheory MeasureTheory
open EvoTorch.GaussianScore (γ std draws)
variable {d n : Nat}

/-! ### What is averaged -/

/-- The covariance after a generation, not separable, without limits, when the population is in the order `order` and it is given whether
the evolution path of the covariance goes on (`h = 1`) or stalls (`h = 0`). `p` is the path before the generation, `z` the draws. -/
noncomputable def givenFull (o : Options) (topk : Topk n) (order : List Nat) (A C : Matrix (Fin d) (Fin d) ℝ) (h : ℝ) (p : Fin d → ℝ)
    (z : Fin n → Fin d → ℝ) : Matrix (Fin d) (Fin d) ℝ :=
  let w := assignedWeights o d n order
  let ys := shapedFull A z
  updateCFull o C (updatePC o n { m := 0, sigma := 1, pSigma := 0, pC := p, steps := 0 } (recombine (topk w (mu n)) w ys) h) z ys w h

/-- The same for a separable search. -/
noncomputable def givenSep (o : Options) (topk : Topk n) (order : List Nat) (A C : Fin d → ℝ) (h : ℝ) (p : Fin d → ℝ)
    (z : Fin n → Fin d → ℝ) : Fin d → ℝ :=
  let w := assignedWeights o d n order
  let ys := shapedSep A z
  updateCSep o C (updatePC o n { m := 0, sigma := 1, pSigma := 0, pC := p, steps := 0 } (recombine (topk w (mu n)) w ys) h) z ys w h

/-- A step computes just that, with the value of `h` that it finds. -/
theorem nextCFull_given (o : Options) (hl : o.limits = false) (e : Env d n) (s : Full d) :
    nextCFull o e s = givenFull o e.topk (e.sorted (samples s.toCore (shapedFull s.A e.zs))) s.A s.C
      (stepCore o e s.toCore (shapedFull s.A e.zs)).2.2 s.pC e.zs := by
  simp only [nextCFull, hl]
  rfl

theorem stepSep_given (o : Options) (hl : o.limits = false) (e : Env d n) (s : Sep d) :
    (stepSep o e s).C = givenSep o e.topk (e.sorted (samples s.toCore (shapedSep s.A e.zs))) s.A s.C
      (stepCore o e s.toCore (shapedSep s.A e.zs)).2.2 s.pC e.zs := by
  simp only [stepSep, hl]
  rfl

/-! ### One solution -/

theorem bilinear {μ : Measure (Fin d → ℝ)} (A C : Matrix (Fin d) (Fin d) ℝ) (hA : ∀ a b, C a b = ∑ k, A a k * A b k)
    (Q : Fin d → Fin d → (Fin d → ℝ) → ℝ) (q : ℝ) (hi : ∀ k l, Integrable (Q k l) μ) (hq : ∀ k l, ∫ z, Q k l z ∂μ = if k = l then q else 0) (a b : Fin d) :
    Integrable (fun z => ∑ k, ∑ l, A a k * A b l * Q k l z) μ ∧ ∫ z, ∑ k, ∑ l, A a k * A b l * Q k l z ∂μ = q * C a b := by
  have h1 : ∀ k, Integrable (fun z => ∑ l, A a k * A b l * Q k l z) μ := fun k => integrable_finsetSum _ fun l _ => (hi k l).const_mul _
  refine ⟨integrable_finsetSum _ fun k _ => h1 k, ?_⟩
  rw [integral_finsetSum _ fun k _ => h1 k, hA, Finset.mul_sum]
  refine Finset.sum_congr rfl fun k _ => ?_
  rw [integral_finsetSum _ fun l _ => (hi k l).const_mul _]
  simp only [integral_const_mul, hq]
  simp [mul_comm]

theorem mulVec_mul (A : Matrix (Fin d) (Fin d) ℝ) (z : Fin d → ℝ) (a b : Fin d) :
    A.mulVec z a * A.mulVec z b = ∑ k, ∑ l, A a k * A b l * (z k * z l) := by
  simp only [Matrix.mulVec, dotProduct, Finset.sum_mul_sum]
  exact Finset.sum_congr rfl fun k _ => Finset.sum_congr rfl fun l _ => by ring

theorem mean_y (A : Matrix (Fin d) (Fin d) ℝ) (a : Fin d) : Integrable (fun z => A.mulVec z a) (std d) ∧ ∫ z, A.mulVec z a ∂std d = 0 := by
  have hi : ∀ k, Integrable (fun z : Fin d → ℝ => A a k * z k) (std d) := fun k => (mean_z k).1.const_mul _
  have e : (fun z => A.mulVec z a) = fun z : Fin d → ℝ => ∑ k, A a k * z k := rfl
  rw [e]
  refine ⟨integrable_finsetSum _ fun k _ => hi k, ?_⟩
  rw [integral_finsetSum _ fun k _ => hi k]
  simp [integral_const_mul, (mean_z _).2]

theorem second_y (A C : Matrix (Fin d) (Fin d) ℝ) (hA : ∀ a b, C a b = ∑ k, A a k * A b k) (a b : Fin d) :
    Integrable (fun z => A.mulVec z a * A.mulVec z b) (std d) ∧ ∫ z, A.mulVec z a * A.mulVec z b ∂std d = C a b := by
  simp only [mulVec_mul]
  have := bilinear A C hA (fun k l z => z k * z l) 1 (fun k l => (second_z k l).1) (fun k l => (second_z k l).2) a b
  rwa [one_mul] at this

theorem ratio_y (hd : 1 ≤ d) (A C : Matrix (Fin d) (Fin d) ℝ) (hA : ∀ a b, C a b = ∑ k, A a k * A b k) (a b : Fin d) :
    Integrable (fun z => A.mulVec z a * A.mulVec z b / normSq z) (std d) ∧ ∫ z, A.mulVec z a * A.mulVec z b / normSq z ∂std d = 1 / d * C a b := by
  have e : (fun z : Fin d → ℝ => A.mulVec z a * A.mulVec z b / normSq z) = fun z => ∑ k, ∑ l, A a k * A b l * (z k * z l / normSq z) := by
    funext z
    rw [mulVec_mul, Finset.sum_div]
    refine Finset.sum_congr rfl fun k _ => ?_
    rw [Finset.sum_div]
    exact Finset.sum_congr rfl fun l _ => by ring
  rw [e]
  exact bilinear A C hA (fun k l z => z k * z l / normSq z) (1 / d) (fun k l => integrable_ratio k l) (fun k l => ratio_mean hd k l) a b

/-! ### The population -/

theorem pop_one {G : (Fin d → ℝ) → ℝ} (hG : Integrable G (std d)) (i : Fin n) :
    Integrable (fun z : Fin n → Fin d → ℝ => G (z i)) (draws n d) ∧ ∫ z : Fin n → Fin d → ℝ, G (z i) ∂draws n d = ∫ z, G z ∂std d :=
  ⟨integrable_comp_eval (μ := fun _ : Fin n => std d) hG, integral_comp_eval (μ := fun _ : Fin n => std d) (f := G) hG.aestronglyMeasurable⟩

theorem measurable_y (A : Matrix (Fin d) (Fin d) ℝ) (a : Fin d) : Measurable fun z => A.mulVec z a := by
  have e : (fun z => A.mulVec z a) = fun z : Fin d → ℝ => ∑ k, A a k * z k := rfl
  rw [e]
  fun_prop

/-- The reweighted rank-mu part: whatever the weights, in the mean it is the covariance times their sum. -/
theorem rankMu_mean (o : Options) (hd : 1 ≤ d) (A C : Matrix (Fin d) (Fin d) ℝ) (hA : ∀ a b, C a b = ∑ k, A a k * A b k) (w : Fin n → ℝ) (a b : Fin d) :
    Integrable (fun z : Fin n → Fin d → ℝ => ∑ i, reweight o z w i * (shapedFull A z i a * shapedFull A z i b)) (draws n d) ∧
    ∫ z : Fin n → Fin d → ℝ, ∑ i, reweight o z w i * (shapedFull A z i a * shapedFull A z i b) ∂draws n d = (∑ i, w i) * C a b := by
  have hd' : (d : ℝ) ≠ 0 := by exact_mod_cast (by omega : d ≠ 0)
  have key : ∀ i, Integrable (fun z : Fin n → Fin d → ℝ => reweight o z w i * (shapedFull A z i a * shapedFull A z i b)) (draws n d) ∧
      ∫ z : Fin n → Fin d → ℝ, reweight o z w i * (shapedFull A z i a * shapedFull A z i b) ∂draws n d = w i * C a b := by
    intro i
    by_cases h : o.active = true ∧ ¬ 0 < w i
    · have e : (fun z : Fin n → Fin d → ℝ => reweight o z w i * (shapedFull A z i a * shapedFull A z i b)) =
          fun z => d * w i * (A.mulVec (z i) a * A.mulVec (z i) b / normSq (z i)) := by
        funext z
        simp only [reweight, h.1, h.2, if_true, if_false, shapedFull]
        ring
      have h2 := ratio_y hd A C hA a b
      have h3 := pop_one h2.1 i
      rw [e]
      refine ⟨h3.1.const_mul _, ?_⟩
      rw [integral_const_mul, h3.2, h2.2]
      field_simp
    · have e : (fun z : Fin n → Fin d → ℝ => reweight o z w i * (shapedFull A z i a * shapedFull A z i b)) =
          fun z => w i * (A.mulVec (z i) a * A.mulVec (z i) b) := by
        funext z
        have : reweight o z w i = w i := by
          unfold reweight
          by_cases ha : o.active = true
          · have hw : 0 < w i := by
              by_contra hc
              exact h ⟨ha, hc⟩
            simp [hw]
          · simp [ha]
        rw [this]
        rfl
      have h2 := second_y A C hA a b
      have h3 := pop_one h2.1 i
      rw [e]
      exact ⟨h3.1.const_mul _, by rw [integral_const_mul, h3.2, h2.2]⟩
  refine ⟨integrable_finsetSum _ fun i _ => (key i).1, ?_⟩
  rw [integral_finsetSum _ fun i _ => (key i).1, Finset.sum_mul]
  exact Finset.sum_congr rfl fun i _ => (key i).2

theorem assigned_sum (o : Options) {order : List Nat} (hp : order.Perm (List.range n)) : ∑ i, assignedWeights o d n order i = sumWeights o d n := by
  obtain ⟨idx, hb, rfl⟩ := exists_idx order hp
  rw [sumWeights, sum_range_fin, ← (Equiv.ofBijective idx hb).sum_comp]
  exact Finset.sum_congr rfl fun k _ => assignedWeights_idx o d hb.1 k

/-- The recombined displacement has mean zero and the covariance divided by `mu_eff`. -/
theorem shaped_moments (o : Options) (hn : 2 ≤ n) (ho : o.active = false ∨ ValidRates o d n) {topk : Topk n} (ht : TopkSpec topk) {order : List Nat}
    (hp : order.Perm (List.range n)) (A C : Matrix (Fin d) (Fin d) ℝ) (hA : ∀ a b, C a b = ∑ k, A a k * A b k) :
    let S := fun (z : Fin n → Fin d → ℝ) => recombine (topk (assignedWeights o d n order) (mu n)) (assignedWeights o d n order) (shapedFull A z)
    (∀ a, Integrable (fun z => S z a) (draws n d) ∧ ∫ z, S z a ∂draws n d = 0) ∧
    ∀ a b, Integrable (fun z => S z a * S z b) (draws n d) ∧ ∫ z, S z a * S z b ∂draws n d = 1 / muEff n * C a b := by
  obtain ⟨idx, hb, rfl⟩ := exists_idx order hp
  intro S
  let v : Fin n → ℝ := fun k => if (k : Nat) < mu n then weight o d n k else 0
  have hS : ∀ z a, S z a = ∑ k, v k * A.mulVec (z (idx k)) a := by
    intro z a
    simp only [S]
    rw [recombine_ranked o hn ho ht hb]
    refine Finset.sum_congr rfl fun k _ => ?_
    simp only [v, shapedFull]
    split <;> simp
  have hv : ∑ k, v k * v k = 1 / muEff n := by
    rw [← weight_sq_sum (d := d) o hn, ← sum_mu]
    refine Finset.sum_congr rfl fun k _ => ?_
    simp only [v]
    split <;> ring
  constructor
  · intro a
    simp only [hS]
    have h1 : ∀ k, Integrable (fun z : Fin n → Fin d → ℝ => v k * A.mulVec (z (idx k)) a) (draws n d) := fun k => (pop_one (mean_y A a).1 (idx k)).1.const_mul _
    refine ⟨integrable_finsetSum _ fun k _ => h1 k, ?_⟩
    rw [integral_finsetSum _ fun k _ => h1 k]
    refine Finset.sum_eq_zero fun k _ => ?_
    rw [integral_const_mul, (pop_one (mean_y A a).1 (idx k)).2, (mean_y A a).2, mul_zero]
  · intro a b
    have hcross : ∀ k l, Integrable (fun z : Fin n → Fin d → ℝ => A.mulVec (z (idx k)) a * A.mulVec (z (idx l)) b) (draws n d) ∧
        ∫ z : Fin n → Fin d → ℝ, A.mulVec (z (idx k)) a * A.mulVec (z (idx l)) b ∂draws n d = if k = l then C a b else 0 := by
      intro k l
      by_cases h : k = l
      · subst h
        rw [if_pos rfl]
        have h2 := second_y A C hA a b
        have h3 := pop_one h2.1 (idx k)
        exact ⟨h3.1, h3.2.trans h2.2⟩
      · rw [if_neg h]
        have := GaussianScore.pop_cross (std d) (idx k) (idx l) (hb.1.ne h) (fun z => A.mulVec z a) (fun z => A.mulVec z b)
          (measurable_y A a) (measurable_y A b) (mean_y A a).1 (mean_y A b).1
        refine ⟨this.1, ?_⟩
        rw [this.2, (mean_y A a).2, zero_mul]
    have e : (fun z => S z a * S z b) = fun z => ∑ k, ∑ l, v k * v l * (A.mulVec (z (idx k)) a * A.mulVec (z (idx l)) b) := by
      funext z
      rw [hS, hS, Finset.sum_mul_sum]
      exact Finset.sum_congr rfl fun k _ => Finset.sum_congr rfl fun l _ => by ring
    have h1 : ∀ k, Integrable (fun z : Fin n → Fin d → ℝ => ∑ l, v k * v l * (A.mulVec (z (idx k)) a * A.mulVec (z (idx l)) b)) (draws n d) :=
      fun k => integrable_finsetSum _ fun l _ => (hcross k l).1.const_mul _
    rw [e]
    refine ⟨integrable_finsetSum _ fun k _ => h1 k, ?_⟩
    rw [integral_finsetSum _ fun k _ => h1 k, ← hv, Finset.sum_mul]
    refine Finset.sum_congr rfl fun k _ => ?_
    rw [integral_finsetSum _ fun l _ => (hcross k l).1.const_mul _]
    simp only [integral_const_mul, (hcross _ _).2]
    simp

/-- The average product of two components of the new path. -/
theorem path_second (o : Options) (hn : 2 ≤ n) (ho : o.active = false ∨ ValidRates o d n) (hcc : 0 ≤ cC o d n ∧ cC o d n ≤ 2) {topk : Topk n}
    (ht : TopkSpec topk) {order : List Nat} (hp : order.Perm (List.range n)) (A C : Matrix (Fin d) (Fin d) ℝ)
    (hA : ∀ a b, C a b = ∑ k, A a k * A b k) (h : ℝ) (ν : Measure (Fin d → ℝ)) [IsProbabilityMeasure ν] (hν : ∀ a, Integrable (fun p => p a) ν)
    (a b : Fin d) (hν2 : Integrable (fun p => p a * p b) ν) (hνC : ∫ p, p a * p b ∂ν = C a b) (c : (Fin d → ℝ) → Core d) (hc : ∀ p, (c p).pC = p) :
    let P := fun q : (Fin d → ℝ) × (Fin n → Fin d → ℝ) => updatePC o n (c q.1) (recombine (topk (assignedWeights o d n order) (mu n))
      (assignedWeights o d n order) (shapedFull A q.2)) h
    Integrable (fun q => P q a * P q b) (ν.prod (draws n d)) ∧
    ∫ q, P q a * P q b ∂ν.prod (draws n d) = (1 - (1 - h ^ 2) * cC o d n * (2 - cC o d n)) * C a b := by
  intro P
  obtain ⟨hS1, hS2⟩ := shaped_moments o hn ho ht hp A C hA
  set S := fun (z : Fin n → Fin d → ℝ) => recombine (topk (assignedWeights o d n order) (mu n)) (assignedWeights o d n order) (shapedFull A z) with hS
  set u := 1 - cC o d n with hu
  set t := h * varianceDiscountC o d n with htd
  have e : (fun q => P q a * P q b) = fun q : (Fin d → ℝ) × (Fin n → Fin d → ℝ) =>
      (u ^ 2 * (q.1 a * q.1 b) + u * t * (q.1 a * S q.2 b)) + (u * t * (q.1 b * S q.2 a) + t ^ 2 * (S q.2 a * S q.2 b)) := by
    funext q
    have hP : ∀ a, P q a = u * q.1 a + t * S q.2 a := fun a => by
      show (1 - cC o d n) * (c q.1).pC a + h * varianceDiscountC o d n * S q.2 a = _
      rw [hc]
    rw [hP, hP]
    ring
  have i1 : Integrable (fun q : (Fin d → ℝ) × (Fin n → Fin d → ℝ) => q.1 a * q.1 b) (ν.prod (draws n d)) := hν2.comp_fst _
  have i2 : Integrable (fun q : (Fin d → ℝ) × (Fin n → Fin d → ℝ) => q.1 a * S q.2 b) (ν.prod (draws n d)) := (hν a).mul_prod (hS1 b).1
  have i3 : Integrable (fun q : (Fin d → ℝ) × (Fin n → Fin d → ℝ) => q.1 b * S q.2 a) (ν.prod (draws n d)) := (hν b).mul_prod (hS1 a).1
  have i4 : Integrable (fun q : (Fin d → ℝ) × (Fin n → Fin d → ℝ) => S q.2 a * S q.2 b) (ν.prod (draws n d)) := (hS2 a b).1.comp_snd _
  have v1 : ∫ q : (Fin d → ℝ) × (Fin n → Fin d → ℝ), q.1 a * q.1 b ∂ν.prod (draws n d) = C a b := by
    rw [integral_fun_fst (fun p : Fin d → ℝ => p a * p b), hνC]
    simp
  have v2 : ∫ q : (Fin d → ℝ) × (Fin n → Fin d → ℝ), q.1 a * S q.2 b ∂ν.prod (draws n d) = 0 := by
    rw [integral_prod_mul (fun p : Fin d → ℝ => p a) (fun z => S z b), (hS1 b).2, mul_zero]
  have v3 : ∫ q : (Fin d → ℝ) × (Fin n → Fin d → ℝ), q.1 b * S q.2 a ∂ν.prod (draws n d) = 0 := by
    rw [integral_prod_mul (fun p : Fin d → ℝ => p b) (fun z => S z a), (hS1 a).2, mul_zero]
  have v4 : ∫ q : (Fin d → ℝ) × (Fin n → Fin d → ℝ), S q.2 a * S q.2 b ∂ν.prod (draws n d) = 1 / muEff n * C a b := by
    rw [integral_fun_snd (fun z => S z a * S z b), (hS2 a b).2]
    simp
  rw [e]
  refine ⟨((i1.const_mul _).add (i2.const_mul _)).add ((i3.const_mul _).add (i4.const_mul _)), ?_⟩
  have j1 : Integrable (fun q : (Fin d → ℝ) × (Fin n → Fin d → ℝ) => u ^ 2 * (q.1 a * q.1 b) + u * t * (q.1 a * S q.2 b)) (ν.prod (draws n d)) :=
    (i1.const_mul _).add (i2.const_mul _)
  have j2 : Integrable (fun q : (Fin d → ℝ) × (Fin n → Fin d → ℝ) => u * t * (q.1 b * S q.2 a) + t ^ 2 * (S q.2 a * S q.2 b)) (ν.prod (draws n d)) :=
    (i3.const_mul _).add (i4.const_mul _)
  rw [integral_add j1 j2, integral_add (i1.const_mul _) (i2.const_mul _), integral_add (i3.const_mul _) (i4.const_mul _)]
  simp only [integral_const_mul, v1, v2, v3, v4]
  have hdisc : varianceDiscountC o d n ^ 2 * (1 / muEff n) = cC o d n * (2 - cC o d n) := discount_sq hn hcc.1 hcc.2
  have ht2 : t ^ 2 * (1 / muEff n) = h ^ 2 * (cC o d n * (2 - cC o d n)) := by
    rw [htd, mul_pow, mul_assoc, hdisc]
  rw [← mul_assoc (t ^ 2), ht2, hu]
  ring

/-! ### C172: not separable -/

/-- C172: not separable, active or not. If the order of the population carries no information and the draws are standard normal, then a
generation leaves every entry of the covariance as it is on average, up to a relative error of `1e-23` (the constant in the code): the
path before the generation may be random, but must have the covariance as its second moments; and this holds both if the path goes on
(`h = 1`) and if it stalls (`h = 0`). -/
theorem C172_full (o : Options) (hd : 1 ≤ d) (hn : 2 ≤ n) (ho : o.active = false ∨ ValidRates o d n) (h1 : 0 ≤ c1 o d n)
    (hcc : 0 ≤ cC o d n ∧ cC o d n ≤ 2) {topk : Topk n} (ht : TopkSpec topk) {order : List Nat} (hp : order.Perm (List.range n))
    (A C : Matrix (Fin d) (Fin d) ℝ) (hA : ∀ a b, C a b = ∑ k, A a k * A b k) {h : ℝ} (hh : h = 1 ∨ h = 0)
    (ν : Measure (Fin d → ℝ)) [IsProbabilityMeasure ν] (hν : ∀ a, Integrable (fun p => p a) ν)
    (hν2 : ∀ a b, Integrable (fun p => p a * p b) ν) (hνC : ∀ a b, ∫ p, p a * p b ∂ν = C a b) (a b : Fin d) :
    Integrable (fun q : (Fin d → ℝ) × (Fin n → Fin d → ℝ) => givenFull o topk order A C h q.1 q.2 a b) (ν.prod (draws n d)) ∧
    |∫ q : (Fin d → ℝ) × (Fin n → Fin d → ℝ), givenFull o topk order A C h q.1 q.2 a b ∂ν.prod (draws n d) - C a b| ≤ 1 / 10 ^ 23 * |C a b| := by
  have hpath := path_second o hn ho hcc ht hp A C hA h ν hν a b (hν2 a b) (hνC a b) (fun p => { m := 0, sigma := 1, pSigma := 0, pC := p, steps := 0 }) (fun _ => rfl)
  set P := fun q : (Fin d → ℝ) × (Fin n → Fin d → ℝ) => updatePC o n { m := 0, sigma := 1, pSigma := 0, pC := q.1, steps := 0 }
    (recombine (topk (assignedWeights o d n order) (mu n)) (assignedWeights o d n order) (shapedFull A q.2)) h with hP
  have hmu := rankMu_mean o hd A C hA (assignedWeights o d n order) a b
  rw [assigned_sum o hp] at hmu
  set R := fun z : Fin n → Fin d → ℝ => ∑ i, reweight o z (assignedWeights o d n order) i * (shapedFull A z i a * shapedFull A z i b) with hR
  set k := weightedPc o d n h with hk
  set κ := c1a o d n h with hκ
  set ε : ℝ := 1 / 10 ^ 23 with hε
  have e : (fun q : (Fin d → ℝ) × (Fin n → Fin d → ℝ) => givenFull o topk order A C h q.1 q.2 a b) =
      fun q => (C a b - κ * C a b - cMu o d n * (sumWeights o d n * C a b)) + (κ * k ^ 2 * (P q a * P q b) + cMu o d n * R q.2) := by
    funext q
    show C a b + κ * ((k * P q a) * (k * P q b) - C a b) + cMu o d n * (R q.2 - sumWeights o d n * C a b) = _
    ring
  have i2 : Integrable (fun q : (Fin d → ℝ) × (Fin n → Fin d → ℝ) => R q.2) (ν.prod (draws n d)) := hmu.1.comp_snd _
  have v2 : ∫ q : (Fin d → ℝ) × (Fin n → Fin d → ℝ), R q.2 ∂ν.prod (draws n d) = sumWeights o d n * C a b := by
    rw [integral_fun_snd R, hmu.2]
    simp
  rw [e]
  refine ⟨(integrable_const _).add ((hpath.1.const_mul _).add (i2.const_mul _)), ?_⟩
  have j : Integrable (fun q : (Fin d → ℝ) × (Fin n → Fin d → ℝ) => κ * k ^ 2 * (P q a * P q b) + cMu o d n * R q.2) (ν.prod (draws n d)) :=
    (hpath.1.const_mul _).add (i2.const_mul _)
  rw [integral_add (integrable_const _) j, integral_add (hpath.1.const_mul _) (i2.const_mul _)]
  simp only [integral_const_mul, hpath.2, v2, integral_const, probReal_univ, one_smul]
  have hκ0 : 0 ≤ κ := (c1a_bounds h1 hcc hh).1
  have hκ1 : c1 o d n * (1 - (1 - h ^ 2) * cC o d n * (2 - cC o d n)) = κ := rfl
  have hε0 : 0 < ε := by rw [hε]; positivity
  have hk2 : k ^ 2 = c1 o d n / (κ + ε) := by
    rw [hk, weightedPc, Real.sq_sqrt]
    exact div_nonneg h1 (by positivity)
  have hval : κ * k ^ 2 * ((1 - (1 - h ^ 2) * cC o d n * (2 - cC o d n)) * C a b) = κ * κ / (κ + ε) * C a b := by
    rw [hk2]
    calc _ = κ * (c1 o d n * (1 - (1 - h ^ 2) * cC o d n * (2 - cC o d n))) / (κ + ε) * C a b := by ring
      _ = _ := by rw [hκ1]
  rw [hval]
  have hpos : 0 < κ + ε := by linarith
  have hfin : C a b - κ * C a b - cMu o d n * (sumWeights o d n * C a b) + (κ * κ / (κ + ε) * C a b + cMu o d n * (sumWeights o d n * C a b)) - C a b
      = - (ε * (κ / (κ + ε))) * C a b := by
    field_simp
    ring
  rw [hfin, abs_mul, abs_neg, abs_of_nonneg (mul_nonneg hε0.le (div_nonneg hκ0 hpos.le))]
  refine mul_le_mul_of_nonneg_right ?_ (abs_nonneg _)
  have : κ / (κ + ε) ≤ 1 := (div_le_one hpos).2 (by linarith)
  nlinarith

/-- C172: without the rank-one update (`c_1 = 0`) a step of the search itself leaves the covariance unchanged on average, exactly. -/
theorem C172_full_step (o : Options) (hl : o.limits = false) (hd : 1 ≤ d) (h1 : c1 o d n = 0) (topk : Topk n) {order : List Nat}
    (hp : order.Perm (List.range n)) (freq : Nat) (s : Full d) (hA : ∀ a b, s.C a b = ∑ k, s.A a k * s.A b k) (a b : Fin d) :
    Integrable (fun z : Fin n → Fin d → ℝ => nextCFull o { zs := z, sorted := fun _ => order, topk := topk, freq := freq } s a b) (draws n d) ∧
    ∫ z : Fin n → Fin d → ℝ, nextCFull o { zs := z, sorted := fun _ => order, topk := topk, freq := freq } s a b ∂draws n d = s.C a b := by
  have hmu := rankMu_mean o hd s.A s.C hA (assignedWeights o d n order) a b
  rw [assigned_sum o hp] at hmu
  have e : (fun z : Fin n → Fin d → ℝ => nextCFull o { zs := z, sorted := fun _ => order, topk := topk, freq := freq } s a b) =
      fun z => (s.C a b - cMu o d n * (sumWeights o d n * s.C a b)) +
        cMu o d n * ∑ i, reweight o z (assignedWeights o d n order) i * (shapedFull s.A z i a * shapedFull s.A z i b) := by
    funext z
    rw [nextCFull_given o hl]
    simp only [givenFull, updateCFull, c1a, h1, zero_mul, add_zero]
    ring
  rw [e]
  refine ⟨(integrable_const _).add (hmu.1.const_mul _), ?_⟩
  rw [integral_add (integrable_const _) (hmu.1.const_mul _), integral_const_mul, hmu.2]
  simp

/-- The average covariance after `k` generations of the search from the state `s`; the populations are in the given orders. A failing
step would count as zero. -/
noncomputable def meanRun (chol : Matrix (Fin d) (Fin d) ℝ → Option (Matrix (Fin d) (Fin d) ℝ)) (o : Options) (topk : Topk n) (a b : Fin d) :
    List (List Nat) → Full d → ℝ
  | [], s => s.C a b
  | order :: orders, s => ∫ z : Fin n → Fin d → ℝ,
      (stepFull chol o { zs := z, sorted := fun _ => order, topk := topk, freq := 1 } s).toOption.elim 0 (meanRun chol o topk a b orders) ∂draws n d

/-- C172: over a whole run of any number of generations without the rank-one update, the covariance on average stays the identity with
which the search started. -/
theorem C172_full_run {chol : Matrix (Fin d) (Fin d) ℝ → Option (Matrix (Fin d) (Fin d) ℝ)} (hch : CholSpec chol) (o : Options) (hl : o.limits = false)
    (hd : 1 ≤ d) (hn : 2 ≤ n) (ho : SafeRates o d n) (h1 : c1 o d n = 0) (topk : Topk n) (orders : List (List Nat))
    (hp : ∀ order ∈ orders, order.Perm (List.range n)) (m : Fin d → ℝ) (stdevInit : ℝ) (a b : Fin d) :
    meanRun chol o topk a b orders (Full.init m stdevInit) = if a = b then 1 else 0 := by
  have key : ∀ s : Full d, IsPD s.C → (∀ a b, s.C a b = ∑ k, s.A a k * s.A b k) → meanRun chol o topk a b orders s = s.C a b := by
    induction orders with
    | nil => intro s _ _; rfl
    | cons order orders ih =>
      intro s hs hA
      have ih := ih fun order' h => hp order' (.tail _ h)
      have hord := hp order (.head _)
      rw [meanRun, ← (C172_full_step o hl hd h1 topk hord 1 s hA a b).2]
      refine integral_congr_ae ?_
      have hne : ∀ᵐ z ∂draws n d, ∀ i, z i ≠ 0 := by
        rw [ae_all_iff]
        intro i
        exact (measurePreserving_eval (fun _ : Fin n => std d) i).quasiMeasurePreserving.ae (ae_ne_zero hd)
      filter_upwards [hne] with z hz
      have he : GoodEnv ({ zs := z, sorted := fun _ => order, topk := topk, freq := 1 } : Env d n) := ⟨hz, fun _ => hord, rfl⟩
      have hpd := nextC_pd hn ho hl he hs hA
      obtain ⟨A, hA'⟩ := hch.1 _ hpd
      have hA2 := (hch.2 _ _ hA').2
      have hstep : stepFull chol o { zs := z, sorted := fun _ => order, topk := topk, freq := 1 } s =
          .ok { toCore := (stepCore o { zs := z, sorted := fun _ => order, topk := topk, freq := 1 } s.toCore (shapedFull s.A z)).1,
                C := nextCFull o { zs := z, sorted := fun _ => order, topk := topk, freq := 1 } s, A := A } := by
        simp only [stepFull, Nat.mod_one, if_true, hA', Option.elim]
      rw [hstep]
      exact ih _ hpd hA2
  rw [key _ ?_ ?_]
  · simp [Full.init, Matrix.one_apply]
  · constructor
    · intro a b; simp [Full.init, Matrix.one_apply, eq_comm]
    · intro v hv
      have : quad (1 : Matrix (Fin d) (Fin d) ℝ) v = normSq v := by
        simp [quad, normSq, Matrix.one_apply, sq]
      simp only [Full.init]; rw [this]
      exact normSq_pos hv
  · intro a b; simp [Full.init, Matrix.one_apply]

/-- Paths with the required second moments exist: standard normal ones if the covariance is the identity. -/
theorem std_path (a b : Fin d) : Integrable (fun p : Fin d → ℝ => p a) (std d) ∧ Integrable (fun p : Fin d → ℝ => p a * p b) (std d) ∧
    ∫ p : Fin d → ℝ, p a * p b ∂std d = (1 : Matrix (Fin d) (Fin d) ℝ) a b :=
  ⟨(mean_z a).1, (second_z a b).1, by rw [(second_z a b).2, Matrix.one_apply]⟩

/-- The default options, whose path goes on or stalls, meet the hypotheses. -/
example (a b : Fin 2) : |∫ q : (Fin 2 → ℝ) × (Fin 2 → Fin 2 → ℝ), givenFull Options.default (exampleTopk 2) [1, 0] 1 1 0 q.1 q.2 a b ∂(std 2).prod (draws 2 2) -
    (1 : Matrix (Fin 2) (Fin 2) ℝ) a b| ≤ 1 / 10 ^ 23 * |(1 : Matrix (Fin 2) (Fin 2) ℝ) a b| := by
  have hr := (rates_two Options.default rfl rfl rfl rfl rfl rfl rfl).1
  exact (C172_full Options.default (by norm_num) le_rfl (.inr hr.toValidRates) hr.c1_nonneg hr.cC_range (exampleTopk_spec 2) (by decide) 1 1
    (fun a b => by simp [Matrix.one_apply]) (.inr rfl) (std 2) (fun a => (std_path a a).1) (fun a b => (std_path a b).2.1) (fun a b => (std_path a b).2.2) a b).2

/-- Options without the rank-one update. -/
noncomputable def rankMuOptions : Options := { Options.default with c1 := some 0, cMu := some 0.5, cC := some 0.5 }

example (a b : Fin 2) : meanRun exampleChol rankMuOptions (exampleTopk 2) a b [[0, 1], [1, 0], [1, 0]] (Full.init 0 1) = if a = b then 1 else 0 := by
  refine C172_full_run exampleChol_spec rankMuOptions rfl (by norm_num) le_rfl ⟨⟨?_, ?_, ?_⟩, ?_, ?_⟩ ?_ _ _ (by decide) _ _ a b <;>
    norm_num [c1, cMu, cC, rankMuOptions, Options.default]

/-! ### C172: separable -/

theorem shapedSep_diagonal (A : Fin d → ℝ) (z : Fin n → Fin d → ℝ) : shapedSep A z = shapedFull (Matrix.diagonal A) z := by
  funext i j
  simp [shapedSep, shapedFull, Matrix.mulVec_diagonal]

theorem diagonal_factor (A : Fin d → ℝ) (a b : Fin d) :
    Matrix.diagonal (fun j => A j ^ 2) a b = ∑ k, Matrix.diagonal A a k * Matrix.diagonal A b k := by
  simp only [Matrix.diagonal_apply]
  by_cases h : a = b
  · subst h
    simp [sq]
  · simp only [h, if_false]
    symm
    refine Finset.sum_eq_zero fun k _ => ?_
    by_cases h1 : a = k
    · have : ¬ b = k := fun h2 => h (h1.trans h2.symm)
      simp [this]
    · simp [h1]

/-- The rank-one part of a separable generation. -/
theorem sep_path (o : Options) (hn : 2 ≤ n) (ho : o.active = false ∨ ValidRates o d n) (hcc : 0 ≤ cC o d n ∧ cC o d n ≤ 2) {topk : Topk n}
    (ht : TopkSpec topk) {order : List Nat} (hp : order.Perm (List.range n)) (A C : Fin d → ℝ) (hA : ∀ j, C j = A j ^ 2) (h : ℝ)
    (ν : Measure (Fin d → ℝ)) [IsProbabilityMeasure ν] (hν : ∀ a, Integrable (fun p => p a) ν)
    (a : Fin d) (hν2 : Integrable (fun p => p a ^ 2) ν) (hνC : ∫ p, p a ^ 2 ∂ν = C a) :
    let P := fun q : (Fin d → ℝ) × (Fin n → Fin d → ℝ) => updatePC o n { m := 0, sigma := 1, pSigma := 0, pC := q.1, steps := 0 }
      (recombine (topk (assignedWeights o d n order) (mu n)) (assignedWeights o d n order) (shapedSep A q.2)) h
    Integrable (fun q => P q a ^ 2) (ν.prod (draws n d)) ∧
    ∫ q, P q a ^ 2 ∂ν.prod (draws n d) = (1 - (1 - h ^ 2) * cC o d n * (2 - cC o d n)) * C a := by
  have := path_second o hn ho hcc ht hp (Matrix.diagonal A) (Matrix.diagonal fun j => A j ^ 2) (diagonal_factor A) h ν hν a a (by simpa [sq] using hν2)
    (by rw [Matrix.diagonal_apply_eq, ← hA, ← hνC]; simp [sq]) (fun p => { m := 0, sigma := 1, pSigma := 0, pC := p, steps := 0 }) (fun _ => rfl)
  simp only [Matrix.diagonal_apply_eq, ← hA, ← shapedSep_diagonal, ← sq] at this
  exact this

theorem sep_sq (A C : Fin d → ℝ) (hA : ∀ j, C j = A j ^ 2) (a : Fin d) :
    Integrable (fun z : Fin d → ℝ => (A a * z a) ^ 2) (std d) ∧ ∫ z : Fin d → ℝ, (A a * z a) ^ 2 ∂std d = C a := by
  have e : (fun z : Fin d → ℝ => (A a * z a) ^ 2) = fun z => A a ^ 2 * (z a * z a) := by funext z; ring
  rw [e]
  refine ⟨(second_z a a).1.const_mul _, ?_⟩
  rw [integral_const_mul, (second_z a a).2, hA]
  simp

/-- The mean of a separable generation that is not active. -/
theorem sep_mean (o : Options) (ho : o.active = false) (hn : 2 ≤ n) (hcc : 0 ≤ cC o d n ∧ cC o d n ≤ 2) {topk : Topk n}
    (ht : TopkSpec topk) {order : List Nat} (hp : order.Perm (List.range n)) (A C : Fin d → ℝ) (hA : ∀ j, C j = A j ^ 2) (h : ℝ)
    (ν : Measure (Fin d → ℝ)) [IsProbabilityMeasure ν] (hν : ∀ a, Integrable (fun p => p a) ν)
    (a : Fin d) (hν2 : Integrable (fun p => p a ^ 2) ν) (hνC : ∫ p, p a ^ 2 ∂ν = C a) :
    Integrable (fun q : (Fin d → ℝ) × (Fin n → Fin d → ℝ) => givenSep o topk order A C h q.1 q.2 a) (ν.prod (draws n d)) ∧
    ∫ q : (Fin d → ℝ) × (Fin n → Fin d → ℝ), givenSep o topk order A C h q.1 q.2 a ∂ν.prod (draws n d) =
      C a - c1a o d n h * ((1 - h ^ 2) * cC o d n * (2 - cC o d n)) * C a := by
  have hpath := sep_path o hn (.inl ho) hcc ht hp A C hA h ν hν a hν2 hνC
  set P := fun q : (Fin d → ℝ) × (Fin n → Fin d → ℝ) => updatePC o n { m := 0, sigma := 1, pSigma := 0, pC := q.1, steps := 0 }
    (recombine (topk (assignedWeights o d n order) (mu n)) (assignedWeights o d n order) (shapedSep A q.2)) h with hP
  set w := assignedWeights o d n order with hw
  let R := fun z : Fin n → Fin d → ℝ => ∑ i, w i * ((A a * z i a) ^ 2 - C a)
  have h2 := sep_sq A C hA a
  have hR : Integrable R (draws n d) ∧ ∫ z, R z ∂draws n d = 0 := by
    have h3 : ∀ i : Fin n, Integrable (fun z : Fin n → Fin d → ℝ => w i * ((A a * z i a) ^ 2 - C a)) (draws n d) := fun i =>
      ((pop_one h2.1 i).1.sub (integrable_const _)).const_mul _
    refine ⟨integrable_finsetSum _ fun i _ => h3 i, ?_⟩
    rw [integral_finsetSum _ fun i _ => h3 i]
    refine Finset.sum_eq_zero fun i _ => ?_
    rw [integral_const_mul, integral_sub (pop_one h2.1 i).1 (integrable_const _), (pop_one h2.1 i).2, h2.2]
    simp
  have e : (fun q : (Fin d → ℝ) × (Fin n → Fin d → ℝ) => givenSep o topk order A C h q.1 q.2 a) =
      fun q => (C a - c1a o d n h * C a) + (c1a o d n h * P q a ^ 2 + cMu o d n * R q.2) := by
    funext q
    have : ∀ (z : Fin n → Fin d → ℝ) i, reweight o z w i = w i := fun z i => by simp [reweight, ho]
    show C a + c1a o d n h * (P q a ^ 2 - C a) + cMu o d n * (∑ i, reweight o q.2 w i * (shapedSep A q.2 i a ^ 2 - C a)) = _
    simp only [this]
    show C a + c1a o d n h * (P q a ^ 2 - C a) + cMu o d n * R q.2 = _
    ring
  have i2 : Integrable (fun q : (Fin d → ℝ) × (Fin n → Fin d → ℝ) => R q.2) (ν.prod (draws n d)) := hR.1.comp_snd _
  have v2 : ∫ q : (Fin d → ℝ) × (Fin n → Fin d → ℝ), R q.2 ∂ν.prod (draws n d) = 0 := by
    rw [integral_fun_snd R, hR.2]
    simp
  have j : Integrable (fun q : (Fin d → ℝ) × (Fin n → Fin d → ℝ) => c1a o d n h * P q a ^ 2 + cMu o d n * R q.2) (ν.prod (draws n d)) :=
    (hpath.1.const_mul _).add (i2.const_mul _)
  rw [e]
  refine ⟨(integrable_const _).add j, ?_⟩
  rw [integral_add (integrable_const _) j, integral_add (hpath.1.const_mul _) (i2.const_mul _)]
  simp only [integral_const_mul, hpath.2, v2, integral_const, probReal_univ, one_smul]
  ring

/-- C172: separable, not active: a generation whose path goes on leaves every variance as it is on average, exactly. -/
theorem C172_separable_partial (o : Options) (ho : o.active = false) (hn : 2 ≤ n) (hcc : 0 ≤ cC o d n ∧ cC o d n ≤ 2) {topk : Topk n}
    (ht : TopkSpec topk) {order : List Nat} (hp : order.Perm (List.range n)) (A C : Fin d → ℝ) (hA : ∀ j, C j = A j ^ 2)
    (ν : Measure (Fin d → ℝ)) [IsProbabilityMeasure ν] (hν : ∀ a, Integrable (fun p => p a) ν)
    (a : Fin d) (hν2 : Integrable (fun p => p a ^ 2) ν) (hνC : ∫ p, p a ^ 2 ∂ν = C a) :
    Integrable (fun q : (Fin d → ℝ) × (Fin n → Fin d → ℝ) => givenSep o topk order A C 1 q.1 q.2 a) (ν.prod (draws n d)) ∧
    ∫ q : (Fin d → ℝ) × (Fin n → Fin d → ℝ), givenSep o topk order A C 1 q.1 q.2 a ∂ν.prod (draws n d) = C a := by
  have := sep_mean o ho hn hcc ht hp A C hA 1 ν hν a hν2 hνC
  refine ⟨this.1, ?_⟩
  rw [this.2]
  ring

/-- C172 is violated by separable searches when the path stalls: the missing length of the path is not made up for (cmaes.py 538 against
545), and every variance shrinks on average. -/
theorem C172_violated_stalled (o : Options) (ho : o.active = false) (hn : 2 ≤ n) (h1 : 0 < c1 o d n) (hcc : 0 < cC o d n ∧ cC o d n < 1) {topk : Topk n}
    (ht : TopkSpec topk) {order : List Nat} (hp : order.Perm (List.range n)) (A C : Fin d → ℝ) (hA : ∀ j, C j = A j ^ 2)
    (ν : Measure (Fin d → ℝ)) [IsProbabilityMeasure ν] (hν : ∀ a, Integrable (fun p => p a) ν)
    (a : Fin d) (hC : 0 < C a) (hν2 : Integrable (fun p => p a ^ 2) ν) (hνC : ∫ p, p a ^ 2 ∂ν = C a) :
    Integrable (fun q : (Fin d → ℝ) × (Fin n → Fin d → ℝ) => givenSep o topk order A C 0 q.1 q.2 a) (ν.prod (draws n d)) ∧
    ∫ q : (Fin d → ℝ) × (Fin n → Fin d → ℝ), givenSep o topk order A C 0 q.1 q.2 a ∂ν.prod (draws n d) < C a := by
  have := sep_mean o ho hn ⟨hcc.1.le, by linarith⟩ ht hp A C hA 0 ν hν a hν2 hνC
  refine ⟨this.1, ?_⟩
  rw [this.2]
  have hq : 0 < cC o d n * (2 - cC o d n) := mul_pos hcc.1 (by linarith)
  have hq1 : cC o d n * (2 - cC o d n) < 1 := by nlinarith [sq_nonneg (1 - cC o d n), hcc.2]
  have hκ : 0 < c1a o d n 0 := by
    unfold c1a
    refine mul_pos h1 ?_
    nlinarith
  have h2 : 0 < c1a o d n 0 * ((1 - (0 : ℝ) ^ 2) * cC o d n * (2 - cC o d n)) := mul_pos hκ (by nlinarith)
  nlinarith [mul_pos h2 hC]

theorem sum_nonpos_weights (o : Options) (hn : 2 ≤ n) (ho : ValidRates o d n) {order : List Nat} (hp : order.Perm (List.range n)) :
    (∑ i, if 0 < assignedWeights o d n order i then 0 else assignedWeights o d n order i) = - negMass o d n := by
  obtain ⟨idx, hb, rfl⟩ := exists_idx order hp
  rw [← sum_neg_weights hn, ← (Equiv.ofBijective idx hb).sum_comp]
  refine Finset.sum_congr rfl fun k _ => ?_
  rw [Equiv.ofBijective_apply, assignedWeights_idx o d hb.1 k]
  by_cases hk : (k : Nat) < mu n
  · simp [hk, weight_pos hk]
  · have := weight_nonpos (o := o) (d := d) hn (.inr ho) (not_lt.1 hk)
    simp [hk, not_lt.2 this]

/-- C172 is violated by separable active searches (`active` is the default): the weights of the worse half are divided by the squared
lengths of the draws both for what is added and for what is taken away (cmaes.py 540-542 against 547-550), so that if a variance has an
average after the generation at all, it is larger than before; and it has one in three dimensions and more. -/
theorem C172_violated_active (o : Options) (ho : o.active = true) (hn : 2 ≤ n) (hr : ValidRates o d n) (hlt : c1 o d n + cMu o d n < 1)
    (hcc : 0 ≤ cC o d n ∧ cC o d n ≤ 2) {topk : Topk n}
    (ht : TopkSpec topk) {order : List Nat} (hp : order.Perm (List.range n)) (A C : Fin d → ℝ) (hA : ∀ j, C j = A j ^ 2)
    (ν : Measure (Fin d → ℝ)) [IsProbabilityMeasure ν] (hν : ∀ a, Integrable (fun p => p a) ν)
    (a : Fin d) (hC : 0 < C a) (hν2 : Integrable (fun p => p a ^ 2) ν) (hνC : ∫ p, p a ^ 2 ∂ν = C a) :
    (Integrable (fun q : (Fin d → ℝ) × (Fin n → Fin d → ℝ) => givenSep o topk order A C 1 q.1 q.2 a) (ν.prod (draws n d)) →
      C a < ∫ q : (Fin d → ℝ) × (Fin n → Fin d → ℝ), givenSep o topk order A C 1 q.1 q.2 a ∂ν.prod (draws n d)) ∧
    (3 ≤ d → Integrable (fun q : (Fin d → ℝ) × (Fin n → Fin d → ℝ) => givenSep o topk order A C 1 q.1 q.2 a) (ν.prod (draws n d))) := by
  have hd : 1 ≤ d := by have := a.2; omega
  have hd' : (0 : ℝ) < d := by exact_mod_cast hd
  have hpath := sep_path o hn (.inr hr) hcc ht hp A C hA 1 ν hν a hν2 hνC
  set P := fun q : (Fin d → ℝ) × (Fin n → Fin d → ℝ) => updatePC o n { m := 0, sigma := 1, pSigma := 0, pC := q.1, steps := 0 }
    (recombine (topk (assignedWeights o d n order) (mu n)) (assignedWeights o d n order) (shapedSep A q.2)) 1 with hP
  have hneg := sum_nonpos_weights o hn hr hp
  have hα : 0 < negMass o d n := by
    simp only [negMass, ho, if_true]
    exact alpha_pos hd hn hr hlt
  set w := assignedWeights o d n order with hw
  -- the part which always has an average, and the rest
  let B := fun (i : Fin n) (z : Fin n → Fin d → ℝ) => if 0 < w i then w i * ((A a * z i a) ^ 2 - C a) else d * w i * A a ^ 2 * (z i a * z i a / normSq (z i))
  let T := fun (i : Fin n) (z : Fin n → Fin d → ℝ) => if 0 < w i then 0 else - w i * (1 / normSq (z i))
  have h2 := sep_sq A C hA a
  have hB : ∀ i, Integrable (B i) (draws n d) ∧ ∫ z, B i z ∂draws n d = (if 0 < w i then 0 else w i) * C a := by
    intro i
    by_cases h : 0 < w i
    · simp only [B, h, if_true]
      refine ⟨((pop_one h2.1 i).1.sub (integrable_const _)).const_mul _, ?_⟩
      rw [integral_const_mul, integral_sub (pop_one h2.1 i).1 (integrable_const _), (pop_one h2.1 i).2, h2.2]
      simp
    · simp only [B, h, if_false]
      have h3 := pop_one (integrable_ratio a a) i
      refine ⟨h3.1.const_mul _, ?_⟩
      rw [integral_const_mul, h3.2, ratio_mean hd, if_pos rfl, hA]
      field_simp
  have e : ∀ q : (Fin d → ℝ) × (Fin n → Fin d → ℝ), givenSep o topk order A C 1 q.1 q.2 a =
      ((C a - c1a o d n 1 * C a) + c1a o d n 1 * P q a ^ 2 + cMu o d n * ∑ i, B i q.2) + cMu o d n * d * C a * ∑ i, T i q.2 := by
    intro q
    have hsum : ∑ i, reweight o q.2 w i * (shapedSep A q.2 i a ^ 2 - C a) = ∑ i, B i q.2 + d * C a * ∑ i, T i q.2 := by
      rw [Finset.mul_sum, ← Finset.sum_add_distrib]
      refine Finset.sum_congr rfl fun i _ => ?_
      by_cases h : 0 < w i
      · simp only [reweight, ho, h, if_true, B, T, shapedSep]
        ring
      · simp only [reweight, ho, h, if_true, if_false, B, T, shapedSep]
        ring
    show C a + c1a o d n 1 * (P q a ^ 2 - C a) + cMu o d n * (∑ i, reweight o q.2 w i * (shapedSep A q.2 i a ^ 2 - C a)) = _
    rw [hsum]
    ring
  have hBs : Integrable (fun z => ∑ i, B i z) (draws n d) := integrable_finsetSum _ fun i _ => (hB i).1
  have iB : Integrable (fun q : (Fin d → ℝ) × (Fin n → Fin d → ℝ) => ∑ i, B i q.2) (ν.prod (draws n d)) := hBs.comp_snd _
  have vB : ∫ q : (Fin d → ℝ) × (Fin n → Fin d → ℝ), ∑ i, B i q.2 ∂ν.prod (draws n d) = - negMass o d n * C a := by
    rw [integral_fun_snd (fun z => ∑ i, B i z), integral_finsetSum _ fun i _ => (hB i).1]
    have : ∑ i, ∫ z, B i z ∂draws n d = - negMass o d n * C a := by
      rw [Finset.sum_congr rfl fun i _ => (hB i).2, ← Finset.sum_mul, hneg]
    rw [this]
    simp
  have iF : Integrable (fun q : (Fin d → ℝ) × (Fin n → Fin d → ℝ) => (C a - c1a o d n 1 * C a) + c1a o d n 1 * P q a ^ 2 + cMu o d n * ∑ i, B i q.2)
      (ν.prod (draws n d)) := ((integrable_const _).add (hpath.1.const_mul _)).add (iB.const_mul _)
  have iF0 : Integrable (fun q : (Fin d → ℝ) × (Fin n → Fin d → ℝ) => (C a - c1a o d n 1 * C a) + c1a o d n 1 * P q a ^ 2)
      (ν.prod (draws n d)) := (integrable_const _).add (hpath.1.const_mul _)
  have hk : 0 < cMu o d n * d * C a := mul_pos (mul_pos hr.cMu_pos hd') hC
  constructor
  swap
  · intro h3
    have hT : ∀ i, Integrable (T i) (draws n d) := by
      intro i
      by_cases h : 0 < w i
      · simp only [T, h, if_true]
        exact integrable_const _
      · simp only [T, h, if_false]
        exact (pop_one (integrable_recip h3) i).1.const_mul _
    have hTs : Integrable (fun z => ∑ i, T i z) (draws n d) := integrable_finsetSum _ fun i _ => hT i
    have iT : Integrable (fun q : (Fin d → ℝ) × (Fin n → Fin d → ℝ) => ∑ i, T i q.2) (ν.prod (draws n d)) := hTs.comp_snd _
    simp only [e]
    exact iF.add (iT.const_mul _)
  intro hi
  -- so the rest has an average
  have iT : Integrable (fun q : (Fin d → ℝ) × (Fin n → Fin d → ℝ) => ∑ i, T i q.2) (ν.prod (draws n d)) := by
    have := (hi.sub iF).const_mul (1 / (cMu o d n * d * C a))
    refine this.congr (Filter.Eventually.of_forall fun q => ?_)
    simp only [Pi.sub_apply]
    rw [e q, add_sub_cancel_left, one_div, inv_mul_cancel_left₀ hk.ne']
  have iT' : Integrable (fun z => ∑ i, T i z) (draws n d) := by
    have hm : AEStronglyMeasurable (fun z => ∑ i, T i z) (draws n d) := by
      refine (Finset.measurable_fun_sum _ fun i _ => ?_).aestronglyMeasurable
      by_cases h : 0 < w i
      · simp only [T, h, if_true]
        exact measurable_const
      · simp only [T, h, if_false]
        exact ((measurable_const.div (measurable_normSq.comp (measurable_pi_apply i)))).const_mul _
    exact (measurePreserving_snd (μ := ν) (ν := draws n d)).integrable_comp hm |>.1 iT
  have hT0 : ∀ i z, 0 ≤ T i z := by
    intro i z
    simp only [T]
    split
    · exact le_rfl
    · rename_i h
      exact mul_nonneg (by linarith) (one_div_nonneg.2 (normSq_nonneg _))
  -- one of the weights is negative
  obtain ⟨i0, hi0⟩ : ∃ i, w i < 0 := by
    by_contra hc
    push Not at hc
    have : (∑ i, if 0 < w i then 0 else w i) = 0 := Finset.sum_eq_zero fun i _ => by
      split
      · rfl
      · rename_i h
        exact le_antisymm (not_lt.1 h) (hc i)
    linarith
  have hrec : Integrable (fun z : Fin d → ℝ => 1 / normSq z) (std d) := by
    have hm : Measurable fun z : Fin d → ℝ => 1 / normSq z := measurable_const.div measurable_normSq
    refine ((measurePreserving_eval (fun _ : Fin n => std d) i0).integrable_comp hm.aestronglyMeasurable).1 ?_
    refine (iT'.const_mul (1 / (- w i0))).mono' (hm.comp (measurable_pi_apply i0)).aestronglyMeasurable (Filter.Eventually.of_forall fun z => ?_)
    have hle : T i0 z ≤ ∑ i, T i z := Finset.single_le_sum (f := fun i => T i z) (fun i _ => hT0 i z) (Finset.mem_univ i0)
    have hv : T i0 z = - w i0 * (1 / normSq (z i0)) := by simp only [T, not_lt.2 hi0.le, if_false]
    rw [hv] at hle
    have hn0 : 0 ≤ 1 / normSq (z i0) := one_div_nonneg.2 (normSq_nonneg _)
    show |1 / normSq (z i0)| ≤ _
    rw [abs_of_nonneg hn0, one_div_mul_eq_div, le_div_iff₀ (by linarith), mul_comm]
    exact hle
  have hgt := recip_mean hd hrec
  set r := ∫ z : Fin d → ℝ, 1 / normSq z ∂std d with hr'
  have hT : ∀ i, Integrable (T i) (draws n d) ∧ ∫ z, T i z ∂draws n d = - (if 0 < w i then 0 else w i) * r := by
    intro i
    by_cases h : 0 < w i
    · simp only [T, h, if_true]
      exact ⟨integrable_const _, by simp⟩
    · simp only [T, h, if_false]
      have h3 := pop_one hrec i
      refine ⟨h3.1.const_mul _, ?_⟩
      rw [integral_const_mul, h3.2]
  have vT : ∫ q : (Fin d → ℝ) × (Fin n → Fin d → ℝ), ∑ i, T i q.2 ∂ν.prod (draws n d) = negMass o d n * r := by
    rw [integral_fun_snd (fun z => ∑ i, T i z), integral_finsetSum _ fun i _ => (hT i).1]
    have : ∑ i, ∫ z, T i z ∂draws n d = negMass o d n * r := by
      rw [Finset.sum_congr rfl fun i _ => (hT i).2, ← Finset.sum_mul, Finset.sum_neg_distrib, hneg, neg_neg]
    rw [this]
    simp
  simp only [e]
  rw [integral_add iF (iT.const_mul _), integral_add iF0 (iB.const_mul _), integral_add (integrable_const _) (hpath.1.const_mul _)]
  simp only [integral_const_mul, hpath.2, vB, vT, integral_const, probReal_univ, one_smul]
  have hgap : 0 < d * r - 1 := by
    rw [div_lt_iff₀ hd'] at hgt
    linarith
  have h3 : 0 < cMu o d n * C a * negMass o d n * (d * r - 1) := mul_pos (mul_pos (mul_pos hr.cMu_pos hC) hα) hgap
  nlinarith

/-- The default options of the separable search meet the hypotheses. -/
theorem sep_default_rates : ValidRates sepOptions 2 2 ∧ c1 sepOptions 2 2 + cMu sepOptions 2 2 < 1 ∧ 0 ≤ cC sepOptions 2 2 ∧ cC sepOptions 2 2 ≤ 2 := by
  have hs : 1 ≤ Real.sqrt 2 := Real.one_le_sqrt.2 (by norm_num)
  have h1 : c1 sepOptions 2 2 = 1 / (2 + 2 * Real.sqrt 2 + 1 / 2) := by
    simp only [c1, sepOptions, Options.default, muEff_two, Option.getD_none]
    norm_num
  have h2 : cMu sepOptions 2 2 = 0.25 / (2 + 4 * Real.sqrt 2 + 1 / 2) := by
    simp only [cMu, sepOptions, Options.default, muEff_two, Option.getD_none]
    norm_num
  have h3 : cC sepOptions 2 2 = 2 / (Real.sqrt 2 + 3 / 2) := by
    simp only [cC, sepOptions, Options.default, muEff_two, Option.getD_none]
    norm_num
    ring_nf
  have b1 : c1 sepOptions 2 2 ≤ 1 / 4 := by
    rw [h1, div_le_div_iff₀ (by positivity) (by norm_num)]
    linarith
  have b2 : cMu sepOptions 2 2 ≤ 1 / 4 := by
    rw [h2, div_le_div_iff₀ (by positivity) (by norm_num)]
    linarith
  refine ⟨⟨by rw [h1]; positivity, by rw [h2]; positivity, by linarith⟩, by linarith, by rw [h3]; positivity, ?_⟩
  rw [h3, div_le_iff₀ (by positivity)]
  linarith

example (hi : Integrable (fun q : (Fin 2 → ℝ) × (Fin 2 → Fin 2 → ℝ) => givenSep sepOptions (exampleTopk 2) [1, 0] (fun _ => 1) (fun _ => 1) 1 q.1 q.2 0)
    ((std 2).prod (draws 2 2))) :
    1 < ∫ q : (Fin 2 → ℝ) × (Fin 2 → Fin 2 → ℝ), givenSep sepOptions (exampleTopk 2) [1, 0] (fun _ => 1) (fun _ => 1) 1 q.1 q.2 0 ∂(std 2).prod (draws 2 2) := by
  refine (C172_violated_active sepOptions rfl le_rfl sep_default_rates.1 sep_default_rates.2.1 sep_default_rates.2.2 (exampleTopk_spec 2) (by decide)
    (fun _ => 1) (fun _ => 1) (fun _ => by norm_num) (std 2) (fun a => (mean_z a).1) 0 one_pos ?_ ?_).1 hi
  · simpa [sq] using (second_z (0 : Fin 2) 0).1
  · simpa [sq] using (second_z (0 : Fin 2) 0).2

/-- In three dimensions the average exists. -/
example : 1 < ∫ q : (Fin 3 → ℝ) × (Fin 2 → Fin 3 → ℝ), givenSep { Options.default with separable := true, c1 := some 0.1, cMu := some 0.2, cC := some 0.5 }
    (exampleTopk 2) [1, 0] (fun _ => 1) (fun _ => 1) 1 q.1 q.2 0 ∂(std 3).prod (draws 2 3) := by
  have h := C172_violated_active (d := 3) (n := 2) { Options.default with separable := true, c1 := some 0.1, cMu := some 0.2, cC := some 0.5 } rfl le_rfl
    ⟨by norm_num [c1, Options.default], by norm_num [cMu, Options.default], by norm_num [c1, cMu, Options.default]⟩ (by norm_num [c1, cMu, Options.default])
    (by norm_num [cC, Options.default]) (exampleTopk_spec 2) (order := [1, 0]) (by decide)
    (fun _ => 1) (fun _ => 1) (fun _ => by norm_num) (std 3) (fun a => (mean_z a).1) 0 one_pos (by simpa [sq] using (second_z (0 : Fin 3) 0).1)
    (by simpa [sq] using (second_z (0 : Fin 3) 0).2)
  exact h.1 (h.2 le_rfl)

/-- Without `active`. -/
noncomputable def sepPlain : Options := { Options.default with separable := true, active := false, c1 := some 0.1, cC := some 0.5 }

example : ∫ q : (Fin 2 → ℝ) × (Fin 2 → Fin 2 → ℝ), givenSep sepPlain (exampleTopk 2) [1, 0] (fun _ => 1) (fun _ => 1) 1 q.1 q.2 0 ∂(std 2).prod (draws 2 2) = 1 ∧
    ∫ q : (Fin 2 → ℝ) × (Fin 2 → Fin 2 → ℝ), givenSep sepPlain (exampleTopk 2) [1, 0] (fun _ => 1) (fun _ => 1) 0 q.1 q.2 0 ∂(std 2).prod (draws 2 2) < 1 := by
  have hi : Integrable (fun p : Fin 2 → ℝ => p 0 ^ 2) (std 2) := by simpa [sq] using (second_z (0 : Fin 2) 0).1
  have hv : ∫ p : Fin 2 → ℝ, p 0 ^ 2 ∂std 2 = 1 := by simpa [sq] using (second_z (0 : Fin 2) 0).2
  constructor
  · exact (C172_separable_partial sepPlain rfl le_rfl (by norm_num [cC, sepPlain, Options.default]) (exampleTopk_spec 2) (by decide) (fun _ => 1) (fun _ => 1)
      (fun _ => by norm_num) (std 2) (fun a => (mean_z a).1) 0 hi hv).2
  · exact (C172_violated_stalled sepPlain rfl le_rfl (by norm_num [c1, sepPlain, Options.default]) (by norm_num [cC, sepPlain, Options.default])
      (exampleTopk_spec 2) (by decide) (fun _ => 1) (fun _ => 1) (fun _ => by norm_num) (std 2) (fun a => (mean_z a).1) 0 one_pos hi hv).2

end EvoTorch.CMAES
