import Verif.Props.LinearProgress
import Verif.Props.CMAES
import Verif.Props.CMAESLimits
import Mathlib.Algebra.Order.Rearrangement
/-!
C174 for CMA-ES: on a linear fitness function the center is on average not worse after a generation.
-/
namespace EvoTorch.LinearProgress
open EvoTorch.Generations EvoTorch.NeutralSearch EvoTorch.CMAES EvoTorch.CMAES.Spec MeasureTheory ProbabilityTheory
open EvoTorch.Distribution (Vec)
open EvoTorch.GaussianScore (γ std draws)
open EvoTorch.BestWorst (Sense)
open EvoTorch.Selection (Sorter SorterSpec NotWorse exampleSorter exampleSorter_spec argsort)

variable {n d : ℕ}

/-- The weight of the solution of rank `k` in the new center. -/
noncomputable def centerWeight (o : Options) (d n : ℕ) (k : Fin n) : ℝ := if (k : ℕ) < n / 2 then weight o d n k else 0

theorem centerWeight_anti (o : Options) : Antitone (centerWeight o d n) := by
  intro a b hab
  unfold centerWeight
  have hab' : a.1 ≤ b.1 := hab
  by_cases hb : (b : ℕ) < n / 2
  · have ha : (a : ℕ) < n / 2 := by omega
    rw [if_pos ha, if_pos hb]
    rcases eq_or_lt_of_le hab' with h | h
    · rw [h]
    · exact (weight_anti h hb).le
  · rw [if_neg hb]
    split
    · rename_i ha; exact (weight_pos ha).le
    · exact le_rfl

theorem centerWeight_sum (o : Options) (hn : 2 ≤ n) : ∑ k, centerWeight o d n k = 1 := by
  have := weight_sum_pos (o := o) (d := d) hn
  rw [← sum_mu] at this
  exact this

theorem centerWeight_varied (o : Options) (hn : 2 ≤ n) : ∃ i k, centerWeight o d n i ≠ centerWeight o d n k := by
  refine ⟨⟨0, by omega⟩, ⟨n - 1, by omega⟩, ?_⟩
  unfold centerWeight
  have h0 : (0 : ℕ) < n / 2 := by omega
  have h1 : ¬ n - 1 < n / 2 := by omega
  simp only [h0, h1, if_true, if_false]
  exact (weight_pos (by unfold mu; omega)).ne'

/-- What a generation of CMA-ES gets from outside, for the fitness function `f`. -/
abbrev env (sort : Sorter ℝ) (sense : Sense) (topk : Topk n) (freq : ℕ) (f : Vec ℝ d → ℝ) (zs : Fin n → Vec ℝ d) : Env d n := cmaEnv sort sense topk freq f zs

/-- The fitness of the new center. -/
theorem cma_center {sort : Sorter ℝ} (hs : SorterSpec sort) (sense : Sense) {topk : Topk n} (ht : TopkSpec topk) (freq : ℕ) (o : Options) (hn : 2 ≤ n) (ho : o.active = false ∨ ValidRates o d n)
    {f : Vec ℝ d → ℝ} (hf : Linear f) (c : Core d) (zs ys : Fin n → Vec ℝ d) :
    ∃ e : Equiv.Perm (Fin n), (∀ a b, a ≤ b → sgn sense * f (samples c ys (e b)) ≤ sgn sense * f (samples c ys (e a))) ∧
      f (stepCore o (env sort sense topk freq f zs) c ys).1.m = (1 - o.cM) * f c.m + o.cM * ∑ k, centerWeight o d n k * f (samples c ys (e k)) := by
  obtain ⟨idx, hb, hord, hm⟩ := center_weights hs sense f o hn ho (env sort sense topk freq f zs) ht rfl c ys
  refine ⟨Equiv.ofBijective idx hb, fun a b hab => (notWorse_sgn sense _ _).mp (hord a b hab), ?_⟩
  obtain ⟨a, b, hf⟩ := hf
  have hm' : ∀ j, (stepCore o (env sort sense topk freq f zs) c ys).1.m j = (1 - o.cM) * c.m j + o.cM * ∑ k : Fin n, centerWeight o d n k * samples c ys (idx k) j := by
    intro j
    rw [hm j]
    congr 2
    refine Finset.sum_congr rfl fun k _ => ?_
    unfold centerWeight
    split <;> simp
  have h1 := centerWeight_sum (d := d) o hn
  simp only [Equiv.ofBijective_apply]
  rw [hf, hf c.m]
  have e1 : ∀ k, centerWeight o d n k * f (samples c ys (idx k)) = centerWeight o d n k * b + ∑ j, a j * (centerWeight o d n k * samples c ys (idx k) j) := by
    intro k
    rw [hf, mul_add, Finset.mul_sum]
    congr 1
    exact Finset.sum_congr rfl fun j _ => by ring
  simp only [e1, Finset.sum_add_distrib, ← Finset.sum_mul, h1, hm']
  rw [Finset.sum_comm]
  simp only [← Finset.mul_sum, mul_add, Finset.sum_add_distrib]
  have e2 : ∑ x, a x * ((1 - o.cM) * c.m x) = (1 - o.cM) * ∑ x, a x * c.m x := by
    rw [Finset.mul_sum]; exact Finset.sum_congr rfl fun j _ => by ring
  have e3 : ∑ x, a x * (o.cM * ∑ k, centerWeight o d n k * samples c ys (idx k) x) = o.cM * ∑ x, a x * ∑ k, centerWeight o d n k * samples c ys (idx k) x := by
    rw [Finset.mul_sum]; exact Finset.sum_congr rfl fun j _ => by ring
  rw [e2, e3]
  ring

/-- The best-first weights give at least the average, and more if the fitnesses differ. -/
theorem weighted_ge (o : Options) (hn : 2 ≤ n) {g : Fin n → ℝ} (e : Equiv.Perm (Fin n)) (h : ∀ a b, a ≤ b → g (e b) ≤ g (e a)) :
    (∑ i, g i) / n ≤ ∑ k, centerWeight o d n k * g (e k) ∧ ((∃ i k, g i ≠ g k) → (∑ i, g i) / n < ∑ k, centerWeight o d n k * g (e k)) := by
  have hn' : (n : ℝ) ≠ 0 := by exact_mod_cast (by omega : n ≠ 0)
  obtain ⟨p1, p2⟩ := product (w := fun k => centerWeight o d n k - 1 / n) (y := fun k => g (e k)) (fun i k hlt => by
      have : i ≤ k := by
        by_contra hcon
        exact absurd (h k i (not_le.mp hcon).le) (not_le.mpr hlt)
      have := centerWeight_anti (d := d) o this
      linarith) (by
      rw [Finset.sum_sub_distrib, centerWeight_sum o hn]
      simp
      field_simp
      simp)
  have e1 : ∑ k, (centerWeight o d n k - 1 / n) * g (e k) = ∑ k, centerWeight o d n k * g (e k) - (∑ i, g i) / n := by
    simp only [sub_mul, Finset.sum_sub_distrib, ← Finset.mul_sum, Equiv.sum_comp e g]
    ring
  rw [e1] at p1 p2
  refine ⟨by linarith, fun hne => ?_⟩
  have := p2 (by
    obtain ⟨i, k, hik⟩ := centerWeight_varied (d := d) o hn
    exact ⟨i, k, fun h => hik (by linarith)⟩) (by
    obtain ⟨i, k, hik⟩ := hne
    exact ⟨e.symm i, e.symm k, by simpa using hik⟩)
  linarith

/-- C174 for CMA-ES (one generation, the part of it that moves the center): the new center is not worse than the mixture `1 - c_m` to `c_m` of the old center and the average solution of the generation. -/
theorem C174_cma {sort : Sorter ℝ} (hs : SorterSpec sort) (sense : Sense) {topk : Topk n} (ht : TopkSpec topk) (freq : ℕ) (o : Options) (hcm : 0 ≤ o.cM) (hn : 2 ≤ n) (ho : o.active = false ∨ ValidRates o d n)
    {f : Vec ℝ d → ℝ} (hf : Linear f) (c : Core d) (zs ys : Fin n → Vec ℝ d) :
    NotWorse sense (f (stepCore o (env sort sense topk freq f zs) c ys).1.m) ((1 - o.cM) * f c.m + o.cM * ((∑ i, f (samples c ys i)) / n)) ∧
    (0 < o.cM → (∃ i k, f (samples c ys i) ≠ f (samples c ys k)) →
      StrictlyBetter sense (f (stepCore o (env sort sense topk freq f zs) c ys).1.m) ((1 - o.cM) * f c.m + o.cM * ((∑ i, f (samples c ys i)) / n))) := by
  obtain ⟨e, hord, hm⟩ := cma_center hs sense ht freq o hn ho hf c zs ys
  obtain ⟨p1, p2⟩ := weighted_ge (d := d) o hn (g := fun i => sgn sense * f (samples c ys i)) e hord
  have e1 : ∑ k, centerWeight o d n k * (sgn sense * f (samples c ys (e k))) = sgn sense * ∑ k, centerWeight o d n k * f (samples c ys (e k)) := by
    rw [Finset.mul_sum]; exact Finset.sum_congr rfl fun k _ => by ring
  have e2 : (∑ i, sgn sense * f (samples c ys i)) / n = sgn sense * ((∑ i, f (samples c ys i)) / n) := by
    rw [← Finset.mul_sum]; ring
  rw [e1, e2] at p1 p2
  rw [notWorse_sgn, better_sgn, hm]
  refine ⟨?_, fun hc hne => ?_⟩
  · have := mul_le_mul_of_nonneg_left p1 hcm
    linarith
  · obtain ⟨i, k, hik⟩ := hne
    have hsg : sgn sense ≠ 0 := by cases sense <;> simp [sgn]
    have := mul_lt_mul_of_pos_left (p2 ⟨i, k, fun h => hik (mul_left_cancel₀ hsg h)⟩) hc
    linarith

/-! ### On average -/

theorem sample_mean {f : Vec ℝ d → ℝ} (hf : Linear f) (c : Core d) (A : Matrix (Fin d) (Fin d) ℝ) (i : Fin n) :
    Integrable (fun z : Fin n → Fin d → ℝ => f (samples c (shapedFull A z) i)) (draws n d) ∧ ∫ z : Fin n → Fin d → ℝ, f (samples c (shapedFull A z) i) ∂draws n d = f c.m := by
  obtain ⟨a, b, hf⟩ := hf
  have e : ∀ z : Fin n → Fin d → ℝ, f (samples c (shapedFull A z) i) = f c.m + 1 * ∑ k, (∑ j, a j * c.sigma * A j k) * z i k := by
    intro z
    simp only [hf, samples, shapedFull, Matrix.mulVec, dotProduct]
    rw [one_mul, add_assoc]
    congr 1
    simp only [Finset.sum_mul]
    rw [Finset.sum_comm (γ := Fin d), ← Finset.sum_add_distrib]
    refine Finset.sum_congr rfl fun j _ => ?_
    rw [mul_add, Finset.mul_sum, Finset.mul_sum]
    congr 1
    exact Finset.sum_congr rfl fun k _ => by ring
  simp only [e]
  refine add_mean ?_ _ _
  have hk : ∀ k, Integrable (fun z : Fin n → Fin d → ℝ => (∑ j, a j * c.sigma * A j k) * z i k) (draws n d) ∧ ∫ z : Fin n → Fin d → ℝ, (∑ j, a j * c.sigma * A j k) * z i k ∂draws n d = 0 := by
    intro k
    refine ⟨(integrable_comp_eval (μ := fun _ : Fin n => std d) (i := i) (mean_coord k).1).const_mul _, ?_⟩
    rw [integral_const_mul, integral_comp_eval (μ := fun _ : Fin n => std d) (i := i) (f := fun z : Fin d → ℝ => z k) (mean_coord k).1.aestronglyMeasurable, (mean_coord k).2, mul_zero]
  refine ⟨integrable_finsetSum _ fun k _ => (hk k).1, ?_⟩
  rw [integral_finsetSum _ fun k _ => (hk k).1]
  exact Finset.sum_eq_zero fun k _ => (hk k).2

theorem cma_average {sort : Sorter ℝ} (hs : SorterSpec sort) (sense : Sense) {topk : Topk n} (ht : TopkSpec topk) (freq : ℕ) (o : Options) (hcm : 0 ≤ o.cM) (hn : 2 ≤ n) (ho : o.active = false ∨ ValidRates o d n)
    {f : Vec ℝ d → ℝ} (hf : Linear f) (c : Core d) (A : Matrix (Fin d) (Fin d) ℝ) :
    Integrable (fun z : Fin n → Fin d → ℝ => f (stepCore o (env sort sense topk freq f z) c (shapedFull A z)).1.m) (draws n d) ∧
    NotWorse sense (∫ z : Fin n → Fin d → ℝ, f (stepCore o (env sort sense topk freq f z) c (shapedFull A z)).1.m ∂draws n d) (f c.m) ∧
    (0 < o.cM → (∃ v : Vec ℝ d, f (fun j => c.m j + c.sigma * A.mulVec v j) ≠ f c.m) →
      StrictlyBetter sense (∫ z : Fin n → Fin d → ℝ, f (stepCore o (env sort sense topk freq f z) c (shapedFull A z)).1.m ∂draws n d) (f c.m)) := by
  have hfc := hf.continuous
  have hn' : (n : ℝ) ≠ 0 := by exact_mod_cast (by omega : n ≠ 0)
  have hsq : sgn sense * sgn sense = 1 := by cases sense <;> simp [sgn]
  obtain ⟨g, hg⟩ : ∃ g : (Fin n → Fin d → ℝ) → Fin n → ℝ, g = fun z i => sgn sense * f (samples c (shapedFull A z) i) := ⟨_, rfl⟩
  have hgc : ∀ i, Continuous fun z => g z i := by
    intro i
    rw [hg]
    refine continuous_const.mul (hfc.comp ?_)
    unfold samples shapedFull Matrix.mulVec dotProduct
    fun_prop
  have hgi : ∀ i, Integrable (fun z => g z i) (draws n d) ∧ ∫ z, g z i ∂draws n d = sgn sense * f c.m := by
    intro i
    rw [hg]
    have := sample_mean hf c A i
    exact ⟨this.1.const_mul _, by rw [integral_const_mul, this.2]⟩
  -- the best order has the greatest weighted sum
  obtain ⟨S, hS⟩ : ∃ S : (Fin n → Fin d → ℝ) → ℝ, S = fun z => (Finset.univ : Finset (Equiv.Perm (Fin n))).sup' Finset.univ_nonempty (fun σ => ∑ k, centerWeight o d n k * g z (σ k)) := ⟨_, rfl⟩
  have hSc : Continuous S := by
    rw [hS]
    exact Continuous.finset_sup'_apply Finset.univ_nonempty fun σ _ => continuous_finsetSum _ fun k _ => continuous_const.mul (hgc (σ k))
  have hbest : ∀ (z : Fin n → Fin d → ℝ) (e : Equiv.Perm (Fin n)), (∀ a b, a ≤ b → g z (e b) ≤ g z (e a)) → S z = ∑ k, centerWeight o d n k * g z (e k) := by
    intro z e he
    rw [hS]
    refine le_antisymm (Finset.sup'_le _ _ fun σ _ => ?_) (Finset.le_sup' (fun σ : Equiv.Perm (Fin n) => ∑ k, centerWeight o d n k * g z (σ k)) (Finset.mem_univ e))
    have hmono : Monovary (centerWeight o d n) fun k => g z (e k) := by
      intro i k hlt
      refine centerWeight_anti o ?_
      by_contra hcon
      exact absurd (he i k (not_le.mp hcon).le) (not_le.mpr hlt)
    have := hmono.sum_mul_comp_perm_le_sum_mul (σ := σ.trans e.symm)
    simpa using this
  obtain ⟨F, hF⟩ : ∃ F : (Fin n → Fin d → ℝ) → ℝ, F = fun z => f (stepCore o (env sort sense topk freq f z) c (shapedFull A z)).1.m := ⟨_, rfl⟩
  have hFS : ∀ z, F z = (1 - o.cM) * f c.m + (o.cM * sgn sense) * S z := by
    intro z
    obtain ⟨e, hord, hm⟩ := cma_center hs sense ht freq o hn ho hf c z (shapedFull A z)
    rw [hbest z e (by rw [hg]; exact hord), hF, hg]
    dsimp only
    have e1 : ∑ k, centerWeight o d n k * (sgn sense * f (samples c (shapedFull A z) (e k))) = sgn sense * ∑ k, centerWeight o d n k * f (samples c (shapedFull A z) (e k)) := by
      rw [Finset.mul_sum]; exact Finset.sum_congr rfl fun k _ => by ring
    rw [hm, e1, mul_assoc o.cM, ← mul_assoc (sgn sense), hsq, one_mul]
  have hSi : Integrable S (draws n d) := by
    have hb : Integrable (fun z : Fin n → Fin d → ℝ => ∑ i : Fin n, |g z i|) (draws n d) := integrable_finsetSum _ fun i _ => (hgi i).1.abs
    refine Integrable.mono' hb hSc.aestronglyMeasurable (ae_of_all _ fun z => ?_)
    obtain ⟨e, hord, -⟩ := cma_center hs sense ht freq o hn ho hf c z (shapedFull A z)
    rw [hbest z e (by rw [hg]; exact hord), Real.norm_eq_abs, ← Equiv.sum_comp e fun i => |g z i|]
    have hw0 : ∀ k, 0 ≤ centerWeight o d n k := by
      intro k
      unfold centerWeight
      split
      · rename_i h; exact (weight_pos h).le
      · exact le_rfl
    have hw1 : ∀ k, centerWeight o d n k ≤ 1 := fun k => by
      rw [← centerWeight_sum (d := d) o hn]
      exact Finset.single_le_sum (fun k _ => hw0 k) (Finset.mem_univ k)
    refine (Finset.abs_sum_le_sum_abs _ _).trans (Finset.sum_le_sum fun k _ => ?_)
    rw [abs_mul, abs_of_nonneg (hw0 k)]
    exact mul_le_of_le_one_left (_root_.abs_nonneg _) (hw1 k)
  have hFi : Integrable F (draws n d) := by
    rw [funext hFS]
    exact (integrable_const _).add (hSi.const_mul _)
  have hFm : sgn sense * ∫ z, F z ∂draws n d = (1 - o.cM) * (sgn sense * f c.m) + o.cM * ∫ z, S z ∂draws n d := by
    rw [funext hFS, integral_add (integrable_const _) (hSi.const_mul _), integral_const, probReal_univ, one_smul, integral_const_mul]
    linear_combination (o.cM * ∫ z, S z ∂draws n d) * hsq
  obtain ⟨M, hM⟩ : ∃ M : (Fin n → Fin d → ℝ) → ℝ, M = fun z => (∑ i, g z i) / n := ⟨_, rfl⟩
  have hMi : Integrable M (draws n d) := by
    rw [hM]
    exact (integrable_finsetSum _ fun i _ => (hgi i).1).div_const _
  have hMm : ∫ z, M z ∂draws n d = sgn sense * f c.m := by
    rw [hM, integral_div, integral_finsetSum _ fun i _ => (hgi i).1]
    simp only [(hgi _).2, Finset.sum_const, Finset.card_univ, Fintype.card_fin, nsmul_eq_mul]
    field_simp
  have hMc : Continuous M := by
    rw [hM]
    exact (continuous_finsetSum _ fun i _ => hgc i).div_const _
  have hle : ∀ z, M z ≤ S z ∧ ((∃ i k, g z i ≠ g z k) → M z < S z) := by
    intro z
    obtain ⟨e, hord, -⟩ := cma_center hs sense ht freq o hn ho hf c z (shapedFull A z)
    rw [hbest z e (by rw [hg]; exact hord), hM]
    exact weighted_ge o hn e (by rw [hg]; exact hord)
  have hFF : (∫ z : Fin n → Fin d → ℝ, f (stepCore o (env sort sense topk freq f z) c (shapedFull A z)).1.m ∂draws n d) = ∫ z, F z ∂draws n d := by rw [hF]
  rw [hFF]
  refine ⟨by rw [hF] at hFi; exact hFi, ?_, fun hc hne => ?_⟩
  · rw [notWorse_sgn, hFm]
    have := mul_le_mul_of_nonneg_left (integral_mono hMi hSi fun z => (hle z).1) hcm
    rw [hMm] at this
    linarith
  · rw [better_sgn, hFm]
    have : (std d).IsOpenPosMeasure := Measure.pi.isOpenPosMeasure _
    have : (draws n d).IsOpenPosMeasure := Measure.pi.isOpenPosMeasure _
    obtain ⟨v, hv⟩ := hne
    obtain ⟨z, hz⟩ : ∃ z : Fin n → Fin d → ℝ, z = fun i => if i.1 = 0 then v else 0 := ⟨_, rfl⟩
    have hlt : M z < S z := by
      refine (hle z).2 ⟨⟨0, by omega⟩, ⟨1, by omega⟩, ?_⟩
      have hsg : sgn sense ≠ 0 := by cases sense <;> simp [sgn]
      intro h
      rw [hg] at h
      have h := mul_left_cancel₀ hsg h
      refine hv ?_
      have e0 : samples c (shapedFull A z) ⟨0, by omega⟩ = fun j => c.m j + c.sigma * A.mulVec v j := by
        rw [hz]; funext j; simp [samples, shapedFull]
      have e1 : samples c (shapedFull A z) ⟨1, by omega⟩ = c.m := by
        rw [hz]; funext j; simp [samples, shapedFull]
      rw [e0, e1] at h
      exact h
    have := integral_pos_of_integrable_nonneg_nonzero (μ := draws n d) (x := z) (hSc.sub hMc) (hSi.sub hMi) (fun z => sub_nonneg.mpr (hle z).1) (sub_pos.mpr hlt).ne'
    have e : ∫ z, (S - M) z ∂draws n d = ∫ z, S z ∂draws n d - ∫ z, M z ∂draws n d := integral_sub hSi hMi
    rw [e, hMm] at this
    have := mul_pos hc this
    linarith

/-- C174 for CMA-ES: on a linear fitness function the center is on average not worse after a generation than before, and better if the search can sample a solution whose fitness is not that of the center. -/
theorem C174_cma_full_average {sort : Sorter ℝ} (hs : SorterSpec sort) (sense : Sense) {topk : Topk n} (ht : TopkSpec topk) (freq : ℕ) (o : Options) (hcm : 0 ≤ o.cM) (hn : 2 ≤ n)
    (ho : o.active = false ∨ ValidRates o d n) (chol : Matrix (Fin d) (Fin d) ℝ → Option (Matrix (Fin d) (Fin d) ℝ)) {f : Vec ℝ d → ℝ} (hf : Linear f) (s : Full d) :
    ∃ center : (Fin n → Fin d → ℝ) → Vec ℝ d, (∀ z s', stepFull chol o (cmaEnv sort sense topk freq f z) s = .ok s' → s'.m = center z) ∧
      Integrable (fun z => f (center z)) (draws n d) ∧ NotWorse sense (∫ z, f (center z) ∂draws n d) (f s.m) ∧
      (0 < o.cM → (∃ v : Vec ℝ d, f (fun j => s.m j + s.sigma * s.A.mulVec v j) ≠ f s.m) → StrictlyBetter sense (∫ z, f (center z) ∂draws n d) (f s.m)) := by
  refine ⟨_, fun z s' h => ?_, cma_average hs sense ht freq o hcm hn ho hf s.toCore s.A⟩
  simp only [stepFull] at h
  split at h
  · cases hch : chol (nextCFull o (cmaEnv sort sense topk freq f z) s) with
    | none => rw [hch] at h; cases h
    | some A => rw [hch] at h; cases h; rfl
  · cases h; rfl

/-- The same for the separable variant. -/
theorem C174_cma_separable_average {sort : Sorter ℝ} (hs : SorterSpec sort) (sense : Sense) {topk : Topk n} (ht : TopkSpec topk) (freq : ℕ) (o : Options) (hcm : 0 ≤ o.cM) (hn : 2 ≤ n)
    (ho : o.active = false ∨ ValidRates o d n) {f : Vec ℝ d → ℝ} (hf : Linear f) (s : Sep d) :
    Integrable (fun z => f (stepSep o (cmaEnv sort sense topk freq f z) s).m) (draws n d) ∧ NotWorse sense (∫ z, f (stepSep o (cmaEnv sort sense topk freq f z) s).m ∂draws n d) (f s.m) ∧
      (0 < o.cM → (∃ v : Vec ℝ d, f (fun j => s.m j + s.sigma * (s.A j * v j)) ≠ f s.m) → StrictlyBetter sense (∫ z, f (stepSep o (cmaEnv sort sense topk freq f z) s).m ∂draws n d) (f s.m)) := by
  have e : ∀ z : Fin n → Fin d → ℝ, (stepSep o (cmaEnv sort sense topk freq f z) s).m = (stepCore o (env sort sense topk freq f z) s.toCore (shapedFull (Matrix.diagonal s.A) z)).1.m := by
    intro z
    have : shapedSep s.A z = shapedFull (Matrix.diagonal s.A) z := by
      funext i j
      simp [shapedSep, shapedFull, Matrix.mulVec_diagonal]
    rw [← this]
    rfl
  have h := cma_average hs sense ht freq o hcm hn ho hf s.toCore (Matrix.diagonal s.A)
  simp only [e]
  simp only [Matrix.mulVec_diagonal] at h
  exact h

/-! ### The hypotheses can be met -/

/-- With the default options, a population of four and any Cholesky routine. -/
example (chol : Matrix (Fin 2) (Fin 2) ℝ → Option (Matrix (Fin 2) (Fin 2) ℝ)) :
    ∃ center : (Fin 4 → Fin 2 → ℝ) → Vec ℝ 2, (∀ z s', stepFull chol Options.default (cmaEnv exampleSorter .max (exampleTopk 4) 1 exFit z) (Full.init 0 1) = .ok s' → s'.m = center z) ∧
      5 < ∫ z, exFit (center z) ∂draws 4 2 := by
  obtain ⟨center, h1, -, -, h2⟩ := C174_cma_full_average exampleSorter_spec .max (exampleTopk_spec 4) 1 Options.default (by norm_num [Options.default]) (by norm_num)
    (.inr (C71_default_rates Options.default rfl rfl rfl rfl rfl 2 (by norm_num) (by norm_num))) chol exFit_linear (Full.init 0 1)
  refine ⟨center, h1, ?_⟩
  have e : exFit (0 : Vec ℝ 2) = 5 := by simp [exFit]
  have := h2 (by norm_num [Options.default]) ⟨![1, 0], by simp [exFit, Full.init]⟩
  simp only [StrictlyBetter] at this
  exact e ▸ this

/-- The separable variant without `active`. -/
example : 5 < ∫ z : Fin 4 → Fin 2 → ℝ, exFit (stepSep { Options.default with active := false, separable := true } (cmaEnv exampleSorter .max (exampleTopk 4) 1 exFit z) (Sep.init 0 1)).m ∂draws 4 2 := by
  have h := (C174_cma_separable_average exampleSorter_spec .max (exampleTopk_spec 4) 1 { Options.default with active := false, separable := true } (by norm_num [Options.default]) (by norm_num)
    (.inl rfl) exFit_linear (Sep.init (0 : Vec ℝ 2) 1)).2.2 (by norm_num [Options.default]) ⟨![1, 0], by simp [exFit, Sep.init]⟩
  have e : exFit (0 : Vec ℝ 2) = 5 := by simp [exFit]
  simp only [StrictlyBetter] at h
  exact e ▸ h

end EvoTorch.LinearProgress
