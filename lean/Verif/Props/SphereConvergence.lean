import Verif.Props.LinearProgress
import Verif.Proofs.FourthMoments
import Verif.Props.Unbiased
import Mathlib.Analysis.SpecificLimits.Basic
/-!
C175: how fast the center of PGPE approaches the optimum of a quadratic bowl.
-/
namespace EvoTorch.SphereConvergence
open EvoTorch.Generations EvoTorch.Distribution MeasureTheory ProbabilityTheory
open EvoTorch.GaussianScore (γ std draws)
open EvoTorch.BestWorst (Sense)
open EvoTorch.Selection (Sorter exampleSorter)
open EvoTorch.LinearProgress (sgn)

variable {n d : ℕ}

/-- A quadratic fitness function with its optimum at `t`: with positive curvatures `κ`, solutions get worse away from `t`. -/
def Bowl (sense : Sense) (κ t : Vec ℝ d) (f : Vec ℝ d → ℝ) : Prop :=
  ∃ c, ∀ x, f x = match sense with
    | .min => c + ∑ j, κ j * (x j - t j) ^ 2
    | .max => c - ∑ j, κ j * (x j - t j) ^ 2

/-- PGPE with mirrored solutions, fitnesses used as they are, and the gradient divided by the number of directions. -/
structure RawMirrored (p : Pgpe) : Prop where
  symmetric : p.symmetric = true
  raw : p.method = .raw
  perDirection : p.divMu = some .numDirections

/-- The average of `F` after `T` generations with `n` fresh draws each. A failing generation would count as zero. -/
noncomputable def averageAfter {σ : Type} (n : ℕ) {d : ℕ} (gen : σ → List (Vec ℝ d) → Except PyErr σ) (F : σ → ℝ) : ℕ → σ → ℝ
  | 0, s => F s
  | T + 1, s => ∫ z : Fin n → Fin d → ℝ, (gen s (List.ofFn z)).toOption.elim 0 (averageAfter n gen F T) ∂draws n d

/-! ### A generation -/

theorem evens_pairs {α β : Type} (A B : α → β) (zs : List α) : evens (zs.flatMap fun z => [A z, B z]) = zs.map A ∧ odds (zs.flatMap fun z => [A z, B z]) = zs.map B := by
  induction zs with
  | nil => exact ⟨rfl, rfl⟩
  | cons z zs ih => simp only [List.flatMap_cons, List.cons_append, List.nil_append, evens, odds, ih.1, ih.2, List.map_cons, and_self]

theorem zip_maps {α β δ ε : Type} (F : β → δ → ε) (a : α → β) (b : α → δ) (zs : List α) : List.zipWith F (zs.map a) (zs.map b) = zs.map fun z => F (a z) (b z) := by
  induction zs with
  | nil => rfl
  | cons z zs ih => simp only [List.map_cons, List.zipWith_cons_cons, ih]

theorem raw_eq (sense : Sense) (x : List ℝ) : Ranking.raw (decide (sense = .max)) x = x.map fun a => sgn sense * a := by
  cases sense <;> simp [Ranking.raw, sgn]

/-- The center after a generation, for any fitness function. -/
theorem gen_center (sort : Sorter ℝ) {p : Pgpe} (hp : RawMirrored p) (f : Vec ℝ d → ℝ) (s : Vec ℝ d × Vec ℝ d) (z : Fin n → Fin d → ℝ) :
    ∃ g : Vec ℝ d, pgpeGen sort p f s (List.ofFn z) = .ok (fun j => s.1 j + p.lrMu * ((∑ i, sgn p.sense * (f (fun j => s.1 j + s.2 j * z i j) - f fun j => s.1 j - s.2 j * z i j) / 2 * (s.2 j * z i j)) / n),
      fun j => s.2 j + p.lrSigma * g j) := by
  obtain ⟨zs, hzs⟩ : ∃ zs, zs = List.ofFn z := ⟨_, rfl⟩
  obtain ⟨A, hA⟩ : ∃ A : Vec ℝ d → Vec ℝ d, A = fun z => fun j => s.1 j + s.2 j * z j := ⟨_, rfl⟩
  obtain ⟨B, hB⟩ : ∃ B : Vec ℝ d → Vec ℝ d, B = fun z => fun j => s.1 j - s.2 j * z j := ⟨_, rfl⟩
  have hw : ∃ m : ℝ, centerWeights p.method.alreadyCentered (utilities sort p.method p.sense f (zs.flatMap fun z => [A z, B z])) = zs.flatMap fun z => [sgn p.sense * f (A z) - m, sgn p.sense * f (B z) - m] := by
    refine ⟨Ranking.mean (utilities sort p.method p.sense f (zs.flatMap fun z => [A z, B z])), ?_⟩
    rw [hp.raw]
    simp only [centerWeights, Method.alreadyCentered, Bool.false_eq_true, if_false]
    generalize Ranking.mean (utilities sort Method.raw p.sense f (zs.flatMap fun z => [A z, B z])) = m
    simp only [utilities, rank, raw_eq, List.map_flatMap, List.map_cons, List.map_nil]
  obtain ⟨m, hw⟩ := hw
  refine ⟨(symmetricGradients p.divMu p.divSigma s.1 s.2 p.method.alreadyCentered (zs.flatMap fun z => [A z, B z]) (utilities sort p.method p.sense f (zs.flatMap fun z => [A z, B z]))).sigma, ?_⟩
  rw [← hzs, pgpeGen, if_pos hp.symmetric, LinearProgress.symmetric_eq]
  have hA' : ∀ z, (fun j => s.1 j + s.2 j * z j) = A z := fun z => by rw [hA]
  have hB' : ∀ z, (fun j => s.1 j - s.2 j * z j) = B z := fun z => by rw [hB]
  simp only [hA', hB', Except.bind]
  rw [updateSeparable]
  congr 2
  funext j
  congr 2
  simp only [symmetricGradients, hw, hp.perDirection, divideGrad, (evens_pairs _ _ zs).1, (evens_pairs _ _ zs).2]
  congr 1
  · simp only [weightedSum, List.map_map, zip_maps]
    simp only [hzs, List.map_ofFn, List.sum_ofFn, Function.comp_def]
    refine Finset.sum_congr rfl fun i _ => ?_
    rw [hA]
    ring
  · simp [hzs, Function.comp_def]

/-- The center after a generation on a bowl. -/
theorem gen_bowl (sort : Sorter ℝ) {p : Pgpe} (hp : RawMirrored p) {κ t : Vec ℝ d} {f : Vec ℝ d → ℝ} (hf : Bowl p.sense κ t f) (s : Vec ℝ d × Vec ℝ d) (z : Fin n → Fin d → ℝ) :
    ∃ g mu : Vec ℝ d, pgpeGen sort p f s (List.ofFn z) = .ok (mu, fun j => s.2 j + p.lrSigma * g j) ∧
      ∀ j, mu j - t j = (s.1 j - t j) - (2 * p.lrMu * s.2 j / n) * ∑ i, (∑ k, (κ k * s.2 k * (s.1 k - t k)) * z i k) * z i j := by
  obtain ⟨g, h⟩ := gen_center sort hp f s z
  refine ⟨g, _, h, fun j => ?_⟩
  obtain ⟨c, hc⟩ := hf
  have key : ∀ y : Fin d → ℝ, sgn p.sense * (f (fun j => s.1 j + s.2 j * y j) - f fun j => s.1 j - s.2 j * y j) = - (4 * ∑ k, (κ k * s.2 k * (s.1 k - t k)) * y k) := by
    intro y
    have e : ∑ j, κ j * (s.1 j + s.2 j * y j - t j) ^ 2 - ∑ j, κ j * (s.1 j - s.2 j * y j - t j) ^ 2 = 4 * ∑ k, (κ k * s.2 k * (s.1 k - t k)) * y k := by
      rw [← Finset.sum_sub_distrib, Finset.mul_sum]
      exact Finset.sum_congr rfl fun k _ => by ring
    rw [hc, hc]
    cases hs : p.sense <;> simp only [sgn] <;> linarith
  simp only [key]
  have e : ∑ i, -(4 * ∑ k, (κ k * s.2 k * (s.1 k - t k)) * z i k) / 2 * (s.2 j * z i j) = -(2 * s.2 j) * ∑ i, (∑ k, (κ k * s.2 k * (s.1 k - t k)) * z i k) * z i j := by
    rw [Finset.mul_sum]
    exact Finset.sum_congr rfl fun i _ => by ring
  rw [e]
  ring

/-! ### Averages -/

theorem dir_mean (b : Fin d → ℝ) (j : Fin d) : Integrable (fun z : Fin d → ℝ => (∑ k, b k * z k) * z j) (std d) ∧ ∫ z, (∑ k, b k * z k) * z j ∂std d = b j := by
  have e : (fun z : Fin d → ℝ => (∑ k, b k * z k) * z j) = fun z => ∑ k, b k * (z k * z j) := by
    funext z; rw [Finset.sum_mul]; exact Finset.sum_congr rfl fun k _ => by ring
  have hi : ∀ k ∈ Finset.univ, Integrable (fun z : Fin d → ℝ => b k * (z k * z j)) (std d) := fun k _ => (CMAES.second_z k j).1.const_mul _
  rw [e]
  refine ⟨integrable_finsetSum _ hi, ?_⟩
  rw [integral_finsetSum _ hi]
  simp [integral_const_mul, (CMAES.second_z _ _).2]

theorem dir_sq (b : Fin d → ℝ) (j : Fin d) : Integrable (fun z : Fin d → ℝ => ((∑ k, b k * z k) * z j) ^ 2) (std d) ∧ ∫ z, ((∑ k, b k * z k) * z j) ^ 2 ∂std d = ∑ k, b k ^ 2 + 2 * b j ^ 2 := by
  have e : (fun z : Fin d → ℝ => ((∑ k, b k * z k) * z j) ^ 2) = fun z => ∑ k, ∑ l, b k * b l * (z k * z l * z j ^ 2) := by
    funext z
    rw [mul_pow, sq (∑ k, b k * z k), Finset.sum_mul_sum, Finset.sum_mul]
    refine Finset.sum_congr rfl fun k _ => ?_
    rw [Finset.sum_mul]
    exact Finset.sum_congr rfl fun l _ => by ring
  have hi : ∀ k l, Integrable (fun z : Fin d → ℝ => b k * b l * (z k * z l * z j ^ 2)) (std d) := fun k l => (GaussianScore.fourth_z k l j).1.const_mul _
  rw [e]
  refine ⟨integrable_finsetSum _ fun k _ => integrable_finsetSum _ fun l _ => hi k l, ?_⟩
  rw [integral_finsetSum _ fun k _ => integrable_finsetSum _ fun l _ => hi k l]
  have : ∀ k, ∫ z : Fin d → ℝ, ∑ l, b k * b l * (z k * z l * z j ^ 2) ∂std d = b k ^ 2 + if k = j then 2 * b k ^ 2 else 0 := by
    intro k
    rw [integral_finsetSum _ fun l _ => hi k l]
    simp only [integral_const_mul, (GaussianScore.fourth_z _ _ _).2, mul_ite, mul_zero]
    rw [Finset.sum_ite_eq, if_pos (Finset.mem_univ k)]
    split <;> ring
  simp [this, Finset.sum_add_distrib]

/-- The average of the square of a sum over a population. -/
theorem pop_sq {G : (Fin d → ℝ) → ℝ} (mG : Measurable G) (h1 : Integrable G (std d)) (h2 : Integrable (fun z => G z ^ 2) (std d)) :
    Integrable (fun z : Fin n → Fin d → ℝ => (∑ i, G (z i)) ^ 2) (draws n d) ∧
      ∫ z, (∑ i, G (z i)) ^ 2 ∂draws n d = n * (∫ z, G z ^ 2 ∂std d) + n * (n - 1) * (∫ z, G z ∂std d) ^ 2 := by
  have e : (fun z : Fin n → Fin d → ℝ => (∑ i, G (z i)) ^ 2) = fun z => ∑ i, ∑ k, G (z i) * G (z k) := by
    funext z; rw [sq, Finset.sum_mul_sum]
  have hint : ∀ i k : Fin n, Integrable (fun z : Fin n → Fin d → ℝ => G (z i) * G (z k)) (draws n d) ∧
      ∫ z, G (z i) * G (z k) ∂draws n d = if i = k then ∫ z, G z ^ 2 ∂std d else (∫ z, G z ∂std d) ^ 2 := by
    intro i k
    by_cases h : i = k
    · subst h
      rw [if_pos rfl]
      simp only [← sq]
      exact ⟨integrable_comp_eval (μ := fun _ : Fin n => std d) (f := fun z => G z ^ 2) h2, integral_comp_eval (μ := fun _ : Fin n => std d) (f := fun z => G z ^ 2) (mG.pow_const 2).aestronglyMeasurable⟩
    · have := GaussianScore.pop_cross (std d) i k h G G mG mG h1 h1
      rw [if_neg h, sq]
      exact this
  rw [e]
  refine ⟨integrable_finsetSum _ fun i _ => integrable_finsetSum _ fun k _ => (hint i k).1, ?_⟩
  rw [integral_finsetSum _ fun i _ => integrable_finsetSum _ fun k _ => (hint i k).1]
  have : ∀ i : Fin n, ∫ z : Fin n → Fin d → ℝ, ∑ k, G (z i) * G (z k) ∂draws n d = ∫ z, G z ^ 2 ∂std d + (n - 1) * (∫ z, G z ∂std d) ^ 2 := by
    intro i
    rw [integral_finsetSum _ fun k _ => (hint i k).1]
    simp only [(hint _ _).2]
    have : ∀ k, (if i = k then ∫ z, G z ^ 2 ∂std d else (∫ z, G z ∂std d) ^ 2) = (if i = k then ∫ z, G z ^ 2 ∂std d - (∫ z, G z ∂std d) ^ 2 else 0) + (∫ z, G z ∂std d) ^ 2 := by
      intro k; split <;> ring
    simp only [this, Finset.sum_add_distrib, Finset.sum_ite_eq, Finset.mem_univ, if_true, Finset.sum_const, Finset.card_univ, Fintype.card_fin, nsmul_eq_mul]
    ring
  simp only [this, Finset.sum_const, Finset.card_univ, Fintype.card_fin, nsmul_eq_mul]
  ring

/-! ### The property -/

/-- **C175, a generation.** On a quadratic fitness function, each coordinate of the center's distance to the optimum is on average multiplied by `1 - 2 η κ σ²` (learning rate `η`, curvature `κ`, standard
deviation `σ`). -/
theorem C175_pgpe_mean (hn : 0 < n) (sort : Sorter ℝ) {p : Pgpe} (hp : RawMirrored p) {κ t : Vec ℝ d} {f : Vec ℝ d → ℝ} (hf : Bowl p.sense κ t f) (s : Vec ℝ d × Vec ℝ d) :
    ∃ next : (Fin n → Fin d → ℝ) → Vec ℝ d × Vec ℝ d, (∀ z, pgpeGen sort p f s (List.ofFn z) = .ok (next z)) ∧ ∀ j,
      Integrable (fun z => (next z).1 j - t j) (draws n d) ∧
      ∫ z, ((next z).1 j - t j) ∂draws n d = (1 - 2 * p.lrMu * κ j * s.2 j ^ 2) * (s.1 j - t j) := by
  choose g mu h1 h2 using fun z : Fin n → Fin d → ℝ => gen_bowl sort hp hf s z
  refine ⟨fun z => (mu z, fun j => s.2 j + p.lrSigma * g z j), h1, fun j => ?_⟩
  have hn' : (n : ℝ) ≠ 0 := by positivity
  obtain ⟨hi, hm⟩ := dir_mean (fun k => κ k * s.2 k * (s.1 k - t k)) j
  have hs := GaussianScore.pop_sum (n := n) (std d) _ hi
  have his : Integrable (fun z : Fin n → Fin d → ℝ => ∑ i, (∑ k, (κ k * s.2 k * (s.1 k - t k)) * z i k) * z i j) (draws n d) :=
    integrable_finsetSum _ fun i _ => integrable_comp_eval (μ := fun _ : Fin n => std d) hi
  simp only [h2]
  refine ⟨(integrable_const _).sub (his.const_mul _), ?_⟩
  rw [integral_sub (integrable_const _) (his.const_mul _), integral_const, probReal_univ, one_smul, integral_const_mul, hs, hm]
  field_simp

/-- **C175, the spread of a generation.** The average square of each coordinate of the center's distance to the optimum. -/
theorem C175_pgpe_square (hn : 0 < n) (sort : Sorter ℝ) {p : Pgpe} (hp : RawMirrored p) {κ t : Vec ℝ d} {f : Vec ℝ d → ℝ} (hf : Bowl p.sense κ t f) (s : Vec ℝ d × Vec ℝ d) :
    ∃ next : (Fin n → Fin d → ℝ) → Vec ℝ d × Vec ℝ d, (∀ z, pgpeGen sort p f s (List.ofFn z) = .ok (next z)) ∧ ∀ j,
      Integrable (fun z => ((next z).1 j - t j) ^ 2) (draws n d) ∧
      ∫ z, ((next z).1 j - t j) ^ 2 ∂draws n d =
        ((1 - 2 * p.lrMu * κ j * s.2 j ^ 2) * (s.1 j - t j)) ^ 2 + 4 * p.lrMu ^ 2 * s.2 j ^ 2 / n * (∑ k, (κ k * s.2 k * (s.1 k - t k)) ^ 2 + (κ j * s.2 j * (s.1 j - t j)) ^ 2) := by
  choose g mu h1 h2 using fun z : Fin n → Fin d → ℝ => gen_bowl sort hp hf s z
  refine ⟨fun z => (mu z, fun j => s.2 j + p.lrSigma * g z j), h1, fun j => ?_⟩
  have hn' : (n : ℝ) ≠ 0 := by positivity
  obtain ⟨b, hb⟩ : ∃ b : Fin d → ℝ, b = fun k => κ k * s.2 k * (s.1 k - t k) := ⟨_, rfl⟩
  have hb' : ∀ k, κ k * s.2 k * (s.1 k - t k) = b k := fun k => by rw [hb]
  simp only [h2, hb']
  obtain ⟨hi, hm⟩ := dir_mean b j
  obtain ⟨hi2, hm2⟩ := dir_sq b j
  obtain ⟨hp1, hp2⟩ := pop_sq (n := n) (by fun_prop : Measurable fun z : Fin d → ℝ => (∑ k, b k * z k) * z j) hi hi2
  have hs := GaussianScore.pop_sum (n := n) (std d) _ hi
  have his : Integrable (fun z : Fin n → Fin d → ℝ => ∑ i, (∑ k, b k * z i k) * z i j) (draws n d) :=
    integrable_finsetSum _ fun i _ => integrable_comp_eval (μ := fun _ : Fin n => std d) hi
  obtain ⟨e, he⟩ : ∃ e, e = s.1 j - t j := ⟨_, rfl⟩
  obtain ⟨c, hc⟩ : ∃ c, c = 2 * p.lrMu * s.2 j / n := ⟨_, rfl⟩
  rw [← he, ← hc]
  have ex : (fun z : Fin n → Fin d → ℝ => (e - c * ∑ i, (∑ k, b k * z i k) * z i j) ^ 2) =
      fun z => (e ^ 2 - (2 * e * c) * ∑ i, (∑ k, b k * z i k) * z i j) + c ^ 2 * (∑ i, (∑ k, b k * z i k) * z i j) ^ 2 := by funext z; ring
  have j1 : Integrable (fun z : Fin n → Fin d → ℝ => e ^ 2 - (2 * e * c) * ∑ i, (∑ k, b k * z i k) * z i j) (draws n d) := (integrable_const _).sub (his.const_mul _)
  rw [ex]
  refine ⟨j1.add (hp1.const_mul _), ?_⟩
  rw [integral_add j1 (hp1.const_mul _), integral_sub (integrable_const _) (his.const_mul _), integral_const, probReal_univ, one_smul, integral_const_mul, integral_const_mul, hs, hm, hp2, hm2, hm]
  have hbj : b j = κ j * s.2 j * e := by rw [hb, he]
  rw [hc, hbj]
  field_simp
  ring

/-- **C175 over a run, the average center.** With a fixed spread (`stdev_learning_rate = 0`), each coordinate of the average distance to the optimum changes by a constant factor per generation. -/
theorem C175_pgpe_run_mean (hn : 0 < n) (sort : Sorter ℝ) {p : Pgpe} (hp : RawMirrored p) (h0 : p.lrSigma = 0) {κ t : Vec ℝ d} {f : Vec ℝ d → ℝ} (hf : Bowl p.sense κ t f) (s : Vec ℝ d × Vec ℝ d) (j : Fin d) (T : ℕ) :
    averageAfter n (pgpeGen sort p f) (fun s => s.1 j - t j) T s = (1 - 2 * p.lrMu * κ j * s.2 j ^ 2) ^ T * (s.1 j - t j) := by
  induction T generalizing s with
  | zero => simp [averageAfter]
  | succ T ih =>
    obtain ⟨next, e, h⟩ := C175_pgpe_mean hn sort hp hf s
    have hσ : ∀ z, (next z).2 = s.2 := by
      intro z
      obtain ⟨g, mu, e', _⟩ := gen_bowl sort hp hf s z
      rw [e z] at e'
      injection e' with e'
      rw [e', h0]
      simp
    simp only [averageAfter, e, Except.toOption, Option.elim, ih, hσ]
    rw [integral_const_mul, (h j).2]
    ring

/-- **C175 over a run, the average squared distance**, for a bowl with the same curvature in all directions and equal standard deviations: it changes by exactly the same factor in each generation. -/
theorem C175_pgpe_run_square (hn : 0 < n) (sort : Sorter ℝ) {p : Pgpe} (hp : RawMirrored p) (h0 : p.lrSigma = 0) {κ σ : ℝ} {t : Vec ℝ d} {f : Vec ℝ d → ℝ} (hf : Bowl p.sense (fun _ => κ) t f)
    (mu : Vec ℝ d) (T : ℕ) :
    averageAfter n (pgpeGen sort p f) (fun s => ∑ j, (s.1 j - t j) ^ 2) T (mu, fun _ => σ) =
      (1 - 2 * (2 * p.lrMu * κ * σ ^ 2) + (2 * p.lrMu * κ * σ ^ 2) ^ 2 * (1 + (d + 1) / n)) ^ T * ∑ j, (mu j - t j) ^ 2 := by
  induction T generalizing mu with
  | zero => simp [averageAfter]
  | succ T ih =>
    obtain ⟨next, e, h⟩ := C175_pgpe_square hn sort hp hf (mu, fun _ => σ)
    have hσ : ∀ z, next z = ((next z).1, fun _ => σ) := by
      intro z
      obtain ⟨g, mu', e', _⟩ := gen_bowl sort hp hf (mu, fun _ => σ) z
      rw [e z] at e'
      injection e' with e'
      rw [e', h0]
      simp
    have hn' : (n : ℝ) ≠ 0 := by positivity
    have ih' : ∀ z, averageAfter n (pgpeGen sort p f) (fun s => ∑ j, (s.1 j - t j) ^ 2) T (next z) = _ := fun z => by rw [hσ z, ih (next z).1]
    simp only [averageAfter, e, Except.toOption, Option.elim, ih']
    rw [integral_const_mul, integral_finsetSum _ fun j _ => (h j).1]
    simp only [(h _).2]
    rw [pow_succ _ T, mul_assoc (_ ^ T)]
    congr 1
    obtain ⟨E, hE⟩ : ∃ E, E = ∑ j, (mu j - t j) ^ 2 := ⟨_, rfl⟩
    have h1 : ∑ k, (κ * σ * (mu k - t k)) ^ 2 = κ ^ 2 * σ ^ 2 * E := by
      rw [hE, Finset.mul_sum]
      exact Finset.sum_congr rfl fun k _ => by ring
    have h2 : ∀ j, ((1 - 2 * p.lrMu * κ * σ ^ 2) * (mu j - t j)) ^ 2 + 4 * p.lrMu ^ 2 * σ ^ 2 / n * (κ ^ 2 * σ ^ 2 * E + (κ * σ * (mu j - t j)) ^ 2) =
        ((1 - 2 * p.lrMu * κ * σ ^ 2) ^ 2 + 4 * p.lrMu ^ 2 * σ ^ 2 / n * (κ * σ) ^ 2) * (mu j - t j) ^ 2 + 4 * p.lrMu ^ 2 * σ ^ 2 / n * (κ ^ 2 * σ ^ 2 * E) := fun j => by ring
    simp only [h1, h2, Finset.sum_add_distrib, ← Finset.mul_sum, ← hE, Finset.sum_const, Finset.card_univ, Fintype.card_fin, nsmul_eq_mul]
    field_simp
    ring

/-- **C175, convergence.** If `η κ σ² (1 + (d+1)/n) < 1` for `n` directions in `d` dimensions, the center converges to the optimum in mean square. -/
theorem C175_pgpe_converges (hn : 0 < n) (sort : Sorter ℝ) {p : Pgpe} (hp : RawMirrored p) (h0 : p.lrSigma = 0) {κ σ : ℝ} {t : Vec ℝ d} {f : Vec ℝ d → ℝ} (hf : Bowl p.sense (fun _ => κ) t f) (mu : Vec ℝ d)
    (hpos : 0 < p.lrMu * κ * σ ^ 2) (hsmall : p.lrMu * κ * σ ^ 2 * (1 + (d + 1) / n) < 1) :
    Filter.Tendsto (fun T => averageAfter n (pgpeGen sort p f) (fun s => ∑ j, (s.1 j - t j) ^ 2) T (mu, fun _ => σ)) Filter.atTop (nhds 0) := by
  simp only [C175_pgpe_run_square hn sort hp h0 hf]
  obtain ⟨h, hh⟩ : ∃ h, h = p.lrMu * κ * σ ^ 2 := ⟨_, rfl⟩
  obtain ⟨q, hq⟩ : ∃ q : ℝ, q = (d + 1) / n := ⟨_, rfl⟩
  have hq0 : 0 < q := by rw [hq]; positivity
  have e : 2 * p.lrMu * κ * σ ^ 2 = 2 * h := by rw [hh]; ring
  rw [e, ← hq]
  rw [← hh] at hpos hsmall
  rw [← hq] at hsmall
  have hr1 : 1 - 2 * (2 * h) + (2 * h) ^ 2 * (1 + q) < 1 := by nlinarith
  have hr0 : 0 ≤ 1 - 2 * (2 * h) + (2 * h) ^ 2 * (1 + q) := by nlinarith [sq_nonneg (1 - 2 * h), mul_nonneg (sq_nonneg (2 * h)) hq0.le]
  simpa using (tendsto_pow_atTop_nhds_zero_of_lt_one hr0 hr1).mul_const (∑ j, (mu j - t j) ^ 2)

/-- **C175, the limit is sharp.** With a larger learning rate the average squared distance to the optimum grows beyond all bounds. -/
theorem C175_pgpe_diverges (hn : 0 < n) (sort : Sorter ℝ) {p : Pgpe} (hp : RawMirrored p) (h0 : p.lrSigma = 0) {κ σ : ℝ} {t : Vec ℝ d} {f : Vec ℝ d → ℝ} (hf : Bowl p.sense (fun _ => κ) t f) (mu : Vec ℝ d)
    (hne : mu ≠ t) (hpos : 0 < p.lrMu * κ * σ ^ 2) (hlarge : 1 < p.lrMu * κ * σ ^ 2 * (1 + (d + 1) / n)) :
    Filter.Tendsto (fun T => averageAfter n (pgpeGen sort p f) (fun s => ∑ j, (s.1 j - t j) ^ 2) T (mu, fun _ => σ)) Filter.atTop Filter.atTop := by
  simp only [C175_pgpe_run_square hn sort hp h0 hf]
  obtain ⟨h, hh⟩ : ∃ h, h = p.lrMu * κ * σ ^ 2 := ⟨_, rfl⟩
  obtain ⟨q, hq⟩ : ∃ q : ℝ, q = (d + 1) / n := ⟨_, rfl⟩
  have e : 2 * p.lrMu * κ * σ ^ 2 = 2 * h := by rw [hh]; ring
  rw [e, ← hq]
  rw [← hh] at hpos hlarge
  rw [← hq] at hlarge
  have hr1 : 1 < 1 - 2 * (2 * h) + (2 * h) ^ 2 * (1 + q) := by nlinarith
  obtain ⟨j, hj⟩ := Function.ne_iff.mp hne
  have hS : 0 < ∑ j, (mu j - t j) ^ 2 := Finset.sum_pos' (fun _ _ => sq_nonneg _) ⟨j, Finset.mem_univ j, by have := sub_ne_zero.mpr hj; positivity⟩
  exact (tendsto_pow_atTop_atTop_of_one_lt hr1).atTop_mul_const hS

/-- **C175, no learning rate is faster than `(d+1) / (n+d+1)` per generation**, and the learning rate `1 / (2 κ σ² (1 + (d+1)/n))` is as fast. -/
theorem C175_pgpe_best_rate (hn : 0 < n) (sort : Sorter ℝ) {p : Pgpe} (hp : RawMirrored p) (h0 : p.lrSigma = 0) {κ σ : ℝ} {t : Vec ℝ d} {f : Vec ℝ d → ℝ} (hf : Bowl p.sense (fun _ => κ) t f) (mu : Vec ℝ d) (T : ℕ) :
    ((d + 1 : ℝ) / (n + d + 1)) ^ T * ∑ j, (mu j - t j) ^ 2 ≤ averageAfter n (pgpeGen sort p f) (fun s => ∑ j, (s.1 j - t j) ^ 2) T (mu, fun _ => σ) ∧
    (0 < κ → 0 < σ → p.lrMu = 1 / (2 * κ * σ ^ 2 * (1 + (d + 1) / n)) →
      averageAfter n (pgpeGen sort p f) (fun s => ∑ j, (s.1 j - t j) ^ 2) T (mu, fun _ => σ) = ((d + 1 : ℝ) / (n + d + 1)) ^ T * ∑ j, (mu j - t j) ^ 2) := by
  rw [C175_pgpe_run_square hn sort hp h0 hf]
  have hn' : (0 : ℝ) < n := by exact_mod_cast hn
  have hd : (0 : ℝ) ≤ d := Nat.cast_nonneg d
  constructor
  · generalize 2 * p.lrMu * κ * σ ^ 2 = h
    refine mul_le_mul_of_nonneg_right (pow_le_pow_left₀ (by positivity) ?_ T) (Finset.sum_nonneg fun _ _ => sq_nonneg _)
    have e : 1 - 2 * h + h ^ 2 * (1 + (d + 1) / n) - (d + 1 : ℝ) / (n + d + 1) = (h * (n + d + 1) - n) ^ 2 / (n * (n + d + 1)) := by
      field_simp
      ring
    have : 0 ≤ (h * (n + d + 1) - n) ^ 2 / ((n : ℝ) * (n + d + 1)) := by positivity
    linarith
  · intro hκ hσ hl
    congr 2
    rw [hl]
    have : (1 : ℝ) + (d + 1) / n ≠ 0 := by positivity
    field_simp
    ring

/-! ### The spread -/

theorem bowl_tame {sense : Sense} {κ t : Vec ℝ d} {f : Vec ℝ d → ℝ} (hf : Bowl sense κ t f) : GaussianScore.Tame f := by
  obtain ⟨c, hc⟩ := hf
  have e : f = fun x => c - sgn sense * ∑ j, κ j * (x j - t j) ^ 2 := by
    funext x; rw [hc]; cases sense <;> simp [sgn]
  rw [e]
  refine GaussianScore.tame_of_memLp (by fun_prop) fun mu sigma => ?_
  have h : MemLp (fun z : Fin d → ℝ => ∑ j, κ j * ((mu j - t j) + sigma j * z j) ^ 2) 2 (std d) := memLp_finsetSum _ fun j _ => (GaussianScore.memLp_coord j (mu j - t j) (sigma j)).const_mul (κ j)
  have := (memLp_const (μ := std d) (p := 2) c).sub (h.const_mul (sgn sense))
  refine this.ae_eq (ae_of_all _ fun z => ?_)
  simp only [GaussianScore.sample, Pi.sub_apply]
  congr 2
  exact Finset.sum_congr rfl fun j _ => by ring

/-- The expected utility of a bowl. -/
theorem bowl_J {sense : Sense} {κ t : Vec ℝ d} {f : Vec ℝ d → ℝ} (hf : Bowl sense κ t f) :
    ∃ c : ℝ, ∀ mu sigma : Vec ℝ d, GaussianScore.J (Unbiased.utility (decide (sense = .max)) f) mu sigma = c - ∑ j, κ j * ((mu j - t j) ^ 2 + sigma j ^ 2) := by
  obtain ⟨c, hc⟩ := hf
  refine ⟨sgn sense * c, fun mu sigma => ?_⟩
  have e : ∀ z : Fin d → ℝ, Unbiased.utility (decide (sense = .max)) f (GaussianScore.sample mu sigma z) =
      sgn sense * c - ∑ j, (κ j * (mu j - t j) ^ 2 + ((2 * κ j * (mu j - t j) * sigma j) * z j + (κ j * sigma j ^ 2) * (z j * z j))) := by
    intro z
    have h2 : ∑ j, κ j * (GaussianScore.sample mu sigma z j - t j) ^ 2 = ∑ j, (κ j * (mu j - t j) ^ 2 + ((2 * κ j * (mu j - t j) * sigma j) * z j + (κ j * sigma j ^ 2) * (z j * z j))) :=
      Finset.sum_congr rfl fun j _ => by simp only [GaussianScore.sample]; ring
    rw [← h2, Unbiased.utility, hc]
    cases sense <;> simp [sgn]
    ring
  have i1 : ∀ j, Integrable (fun z : Fin d → ℝ => (2 * κ j * (mu j - t j) * sigma j) * z j) (std d) := fun j => (CMAES.mean_z j).1.const_mul _
  have i2 : ∀ j, Integrable (fun z : Fin d → ℝ => (κ j * sigma j ^ 2) * (z j * z j)) (std d) := fun j => (CMAES.second_z j j).1.const_mul _
  have i3 : ∀ j, Integrable (fun z : Fin d → ℝ => (2 * κ j * (mu j - t j) * sigma j) * z j + (κ j * sigma j ^ 2) * (z j * z j)) (std d) := fun j => (i1 j).add (i2 j)
  have i4 : ∀ j, Integrable (fun z : Fin d → ℝ => κ j * (mu j - t j) ^ 2 + ((2 * κ j * (mu j - t j) * sigma j) * z j + (κ j * sigma j ^ 2) * (z j * z j))) (std d) := fun j => (integrable_const _).add (i3 j)
  simp only [GaussianScore.J, e]
  rw [integral_sub (integrable_const _) (integrable_finsetSum _ fun j _ => i4 j), integral_const, probReal_univ, one_smul, integral_finsetSum _ fun j _ => i4 j]
  congr 1
  refine Finset.sum_congr rfl fun j _ => ?_
  rw [integral_add (integrable_const _) (i3 j), integral_add (i1 j) (i2 j), integral_const, probReal_univ, one_smul, integral_const_mul, integral_const_mul, (CMAES.mean_z j).2, (CMAES.second_z j j).2, if_pos rfl]
  ring

/-- **C175, the spread.** On a bowl the standard deviations shrink on average, wherever the center is: with more than one direction the search narrows down. -/
theorem C175_pgpe_spread (hn : 0 < n) (sort : Sorter ℝ) {p : Pgpe} (hp : RawMirrored p) (hd : p.divSigma = some .numDirections) {κ t : Vec ℝ d} {f : Vec ℝ d → ℝ} (hf : Bowl p.sense κ t f)
    (s : Vec ℝ d × Vec ℝ d) (hs : ∀ j, 0 < s.2 j) :
    ∃ next : (Fin n → Fin d → ℝ) → Vec ℝ d × Vec ℝ d, (∀ z, pgpeGen sort p f s (List.ofFn z) = .ok (next z)) ∧ ∀ j,
      (∫ z, ((next z).2 j - s.2 j) ∂draws n d) = - (p.lrSigma * (2 * κ j * s.2 j ^ 3 * ((n - 1) / n))) := by
  obtain ⟨est, h1, _, h3⟩ := Unbiased.C121_symmetric (m := n) (decide (p.sense = .max)) (bowl_tame hf) hn s.1 s.2 hs
  refine ⟨fun z => updateSeparable p.lrMu p.lrSigma s.1 s.2 (est z), fun z => ?_, fun j => ?_⟩
  · have hrows : (fun i => (List.ofFn z).getD i 0) = Unbiased.rows z := by
      funext i
      unfold Unbiased.rows
      split
      · next h => rw [List.getD_eq_getElem _ _ (by simpa using h)]; simp
      · next h => rw [List.getD_eq_default _ _ (by simpa using h)]; rfl
    have := h1 z
    rw [Unbiased.symmetricEstimate] at this
    rw [pgpeGen, if_pos hp.symmetric, hrows, List.length_ofFn]
    cases hm : makeGaussianSymmetric (2 * n) (Unbiased.rows z) s.1 s.2 with
    | error e => rw [hm] at this; cases this
    | ok xs =>
      rw [hm] at this
      simp only [Except.map, Except.ok.injEq] at this
      simp only [Except.bind, hp.raw, hp.perDirection, hd, utilities, rank, Method.alreadyCentered, this]
  · have hslope : GaussianScore.slopeSigma (Unbiased.utility (decide (p.sense = .max)) f) s.1 s.2 j = - (2 * κ j * s.2 j) := by
      obtain ⟨c, hc⟩ := bowl_J hf
      rw [GaussianScore.slopeSigma]
      simp only [hc]
      have e : (fun u => c - ∑ k, κ k * ((s.1 k - t k) ^ 2 + Function.update s.2 j u k ^ 2)) =
          fun u => (c - ∑ k ∈ Finset.univ.erase j, κ k * ((s.1 k - t k) ^ 2 + s.2 k ^ 2) - κ j * (s.1 j - t j) ^ 2) - κ j * u ^ 2 := by
        funext u
        rw [← Finset.add_sum_erase _ _ (Finset.mem_univ j), Function.update_self]
        have : ∑ k ∈ Finset.univ.erase j, κ k * ((s.1 k - t k) ^ 2 + Function.update s.2 j u k ^ 2) = ∑ k ∈ Finset.univ.erase j, κ k * ((s.1 k - t k) ^ 2 + s.2 k ^ 2) :=
          Finset.sum_congr rfl fun k hk => by rw [Function.update_of_ne (Finset.ne_of_mem_erase hk)]
        rw [this]
        ring
      rw [e]
      have h2 := ((hasDerivAt_pow 2 (s.2 j)).const_mul (κ j)).const_sub (c - ∑ k ∈ Finset.univ.erase j, κ k * ((s.1 k - t k) ^ 2 + s.2 k ^ 2) - κ j * (s.1 j - t j) ^ 2)
      rw [h2.deriv]
      push_cast
      ring
    have e : ∀ z, (updateSeparable p.lrMu p.lrSigma s.1 s.2 (est z)).2 j - s.2 j = p.lrSigma * (est z).sigma j := fun z => by simp [updateSeparable]
    simp only [e]
    rw [integral_const_mul, h3 j, hslope]
    ring

/-- The sphere function, to be minimised, fits; so does its negative, to be maximised. -/
example : Bowl .min (fun _ => 1) (0 : Vec ℝ 3) (fun x => ∑ j, x j ^ 2) ∧ Bowl .max (fun _ => 1) (0 : Vec ℝ 3) (fun x => - ∑ j, x j ^ 2) := ⟨⟨0, fun x => by simp⟩, ⟨0, fun x => by simp⟩⟩

/-- With 8 directions in 3 dimensions, standard deviation 1/10 and learning rate 50, the average squared distance to the optimum halves in every generation. -/
example (mu : Vec ℝ 3) (T : ℕ) :
    averageAfter 8 (pgpeGen exampleSorter ⟨true, some .numDirections, some .numDirections, .raw, .min, 50, 0⟩ fun x => ∑ j, x j ^ 2) (fun s => ∑ j, (s.1 j - (0 : Vec ℝ 3) j) ^ 2) T (mu, fun _ => 1 / 10) =
      (1 / 2) ^ T * ∑ j, (mu j - (0 : Vec ℝ 3) j) ^ 2 := by
  rw [C175_pgpe_run_square (κ := 1) (by norm_num) exampleSorter ⟨rfl, rfl, rfl⟩ rfl ⟨0, fun x => by simp⟩ mu T]
  norm_num

/-- The learning rates 50 and 200 are on the two sides of the limit. -/
example : (0 : ℝ) < 50 * 1 * (1 / 10) ^ 2 ∧ (50 : ℝ) * 1 * (1 / 10) ^ 2 * (1 + ((3 : ℕ) + 1) / (8 : ℕ)) < 1 ∧ (1 : ℝ) < 200 * 1 * (1 / 10) ^ 2 * (1 + ((3 : ℕ) + 1) / (8 : ℕ)) := by norm_num

end EvoTorch.SphereConvergence
