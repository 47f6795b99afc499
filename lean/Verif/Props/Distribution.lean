import Verif.Model.Distribution
import Verif.Props.Selection
import Mathlib.Data.Fin.VecNotation
import Mathlib.Tactic.FieldSimp
import Mathlib.Analysis.SpecialFunctions.Pow.NNReal
/-! C49: antithetic sampling; C50: its gradients; C51: the cross-entropy update. -/
namespace EvoTorch.Distribution
variable {d : Nat}

/-! ### C49 -/
section C49
variable {K : Type} [Field K]

/-- Consecutive rows `2k` and `2k+1` are mirror images of each other about the center. -/
def Spec.Mirrored (center : Vec K d) (rows : List (Vec K d)) : Prop :=
  ∀ k, 2 * k + 1 < rows.length → ∃ p q, rows[2 * k]? = some p ∧ rows[2 * k + 1]? = some q ∧
    ∀ j, p j - center j = -(q j - center j)

theorem C49_make_gaussian_symmetric (n : Nat) (noise : Nat → Vec K d) (center stdev : Vec K d) :
    (n % 2 = 1 → makeGaussianSymmetric n noise center stdev = .error .valueError) ∧
    (n % 2 = 0 → ∃ rows, makeGaussianSymmetric n noise center stdev = .ok rows ∧ rows.length = n ∧
      Spec.Mirrored center rows ∧
      ∀ k, 2 * k < n → ∃ p, rows[2 * k]? = some p ∧ ∀ j, p j = center j + stdev j * noise k j) := by
  constructor
  · intro h; simp [makeGaussianSymmetric, h]
  · intro h
    refine ⟨_, by simp [makeGaussianSymmetric, h]; rfl, by simp, ?_, ?_⟩
    · intro k hk
      simp only [List.length_map, List.length_range] at hk
      refine ⟨_, _, by simp [List.getElem?_range (show 2 * k < n by omega)]; rfl,
        by simp [List.getElem?_range hk]; rfl, ?_⟩
      intro j
      have h1 : (2 * k + 1) % 2 = 1 := by omega
      have h2 : (2 * k + 1) / 2 = k := by omega
      simp [h2]
    · intro k hk
      refine ⟨_, by simp [List.getElem?_range hk]; rfl, fun j => ?_⟩
      ring

example : (makeGaussianSymmetric (K := ℚ) (d := 2) 4 (fun k => if k = 0 then ![1, 2] else ![2, 2]) ![10, 20] ![1, 3] |>.map (·.map fun r => (r 0, r 1))) =
    .ok [(11, 26), (9, 14), (12, 26), (8, 14)] := by decide +kernel

theorem interleave_get {α : Type} (f g : α → α) (l : List α) (k : Nat) :
    ((List.zipWith (fun p q => [p, q]) (l.map f) (l.map g)).flatten)[2 * k]? = (l[k]?).map f ∧
    ((List.zipWith (fun p q => [p, q]) (l.map f) (l.map g)).flatten)[2 * k + 1]? = (l[k]?).map g := by
  induction l generalizing k with
  | nil => simp
  | cons a l ih =>
    cases k with
    | zero => simp
    | succ k =>
      have := ih k
      rw [show 2 * (k + 1) = 2 * k + 1 + 1 from by omega]
      simpa using this

theorem C49_functional_sample_symmetric (n : Nat) (draws : Nat → Vec K d) (mu : Vec K d) :
    (n % 2 = 1 → functionalSampleSymmetric n draws mu = .error .valueError) ∧
    (n % 2 = 0 → ∃ rows, functionalSampleSymmetric n draws mu = .ok rows ∧ rows.length = n ∧
      Spec.Mirrored mu rows ∧
      ∀ k, 2 * k < n → ∃ p, rows[2 * k]? = some p ∧ ∀ j, p j = mu j + draws k j) := by
  constructor
  · intro h; simp [functionalSampleSymmetric, h]
  · intro h
    have hg := interleave_get (fun row j => row j + mu j) (fun row j => -(row j) + mu j : Vec K d → Vec K d)
      ((List.range (n / 2)).map draws)
    refine ⟨(List.zipWith (fun p q => [p, q]) (((List.range (n / 2)).map draws).map fun row j => row j + mu j)
      (((List.range (n / 2)).map draws).map fun row j => -(row j) + mu j)).flatten,
      by simp [functionalSampleSymmetric, h, Function.comp_def], ?_, ?_, ?_⟩
    · rw [List.length_flatten]
      have : List.map List.length (List.zipWith (fun p q => [p, q])
          (((List.range (n / 2)).map draws).map fun row j => row j + mu j)
          (((List.range (n / 2)).map draws).map fun row j => -(row j) + mu j)) = List.replicate (n / 2) 2 := by
        rw [List.map_zipWith]
        simp only [List.length_cons, List.length_nil]
        apply List.eq_replicate_iff.mpr
        refine ⟨by simp, fun b hb => ?_⟩
        obtain ⟨i, hi, rfl⟩ := List.getElem_of_mem hb
        simp
      rw [this]; simp; omega
    · intro k hk
      by_cases hkn : k < n / 2
      · refine ⟨_, _, by rw [(hg k).1, List.getElem?_map, List.getElem?_range hkn]; rfl,
          by rw [(hg k).2, List.getElem?_map, List.getElem?_range hkn]; rfl, ?_⟩
        intro j; simp
      · exfalso
        have : ((List.zipWith (fun p q => [p, q]) (((List.range (n / 2)).map draws).map fun row j => row j + mu j)
            (((List.range (n / 2)).map draws).map fun row j => -(row j) + mu j)).flatten)[2 * k + 1]? = none := by
          rw [(hg k).2, List.getElem?_map, List.getElem?_eq_none (by simp; omega)]; rfl
        rw [List.getElem?_eq_none_iff] at this
        omega
    · intro k hk
      have hkn : k < n / 2 := by omega
      refine ⟨_, by rw [(hg k).1, List.getElem?_map, List.getElem?_range hkn]; rfl, fun j => ?_⟩
      simp only
      ring

example : (functionalSampleSymmetric (K := ℚ) (d := 1) 4 (fun k => if k = 0 then ![1] else ![2]) ![10] |>.map (·.map fun r => r 0)) =
    .ok [11, 9, 12, 8] := by decide +kernel

end C49

/-! ### C50 -/
section C50
variable {K : Type} [Field K] [LinearOrder K] [IsStrictOrderedRing K]

/-- The population of antithetic samples about `mu` with the given noises: `mu + z0, mu - z0, mu + z1, mu - z1, ...`. -/
def Spec.antithetic (mu : Vec K d) (noises : List (Vec K d)) : List (Vec K d) :=
  noises.flatMap fun z => [fun j => mu j + z j, fun j => mu j - z j]

theorem odd_terms (mu : Vec K d) (f : K → K) (j : Fin d) (s : K) (hf : ∀ x, f (-x) = s * f x) (noises : List (Vec K d)) :
    ∀ ws : List K, ws.length = 2 * noises.length →
    (List.zipWith (fun w (x : Vec K d) => w * f (x j - mu j)) ws (Spec.antithetic mu noises)).sum / 2 =
    (List.zipWith (fun w (x : Vec K d) => w * f (x j - mu j))
      (List.zipWith (fun a b => (a + s * b) / 2) (evens ws) (odds ws)) (evens (Spec.antithetic mu noises))).sum := by
  induction noises with
  | nil => intro ws _; simp [Spec.antithetic, evens]
  | cons z noises ih =>
    intro ws hw
    match ws, hw with
    | a :: b :: ws, hw =>
      have hw' : ws.length = 2 * noises.length := by simp at hw; omega
      have h := ih ws hw'
      simp only [Spec.antithetic, List.flatMap_cons, List.cons_append, List.nil_append, evens, odds, List.zipWith_cons_cons,
        List.sum_cons] at h ⊢
      rw [← h]
      have e1 : mu j + z j - mu j = z j := by ring
      have e2 : mu j - z j - mu j = -(z j) := by ring
      rw [e1, e2, hf]
      ring

/-- **C50.** On every antithetic population (any number of directions, any noises, any weights, with or without centering of
the weights) the gradients of `SymmetricSeparableGaussian` divided by the number of directions are equal to the gradients of
`SeparableGaussian` divided by the number of solutions, for the center and for the standard deviation. -/
theorem C50_symmetric_gradient (mu sigma : Vec K d) (noises : List (Vec K d)) (weights : List K) (centered : Bool)
    (hw : weights.length = 2 * noises.length) :
    (symmetricGradients (some .numDirections) (some .numDirections) mu sigma centered (Spec.antithetic mu noises) weights).mu =
      (plainGradients (some .numSolutions) (some .numSolutions) mu sigma centered (Spec.antithetic mu noises) weights).mu ∧
    (symmetricGradients (some .numDirections) (some .numDirections) mu sigma centered (Spec.antithetic mu noises)
        weights).sigma =
      (plainGradients (some .numSolutions) (some .numSolutions) mu sigma centered (Spec.antithetic mu noises)
        weights).sigma := by
  have hc : (centerWeights centered weights).length = 2 * noises.length := by
    unfold centerWeights; split <;> simp [hw]
  have hdiv : 2 * noises.length / 2 = noises.length := by omega
  have hnum : ∀ a b : K, a / 2 = b → b / (noises.length : K) = a / ((2 * noises.length : Nat) : K) := by
    intro a b h
    rw [← h]
    push_cast
    rw [div_div]
  constructor
  · funext j
    simp only [symmetricGradients, plainGradients, divideGrad, hdiv, weightedSum, hc, List.zipWith_map_right]
    apply hnum
    have := odd_terms mu (fun x => x) j (-1) (fun x => by ring) noises _ hc
    rw [this]
    simp only [neg_mul, one_mul, ← sub_eq_add_neg]
  · funext j
    simp only [symmetricGradients, plainGradients, divideGrad, hdiv, weightedSum, hc, List.zipWith_map_right, List.map_map]
    apply hnum
    have := odd_terms mu (fun x => (x ^ 2 - sigma j ^ 2) / sigma j) j 1 (fun x => by ring) noises _ hc
    simp only [Function.comp_def]
    rw [this]
    simp only [one_mul]

/-- A population of two directions: the hypotheses are met and the gradient is not zero. -/
example : Spec.antithetic (K := ℚ) ![1] [![2], ![3]] = [![3], ![-1], ![4], ![-2]] ∧
    (symmetricGradients (some .numDirections) (some .numDirections) ![1] ![1] false
      (Spec.antithetic (K := ℚ) ![1] [![2], ![3]]) [4, 0, 1, 2]).mu 0 = 5/4 := by
  constructor <;> decide +kernel

/-- The two ends of the directions, for weights computed from the samples. -/
theorem ends_map (mu : Vec K d) (h : Vec K d → K) (noises : List (Vec K d)) :
    evens ((Spec.antithetic mu noises).map h) = noises.map (fun z => h fun j => mu j + z j) ∧
    odds ((Spec.antithetic mu noises).map h) = noises.map (fun z => h fun j => mu j - z j) := by
  induction noises with
  | nil => exact ⟨rfl, rfl⟩
  | cons z noises ih =>
    simp only [Spec.antithetic, List.flatMap_cons, List.cons_append, List.nil_append, List.map_cons, evens, odds] at ih ⊢
    exact ⟨by rw [ih.1], by rw [ih.2]⟩

theorem antithetic_sum (mu : Vec K d) (h : Vec K d → K) (noises : List (Vec K d)) :
    ((Spec.antithetic mu noises).map h).sum = (noises.map fun z => (h fun j => mu j + z j) + (h fun j => mu j - z j)).sum := by
  induction noises with
  | nil => rfl
  | cons z noises ih =>
    simp only [Spec.antithetic, List.flatMap_cons, List.cons_append, List.nil_append, List.map_cons, List.sum_cons] at ih ⊢
    rw [ih]; ring

theorem center_map (centered : Bool) (xs : List (Vec K d)) (f : Vec K d → K) :
    centerWeights centered (xs.map f) = xs.map fun x => f x - (if centered then 0 else Ranking.mean (xs.map f)) := by
  unfold centerWeights
  split
  · simp [*]
  · simp [*, Function.comp_def]

/-- **C50 (odd and even parts).** With weights that are values of a function at the antithetic samples (raw fitnesses), the gradient for the
center depends only on the differences between the two ends of each direction, and the one for the standard deviation only on their sums.
So a part of the fitness that is the same on both sides of the center does not disturb the center's gradient, and a part that changes its
sign (a linear trend, say) does not disturb the standard deviation's. -/
theorem C50_parts (mu sigma : Vec K d) (noises : List (Vec K d)) (centered : Bool) (dv : Option DivideBy) (hd : dv ≠ some .totalWeight)
    (f f' : Vec K d → K) :
    let grad := fun h => symmetricGradients dv dv mu sigma centered (Spec.antithetic mu noises) ((Spec.antithetic mu noises).map h)
    ((∀ z ∈ noises, (f fun j => mu j + z j) - (f fun j => mu j - z j) = (f' fun j => mu j + z j) - (f' fun j => mu j - z j)) →
      (grad f).mu = (grad f').mu) ∧
    ((∀ z ∈ noises, (f fun j => mu j + z j) + (f fun j => mu j - z j) = (f' fun j => mu j + z j) + (f' fun j => mu j - z j)) →
      (grad f).sigma = (grad f').sigma) := by
  intro grad
  have hdiv : ∀ (v v' : Vec K d) (ws ws' : List K), v = v' → ws.length = ws'.length → divideGrad dv v ws = divideGrad dv v' ws' := by
    intro v v' ws ws' hv hl
    subst hv
    match dv, hd with
    | none, _ => rfl
    | some .numSolutions, _ => simp only [divideGrad, hl]
    | some .numDirections, _ => simp only [divideGrad, hl]
  constructor
  · intro h
    refine hdiv _ _ _ _ ?_ (by simp [centerWeights]; split <;> simp)
    congr 1
    rw [center_map, center_map, (ends_map mu _ noises).1, (ends_map mu _ noises).2, (ends_map mu _ noises).1, (ends_map mu _ noises).2,
      List.zipWith_map, List.zipWith_map, List.zipWith_self, List.zipWith_self]
    refine List.map_congr_left fun z hz => ?_
    have := h z hz
    rw [sub_sub_sub_cancel_right, sub_sub_sub_cancel_right, this]
  · intro h
    refine hdiv _ _ _ _ ?_ (by simp [centerWeights]; split <;> simp)
    have hmean : Ranking.mean ((Spec.antithetic mu noises).map f) = Ranking.mean ((Spec.antithetic mu noises).map f') := by
      unfold Ranking.mean
      rw [antithetic_sum, antithetic_sum, List.map_congr_left h]
      simp
    congr 1
    rw [center_map, center_map, (ends_map mu _ noises).1, (ends_map mu _ noises).2, (ends_map mu _ noises).1, (ends_map mu _ noises).2,
      List.zipWith_map, List.zipWith_map, List.zipWith_self, List.zipWith_self, hmean]
    refine List.map_congr_left fun z hz => ?_
    have := h z hz
    rw [sub_add_sub_comm, sub_add_sub_comm, this]

/-- A fitness with a large even part: the center's gradient is that of the odd part. -/
example : (symmetricGradients (some .numDirections) none ![1] ![1] false (Spec.antithetic (K := ℚ) ![1] [![2], ![3]])
      ((Spec.antithetic (K := ℚ) ![1] [![2], ![3]]).map fun x => 5 * (x 0 - 1) + 100 * (x 0 - 1) ^ 2)).mu 0 = 65 / 2 := by
  decide +kernel

end C50

/-! ### C51 -/
section C51
open Selection BestWorst

/-- The sense of the optimisation. -/
def senseOf (maximize : Bool) : Sense := if maximize then .max else .min

/-- A selection of best solutions: distinct indices, none of whose fitnesses is worse than one left out. -/
structure Spec.BestOf (maximize : Bool) (fitnesses : List ℝ) (k : Nat) (idx : List Nat) : Prop where
  len : idx.length = k
  nodup : idx.Nodup
  lt : ∀ i ∈ idx, i < fitnesses.length
  best : ∀ i ∈ idx, ∀ j, j ∉ idx → ∀ x y, fitnesses[i]? = some x → fitnesses[j]? = some y →
    NotWorse (senseOf maximize) x y

theorem elites_best {sort : Sorter ℝ} (hs : SorterSpec sort) (maximize : Bool) (fitnesses : List ℝ) (k : Nat)
    (hk : k ≤ fitnesses.length) :
    Spec.BestOf maximize fitnesses k ((sort true (Ranking.raw maximize fitnesses)).take k) := by
  have h := (hs (Ranking.raw maximize fitnesses)).2
  have hl : (Ranking.raw maximize fitnesses).length = fitnesses.length := by
    unfold Ranking.raw; split <;> simp
  refine ⟨by simp [h.length, hl, hk], (List.take_sublist k _).nodup h.nodup, ?_, ?_⟩
  · intro i hi; rw [← hl]; exact h.lt ((List.take_sublist k _).subset hi)
  · intro i hi j hj x y hx hy
    cases maximize
    · have := h.take_le k hi hj (x := -x) (y := -y) (by simp [Ranking.raw, hx]) (by simp [Ranking.raw, hy])
      simpa [NotWorse, senseOf] using this
    · exact h.take_le k hi hj (x := x) (y := y) (by simp [Ranking.raw, hx]) (by simp [Ranking.raw, hy])

/-- **C51.** One CEM update (any sorting routine that sorts, both senses, any samples and fitnesses, any parenthood ratio in
[0, 1], any previous center and standard deviation): there is a choice of `floor(popsize * ratio)` best solutions such that the
new center is their mean and the square of the new (uncontrolled, non-negative) standard deviation is their unbiased sample
variance. The formula for the standard deviation is meaningful for at least two elites. -/
theorem C51_cem_update {sort : Sorter ℝ} (hs : SorterSpec sort) (ratio : ℝ) (h0 : 0 ≤ ratio) (h1 : ratio ≤ 1)
    (maximize : Bool) (mu sigma : Vec ℝ d) (samples : List (Vec ℝ d)) (fitnesses : List ℝ)
    (hlen : fitnesses.length = samples.length) :
    ∃ idx, Spec.BestOf maximize fitnesses ⌊(samples.length : ℝ) * ratio⌋.toNat idx ∧
      ∀ j, let xs := idx.map fun i => (samples.getD i 0) j
        (cemUpdate sort ratio maximize mu sigma samples fitnesses).1 j = xs.sum / xs.length ∧
        (2 ≤ xs.length → 0 ≤ (cemUpdate sort ratio maximize mu sigma samples fitnesses).2 j ∧
          (cemUpdate sort ratio maximize mu sigma samples fitnesses).2 j ^ 2 * ((xs.length : ℝ) - 1) =
            (xs.map fun x => (x - xs.sum / xs.length) ^ 2).sum) := by
  have hk : ⌊(samples.length : ℝ) * ratio⌋.toNat ≤ fitnesses.length := by
    rw [hlen]
    have : ⌊(samples.length : ℝ) * ratio⌋ ≤ (samples.length : ℤ) := by
      rw [Int.floor_le_iff]
      push_cast
      nlinarith [Nat.cast_nonneg (α := ℝ) samples.length]
    omega
  have hb := elites_best hs maximize fitnesses _ hk
  refine ⟨_, hb, fun j => ?_⟩
  have hg : elites sort ratio samples (Ranking.raw maximize fitnesses) =
      ((sort true (Ranking.raw maximize fitnesses)).take ⌊(samples.length : ℝ) * ratio⌋.toNat).map
        fun i => samples.getD i 0 := by
    unfold elites gather
    have : ∀ l : List Nat, (∀ i ∈ l, i < samples.length) →
        l.filterMap (fun i => samples[i]?) = l.map fun i => samples.getD i 0 := by
      intro l hl
      induction l with
      | nil => rfl
      | cons i l ih =>
        have hi : i < samples.length := hl i (by simp)
        rw [List.filterMap_cons, List.getElem?_eq_getElem hi, List.map_cons, ih fun i h => hl i (by simp [h])]
        simp [List.getD_eq_getElem?_getD, List.getElem?_eq_getElem hi]
    exact this _ fun i hi => hlen ▸ hb.lt i hi
  simp only [cemUpdate, updateSeparable, parenthoodGradients, hg, stdRows, meanRows, List.map_map, Function.comp_def,
    List.length_map, one_mul, add_sub_cancel]
  refine ⟨trivial, fun h2 => ⟨Real.sqrt_nonneg _, ?_⟩⟩
  rw [hb.len] at h2 ⊢
  have h2' : (2 : ℝ) ≤ (⌊(samples.length : ℝ) * ratio⌋.toNat : ℝ) := by exact_mod_cast h2
  rw [Real.sq_sqrt]
  · rw [div_mul_cancel₀]; linarith
  · apply div_nonneg
    · apply List.sum_nonneg
      intro x hx
      obtain ⟨i, _, rfl⟩ := List.mem_map.mp hx
      positivity
    · linarith

/-- The hypotheses are met: a sorting routine exists, and with four solutions and ratio 1/2 there are two elites. -/
example : SorterSpec (exampleSorter : Sorter ℝ) ∧ ⌊((4 : ℕ) : ℝ) * (1/2)⌋.toNat = 2 :=
  ⟨exampleSorter_spec, by norm_num; rfl⟩

example : (exampleSorter (K := ℚ) true (Ranking.raw false [5, 1, 7, 3])).take 2 = [1, 3] := by decide +kernel

/-- With a single elite the code's formula divides 0 by 0: the unbiased standard deviation does not exist (torch: NaN). -/
theorem C51_single_elite_has_no_deviation (x : Vec ℝ d) (j : Fin d) :
    ([x].map fun y => (y j - meanRows [x] j) ^ 2).sum = 0 ∧ (([x].length : ℝ) - 1) = 0 := by
  simp [meanRows]

example : ⌊((5 : ℕ) : ℝ) * (1/4)⌋.toNat = 1 := by norm_num

end C51
end EvoTorch.Distribution
