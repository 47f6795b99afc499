import Verif.Props.SphereConvergence
import Verif.Props.Ranking
import Verif.Model.GenerationsOptim
import Verif.Model.Modify
import Mathlib.Probability.ProductMeasure
/-!
C180: with a ranking whose utilities do not depend on the sizes of the fitnesses, ClipUp almost surely never divides by a zero norm.
-/
namespace EvoTorch.NeverNan
open MeasureTheory ProbabilityTheory
open EvoTorch.GaussianScore (γ std draws)
open EvoTorch.Generations EvoTorch.Distribution
open EvoTorch.BestWorst (Sense)
open EvoTorch.Selection (Sorter SorterSpec exampleSorter exampleSorter_spec)
open EvoTorch.Optimizers (NVec ClipUp)
open EvoTorch.LinearProgress (sample_eq symmetric_eq)
open EvoTorch.SphereConvergence (evens_pairs)

variable {n d : ℕ}

/-! ### Combinations of draws -/

instance : NullSingletonClass γ := nullSingletonClass_gaussianReal one_ne_zero

/-- A combination of independent draws is zero with probability zero. -/
theorem combination_ne (c : Fin n → ℝ) (hc : ∃ i, c i ≠ 0) (j : Fin d) : ∀ᵐ z ∂draws n d, ∑ i, c i * z i j ≠ 0 := by
  obtain ⟨i0, hi⟩ := hc
  obtain ⟨m, rfl⟩ : ∃ m, n = m + 1 := ⟨n - 1, by have := i0.isLt; omega⟩
  have mp := measurePreserving_piFinSuccAbove (fun _ : Fin (m + 1) => std d) i0
  have hS : MeasurableSet {p : (Fin d → ℝ) × (Fin m → Fin d → ℝ) | c i0 * p.1 j + ∑ k, c (i0.succAbove k) * p.2 k j = 0} := by
    refine measurableSet_eq_fun ?_ measurable_const
    fun_prop
  have h0 : ((std d).prod (Measure.pi fun _ : Fin m => std d)) {p : (Fin d → ℝ) × (Fin m → Fin d → ℝ) | c i0 * p.1 j + ∑ k, c (i0.succAbove k) * p.2 k j = 0} = 0 := by
    rw [Measure.prod_apply_symm hS]
    rw [lintegral_eq_zero_iff (measurable_measure_prodMk_right hS)]
    refine Filter.Eventually.of_forall fun y => ?_
    refine measure_mono_null (fun x hx => ?_) (Measure.pi_hyperplane (fun _ : Fin d => γ) j (-(∑ k, c (i0.succAbove k) * y k j) / c i0))
    have hx : c i0 * x j + ∑ k, c (i0.succAbove k) * y k j = 0 := hx
    change x j = _
    field_simp
    linarith
  rw [ae_iff]
  have := mp.measure_preimage hS.nullMeasurableSet
  rw [h0] at this
  refine measure_mono_null (fun z hz => ?_) this
  have hz : ∑ i, c i * z i j = 0 := by simpa using hz
  rw [Fin.sum_univ_succAbove _ i0] at hz
  exact hz

/-- Draws that are not on any of finitely many hyperplanes. -/
theorem generic (cs : List (Fin n → ℝ)) (hc : ∀ c ∈ cs, ∃ i, c i ≠ 0) : ∀ᵐ z ∂draws n d, ∀ c ∈ cs, ∀ j, ∑ i, c i * z i j ≠ 0 := by
  induction cs with
  | nil => exact Filter.Eventually.of_forall fun z c h => by cases h
  | cons c cs ih =>
    filter_upwards [ih fun c h => hc c (by simp [h]), ae_all_iff.mpr (combination_ne c (hc c (by simp)))] with z h1 h2 c' hc'
    rcases List.mem_cons.mp hc' with rfl | h
    · exact h2
    · exact h1 c' h

/-! ### Utilities -/

/-- A collection of utilities in which the one of the best occurs once. -/
def Distinguished (W : List ℝ) : Prop := 2 ≤ W.length ∧ ∃ x, W.count x = 1

theorem Distinguished.perm {W w : List ℝ} (h : Distinguished W) (hp : w.Perm W) : Distinguished w := ⟨by rw [hp.length_eq]; exact h.1, h.2.imp fun x hx => by rw [hp.count_eq]; exact hx⟩

theorem Distinguished.map {W : List ℝ} (h : Distinguished W) {F : ℝ → ℝ} (hF : Function.Injective F) : Distinguished (W.map F) :=
  ⟨by simpa using h.1, h.2.elim fun x hx => ⟨F x, by rw [List.count_map_of_injective _ _ hF]; exact hx⟩⟩

/-- Not all are equal. -/
theorem Distinguished.ne {W : List ℝ} (h : Distinguished W) (y : ℝ) : ∃ a ∈ W, a ≠ y := by
  by_contra hn
  push Not at hn
  obtain ⟨h2, x, hx⟩ := h
  have hxm : x ∈ W := List.count_pos_iff.mp (by omega)
  have hxy := hn x hxm
  have : W = List.replicate W.length y := List.eq_replicate_iff.mpr ⟨rfl, hn⟩
  rw [this, hxy, List.count_replicate_self] at hx
  omega

theorem distinguished_of_injective {N : ℕ} (hN : 2 ≤ N) {F : ℕ → ℝ} (hF : Function.Injective F) : Distinguished ((List.range N).map F) :=
  ⟨by simpa using hN, F 0, by rw [List.count_map_of_injective _ _ hF]; exact List.count_eq_one_of_mem List.nodup_range (by simp; omega)⟩

/-- The rankings whose utilities only depend on the order of the fitnesses. -/
def ByOrder (m : Method) : Prop := m = .centered ∨ m = .linear ∨ m = .nes

theorem nes_distinguished {N : ℕ} (hN : 2 ≤ N) : Distinguished ((List.range N).map fun k => Ranking.nesPaper N (k + 1) / ((List.range N).map fun k => Ranking.nesPaper N (k + 1)).sum - 1 / (N : ℝ)) := by
  have hS := Ranking.nes_sum_pos N (by omega)
  obtain ⟨S, hSe⟩ : ∃ S, S = ((List.range N).map fun k => Ranking.nesPaper N (k + 1)).sum := ⟨_, rfl⟩
  rw [← hSe] at hS ⊢
  have hinj : Function.Injective fun a : ℝ => a / S - 1 / (N : ℝ) := fun a b hab => by
    have : a / S = b / S := by simpa using hab
    field_simp at this
    exact this
  have e : ((List.range N).map fun k => Ranking.nesPaper N (k + 1) / S - 1 / (N : ℝ)) = ((List.range N).map fun k => Ranking.nesPaper N (k + 1)).map fun a => a / S - 1 / (N : ℝ) := by
    rw [List.map_map]; rfl
  rw [e]
  refine Distinguished.map ⟨by simpa using hN, Ranking.nesPaper N 1, ?_⟩ hinj
  have hpos : 0 < Real.log ((N : ℝ) / 2 + 1) := Real.log_pos (by
    have : (0 : ℝ) < N := by exact_mod_cast (by omega : 0 < N)
    linarith [half_pos this])
  have h1 : Ranking.nesPaper N 1 = Real.log ((N : ℝ) / 2 + 1) := by simp [Ranking.nesPaper, hpos.le]
  obtain ⟨M, rfl⟩ : ∃ M, N = M + 1 := ⟨N - 1, by omega⟩
  rw [List.range_succ_eq_map, List.map_cons, List.count_cons]
  simp only [zero_add, beq_self_eq_true, if_true]
  have : List.count (Ranking.nesPaper (M + 1) 1) (List.map (fun k => Ranking.nesPaper (M + 1) (k + 1)) (List.map Nat.succ (List.range M))) = 0 := by
    refine List.count_eq_zero_of_not_mem fun h => ?_
    rw [List.map_map] at h
    obtain ⟨k, -, hk⟩ := List.mem_map.mp h
    rw [h1] at hk
    have hk2 : 0 < Real.log ((k : ℝ) + 1 + 1) := Real.log_pos (by linarith [Nat.cast_nonneg (α := ℝ) k])
    have : Ranking.nesPaper (M + 1) (k + 1 + 1) < Real.log (((M + 1 : ℕ) : ℝ) / 2 + 1) := by
      unfold Ranking.nesPaper
      refine max_lt hpos ?_
      push_cast at hk2 ⊢
      linarith
    exact absurd hk (ne_of_lt this)
  rw [this]

/-- The utilities of any population of a given size are those of one collection, in some order. -/
theorem rank_pool {sort : Sorter ℝ} (hs : SorterSpec sort) {m : Method} (hm : ByOrder m) {N : ℕ} (hN : 2 ≤ N) : ∃ W, Distinguished W ∧ W.length = N ∧ ∀ hib (x : List ℝ), x.length = N → (rank sort m hib x).Perm W := by
  have hinj : Function.Injective fun k : ℕ => (k : ℝ) * (1 / ((N : ℝ) - 1)) := by
    have h2 : (2 : ℝ) ≤ N := by exact_mod_cast hN
    intro a b hab
    have hne : (1 / ((N : ℝ) - 1)) ≠ 0 := one_div_ne_zero (by linarith)
    exact_mod_cast mul_right_cancel₀ hne hab
  rcases hm with rfl | rfl | rfl
  · refine ⟨_, distinguished_of_injective hN (F := fun k => -1 / 2 + (k : ℝ) * (1 / ((N : ℝ) - 1))) (fun a b hab => hinj (by simpa using hab)), by simp, fun hib x hx => ?_⟩
    have := (Ranking.C19_centered hs hib (List.replicate x.length 0) x (by simp) (by omega)).1
    rw [hx] at this
    simpa only [rank, hx] using this
  · refine ⟨_, distinguished_of_injective hN hinj, by simp, fun hib x hx => ?_⟩
    have := (Ranking.C19_linear hs hib (List.replicate x.length 0) x (by simp) (by omega)).1
    rw [hx] at this
    simpa only [rank, hx] using this
  · refine ⟨_, nes_distinguished hN, by simp, fun hib x hx => ?_⟩
    have := (Ranking.C20_nes hs hib (List.replicate x.length 0) x (by simp) (by omega)).2.1
    rw [hx] at this
    simpa only [rank, hx] using this

theorem center_pool {W w : List ℝ} (b : Bool) (hp : w.Perm W) : (centerWeights b w).Perm (centerWeights b W) := by
  cases b
  · simp only [centerWeights, Bool.false_eq_true, if_false]
    have : Ranking.mean w = Ranking.mean W := by simp only [Ranking.mean, hp.sum_eq, hp.length_eq]
    rw [this]
    exact hp.map _
  · exact hp

theorem center_distinguished {W : List ℝ} (b : Bool) (h : Distinguished W) : Distinguished (centerWeights b W) := by
  cases b
  · simp only [centerWeights, Bool.false_eq_true, if_false]
    exact h.map fun a c hac => by simpa using hac
  · exact h

/-! ### The coefficients of the draws -/

/-- The coefficients of a list. -/
def coefs (n : ℕ) (L : List ℝ) : Fin n → ℝ := fun i => L.getD i 0

theorem weightedSum_eq (L : List ℝ) (z : Fin n → Fin d → ℝ) (sigma : Vec ℝ d) (j : Fin d) :
    weightedSum L ((List.ofFn z).map fun x => fun j => sigma j * x j) j = sigma j * ∑ i, coefs n L i * z i j := by
  unfold weightedSum
  induction n generalizing L with
  | zero => simp
  | succ n ih =>
    cases L with
    | nil => simp [coefs]
    | cons a L =>
      rw [List.ofFn_succ, List.map_cons, List.zipWith_cons_cons, List.sum_cons, Fin.sum_univ_succ, ih]
      simp only [coefs, Fin.val_zero, Fin.val_succ, List.getD_cons_zero, List.getD_cons_succ, mul_add]
      ring

theorem coefs_ne {w : List ℝ} (h : Distinguished w) (hl : w.length = n) : ∃ i, coefs n w i ≠ 0 := by
  obtain ⟨a, ha, hne⟩ := h.ne 0
  obtain ⟨i, hi, rfl⟩ := List.getElem_of_mem ha
  exact ⟨⟨i, hl ▸ hi⟩, by simpa [coefs, hi] using hne⟩

/-- The differences of the pairs. -/
noncomputable def differences (w : List ℝ) : List ℝ := List.zipWith (fun a b => (a - b) / 2) (evens w) (odds w)

theorem differences_ne (w : List ℝ) (n : ℕ) (hl : w.length = 2 * n) (x : ℝ) (hx : w.count x = 1) : ∃ i, coefs n (differences w) i ≠ 0 := by
  induction n generalizing w with
  | zero =>
    have : w = [] := List.length_eq_zero_iff.mp (by omega)
    rw [this] at hx
    simp at hx
  | succ n ih =>
    match w, hl, hx with
    | a :: b :: t, hl, hx =>
      by_cases hab : a = b
      · have : t.count x = 1 := by
          rw [hab, List.count_cons, List.count_cons] at hx
          split at hx <;> omega
        obtain ⟨i, hi⟩ := ih t (by simp at hl; omega) this
        exact ⟨i.succ, by simpa [coefs, differences, evens, odds] using hi⟩
      · exact ⟨0, by simpa [coefs, differences, evens, odds] using sub_ne_zero.mpr hab⟩

theorem abs_sum_ne {w : List ℝ} (h : Distinguished w) : (w.map absK).sum ≠ 0 := by
  obtain ⟨a, ha, hne⟩ := h.ne 0
  have habs : ∀ x : ℝ, absK x = |x| := fun x => by
    unfold absK
    split
    · next hx => exact (abs_of_neg hx).symm
    · next hx => exact (abs_of_nonneg (not_lt.mp hx)).symm
  have h0 : ∀ x ∈ w.map absK, 0 ≤ x := by
    intro x hx
    obtain ⟨y, -, rfl⟩ := List.mem_map.mp hx
    rw [habs]
    exact abs_nonneg y
  have : 0 < absK a := by rw [habs]; exact abs_pos.mpr hne
  exact (lt_of_lt_of_le this (List.single_le_sum h0 _ (List.mem_map.mpr ⟨a, ha, rfl⟩))).ne'

theorem divide_ne {w : List ℝ} (h : Distinguished w) (opt : Option DivideBy) {g : Vec ℝ d} {j : Fin d} (hg : g j ≠ 0) : divideGrad opt g w j ≠ 0 := by
  have h2 := h.1
  rcases opt with - | (- | - | -)
  · exact hg
  · exact div_ne_zero hg (by exact_mod_cast (by omega : w.length ≠ 0))
  · exact div_ne_zero hg (by exact_mod_cast (by omega : w.length / 2 ≠ 0))
  · exact div_ne_zero hg (abs_sum_ne h)

/-! ### Generations -/

theorem pairs_length {α β : Type} (A B : α → β) (zs : List α) : (zs.flatMap fun z => [A z, B z]).length = 2 * zs.length := by
  induction zs with
  | nil => rfl
  | cons z zs ih =>
    simp only [List.flatMap_cons, List.length_append, ih, List.length_cons, List.length_nil]
    omega

/-- How many solutions a generation with `n` draws has. -/
def size (p : Pgpe) (n : ℕ) : ℕ := if p.symmetric then 2 * n else n

/-- Almost surely the gradient of PGPE is not zero, whatever the fitness function and the search distribution. -/
theorem pgpe_gradient {sort : Sorter ℝ} (hs : SorterSpec sort) {p : Pgpe} (hm : ByOrder p.method) (hn : 2 ≤ size p n) :
    ∀ᵐ z ∂draws n d, ∀ (f : Vec ℝ d → ℝ) (s : Vec ℝ d × Vec ℝ d), ∃ g, pgpeGradients sort p f s (List.ofFn z) = .ok g ∧ ∀ j, s.2 j ≠ 0 → g.mu j ≠ 0 := by
  obtain ⟨W, hW, hWl, hp⟩ := rank_pool hs hm hn
  have hD := center_distinguished p.method.alreadyCentered hW
  obtain ⟨V, hV⟩ : ∃ V, V = centerWeights p.method.alreadyCentered W := ⟨_, rfl⟩
  rw [← hV] at hD
  have hVl : V.length = size p n := by
    rw [hV]
    cases p.method.alreadyCentered <;> simp [centerWeights, hWl]
  unfold size at hVl hp
  unfold pgpeGradients
  cases hsym : p.symmetric
  · simp only [hsym, Bool.false_eq_true, if_false] at hVl hp ⊢
    filter_upwards [generic (V.permutations.map (coefs n)) (by
      intro c hc
      obtain ⟨w, hw, rfl⟩ := List.mem_map.mp hc
      have hw := List.mem_permutations.mp hw
      exact coefs_ne (hD.perm hw) (hw.length_eq.trans hVl))] with z hz f s
    refine ⟨_, rfl, fun j hj => ?_⟩
    have hperm : (centerWeights p.method.alreadyCentered (utilities sort p.method p.sense f (sample (List.ofFn z) s))).Perm V := by
      rw [hV]
      exact center_pool _ (hp _ _ (by rw [sample_eq]; simp))
    simp only [plainGradients]
    refine divide_ne (hD.perm hperm) _ ?_
    have e : ((sample (List.ofFn z) s).map fun x => fun j => x j - s.1 j) = (List.ofFn z).map fun x => fun j => s.2 j * x j := by
      rw [sample_eq, List.map_map]
      refine List.map_congr_left fun x _ => ?_
      funext j
      simp
    rw [e, weightedSum_eq]
    exact mul_ne_zero hj (hz _ (List.mem_map.mpr ⟨_, List.mem_permutations.mpr hperm, rfl⟩) j)
  · simp only [hsym, if_true] at hVl hp ⊢
    filter_upwards [generic (V.permutations.map fun w => coefs n (differences w)) (by
      intro c hc
      obtain ⟨w, hw, rfl⟩ := List.mem_map.mp hc
      have hw := List.mem_permutations.mp hw
      obtain ⟨x, hx⟩ := (hD.perm hw).2
      exact differences_ne w n (hw.length_eq.trans hVl) x hx)] with z hz f s
    rw [symmetric_eq]
    refine ⟨_, rfl, fun j hj => ?_⟩
    have hperm : (centerWeights p.method.alreadyCentered (utilities sort p.method p.sense f ((List.ofFn z).flatMap fun z => [fun j => s.1 j + s.2 j * z j, fun j => s.1 j - s.2 j * z j]))).Perm V := by
      rw [hV]
      exact center_pool _ (hp _ _ (by rw [List.length_map, pairs_length, List.length_ofFn]))
    simp only [symmetricGradients]
    refine divide_ne (hD.perm hperm) _ ?_
    have e : ((evens ((List.ofFn z).flatMap fun z => [fun j => s.1 j + s.2 j * z j, fun j => s.1 j - s.2 j * z j])).map fun x => fun j => x j - s.1 j) = (List.ofFn z).map fun x => fun j => s.2 j * x j := by
      rw [(evens_pairs (fun z : Vec ℝ d => fun j => s.1 j + s.2 j * z j) (fun z => fun j => s.1 j - s.2 j * z j) (List.ofFn z)).1, List.map_map]
      refine List.map_congr_left fun x _ => ?_
      funext j
      simp
    rw [e, weightedSum_eq]
    exact mul_ne_zero hj (hz _ (List.mem_map.mpr ⟨_, List.mem_permutations.mpr hperm, rfl⟩) j)

/-- The same for SNES. -/
theorem snes_gradient {sort : Sorter ℝ} (hs : SorterSpec sort) {m : Method} (hm : ByOrder m) (sense : Sense) (hn : 2 ≤ n) :
    ∀ᵐ z ∂draws n d, ∀ (f : Vec ℝ d → ℝ) (s : Vec ℝ d × Vec ℝ d), ∃ g, snesGradients sort m sense f s (List.ofFn z) = .ok g ∧ ∀ j, s.2 j ≠ 0 → g.mu j ≠ 0 := by
  obtain ⟨W, hW, hWl, hp⟩ := rank_pool hs hm hn
  obtain ⟨V, hV⟩ : ∃ V, V = if m = .nes then W else W.map fun w => w / (W.map absK).sum := ⟨_, rfl⟩
  have hD : Distinguished V := by
    rw [hV]
    split
    · exact hW
    · exact hW.map fun a b hab => by
        have := abs_sum_ne hW
        field_simp at hab
        exact hab
  have hVl : V.length = n := by
    rw [hV]
    split <;> simp [hWl]
  filter_upwards [generic (V.permutations.map (coefs n)) (by
    intro c hc
    obtain ⟨w, hw, rfl⟩ := List.mem_map.mp hc
    have hw := List.mem_permutations.mp hw
    exact coefs_ne (hD.perm hw) (hw.length_eq.trans hVl))] with z hz f s
  refine ⟨_, rfl, fun j hj => ?_⟩
  obtain ⟨w, hw⟩ : ∃ w, w = utilities sort m sense f (sample (List.ofFn z) s) := ⟨_, rfl⟩
  have hwp : w.Perm W := by
    rw [hw]
    exact hp _ _ (by rw [sample_eq]; simp)
  have hperm : (if (decide (m = Method.nes)) = true then w else w.map fun x => x / (w.map absK).sum).Perm V := by
    rw [hV]
    by_cases h : m = .nes
    · simpa [h] using hwp
    · simp only [h, decide_false, Bool.false_eq_true, if_false]
      rw [(hwp.map absK).sum_eq]
      exact hwp.map _
  simp only [expGradients, ← hw]
  have e : ((sample (List.ofFn z) s).map fun x => fun j => x j - s.1 j) = (List.ofFn z).map fun x => fun j => s.2 j * x j := by
    rw [sample_eq, List.map_map]
    refine List.map_congr_left fun x _ => ?_
    funext j
    simp
  rw [e, weightedSum_eq]
  exact mul_ne_zero hj (hz _ (List.mem_map.mpr ⟨_, List.mem_permutations.mpr hperm, rfl⟩) j)

theorem clipup_number {c : ClipUp d} (hc : c.velocity ≠ none) {g : Fin d → ℝ} {j : Fin d} (hg : g j ≠ 0) : (c.ascent g).2 ≠ none ∧ (c.ascent g).1.velocity ≠ none := by
  have hne : Optimizers.norm g ≠ 0 := by
    unfold Optimizers.norm
    refine (Real.sqrt_pos.mpr (lt_of_lt_of_le (sq_pos_of_ne_zero hg) (Finset.single_le_sum (f := fun j => g j ^ 2) (fun i _ => sq_nonneg (g i)) (Finset.mem_univ j)))).ne'
  obtain ⟨v, hv⟩ := Option.ne_none_iff_exists'.mp hc
  have : (c.ascent g).2 ≠ none := by
    simp only [ClipUp.ascent, Optimizers.normalize, if_neg hne, hv, Option.map_some, Optimizers.addScaled, Optimizers.clip]
    split <;> simp
  exact ⟨this, this⟩

/-- Runs whose gradients are not zero. -/
theorem run_alive {ζ : Type} {grads : (Vec ℝ d → ℝ) → Vec ℝ d × Vec ℝ d → ζ → Except PyErr (Grads ℝ d)} {spread : Vec ℝ d → Vec ℝ d → Vec ℝ d} (hsp : ∀ sigma g, (∀ j, 0 < sigma j) → ∀ j, 0 < spread sigma g j) (hd : 0 < d)
    (f : Vec ℝ d → ℝ) (zss : List ζ) (hz : ∀ zs ∈ zss, ∀ s, ∃ g, grads f s zs = .ok g ∧ ∀ j, s.2 j ≠ 0 → g.mu j ≠ 0) (s : OptState d (ClipUp d)) (h1 : s.mu ≠ none) (h2 : ∀ j, 0 < s.sigma j) (h3 : s.opt.velocity ≠ none) :
    ∃ s', optRun ClipUp.ascent spread (grads f) s zss = .ok s' ∧ s'.mu ≠ none ∧ ∀ j, 0 < s'.sigma j := by
  induction zss generalizing s with
  | nil => exact ⟨s, rfl, h1, h2⟩
  | cons zs rest ih =>
    obtain ⟨mu, hmu⟩ := Option.ne_none_iff_exists'.mp h1
    obtain ⟨g, hg, hne⟩ := hz zs (by simp) (mu, s.sigma)
    obtain ⟨a1, a2⟩ := clipup_number h3 (hne ⟨0, hd⟩ (h2 ⟨0, hd⟩).ne')
    obtain ⟨v, hv⟩ := Option.ne_none_iff_exists'.mp a1
    simp only [optRun, optGen, hmu, hg]
    exact ih (fun zs h => hz zs (by simp [h])) _ (by simp [hv, Optimizers.addVec]) (hsp _ _ h2) a2

/-- All the draws of a search that never ends. -/
noncomputable abbrev allDraws (n d : ℕ) : Measure (ℕ → Fin n → Fin d → ℝ) := Measure.infinitePi fun _ => draws n d

/-- The draws of the first generations. -/
def first (T : ℕ) (z : ℕ → Fin n → Fin d → ℝ) : List (List (Vec ℝ d)) := (List.range T).map fun t => List.ofFn (z t)

theorem always {P : (Fin n → Fin d → ℝ) → Prop} (h : ∀ᵐ z ∂draws n d, P z) : ∀ᵐ z ∂allDraws n d, ∀ t, P (z t) :=
  ae_all_iff.mpr fun t => (measurePreserving_eval_infinitePi (fun _ : ℕ => draws n d) t).quasiMeasurePreserving.ae h

/-- The limited standard deviations stay positive. -/
theorem limit_positive {lr : ℝ} {lo hi : Option ℝ} (hhi : ∀ h, hi = some h → 0 < h) {c : ℝ} (hc0 : 0 ≤ c) (hc1 : c < 1) (sigma g : Vec ℝ d) (h : ∀ j, 0 < sigma j) (j : Fin d) : 0 < limitSpread lo hi (some c) (addSpread lr) sigma g j := by
  have h1 : 0 < sigma j - |sigma j| * c := by
    rw [abs_of_pos (h j)]
    nlinarith [h j]
  have h2 : 0 < sigma j + |sigma j| * c := by
    rw [abs_of_pos (h j)]
    nlinarith [h j]
  unfold limitSpread
  cases hi with
  | none => exact lt_min (lt_of_lt_of_le h1 (le_max_right _ _)) h2
  | some b => exact lt_min (lt_min (lt_of_lt_of_le h1 (le_max_right _ _)) (hhi b rfl)) h2

/-- `limitSpread` is what `modify_tensor` does to each element. -/
theorem limit_modify (lo hi change : Option ℝ) (spread : Vec ℝ d → Vec ℝ d → Vec ℝ d) (sigma g : Vec ℝ d) (j : Fin d) :
    Modify.modifyElem (.fin (sigma j)) (.fin (spread sigma g j)) (lo.elim .ninf .fin) (hi.elim .pinf .fin) (change.map .fin) = .fin (limitSpread lo hi change spread sigma g j) := by
  have hmax : ∀ a b : ℝ, Flt.max2 (.fin a) (.fin b) = .fin (max a b) := fun a b => by
    simp only [Flt.max2, Flt.lt, decide_eq_true_eq]
    split
    · next h => rw [max_eq_right h.le]
    · next h => rw [max_eq_left (not_lt.mp h)]
  have hmin : ∀ a b : ℝ, Flt.min2 (.fin a) (.fin b) = .fin (min a b) := fun a b => by
    simp only [Flt.min2, Flt.lt, decide_eq_true_eq]
    split
    · next h => rw [min_eq_right h.le]
    · next h => rw [min_eq_left (not_lt.mp h)]
  have h1 : ∀ a : ℝ, Flt.max2 (.fin a) .ninf = .fin a := fun a => by simp [Flt.max2, Flt.lt]
  have h2 : ∀ a : ℝ, Flt.max2 .ninf (.fin a) = .fin a := fun a => by simp [Flt.max2, Flt.lt]
  have h3 : ∀ a : ℝ, Flt.min2 (.fin a) .pinf = .fin a := fun a => by simp [Flt.min2, Flt.lt]
  have h4 : ∀ a : ℝ, Flt.min2 .pinf (.fin a) = .fin a := fun a => by simp [Flt.min2, Flt.lt]
  have habs : ∀ a : ℝ, Flt.abs (.fin a) = .fin |a| := fun a => by
    simp only [Flt.abs]
    split
    · next h => rw [abs_of_neg h]
    · next h => rw [abs_of_nonneg (not_lt.mp h)]
  cases lo <;> cases hi <;> cases change <;>
    simp only [Modify.modifyElem, limitSpread, Option.map_none, Option.map_some, Option.elim, hmax, hmin, h1, h2, h3, h4, habs, Flt.mul, Flt.add, Flt.sub, max_assoc, min_assoc]

/-- **C180 for PGPE.** Almost surely, whatever the fitness function: with ClipUp, a ranking by order and a limit on the change of the standard deviations, at no time is the center NaN or is a standard deviation not positive. -/
theorem C180_pgpe {sort : Sorter ℝ} (hs : SorterSpec sort) {p : Pgpe} (hm : ByOrder p.method) (hn : 2 ≤ size p n) (hd : 0 < d) (lo : Option ℝ) {hi : Option ℝ} (hhi : ∀ h, hi = some h → 0 < h) {change : ℝ} (hc0 : 0 ≤ change) (hc1 : change < 1)
    {stepsize momentum : ℝ} {maxSpeed : Option ℝ} {c : ClipUp d} (hc : ClipUp.create d stepsize momentum maxSpeed = .ok c) :
    ∀ᵐ z ∂allDraws n d, ∀ (f : Vec ℝ d → ℝ) (mu sigma : Vec ℝ d), (∀ j, 0 < sigma j) → ∀ T, ∃ s, optRun ClipUp.ascent (limitSpread lo hi (some change) (addSpread p.lrSigma)) (pgpeGradients sort p f) ⟨some mu, sigma, c⟩ (first T z) = .ok s ∧
      s.mu ≠ none ∧ ∀ j, 0 < s.sigma j := by
  have hv : c.velocity ≠ none := by
    unfold ClipUp.create at hc
    dsimp only at hc
    split_ifs at hc
    injection hc with hc
    rw [← hc]
    simp
  filter_upwards [always (pgpe_gradient (n := n) (d := d) hs hm hn)] with z hz f mu sigma hsig T
  refine run_alive (grads := fun f => pgpeGradients sort p f) (limit_positive hhi hc0 hc1) hd f (first T z) ?_ ⟨some mu, sigma, c⟩ (by simp) hsig hv
  intro zs hzs
  obtain ⟨t, -, rfl⟩ := List.mem_map.mp hzs
  exact hz t f

/-- **C180 for SNES.** -/
theorem C180_snes {sort : Sorter ℝ} (hs : SorterSpec sort) {m : Method} (hm : ByOrder m) (sense : Sense) (lrSigma : ℝ) (hn : 2 ≤ n) (hd : 0 < d)
    {stepsize momentum : ℝ} {maxSpeed : Option ℝ} {c : ClipUp d} (hc : ClipUp.create d stepsize momentum maxSpeed = .ok c) :
    ∀ᵐ z ∂allDraws n d, ∀ (f : Vec ℝ d → ℝ) (mu sigma : Vec ℝ d), (∀ j, 0 < sigma j) → ∀ T, ∃ s, snesOptRun ClipUp.ascent sort m sense lrSigma f ⟨some mu, sigma, c⟩ (first T z) = .ok s ∧ s.mu ≠ none ∧ ∀ j, 0 < s.sigma j := by
  have hv : c.velocity ≠ none := by
    unfold ClipUp.create at hc
    dsimp only at hc
    split_ifs at hc
    injection hc with hc
    rw [← hc]
    simp
  filter_upwards [always (snes_gradient (n := n) (d := d) hs hm sense hn)] with z hz f mu sigma hsig T
  refine run_alive (grads := fun f => snesGradients sort m sense f) (fun sigma g h j => mul_pos (h j) (Real.exp_pos _)) hd f (first T z) ?_ ⟨some mu, sigma, c⟩ (by simp) hsig hv
  intro zs hzs
  obtain ⟨t, -, rfl⟩ := List.mem_map.mp hzs
  exact hz t f

/-! ### A concrete search -/

/-- The search of `PGPE(problem, popsize=..., center_learning_rate=0.1, stdev_learning_rate=0.1, stdev_init=...)`, whose other settings are the defaults (`gaussian.py 543-565`, `gaussian.py 714-721`). -/
noncomputable def defaults : Pgpe := ⟨true, some .numDirections, some .numDirections, .centered, .min, 0.1, 0.1⟩

/-- With the default settings and a flat fitness function. -/
example {c : ClipUp 3} (hc : ClipUp.create 3 0.1 0.9 none = .ok c) :
    ∀ᵐ z ∂allDraws 5 3, ∀ T, ∃ s, optRun ClipUp.ascent (limitSpread none none (some 0.2) (addSpread 0.1)) (pgpeGradients exampleSorter defaults fun _ => 7) ⟨some fun _ => 0, fun _ => 1, c⟩ (first T z) = .ok s ∧ s.mu ≠ none := by
  filter_upwards [C180_pgpe (n := 5) (d := 3) exampleSorter_spec (p := defaults) (Or.inl rfl) (by decide) (by norm_num) none (hi := none) (fun h e => by cases e) (change := 0.2) (by norm_num) (by norm_num) hc] with z hz T
  obtain ⟨s, h1, h2, -⟩ := hz (fun _ => 7) (fun _ => 0) (fun _ => 1) (fun _ => one_pos) T
  exact ⟨s, h1, h2⟩

example : ∃ c : ClipUp 3, ClipUp.create 3 0.1 0.9 none = .ok c := ⟨_, by norm_num [ClipUp.create]; rfl⟩

end EvoTorch.NeverNan
