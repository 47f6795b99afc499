import Verif.Props.NeverNan
import Verif.Props.LinearProgressOptim
import Verif.Props.Optimizers
import Mathlib.Probability.BorelCantelli
import Mathlib.Probability.Independence.InfinitePi
import Mathlib.Data.Nat.Nth
/-!
C181: on a linear fitness function that is not constant, the fitness of the center almost surely improves beyond every bound.
-/
namespace EvoTorch.LinearProgress
open EvoTorch.Generations EvoTorch.Distribution EvoTorch.NeutralSearch MeasureTheory ProbabilityTheory
open EvoTorch.GaussianScore (γ std draws)
open EvoTorch.BestWorst (Sense)
open EvoTorch.Selection (Sorter SorterSpec NotWorse exampleSorter exampleSorter_spec)
open EvoTorch.Optimizers (NVec ClipUp)
open EvoTorch.NeverNan (Distinguished ByOrder rank_pool center_pool center_distinguished abs_sum_ne allDraws first always size pairs_length pgpe_gradient snes_gradient)
open Filter

variable {n d : ℕ}

/-! ### A solution that is ahead of the others -/

/-- If one is ahead of all others by `D`, the product is at least `D` times its weight. -/
theorem ahead {N : ℕ} {w y : Fin N → ℝ} (h : ∀ i k, y k < y i → w k ≤ w i) (h0 : ∑ i, w i = 0) (i0 : Fin N) {D : ℝ} (hD0 : 0 < D) (hD : ∀ k, k ≠ i0 → y k + D ≤ y i0) : D * w i0 ≤ ∑ i, w i * y i := by
  classical
  have key := (product (w := w) (y := fun i => if i = i0 then y i else y i + D) (fun i k hik => by
    by_cases hi : i = i0
    · subst hi
      by_cases hk : k = i
      · rw [hk]
      · exact h i k (by have := hD k hk; linarith)
    · by_cases hk : k = i0
      · subst hk
        rw [if_pos rfl, if_neg hi] at hik
        have := hD i hi
        linarith
      · rw [if_neg hi, if_neg hk] at hik
        exact h i k (by linarith)) h0).1
  have e : ∀ i, w i * (if i = i0 then y i else y i + D) = w i * y i + D * w i - (if i = i0 then D * w i else 0) := by
    intro i
    split <;> ring
  simp only [e, Finset.sum_add_distrib, Finset.sum_sub_distrib, ← Finset.mul_sum, h0, Finset.sum_ite_eq', Finset.mem_univ, if_true] at key
  linarith

/-- The best utility is at least a positive number that depends on the collection of utilities only. -/
theorem top_positive {V : List ℝ} (hV : Distinguished V) (h0 : V.sum = 0) : ∃ δ, 0 < δ ∧ ∀ w : List ℝ, w.Perm V → ∀ x, (∀ y ∈ w, y ≤ x) → δ ≤ x := by
  obtain ⟨δ, hm, hpos⟩ : ∃ δ ∈ V, 0 < δ := by
    by_contra hcon
    push Not at hcon
    obtain ⟨a, ha, hne⟩ := hV.ne 0
    have hneg : ∀ l : List ℝ, (l.map fun x => -x).sum = -l.sum := fun l => by
      induction l with
      | nil => simp
      | cons x l ih => rw [List.map_cons, List.sum_cons, List.sum_cons, ih]; ring
    have h2 : (V.map fun x => -x).sum = 0 := by rw [hneg, h0, neg_zero]
    have h3 : ∀ x ∈ V.map fun x => -x, 0 ≤ x := by
      intro x hx
      obtain ⟨y, hy, rfl⟩ := List.mem_map.mp hx
      linarith [hcon y hy]
    have := List.single_le_sum h3 (-a) (List.mem_map.mpr ⟨a, ha, rfl⟩)
    rw [h2] at this
    exact hne (le_antisymm (hcon a ha) (by linarith))
  exact ⟨δ, hpos, fun w hw x hx => hx δ (hw.mem_iff.mpr hm)⟩

theorem gain_sub {f : Vec ℝ d → ℝ} {a : Vec ℝ d} {b : ℝ} (hf : ∀ x, f x = b + ∑ j, a j * x j) (sense : Sense) (x mu : Vec ℝ d) : gain a sense (fun j => x j - mu j) = sgn sense * f x - sgn sense * f mu := by
  rw [gain, hf, hf]
  simp only [mul_sub, Finset.sum_sub_distrib]
  ring

theorem gain_weighted (a : Vec ℝ d) (sense : Sense) (w : List ℝ) {N : ℕ} (r : Fin N → Vec ℝ d) : gain a sense (weightedSum w (List.ofFn r)) = ∑ i : Fin N, w.getD i 0 * gain a sense (r i) := by
  simp only [gain, weightedSum_getD, Finset.mul_sum]
  rw [Finset.sum_comm]
  exact Finset.sum_congr rfl fun i _ => Finset.sum_congr rfl fun j _ => by ring

/-- Utilities and displacements, by index. -/
theorem by_index {f : Vec ℝ d → ℝ} {a : Vec ℝ d} {b : ℝ} (hf : ∀ x, f x = b + ∑ j, a j * x j) (sense : Sense) (mu : Vec ℝ d) (xs : List (Vec ℝ d)) (w : List ℝ)
    (hw : Utilities (decide (sense = .max)) (xs.map f) w) (h0 : w.sum = 0) :
    (xs.map fun y => fun j => y j - mu j) = List.ofFn (fun i : Fin xs.length => fun j => xs.get i j - mu j) ∧ w.length = xs.length ∧ ∑ i : Fin xs.length, w.getD i 0 = 0 ∧
      ∀ i k : Fin xs.length, gain a sense (fun j => xs.get k j - mu j) < gain a sense (fun j => xs.get i j - mu j) → w.getD k 0 ≤ w.getD i 0 := by
  have e : (xs.map fun y => fun j => y j - mu j) = List.ofFn fun i : Fin xs.length => fun j => xs.get i j - mu j := by
    conv_lhs => rw [← List.ofFn_get xs, List.map_ofFn]
    rfl
  have hl : w.length = xs.length := by simpa using hw.length
  have hget : ∀ i : Fin xs.length, (xs.map f).getD i 0 = f (xs.get i) := fun i => by
    rw [List.getD_eq_getElem _ _ (by simp)]
    simp
  refine ⟨e, hl, ?_, fun i k hik => ?_⟩
  · rw [← h0, ← Fin.sum_univ_getElem, ← Equiv.sum_comp (finCongr hl.symm)]
    exact Finset.sum_congr rfl fun i _ => List.getD_eq_getElem _ _ (by rw [hl]; exact i.2)
  · refine hw.mono i k (by simp) (by simp) ?_
    rw [hget, hget]
    rw [gain_sub hf, gain_sub hf] at hik
    cases sense
    · have : f (xs.get i) < f (xs.get k) := by simp only [sgn] at hik; linarith
      simpa [Ranking.Better] using this
    · have : f (xs.get k) < f (xs.get i) := by simp only [sgn] at hik; linarith
      simpa [Ranking.Better] using this

theorem weighted_forward {f : Vec ℝ d → ℝ} {a : Vec ℝ d} {b : ℝ} (hf : ∀ x, f x = b + ∑ j, a j * x j) (sense : Sense) (mu : Vec ℝ d) (xs : List (Vec ℝ d)) (w : List ℝ)
    (hw : Utilities (decide (sense = .max)) (xs.map f) w) (h0 : w.sum = 0) : 0 ≤ gain a sense (weightedSum w (xs.map fun y => fun j => y j - mu j)) := by
  obtain ⟨e, -, hsum, hmono⟩ := by_index hf sense mu xs w hw h0
  rw [e, gain_weighted]
  exact (product hmono hsum).1

/-- The gain of a weighted sum of displacements, when the first solution is ahead of all others by `D`. -/
theorem first_ahead {f : Vec ℝ d → ℝ} {a : Vec ℝ d} {b : ℝ} (hf : ∀ x, f x = b + ∑ j, a j * x j) (sense : Sense) (mu x : Vec ℝ d) (rest : List (Vec ℝ d)) (w : List ℝ)
    (hw : Utilities (decide (sense = .max)) ((x :: rest).map f) w) (h0 : w.sum = 0) {D δ : ℝ} (hD0 : 0 < D) (hδ : ∀ u, (∀ y ∈ w, y ≤ u) → δ ≤ u)
    (hD : ∀ y ∈ rest, gain a sense (fun j => y j - mu j) + D ≤ gain a sense (fun j => x j - mu j)) :
    D * δ ≤ gain a sense (weightedSum w ((x :: rest).map fun y => fun j => y j - mu j)) := by
  obtain ⟨xs, hxs⟩ : ∃ xs, xs = x :: rest := ⟨_, rfl⟩
  rw [← hxs] at hw ⊢
  have hpos : 0 < xs.length := by rw [hxs]; simp
  obtain ⟨e, hl, hsum, hmono⟩ := by_index hf sense mu xs w hw h0
  have hfirst : xs.get ⟨0, hpos⟩ = x := by subst hxs; rfl
  have hahead : ∀ k : Fin xs.length, k ≠ ⟨0, hpos⟩ → gain a sense (fun j => xs.get k j - mu j) + D ≤ gain a sense (fun j => xs.get ⟨0, hpos⟩ j - mu j) := by
    intro k hk
    rw [hfirst]
    refine hD _ ?_
    subst hxs
    obtain ⟨k, hk'⟩ := k
    cases k with
    | zero => exact absurd rfl hk
    | succ k => exact List.getElem_mem (l := rest) (by simpa using hk')
  rw [e, gain_weighted]
  refine le_trans (mul_le_mul_of_nonneg_left ?_ hD0.le) (ahead hmono hsum ⟨0, hpos⟩ hD0 hahead)
  refine hδ _ fun y hy => ?_
  obtain ⟨k, hk, rfl⟩ := List.mem_iff_getElem.mp hy
  rw [← List.getD_eq_getElem _ 0 hk]
  by_cases h : k = 0
  · rw [h]
  · have := hahead ⟨k, hl ▸ hk⟩ (by simpa [Fin.ext_iff] using h)
    exact hmono ⟨0, hpos⟩ ⟨k, hl ▸ hk⟩ (by linarith)

/-! ### Draws that put the first solution ahead -/

/-- The sign of a direction. -/
def dir (e : Bool) : ℝ := if e then 1 else -1

/-- Draws of which the first goes far in the directions `e`, and the others stay near. -/
def Leaps (e : Fin d → Bool) (z : Fin n → Fin d → ℝ) : Prop := ∀ (i : Fin n) (j : Fin d), if i.val = 0 then 2 < dir (e j) * z i j ∧ dir (e j) * z i j < 3 else |z i j| < 1

/-- The directions in which a linear function gets better. -/
noncomputable def uphill (a : Vec ℝ d) (sense : Sense) : Fin d → Bool := fun j => decide (0 ≤ sgn sense * a j)

theorem uphill_dir (a : Vec ℝ d) (sense : Sense) (j : Fin d) : sgn sense * a j = |a j| * dir (uphill a sense j) := by
  have : |sgn sense * a j| = |a j| := by cases sense <;> simp [sgn]
  rw [← this]
  unfold uphill dir
  by_cases h : 0 ≤ sgn sense * a j
  · simp [h, abs_of_nonneg h]
  · simp [h, abs_of_neg (not_le.mp h)]

theorem dir_abs (e : Bool) (x : ℝ) : |dir e * x| = |x| := by cases e <;> simp [dir]

theorem gain_draw (a : Vec ℝ d) (sense : Sense) (sigma z : Vec ℝ d) : gain a sense (fun j => sigma j * z j) = ∑ j, |a j| * sigma j * (dir (uphill a sense j) * z j) := by
  rw [gain, Finset.mul_sum]
  refine Finset.sum_congr rfl fun j _ => ?_
  rw [show sgn sense * (a j * (sigma j * z j)) = (sgn sense * a j) * (sigma j * z j) by ring, uphill_dir]
  ring

theorem gain_far (a : Vec ℝ d) (sense : Sense) {sigma z : Vec ℝ d} (hs : ∀ j, 0 ≤ sigma j) (hz : ∀ j, 2 < dir (uphill a sense j) * z j) : 2 * ∑ j, |a j| * sigma j ≤ gain a sense (fun j => sigma j * z j) := by
  rw [gain_draw, Finset.mul_sum]
  refine Finset.sum_le_sum fun j _ => ?_
  have := mul_le_mul_of_nonneg_left (hz j).le (mul_nonneg (_root_.abs_nonneg (a j)) (hs j))
  linarith

theorem gain_near (a : Vec ℝ d) (sense : Sense) {sigma z : Vec ℝ d} (hs : ∀ j, 0 ≤ sigma j) (hz : ∀ j, dir (uphill a sense j) * z j ≤ 1) : gain a sense (fun j => sigma j * z j) ≤ ∑ j, |a j| * sigma j := by
  rw [gain_draw]
  refine Finset.sum_le_sum fun j _ => ?_
  have := mul_le_mul_of_nonneg_left (hz j) (mul_nonneg (_root_.abs_nonneg (a j)) (hs j))
  linarith

instance : (gaussianReal 0 1).IsOpenPosMeasure := (gaussianReal_absolutelyContinuous' 0 one_ne_zero).isOpenPosMeasure
instance : (draws n d).IsOpenPosMeasure := by
  have : (std d).IsOpenPosMeasure := by
    unfold std γ
    exact Measure.pi.isOpenPosMeasure _
  unfold draws
  exact Measure.pi.isOpenPosMeasure _

theorem leaps_open (e : Fin d → Bool) : IsOpen {z : Fin n → Fin d → ℝ | Leaps e z} := by
  simp only [Leaps, Set.ofPred_forall]
  refine isOpen_iInter_of_finite fun i => isOpen_iInter_of_finite fun j => ?_
  by_cases hi : i.val = 0
  · simp only [hi, if_true]
    exact (isOpen_lt (f := fun _ : Fin n → Fin d → ℝ => (2 : ℝ)) (g := fun z => dir (e j) * z i j) (by fun_prop) (by fun_prop)).inter (isOpen_lt (f := fun z : Fin n → Fin d → ℝ => dir (e j) * z i j) (g := fun _ => (3 : ℝ)) (by fun_prop) (by fun_prop))
  · simp only [hi, if_false]
    exact isOpen_lt (by fun_prop) (by fun_prop)

theorem leaps_positive (e : Fin d → Bool) : 0 < draws n d {z | Leaps e z} := by
  refine (leaps_open e).measure_pos _ ⟨fun i j => if i.val = 0 then dir (e j) * (5 / 2) else 0, fun i j => ?_⟩
  by_cases hi : i.val = 0
  · simp only [hi, if_true]
    cases e j <;> norm_num [dir]
  · simp [hi]

/-- Almost surely such draws occur again and again. -/
theorem leaps_recur (e : Fin d → Bool) : ∀ᵐ z ∂allDraws n d, ∃ᶠ t in atTop, Leaps e (z t) := by
  have hm : MeasurableSet {z : Fin n → Fin d → ℝ | Leaps e z} := (leaps_open e).measurableSet
  have hms : ∀ t : ℕ, MeasurableSet {z : ℕ → Fin n → Fin d → ℝ | Leaps e (z t)} := fun t => hm.preimage (measurable_pi_apply t)
  have hval : ∀ t : ℕ, allDraws n d {z | Leaps e (z t)} = draws n d {z | Leaps e z} := fun t =>
    (measurePreserving_eval_infinitePi (fun _ : ℕ => draws n d) t).measure_preimage hm.nullMeasurableSet
  have hind : iIndepSet (fun t : ℕ => {z : ℕ → Fin n → Fin d → ℝ | Leaps e (z t)}) (allDraws n d) := by
    rw [iIndepSet_iff_meas_biInter hms]
    intro S
    exact (iIndepFun_infinitePi (P := fun _ : ℕ => draws n d) (X := fun _ x => x) (fun _ => measurable_id)).measure_inter_preimage_eq_mul S (sets := fun _ => {z | Leaps e z}) fun _ _ => hm
  have h1 := measure_limsup_eq_one hms hind (by
    simp only [hval]
    exact ENNReal.tsum_const_eq_top_of_ne_zero (leaps_positive e).ne')
  have h2 : ∀ᵐ z ∂allDraws n d, z ∈ limsup (fun t : ℕ => {z : ℕ → Fin n → Fin d → ℝ | Leaps e (z t)}) atTop := by
    rw [← prob_compl_eq_zero_iff (MeasurableSet.measurableSet_limsup hms)] at h1
    exact h1
  filter_upwards [h2] with z hz
  exact mem_limsup_iff_frequently_mem.mp hz

/-! ### Gradients -/

/-- The gradients of the center are `κ` times the weighted displacements of the population `pop`, with the utilities of the collection `V` in some order. -/
def Form (sense : Sense) (grads : (Vec ℝ d → ℝ) → Vec ℝ d × Vec ℝ d → List (Vec ℝ d) → Except PyErr (Grads ℝ d)) (pop : Vec ℝ d × Vec ℝ d → List (Vec ℝ d) → List (Vec ℝ d)) (n : ℕ) (κ : ℝ) (V : List ℝ) : Prop :=
  ∀ zs : List (Vec ℝ d), zs.length = n → ∀ f s, ∃ g w, grads f s zs = .ok g ∧ w.Perm V ∧ Utilities (decide (sense = .max)) ((pop s zs).map f) w ∧ w.sum = 0 ∧
    ∀ j, g.mu j = κ * weightedSum w ((pop s zs).map fun x => fun j => x j - s.1 j) j

/-- The first draw gives the first solution; the others come from the other draws, or are mirrored. -/
def Drawn (pop : Vec ℝ d × Vec ℝ d → List (Vec ℝ d) → List (Vec ℝ d)) : Prop :=
  ∀ s z zs, ∃ rest, pop s (z :: zs) = (fun j => s.1 j + s.2 j * z j) :: rest ∧ ∀ x ∈ rest, (∃ r ∈ zs, x = fun j => s.1 j + s.2 j * r j) ∨ (∃ r ∈ z :: zs, x = fun j => s.1 j + s.2 j * -r j)

theorem divide_const {V : List ℝ} (hV : Distinguished V) (opt : Option DivideBy) : ∃ c : ℝ, 0 < c ∧ ∀ w : List ℝ, w.Perm V → ∀ (g : Vec ℝ d) (j : Fin d), divideGrad opt g w j = c * g j := by
  have h2 := hV.1
  rcases opt with - | (- | - | -)
  · exact ⟨1, one_pos, fun w _ g j => (one_mul _).symm⟩
  · refine ⟨(V.length : ℝ)⁻¹, inv_pos.mpr (by exact_mod_cast (by omega : 0 < V.length)), fun w hw g j => ?_⟩
    rw [← hw.length_eq]
    exact div_eq_inv_mul _ _
  · refine ⟨((V.length / 2 : ℕ) : ℝ)⁻¹, inv_pos.mpr (by exact_mod_cast (by omega : 0 < V.length / 2)), fun w hw g j => ?_⟩
    rw [← hw.length_eq]
    exact div_eq_inv_mul _ _
  · refine ⟨(V.map absK).sum⁻¹, inv_pos.mpr (lt_of_le_of_ne (abs_nonneg V) (abs_sum_ne hV).symm), fun w hw g j => ?_⟩
    rw [← (hw.map absK).sum_eq]
    exact div_eq_inv_mul _ _

theorem pgpe_form {sort : Sorter ℝ} (hs : SorterSpec sort) {p : Pgpe} (hm : ByOrder p.method) (hn : 2 ≤ size p n) :
    ∃ κ V, 0 < κ ∧ Distinguished V ∧ Form (d := d) p.sense (pgpeGradients sort p) (population p) n κ V := by
  obtain ⟨W, hW, hWl, hp⟩ := rank_pool hs hm hn
  have hD := center_distinguished p.method.alreadyCentered hW
  obtain ⟨V, hV⟩ : ∃ V, V = centerWeights p.method.alreadyCentered W := ⟨_, rfl⟩
  rw [← hV] at hD
  obtain ⟨c, hc0, hc⟩ := divide_const (d := d) hD p.divMu
  have hlen : ∀ s (zs : List (Vec ℝ d)), zs.length = n → (population p s zs).length = size p n := by
    intro s zs hz
    unfold population size
    split
    · rw [pairs_length, hz]
    · rw [List.length_map, hz]
  have hw : ∀ (f : Vec ℝ d → ℝ) s zs, zs.length = n → ∃ w, w = centerWeights p.method.alreadyCentered (rank sort p.method (decide (p.sense = .max)) ((population p s zs).map f)) ∧ w.Perm V ∧
      Utilities (decide (p.sense = .max)) ((population p s zs).map f) w ∧ w.sum = 0 := by
    intro f s zs hz
    obtain ⟨h1, h2⟩ := centered_utilities hs p.method (decide (p.sense = .max)) ((population p s zs).map f) (rankable_of (by rcases hm with h | h | h <;> simp [h]) (by rw [List.length_map, hlen s zs hz]; exact hn))
    refine ⟨_, rfl, ?_, h1, h2⟩
    rw [hV]
    exact center_pool _ (hp _ _ (by rw [List.length_map, hlen s zs hz]))
  cases hsym : p.symmetric with
  | false =>
    refine ⟨c, V, hc0, hD, fun zs hz f s => ?_⟩
    obtain ⟨w, hwe, hwp, hwu, hw0⟩ := hw f s zs hz
    have hpop : population p s zs = sample zs s := by rw [sample_eq, population, hsym]; rfl
    refine ⟨_, w, by simp only [pgpeGradients, hsym]; rfl, hwp, hwu, hw0, fun j => ?_⟩
    simp only [plainGradients, utilities, ← hpop, ← hwe, hc w hwp]
  | true =>
    refine ⟨c * (1 / 2), V, by positivity, hD, fun zs hz f s => ?_⟩
    obtain ⟨w, hwe, hwp, hwu, hw0⟩ := hw f s zs hz
    have hpop : population p s zs = zs.flatMap fun z => [fun j => s.1 j + s.2 j * z j, fun j => s.1 j - s.2 j * z j] := by rw [population, hsym]; rfl
    refine ⟨_, w, by simp only [pgpeGradients, hsym, if_true, symmetric_eq, ← hpop]; rfl, hwp, hwu, hw0, fun j => ?_⟩
    have := mirrored_sum w zs s (by rw [hwu.length, List.length_map, hpop, pairs_length]) j
    rw [← hpop] at this
    simp only [symmetricGradients, utilities, ← hwe, hc w hwp, this]
    ring

theorem pgpe_drawn (p : Pgpe) : Drawn (d := d) (population p) := by
  intro s z zs
  cases hsym : p.symmetric with
  | false =>
    refine ⟨zs.map fun z => fun j => s.1 j + s.2 j * z j, by simp [population, hsym], fun x hx => .inl ?_⟩
    obtain ⟨r, hr, rfl⟩ := List.mem_map.mp hx
    exact ⟨r, hr, rfl⟩
  | true =>
    refine ⟨(fun j => s.1 j - s.2 j * z j) :: zs.flatMap fun z => [fun j => s.1 j + s.2 j * z j, fun j => s.1 j - s.2 j * z j], by simp [population, hsym], fun x hx => ?_⟩
    have e : ∀ r : Vec ℝ d, (fun j => s.1 j - s.2 j * r j) = fun j => s.1 j + s.2 j * -r j := fun r => by funext j; ring
    simp only [e, List.mem_cons, List.mem_flatMap, List.not_mem_nil, or_false] at hx
    rcases hx with rfl | ⟨r, hr, rfl | rfl⟩
    · exact .inr ⟨z, by simp, rfl⟩
    · exact .inl ⟨r, hr, rfl⟩
    · exact .inr ⟨r, by simp [hr], rfl⟩

theorem snes_form {sort : Sorter ℝ} (hs : SorterSpec sort) {m : Method} (hm : m = .nes ∨ m = .centered) (sense : Sense) (hn : 2 ≤ n) :
    ∃ κ V, 0 < κ ∧ Distinguished V ∧ Form (d := d) sense (snesGradients sort m sense) (fun s zs => sample zs s) n κ V := by
  have hbo : ByOrder m := by rcases hm with h | h <;> simp [ByOrder, h]
  obtain ⟨W, hW, hWl, hp⟩ := rank_pool hs hbo hn
  have hw : ∀ (f : Vec ℝ d → ℝ) s zs, zs.length = n → ∃ w, w = rank sort m (decide (sense = .max)) ((sample zs s).map f) ∧ w.Perm W ∧ Utilities (decide (sense = .max)) ((sample zs s).map f) w ∧ w.sum = 0 := by
    intro f s zs hz
    have hl : ((sample zs s).map f).length = n := by rw [sample_eq]; simpa using hz
    obtain ⟨h1, h2⟩ := rank_utilities hs m (decide (sense = .max)) ((sample zs s).map f) (rankable_of (by tauto) (by rw [hl]; exact hn))
    exact ⟨_, rfl, hp _ _ hl, h1, h2 (by tauto)⟩
  by_cases hnes : m = .nes
  · refine ⟨1, W, one_pos, hW, fun zs hz f s => ?_⟩
    obtain ⟨w, hwe, hwp, hwu, hw0⟩ := hw f s zs hz
    refine ⟨_, w, rfl, hwp, hwu, hw0, fun j => ?_⟩
    simp only [expGradients, utilities, hnes, decide_true, if_true, one_mul]
    subst hnes
    rw [hwe]
  · refine ⟨(W.map absK).sum⁻¹, W, inv_pos.mpr (lt_of_le_of_ne (abs_nonneg W) (abs_sum_ne hW).symm), hW, fun zs hz f s => ?_⟩
    obtain ⟨w, hwe, hwp, hwu, hw0⟩ := hw f s zs hz
    refine ⟨_, w, rfl, hwp, hwu, hw0, fun j => ?_⟩
    have e : ∀ (w : List ℝ) (rows : List (Vec ℝ d)) (S : ℝ), weightedSum (w.map fun x => x / S) rows j = S⁻¹ * weightedSum w rows j := by
      intro w rows S
      unfold weightedSum
      induction rows generalizing w with
      | nil => simp
      | cons r rows ih =>
        cases w with
        | nil => simp
        | cons a w =>
          simp only [List.map_cons, List.zipWith_cons_cons, List.sum_cons, ih]
          ring
    simp only [expGradients, utilities, ← hwe, hnes, decide_false, Bool.false_eq_true, if_false, e, (hwp.map absK).sum_eq]

theorem snes_drawn : Drawn (d := d) fun s zs => sample zs s := by
  intro s z zs
  refine ⟨zs.map fun z => fun j => s.1 j + s.2 j * z j, by simp [sample_eq], fun x hx => .inl ?_⟩
  obtain ⟨r, hr, rfl⟩ := List.mem_map.mp hx
  exact ⟨r, hr, rfl⟩

theorem weighted_bound (w : List ℝ) (rows : List (Vec ℝ d)) (j : Fin d) {B : ℝ} (hB : 0 ≤ B) (h : ∀ r ∈ rows, |r j| ≤ B) : |weightedSum w rows j| ≤ (w.map fun x => |x|).sum * B := by
  unfold weightedSum
  induction rows generalizing w with
  | nil =>
    have : 0 ≤ (w.map fun x => |x|).sum := List.sum_nonneg fun x hx => by
      obtain ⟨y, -, rfl⟩ := List.mem_map.mp hx
      exact _root_.abs_nonneg y
    simpa using mul_nonneg this hB
  | cons r rows ih =>
    cases w with
    | nil => simp
    | cons a w =>
      simp only [List.zipWith_cons_cons, List.map_cons, List.sum_cons]
      refine (abs_add_le _ _).trans ?_
      rw [add_mul, abs_mul]
      exact add_le_add (mul_le_mul_of_nonneg_left (h r (by simp)) (_root_.abs_nonneg a)) (ih w fun r hr => h r (by simp [hr]))

/-- What such draws do to the gradient: it points uphill, by an amount and with a length that only depend on the standard deviations. -/
theorem leap_gradient {sense : Sense} {grads : (Vec ℝ d → ℝ) → Vec ℝ d × Vec ℝ d → List (Vec ℝ d) → Except PyErr (Grads ℝ d)} {pop : Vec ℝ d × Vec ℝ d → List (Vec ℝ d) → List (Vec ℝ d)} {κ : ℝ} {V : List ℝ}
    (hκ : 0 < κ) (hV : Distinguished V) (hform : Form sense grads pop n κ V) (hdr : Drawn pop) (hn : 0 < n) :
    ∃ δ, 0 < δ ∧ ∀ (f : Vec ℝ d → ℝ) (a : Vec ℝ d) (b : ℝ), (∀ x, f x = b + ∑ j, a j * x j) → ∀ z : Fin n → Fin d → ℝ, Leaps (uphill a sense) z → ∀ s : Vec ℝ d × Vec ℝ d, (∀ j, 0 ≤ s.2 j) → 0 < ∑ j, |a j| * s.2 j →
      ∃ g, grads f s (List.ofFn z) = .ok g ∧ κ * δ * ∑ j, |a j| * s.2 j ≤ gain a sense g.mu ∧ ∀ j, |g.mu j| ≤ κ * (V.map fun x => |x|).sum * 3 * s.2 j := by
  have hVs : V.sum = 0 := by
    obtain ⟨g, w, -, hp, -, h0, -⟩ := hform (List.replicate n fun _ => 0) (by simp) (fun _ => 0) (fun _ => 0, fun _ => 0)
    rw [← hp.sum_eq, h0]
  obtain ⟨δ, hδ, htop⟩ := top_positive hV hVs
  refine ⟨δ, hδ, fun f a b hf z hz s hs hpos => ?_⟩
  obtain ⟨m, rfl⟩ : ∃ m, n = m + 1 := ⟨n - 1, by omega⟩
  obtain ⟨g, w, hg, hp, hu, h0, he⟩ := hform (List.ofFn z) (by simp) f s
  obtain ⟨rest, hrest, hmem⟩ := hdr s (z 0) (List.ofFn fun i : Fin m => z i.succ)
  rw [List.ofFn_succ] at hu he
  rw [hrest] at hu he
  have hz0 : ∀ j, 2 < dir (uphill a sense j) * z 0 j ∧ dir (uphill a sense j) * z 0 j < 3 := fun j => by simpa using hz 0 j
  have hzk : ∀ (i : Fin m) j, |z i.succ j| < 1 := fun i j => by simpa using hz i.succ j
  have hz0' : ∀ j, |z 0 j| ≤ 3 := fun j => by
    rw [← dir_abs (uphill a sense j), abs_of_pos (by linarith [(hz0 j).1])]
    exact (hz0 j).2.le
  have hsub : ∀ r : Vec ℝ d, (fun j => (s.1 j + s.2 j * r j) - s.1 j) = fun j => s.2 j * r j := fun r => by funext j; ring
  have hcases : ∀ x ∈ rest, ∃ r : Vec ℝ d, (fun j => x j - s.1 j) = (fun j => s.2 j * r j) ∧ (∀ j, dir (uphill a sense j) * r j ≤ 1) ∧ ∀ j, |r j| ≤ 3 := by
    intro x hx
    rcases hmem x hx with ⟨r, hr, rfl⟩ | ⟨r, hr, rfl⟩
    · obtain ⟨i, rfl⟩ := (List.mem_ofFn' _ _).mp hr
      refine ⟨_, hsub _, fun j => ?_, fun j => (hzk i j).le.trans (by norm_num)⟩
      exact (le_abs_self _).trans (by rw [dir_abs]; exact (hzk i j).le)
    · refine ⟨fun j => -r j, hsub _, fun j => ?_, fun j => ?_⟩
      · rcases List.mem_cons.mp hr with rfl | hr
        · linarith [(hz0 j).1]
        · obtain ⟨i, rfl⟩ := (List.mem_ofFn' _ _).mp hr
          exact (le_abs_self _).trans (by rw [dir_abs, abs_neg]; exact (hzk i j).le)
      · rw [abs_neg]
        rcases List.mem_cons.mp hr with rfl | hr
        · exact hz0' j
        · obtain ⟨i, rfl⟩ := (List.mem_ofFn' _ _).mp hr
          exact (hzk i j).le.trans (by norm_num)
  refine ⟨g, hg, ?_, fun j => ?_⟩
  · have hk := first_ahead hf sense s.1 _ rest w hu h0 (D := ∑ j, |a j| * s.2 j) hpos (fun u hu => htop w hp u hu) fun y hy => by
      obtain ⟨r, e, h1, -⟩ := hcases y hy
      rw [e, hsub]
      have := gain_near a sense hs h1
      have := gain_far a sense hs fun j => (hz0 j).1
      linarith
    have e : g.mu = fun j => κ * weightedSum w (((fun j => s.1 j + s.2 j * z 0 j) :: rest).map fun x => fun j => x j - s.1 j) j := funext he
    rw [e, gain_smul]
    have := mul_le_mul_of_nonneg_left hk hκ.le
    linarith
  · rw [he j, abs_mul, abs_of_pos hκ]
    have := weighted_bound w (((fun j => s.1 j + s.2 j * z 0 j) :: rest).map fun x => fun j => x j - s.1 j) j (B := 3 * s.2 j) (mul_nonneg (by norm_num) (hs j)) fun r hr => by
      rw [List.map_cons, hsub] at hr
      have hall : ∃ q : Vec ℝ d, r = (fun j => s.2 j * q j) ∧ |q j| ≤ 3 := by
        rcases List.mem_cons.mp hr with rfl | hr
        · exact ⟨_, rfl, hz0' j⟩
        · obtain ⟨x, hx, rfl⟩ := List.mem_map.mp hr
          obtain ⟨q, e, -, h3⟩ := hcases x hx
          exact ⟨q, e, h3 j⟩
      obtain ⟨q, rfl, hq⟩ := hall
      rw [abs_mul, abs_of_nonneg (hs j), mul_comm]
      exact mul_le_mul_of_nonneg_right hq (hs j)
    rw [(hp.map fun x => |x|).sum_eq] at this
    have := mul_le_mul_of_nonneg_left this hκ.le
    linarith

/-! ### Runs -/

open Classical in
/-- A run in which no generation makes the center worse, and some make it better by at least `ε`. -/
theorem run_up {ω ζ : Type} {ascent : ω → (Fin d → ℝ) → ω × NVec d} {spread : Vec ℝ d → Vec ℝ d → Vec ℝ d} {grads : Vec ℝ d × Vec ℝ d → ζ → Except PyErr (Grads ℝ d)} {f : Vec ℝ d → ℝ} {a : Vec ℝ d} {b : ℝ}
    (hf : ∀ x, f x = b + ∑ j, a j * x j) (sense : Sense) {Inv : Vec ℝ d → ω → Prop} {E : ℕ → Prop} {ε : ℝ} (zs : ℕ → ζ)
    (step : ∀ t mu sigma o, Inv sigma o → ∃ g v, grads (mu, sigma) (zs t) = .ok g ∧ (ascent o g.mu).2 = some v ∧ Inv (spread sigma g.sigma) (ascent o g.mu).1 ∧ 0 ≤ gain a sense v ∧ (E t → ε ≤ gain a sense v))
    (mu sigma : Vec ℝ d) (o : ω) (h : Inv sigma o) (T : ℕ) :
    ∃ s m, optRun ascent spread grads ⟨some mu, sigma, o⟩ ((List.range T).map zs) = .ok s ∧ s.mu = some m ∧ Inv s.sigma s.opt ∧ sgn sense * f mu + ε * Nat.count E T ≤ sgn sense * f m := by
  induction T with
  | zero => exact ⟨_, mu, rfl, rfl, h, by simp⟩
  | succ T ih =>
    obtain ⟨s, m, e, hm, hi, hb⟩ := ih
    obtain ⟨g, v, hg, hv, hi', h0, hE⟩ := step T m s.sigma s.opt hi
    have hmove : sgn sense * f (fun j => m j + v j) = sgn sense * f m + gain a sense v := by
      have := gain_sub hf sense (fun j => m j + v j) m
      simp only [add_sub_cancel_left] at this
      linarith
    refine ⟨⟨some fun j => m j + v j, spread s.sigma g.sigma, (ascent s.opt g.mu).1⟩, _, ?_, rfl, hi', ?_⟩
    · rw [List.range_succ, List.map_append, optRun_append, e]
      change optRun ascent spread grads s [zs T] = _
      simp only [optRun, optGen, hm, hg]
      simp only [Except.bind, hv, Optimizers.addVec]
    · rw [hmove, Nat.count_succ]
      split
      · next ht =>
        have := hE ht
        push_cast
        linarith
      · push_cast
        linarith

/-- If such generations recur, the fitness of the center passes every bound. -/
theorem run_unbounded {ω ζ : Type} {ascent : ω → (Fin d → ℝ) → ω × NVec d} {spread : Vec ℝ d → Vec ℝ d → Vec ℝ d} {grads : Vec ℝ d × Vec ℝ d → ζ → Except PyErr (Grads ℝ d)} {f : Vec ℝ d → ℝ} {a : Vec ℝ d} {b : ℝ}
    (hf : ∀ x, f x = b + ∑ j, a j * x j) (sense : Sense) {Inv : Vec ℝ d → ω → Prop} {E : ℕ → Prop} (hE : ∃ᶠ t in atTop, E t) {ε : ℝ} (hε : 0 < ε) (zs : ℕ → ζ)
    (step : ∀ t mu sigma o, Inv sigma o → ∃ g v, grads (mu, sigma) (zs t) = .ok g ∧ (ascent o g.mu).2 = some v ∧ Inv (spread sigma g.sigma) (ascent o g.mu).1 ∧ 0 ≤ gain a sense v ∧ (E t → ε ≤ gain a sense v))
    (mu sigma : Vec ℝ d) (o : ω) (h : Inv sigma o) (bound : ℝ) :
    ∃ T0, ∀ T, T0 ≤ T → ∃ s m, optRun ascent spread grads ⟨some mu, sigma, o⟩ ((List.range T).map zs) = .ok s ∧ s.mu = some m ∧ StrictlyBetter sense (f m) bound := by
  classical
  obtain ⟨K, hK⟩ := exists_nat_gt ((sgn sense * bound - sgn sense * f mu) / ε)
  have hinf := Nat.frequently_atTop_iff_infinite.mp hE
  refine ⟨Nat.nth E K, fun T hT => ?_⟩
  obtain ⟨s, m, e, hm, -, hb⟩ := run_up hf sense zs step mu sigma o h T
  refine ⟨s, m, e, hm, (better_sgn sense _ _).mpr ?_⟩
  have hc : (K : ℝ) ≤ Nat.count E T := by
    have := Nat.count_monotone E hT
    rw [Nat.count_nth_of_infinite hinf] at this
    exact_mod_cast this
  have h1 := mul_le_mul_of_nonneg_left hc hε.le
  have h2 := (div_lt_iff₀ hε).mp hK
  linarith

/-- The standard deviations stay above their lower limit. -/
theorem limit_lower {lo : ℝ} {hi change : Option ℝ} (hhi : ∀ h, hi = some h → lo ≤ h) (hch : ∀ c, change = some c → 0 ≤ c) (spread : Vec ℝ d → Vec ℝ d → Vec ℝ d) (sigma g : Vec ℝ d) (h : ∀ j, lo ≤ sigma j) (j : Fin d) :
    lo ≤ limitSpread (some lo) hi change spread sigma g j := by
  have h1 : ∀ c, change = some c → lo ≤ sigma j + |sigma j| * c := fun c hc => le_trans (h j) (by linarith [mul_nonneg (_root_.abs_nonneg (sigma j)) (hch c hc)])
  have h0 : ∀ t : ℝ, lo ≤ max t lo := fun t => le_max_right _ _
  unfold limitSpread
  cases hi <;> cases change <;> simp only [le_min_iff]
  · exact h0 _
  · exact ⟨le_trans (h0 _) (le_max_left _ _), h1 _ rfl⟩
  · exact ⟨h0 _, hhi _ rfl⟩
  · exact ⟨⟨le_trans (h0 _) (le_max_left _ _), hhi _ rfl⟩, h1 _ rfl⟩

theorem coef_ne {f : Vec ℝ d → ℝ} {a : Vec ℝ d} {b : ℝ} (hf : ∀ x, f x = b + ∑ j, a j * x j) (hne : ∃ x y, f x ≠ f y) : ∃ j, a j ≠ 0 := by
  by_contra hcon
  push Not at hcon
  obtain ⟨x, y, h⟩ := hne
  exact h (by rw [hf, hf]; simp [hcon])

theorem form_forward {sense : Sense} {grads : (Vec ℝ d → ℝ) → Vec ℝ d × Vec ℝ d → List (Vec ℝ d) → Except PyErr (Grads ℝ d)} {pop : Vec ℝ d × Vec ℝ d → List (Vec ℝ d) → List (Vec ℝ d)} {κ : ℝ} {V : List ℝ} (hκ : 0 < κ)
    (hform : Form sense grads pop n κ V) {f : Vec ℝ d → ℝ} {a : Vec ℝ d} {b : ℝ} (hf : ∀ x, f x = b + ∑ j, a j * x j) (z : Fin n → Fin d → ℝ) (s : Vec ℝ d × Vec ℝ d) : ∃ g, grads f s (List.ofFn z) = .ok g ∧ 0 ≤ gain a sense g.mu := by
  obtain ⟨g, w, hg, -, hu, h0, he⟩ := hform (List.ofFn z) (by simp) f s
  refine ⟨g, hg, ?_⟩
  have e : g.mu = fun j => κ * weightedSum w ((pop s (List.ofFn z)).map fun x => fun j => x j - s.1 j) j := funext he
  rw [e, gain_smul]
  exact mul_nonneg hκ.le (weighted_forward hf sense s.1 _ w hu h0)

/-- What the gradients do on a linear function: they never point downhill; and when the draws leap, they point uphill by at least `c` times, and are at most `K` times as long as, what the standard deviations allow. `arr` arranges the draws. -/
structure Pushing {ζ : Type} (sense : Sense) (grads : (Vec ℝ d → ℝ) → Vec ℝ d × Vec ℝ d → ζ → Except PyErr (Grads ℝ d)) (arr : (Fin n → Fin d → ℝ) → ζ) (c K : ℝ) : Prop where
  forward : ∀ (f : Vec ℝ d → ℝ) (a : Vec ℝ d) (b : ℝ), (∀ x, f x = b + ∑ j, a j * x j) → ∀ z s, ∃ g, grads f s (arr z) = .ok g ∧ 0 ≤ gain a sense g.mu
  leap : ∀ (f : Vec ℝ d → ℝ) (a : Vec ℝ d) (b : ℝ), (∀ x, f x = b + ∑ j, a j * x j) → ∀ z, Leaps (uphill a sense) z → ∀ s : Vec ℝ d × Vec ℝ d, (∀ j, 0 ≤ s.2 j) → 0 < ∑ j, |a j| * s.2 j →
    ∃ g, grads f s (arr z) = .ok g ∧ c * ∑ j, |a j| * s.2 j ≤ gain a sense g.mu ∧ ∀ j, |g.mu j| ≤ K * s.2 j

theorem abs_sum_pos {V : List ℝ} (hV : Distinguished V) : 0 < (V.map fun x => |x|).sum := by
  obtain ⟨x, hx, hx0⟩ := hV.ne 0
  refine lt_of_lt_of_le (_root_.abs_pos.mpr hx0) (List.single_le_sum (fun y hy => ?_) _ (List.mem_map.mpr ⟨x, hx, rfl⟩))
  obtain ⟨u, -, rfl⟩ := List.mem_map.mp hy
  exact _root_.abs_nonneg u

theorem pushing_of_form {sense : Sense} {grads : (Vec ℝ d → ℝ) → Vec ℝ d × Vec ℝ d → List (Vec ℝ d) → Except PyErr (Grads ℝ d)} {pop : Vec ℝ d × Vec ℝ d → List (Vec ℝ d) → List (Vec ℝ d)} {κ : ℝ} {V : List ℝ}
    (hκ : 0 < κ) (hV : Distinguished V) (hform : Form sense grads pop n κ V) (hdr : Drawn pop) (hn : 0 < n) : ∃ c K, 0 < c ∧ 0 < K ∧ Pushing (n := n) sense grads List.ofFn c K := by
  obtain ⟨δ, hδ, hleap⟩ := leap_gradient hκ hV hform hdr hn
  have hS := abs_sum_pos hV
  exact ⟨κ * δ, κ * (V.map fun x => |x|).sum * 3, by positivity, by positivity, fun f a b hf z s => form_forward hκ hform hf z s, hleap⟩

/-- With a plain learning rate and a lower limit on the standard deviations. -/
theorem plain_unbounded {ζ : Type} {sense : Sense} {grads : (Vec ℝ d → ℝ) → Vec ℝ d × Vec ℝ d → ζ → Except PyErr (Grads ℝ d)} {arr : (Fin n → Fin d → ℝ) → ζ} {p K : ℝ} (hp : 0 < p) (hpush : Pushing sense grads arr p K)
    {lr : ℝ} (hlr : 0 < lr) (spread : Vec ℝ d → Vec ℝ d → Vec ℝ d) {lo : ℝ} (hlo : 0 < lo) {hi change : Option ℝ} (hhi : ∀ h, hi = some h → lo ≤ h) (hch : ∀ c, change = some c → 0 ≤ c) :
    ∀ᵐ z ∂allDraws n d, ∀ f : Vec ℝ d → ℝ, Linear f → (∃ x y, f x ≠ f y) → ∀ mu sigma : Vec ℝ d, (∀ j, lo ≤ sigma j) → ∀ bound, ∃ T0, ∀ T, T0 ≤ T →
      ∃ s m, optRun (plainAscent lr) (limitSpread (some lo) hi change spread) (grads f) ⟨some mu, sigma, ()⟩ ((List.range T).map fun t => arr (z t)) = .ok s ∧ s.mu = some m ∧ StrictlyBetter sense (f m) bound := by
  filter_upwards [ae_all_iff.mpr fun e : Fin d → Bool => leaps_recur (n := n) e] with z hz f hf hne mu sigma hsig bound
  obtain ⟨a, b, hf⟩ := hf
  obtain ⟨j0, hj0⟩ := coef_ne hf hne
  refine run_unbounded (ζ := ζ) (spread := limitSpread (some lo) hi change spread) (ascent := plainAscent lr) hf sense (Inv := fun sigma _ => ∀ j, lo ≤ sigma j) (hz (uphill a sense))
    (ε := lr * (p * (|a j0| * lo))) (by have := _root_.abs_pos.mpr hj0; positivity) (fun t => arr (z t)) (fun t mu sigma o hi' => ?_) mu sigma () hsig bound
  obtain ⟨g, hg, h0⟩ := hpush.forward f a b hf (z t) (mu, sigma)
  refine ⟨g, fun j => lr * g.mu j, hg, rfl, limit_lower hhi hch spread sigma g.sigma hi', ?_, fun hE => ?_⟩
  · rw [gain_smul]
    exact mul_nonneg hlr.le h0
  · have hnn : ∀ j, 0 ≤ sigma j := fun j => hlo.le.trans (hi' j)
    have hsum : |a j0| * lo ≤ ∑ j, |a j| * sigma j :=
      (mul_le_mul_of_nonneg_left (hi' j0) (_root_.abs_nonneg _)).trans (Finset.single_le_sum (f := fun j => |a j| * sigma j) (fun j _ => mul_nonneg (_root_.abs_nonneg _) (hnn j)) (Finset.mem_univ j0))
    have hpos : 0 < |a j0| * lo := mul_pos (_root_.abs_pos.mpr hj0) hlo
    obtain ⟨g', hg', h1, -⟩ := hpush.leap f a b hf (z t) hE (mu, sigma) hnn (lt_of_lt_of_le hpos hsum)
    rw [hg] at hg'
    injection hg' with hg'
    subst hg'
    rw [gain_smul]
    refine mul_le_mul_of_nonneg_left (le_trans ?_ h1) hlr.le
    exact mul_le_mul_of_nonneg_left hsum hp.le

/-! ### ClipUp -/

theorem norm_le_sum (x : Fin d → ℝ) : Optimizers.norm x ≤ ∑ j, |x j| := by
  refine Real.sqrt_le_iff.mpr ⟨Finset.sum_nonneg fun j _ => _root_.abs_nonneg _, ?_⟩
  have := Finset.sum_sq_le_sq_sum_of_nonneg (s := Finset.univ) (f := fun j => |x j|) fun j _ => _root_.abs_nonneg _
  simpa only [sq_abs] using this

theorem le_norm (x : Fin d → ℝ) (j : Fin d) : |x j| ≤ Optimizers.norm x := by
  rw [← Real.sqrt_sq_eq_abs]
  exact Real.sqrt_le_sqrt (Finset.single_le_sum (f := fun j => x j ^ 2) (fun j _ => sq_nonneg _) (Finset.mem_univ j))

/-- A ClipUp with the given settings, whose velocity does not point to worse places and is not too fast. -/
def Steady (a : Vec ℝ d) (sense : Sense) (stepsize momentum maxSpeed : ℝ) (c : ClipUp d) : Prop :=
  c.stepsize = stepsize ∧ c.momentum = momentum ∧ c.maxSpeed = maxSpeed ∧ ∃ v, c.velocity = some v ∧ 0 ≤ gain a sense v ∧ Optimizers.norm v ≤ maxSpeed

/-- A step of ClipUp with a gradient that is not zero: it is at least a fixed part of the gain along the direction of the gradient. -/
theorem steady_step (a : Vec ℝ d) (sense : Sense) {stepsize momentum maxSpeed : ℝ} (h1 : 0 < stepsize) (h2 : 0 ≤ momentum) (h3 : 0 < maxSpeed) {c : ClipUp d} (hc : Steady a sense stepsize momentum maxSpeed c) {g : Vec ℝ d} {j : Fin d} (hj : g j ≠ 0)
    (hg : 0 ≤ gain a sense g) : ∃ v, (c.ascent g).2 = some v ∧ Steady a sense stepsize momentum maxSpeed (c.ascent g).1 ∧ 0 ≤ gain a sense v ∧
      ∀ ρ, 0 ≤ ρ → ρ * Optimizers.norm g ≤ gain a sense g → min 1 (maxSpeed / (d * (momentum * maxSpeed + stepsize))) * (stepsize * ρ) ≤ gain a sense v := by
  obtain ⟨e1, e2, e3, w, hw, hw0, hwn⟩ := hc
  have hpos : 0 < Optimizers.norm g := lt_of_lt_of_le (_root_.abs_pos.mpr hj) (le_norm g j)
  have hsome : Optimizers.normalize g = some fun j => g j / Optimizers.norm g := by rw [Optimizers.normalize, if_neg hpos.ne']
  obtain ⟨x, hx⟩ : ∃ x : Vec ℝ d, x = fun j => momentum * w j + g j / Optimizers.norm g * stepsize := ⟨_, rfl⟩
  have hv : (c.ascent g).2 = Optimizers.clip (some x) maxSpeed := by
    simp only [ClipUp.ascent, hsome, hw, Option.map_some, Optimizers.addScaled, e1, e2, e3, hx]
  have hgx : gain a sense x = momentum * gain a sense w + stepsize / Optimizers.norm g * gain a sense g := by
    rw [hx, ← gain_add]
    congr 2
    funext j
    ring
  have hgx0 : 0 ≤ gain a sense x := by
    rw [hgx]
    exact add_nonneg (mul_nonneg h2 hw0) (mul_nonneg (div_nonneg h1.le hpos.le) hg)
  have hB : Optimizers.norm x ≤ d * (momentum * maxSpeed + stepsize) := by
    refine (norm_le_sum x).trans ?_
    have : ∀ j ∈ Finset.univ, |x j| ≤ momentum * maxSpeed + stepsize := by
      intro j _
      rw [hx]
      refine (abs_add_le _ _).trans (add_le_add ?_ ?_)
      · rw [abs_mul, abs_of_nonneg h2]
        exact mul_le_mul_of_nonneg_left ((le_norm w j).trans hwn) h2
      · rw [abs_mul, abs_div, abs_of_pos hpos, abs_of_pos h1]
        exact mul_le_of_le_one_left h1.le ((div_le_one hpos).mpr (le_norm g j))
    have h := Finset.sum_le_sum this
    rwa [Finset.sum_const, Finset.card_univ, Fintype.card_fin, nsmul_eq_mul] at h
  obtain ⟨v, hcv, hvn⟩ := Optimizers.clip_norm (x := x) h3.le
  have hr : min 1 (maxSpeed / (d * (momentum * maxSpeed + stepsize))) * gain a sense x ≤ gain a sense v := by
    unfold Optimizers.clip at hcv
    dsimp only at hcv
    split at hcv
    · next hlt =>
      injection hcv with hcv
      have hxp : 0 < Optimizers.norm x := h3.trans hlt
      have e : v = fun j => maxSpeed / Optimizers.norm x * x j := by
        rw [← hcv]
        funext j
        ring
      rw [e, gain_smul]
      refine mul_le_mul_of_nonneg_right ((min_le_right _ _).trans ?_) hgx0
      exact div_le_div_of_nonneg_left h3.le hxp hB
    · injection hcv with hcv
      rw [← hcv]
      exact mul_le_of_le_one_left hgx0 (min_le_left _ _)
  have hm : 0 ≤ min 1 (maxSpeed / (d * (momentum * maxSpeed + stepsize))) := le_min zero_le_one (by positivity)
  have hv0 : 0 ≤ gain a sense v := (mul_nonneg hm hgx0).trans hr
  refine ⟨v, hv.trans hcv, ⟨e1, e2, e3, v, hv.trans hcv, hv0, hvn⟩, hv0, fun ρ hρ hge => le_trans (mul_le_mul_of_nonneg_left ?_ hm) hr⟩
  rw [hgx]
  have : stepsize / Optimizers.norm g * (ρ * Optimizers.norm g) ≤ stepsize / Optimizers.norm g * gain a sense g := mul_le_mul_of_nonneg_left hge (div_nonneg h1.le hpos.le)
  have e : stepsize / Optimizers.norm g * (ρ * Optimizers.norm g) = stepsize * ρ := by field_simp
  rw [e] at this
  linarith [mul_nonneg h2 hw0]

/-- Changing any one of the variables can change the fitness. -/
def EveryVariable (f : Vec ℝ d → ℝ) : Prop := ∀ j, ∃ x y : Vec ℝ d, (∀ k, k ≠ j → x k = y k) ∧ f x ≠ f y

theorem every_coef {f : Vec ℝ d → ℝ} {a : Vec ℝ d} {b : ℝ} (hf : ∀ x, f x = b + ∑ j, a j * x j) (h : EveryVariable f) (j : Fin d) : a j ≠ 0 := by
  intro h0
  obtain ⟨x, y, hxy, hne⟩ := h j
  refine hne ?_
  rw [hf, hf]
  congr 1
  refine Finset.sum_congr rfl fun k _ => ?_
  by_cases hk : k = j
  · rw [hk, h0]; ring
  · rw [hxy k hk]

/-- With ClipUp, if the fitness depends on every variable: no limits on the standard deviations are needed other than that they stay positive. -/
theorem clipup_unbounded {ζ : Type} {sense : Sense} {grads : (Vec ℝ d → ℝ) → Vec ℝ d × Vec ℝ d → ζ → Except PyErr (Grads ℝ d)} {arr : (Fin n → Fin d → ℝ) → ζ} {p K : ℝ} (hp : 0 < p) (hK : 0 < K) (hpush : Pushing sense grads arr p K) (hd : 0 < d)
    (hne : ∀ᵐ z ∂draws n d, ∀ (f : Vec ℝ d → ℝ) (s : Vec ℝ d × Vec ℝ d), ∃ g, grads f s (arr z) = .ok g ∧ ∀ j, s.2 j ≠ 0 → g.mu j ≠ 0)
    {spread : Vec ℝ d → Vec ℝ d → Vec ℝ d} (hsp : ∀ sigma g, (∀ j, 0 < sigma j) → ∀ j, 0 < spread sigma g j)
    {stepsize momentum : ℝ} {maxSpeed : Option ℝ} (h1 : 0 < stepsize) (h3 : ∀ m, maxSpeed = some m → 0 < m) {c : ClipUp d} (hc : ClipUp.create d stepsize momentum maxSpeed = .ok c) :
    ∀ᵐ z ∂allDraws n d, ∀ f : Vec ℝ d → ℝ, Linear f → EveryVariable f → ∀ mu sigma : Vec ℝ d, (∀ j, 0 < sigma j) → ∀ bound, ∃ T0, ∀ T, T0 ≤ T →
      ∃ s m, optRun ClipUp.ascent spread (grads f) ⟨some mu, sigma, c⟩ ((List.range T).map fun t => arr (z t)) = .ok s ∧ s.mu = some m ∧ StrictlyBetter sense (f m) bound := by
  filter_upwards [ae_all_iff.mpr fun e : Fin d → Bool => leaps_recur (n := n) e, always hne] with z hz hzne f hf hev mu sigma hsig bound
  obtain ⟨a, b, hf⟩ := hf
  have ha := every_coef hf hev
  have hmax : 0 < maxSpeed.getD (stepsize * 2) := by
    cases maxSpeed with
    | none => simpa using h1
    | some m => exact h3 m rfl
  have hmom : 0 ≤ momentum := by
    simp only [ClipUp.create] at hc
    split_ifs at hc with q1 q2 q3
    push Not at q2
    exact q2.1
  have hst : Steady a sense stepsize momentum (maxSpeed.getD (stepsize * 2)) c := by
    simp only [ClipUp.create] at hc
    split_ifs at hc with q1 q2 q3
    injection hc with hc
    subst hc
    refine ⟨rfl, rfl, rfl, _, rfl, by rw [gain_zero], ?_⟩
    simpa [Optimizers.norm] using hmax.le
  obtain ⟨M, hM, hMa⟩ : ∃ M, 0 < M ∧ ∀ j, M ≤ |a j| := by
    have : Nonempty (Fin d) := ⟨⟨0, hd⟩⟩
    obtain ⟨j, hj⟩ := Finite.exists_min fun j => |a j|
    exact ⟨_, _root_.abs_pos.mpr (ha j), hj⟩
  have hdr' : (0 : ℝ) < d := by exact_mod_cast hd
  have hspeed : 0 < maxSpeed.getD (stepsize * 2) / (d * (momentum * maxSpeed.getD (stepsize * 2) + stepsize)) := by positivity
  refine run_unbounded (ζ := ζ) (spread := spread) (ascent := ClipUp.ascent) hf sense (Inv := fun sigma c => (∀ j, 0 < sigma j) ∧ Steady a sense stepsize momentum (maxSpeed.getD (stepsize * 2)) c) (hz (uphill a sense))
    (ε := min 1 (maxSpeed.getD (stepsize * 2) / (d * (momentum * maxSpeed.getD (stepsize * 2) + stepsize))) * (stepsize * (p * M / K))) (mul_pos (lt_min one_pos hspeed) (by positivity)) (fun t => arr (z t)) (fun t mu sigma o hi' => ?_) mu sigma c ⟨hsig, hst⟩ bound
  obtain ⟨g, hg, h0⟩ := hpush.forward f a b hf (z t) (mu, sigma)
  have hgj : g.mu ⟨0, hd⟩ ≠ 0 := by
    obtain ⟨g', hg', hne'⟩ := hzne t f (mu, sigma)
    rw [hg] at hg'
    injection hg' with hg'
    subst hg'
    exact hne' _ (hi'.1 _).ne'
  obtain ⟨v, hv, hst', hv0, hvg⟩ := steady_step a sense h1 hmom hmax hi'.2 hgj h0
  refine ⟨g, v, hg, hv, ⟨hsp _ _ hi'.1, hst'⟩, hv0, fun hE => hvg _ (by positivity) ?_⟩
  have hsum : M * ∑ j, sigma j ≤ ∑ j, |a j| * sigma j := by
    rw [Finset.mul_sum]
    exact Finset.sum_le_sum fun j _ => mul_le_mul_of_nonneg_right (hMa j) (hi'.1 j).le
  have hspos : 0 < ∑ j, sigma j := Finset.sum_pos (fun j _ => hi'.1 j) ⟨⟨0, hd⟩, Finset.mem_univ _⟩
  obtain ⟨g', hg', q1, q2⟩ := hpush.leap f a b hf (z t) hE (mu, sigma) (fun j => (hi'.1 j).le) (lt_of_lt_of_le (mul_pos hM hspos) hsum)
  rw [hg] at hg'
  injection hg' with hg'
  subst hg'
  have hnorm : Optimizers.norm g.mu ≤ K * ∑ j, sigma j := by
    refine (norm_le_sum _).trans ?_
    rw [Finset.mul_sum]
    exact Finset.sum_le_sum fun j _ => q2 j
  calc p * M / K * Optimizers.norm g.mu ≤ p * M / K * (K * ∑ j, sigma j) := mul_le_mul_of_nonneg_left hnorm (by positivity)
    _ = p * (M * ∑ j, sigma j) := by field_simp
    _ ≤ p * ∑ j, |a j| * sigma j := mul_le_mul_of_nonneg_left hsum hp.le
    _ ≤ _ := q1

/-! ### The searches -/

/-- **C181 for PGPE with a plain learning rate.** Almost surely, whatever the linear fitness function that is not constant: with a ranking by order and a lower limit on the standard deviations, the fitness of the center gets, and stays, better than any bound. -/
theorem C181_pgpe {sort : Sorter ℝ} (hs : SorterSpec sort) {p : Pgpe} (hm : ByOrder p.method) (hn : 2 ≤ size p n) {lr : ℝ} (hlr : 0 < lr)
    {lo : ℝ} (hlo : 0 < lo) {hi change : Option ℝ} (hhi : ∀ h, hi = some h → lo ≤ h) (hch : ∀ c, change = some c → 0 ≤ c) :
    ∀ᵐ z ∂allDraws n d, ∀ f : Vec ℝ d → ℝ, Linear f → (∃ x y, f x ≠ f y) → ∀ mu sigma : Vec ℝ d, (∀ j, lo ≤ sigma j) → ∀ bound, ∃ T0, ∀ T, T0 ≤ T →
      ∃ s m, optRun (plainAscent lr) (limitSpread (some lo) hi change (addSpread p.lrSigma)) (pgpeGradients sort p f) ⟨some mu, sigma, ()⟩ (first T z) = .ok s ∧ s.mu = some m ∧ StrictlyBetter p.sense (f m) bound := by
  obtain ⟨κ, V, hκ, hV, hform⟩ := pgpe_form (n := n) (d := d) hs hm hn
  obtain ⟨c, K, hc, -, hpush⟩ := pushing_of_form hκ hV hform (pgpe_drawn p) (by unfold size at hn; split at hn <;> omega)
  exact plain_unbounded hc hpush hlr _ hlo hhi hch

/-- **C181 for PGPE with ClipUp**, the default optimiser, and without limits on the standard deviations other than `stdev_max_change`, the default. -/
theorem C181_pgpe_clipup {sort : Sorter ℝ} (hs : SorterSpec sort) {p : Pgpe} (hm : ByOrder p.method) (hn : 2 ≤ size p n) (hd : 0 < d) (lo : Option ℝ) {hi : Option ℝ} (hhi : ∀ h, hi = some h → 0 < h) {change : ℝ} (hc0 : 0 ≤ change) (hc1 : change < 1)
    {stepsize momentum : ℝ} {maxSpeed : Option ℝ} (h1 : 0 < stepsize) (h3 : ∀ m, maxSpeed = some m → 0 < m) {c : ClipUp d} (hc : ClipUp.create d stepsize momentum maxSpeed = .ok c) :
    ∀ᵐ z ∂allDraws n d, ∀ f : Vec ℝ d → ℝ, Linear f → EveryVariable f → ∀ mu sigma : Vec ℝ d, (∀ j, 0 < sigma j) → ∀ bound, ∃ T0, ∀ T, T0 ≤ T →
      ∃ s m, optRun ClipUp.ascent (limitSpread lo hi (some change) (addSpread p.lrSigma)) (pgpeGradients sort p f) ⟨some mu, sigma, c⟩ (first T z) = .ok s ∧ s.mu = some m ∧ StrictlyBetter p.sense (f m) bound := by
  obtain ⟨κ, V, hκ, hV, hform⟩ := pgpe_form (n := n) (d := d) hs hm hn
  obtain ⟨q, K, hq, hK, hpush⟩ := pushing_of_form hκ hV hform (pgpe_drawn p) (by unfold size at hn; split at hn <;> omega)
  exact clipup_unbounded hq hK hpush hd (pgpe_gradient hs hm hn) (NeverNan.limit_positive hhi hc0 hc1) h1 h3 hc

/-- **C181 for SNES with a plain learning rate**, with the rankings whose utilities sum to zero. -/
theorem C181_snes {sort : Sorter ℝ} (hs : SorterSpec sort) {m : Method} (hm : m = .nes ∨ m = .centered) (sense : Sense) (hn : 2 ≤ n) {lr : ℝ} (hlr : 0 < lr) (lrSigma : ℝ)
    {lo : ℝ} (hlo : 0 < lo) {hi change : Option ℝ} (hhi : ∀ h, hi = some h → lo ≤ h) (hch : ∀ c, change = some c → 0 ≤ c) :
    ∀ᵐ z ∂allDraws n d, ∀ f : Vec ℝ d → ℝ, Linear f → (∃ x y, f x ≠ f y) → ∀ mu sigma : Vec ℝ d, (∀ j, lo ≤ sigma j) → ∀ bound, ∃ T0, ∀ T, T0 ≤ T →
      ∃ s x, optRun (plainAscent lr) (limitSpread (some lo) hi change (ExpGaussian.snesUpdateSigma lrSigma)) (snesGradients sort m sense f) ⟨some mu, sigma, ()⟩ (first T z) = .ok s ∧ s.mu = some x ∧ StrictlyBetter sense (f x) bound := by
  obtain ⟨κ, V, hκ, hV, hform⟩ := snes_form (n := n) (d := d) hs hm sense hn
  obtain ⟨c, K, hc, -, hpush⟩ := pushing_of_form hκ hV hform snes_drawn (by omega)
  exact plain_unbounded hc hpush hlr _ hlo hhi hch

/-- **C181 for SNES with ClipUp**, without limits on the standard deviations. -/
theorem C181_snes_clipup {sort : Sorter ℝ} (hs : SorterSpec sort) {m : Method} (hm : m = .nes ∨ m = .centered) (sense : Sense) (hn : 2 ≤ n) (hd : 0 < d) (lrSigma : ℝ)
    {stepsize momentum : ℝ} {maxSpeed : Option ℝ} (h1 : 0 < stepsize) (h3 : ∀ m, maxSpeed = some m → 0 < m) {c : ClipUp d} (hc : ClipUp.create d stepsize momentum maxSpeed = .ok c) :
    ∀ᵐ z ∂allDraws n d, ∀ f : Vec ℝ d → ℝ, Linear f → EveryVariable f → ∀ mu sigma : Vec ℝ d, (∀ j, 0 < sigma j) → ∀ bound, ∃ T0, ∀ T, T0 ≤ T →
      ∃ s x, snesOptRun ClipUp.ascent sort m sense lrSigma f ⟨some mu, sigma, c⟩ (first T z) = .ok s ∧ s.mu = some x ∧ StrictlyBetter sense (f x) bound := by
  obtain ⟨κ, V, hκ, hV, hform⟩ := snes_form (n := n) (d := d) hs hm sense hn
  obtain ⟨q, K, hq, hK, hpush⟩ := pushing_of_form hκ hV hform snes_drawn (by omega)
  exact clipup_unbounded hq hK hpush hd (snes_gradient hs (by rcases hm with h | h <;> simp [ByOrder, h]) sense hn) (fun sigma g h j => mul_pos (h j) (Real.exp_pos _)) h1 h3 hc

/-! ### A concrete search -/

/-- The default PGPE minimises `x - 2 y` without bound. -/
example {c : ClipUp 2} (hc : ClipUp.create 2 0.1 0.9 none = .ok c) :
    ∀ᵐ z ∂allDraws 5 2, ∃ T0, ∀ T, T0 ≤ T → ∃ s m, optRun ClipUp.ascent (limitSpread none none (some 0.2) (addSpread 0.1)) (pgpeGradients exampleSorter NeverNan.defaults fun x => x 0 - 2 * x 1) ⟨some fun _ => 0, fun _ => 1, c⟩ (first T z) = .ok s ∧ s.mu = some m ∧ m 0 - 2 * m 1 < -1000000 := by
  filter_upwards [C181_pgpe_clipup (n := 5) (d := 2) exampleSorter_spec (p := NeverNan.defaults) (Or.inl rfl) (by decide) (by norm_num) none (hi := none) (fun h e => by cases e) (change := 0.2) (by norm_num) (by norm_num) (by norm_num) (fun m e => by cases e) hc] with z hz
  refine hz (fun x => x 0 - 2 * x 1) ⟨![1, -2], 0, fun x => by simp [Fin.sum_univ_two]; ring⟩ (fun j => ?_) (fun _ => 0) (fun _ => 1) (fun _ => one_pos) (-1000000)
  fin_cases j
  · exact ⟨![1, 0], ![0, 0], fun k hk => by fin_cases k <;> simp at hk ⊢, by norm_num⟩
  · exact ⟨![0, 1], ![0, 0], fun k hk => by fin_cases k <;> simp at hk ⊢, by norm_num⟩

example : ∃ c : ClipUp 2, ClipUp.create 2 0.1 0.9 none = .ok c := ⟨_, by norm_num [ClipUp.create]; rfl⟩

/-- PGPE with a plain learning rate, `stdev_min` and four solutions, on a function of the first variable only. -/
example : ∀ᵐ z ∂allDraws 4 3, ∃ T0, ∀ T, T0 ≤ T → ∃ s m, optRun (plainAscent 0.5) (limitSpread (some 0.01) none (some 0.2) (addSpread 0.1)) (pgpeGradients exampleSorter ⟨false, none, none, .linear, .max, 0.5, 0.1⟩ fun x => x 0) ⟨some fun _ => 0, fun _ => 1, ()⟩ (first T z) = .ok s ∧ s.mu = some m ∧ 1000000 < m 0 := by
  filter_upwards [C181_pgpe (n := 4) (d := 3) exampleSorter_spec (p := ⟨false, none, none, .linear, .max, 0.5, 0.1⟩) (Or.inr (Or.inl rfl)) (by decide) (lr := 0.5) (by norm_num) (lo := 0.01) (by norm_num) (hi := none) (change := some 0.2) (fun h e => by cases e) (fun c e => by cases e; norm_num)] with z hz
  exact hz (fun x => x 0) ⟨![1, 0, 0], 0, fun x => by simp [Fin.sum_univ_three]⟩ ⟨fun _ => 0, fun _ => 1, by norm_num⟩ (fun _ => 0) (fun _ => 1) (fun _ => by norm_num) 1000000

end EvoTorch.LinearProgress
