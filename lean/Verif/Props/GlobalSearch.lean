import Verif.Spec.GlobalSearch
import Mathlib.Topology.Algebra.Order.Field
import Mathlib.Analysis.SpecificLimits.Basic
import Mathlib.Topology.MetricSpace.Pseudo.Pi
import Mathlib.Tactic.Linarith
import Mathlib.Tactic.Positivity
/-!
C153: an elitist genetic algorithm with Gaussian mutation finds the optimum of a bounded problem in the limit.
-/
namespace EvoTorch.GlobalSearch
open GA (Row Cfg State NanSorterSpec Consistent)
open BestWorst (Sense)
open Selection (NotWorse)
open MeasureTheory ProbabilityTheory
open scoped ENNReal
variable {n l : Nat}

/-- For measurable functions the upper integral is the integral. -/
theorem upper_eq {α : Type} [MeasurableSpace α] (μ : Measure α) {F : α → ℝ≥0∞} (hF : Measurable F) : upper μ F = ∫⁻ x, F x ∂μ :=
  le_antisymm (iInf_le_of_le ⟨F, hF, le_rfl⟩ le_rfl) (le_iInf fun G => lintegral_mono G.2.2)

theorem upper_le {α : Type} [MeasurableSpace α] (μ : Measure α) {F : α → ℝ≥0∞} {A : Set α} (hA : MeasurableSet A) {c c' : ℝ≥0∞}
    (h1 : ∀ x ∈ A, F x ≤ c') (h2 : ∀ x, x ∉ A → F x ≤ c) : upper μ F ≤ c' * μ A + c * μ Aᶜ := by
  have hm : Measurable (fun x => A.indicator (fun _ => c') x + Aᶜ.indicator (fun _ => c) x) :=
    (measurable_const.indicator hA).add (measurable_const.indicator hA.compl)
  refine iInf_le_of_le ⟨_, hm, fun x => ?_⟩ ?_
  · by_cases hx : x ∈ A
    · simpa [hx] using h1 x hx
    · simpa [hx] using h2 x hx
  · show ∫⁻ x, (A.indicator (fun _ => c') x + Aᶜ.indicator (fun _ => c) x) ∂μ ≤ _
    rw [lintegral_add_left (measurable_const.indicator hA), lintegral_indicator_const hA, lintegral_indicator_const hA.compl]

theorem upper_le_const {α : Type} [MeasurableSpace α] (μ : Measure α) [IsProbabilityMeasure μ] {F : α → ℝ≥0∞} {c : ℝ≥0∞}
    (h : ∀ x, F x ≤ c) : upper μ F ≤ c := by
  have := upper_le μ (F := F) (A := Set.univ) MeasurableSet.univ (c' := c) (c := 0) (fun x _ => h x) (fun x hx => absurd (Set.mem_univ x) hx)
  simpa using this

instance uniform_prob : IsProbabilityMeasure ((volume : Measure ℝ).restrict (Set.Ico 0 1)) := ⟨by simp⟩
instance : IsProbabilityMeasure (uniforms n l) := by unfold uniforms; infer_instance
instance : IsProbabilityMeasure (normals n l) := by unfold normals; infer_instance

/-! ### One generation -/

theorem uniform_le {p : ℝ} (hp : p ≤ 1) : ENNReal.ofReal p ≤ (volume : Measure ℝ).restrict (Set.Ico 0 1) (Set.Iic p) := by
  rw [Measure.restrict_apply measurableSet_Iic]
  have : Set.Ico 0 p ⊆ Set.Iic p ∩ Set.Ico 0 1 := fun x hx => ⟨hx.2.le, hx.1, hx.2.trans_le hp⟩
  calc ENNReal.ofReal p = volume (Set.Ico 0 p) := by simp
    _ ≤ _ := measure_mono this

theorem normal_le {α β M : ℝ} (h : ∀ z ∈ Set.Icc α β, |z| ≤ M) :
    ENNReal.ofReal ((β - α) * gaussianPDFReal 0 1 M) ≤ gaussianReal 0 1 (Set.Icc α β) := by
  rw [gaussianReal_apply 0 one_ne_zero]
  have hpdf : ∀ z ∈ Set.Icc α β, gaussianPDF 0 1 M ≤ gaussianPDF 0 1 z := by
    intro z hz
    show ENNReal.ofReal _ ≤ ENNReal.ofReal _
    apply ENNReal.ofReal_le_ofReal
    simp only [gaussianPDFReal_def, sub_zero]
    apply mul_le_mul_of_nonneg_left _ (by positivity)
    apply Real.exp_le_exp.mpr
    apply div_le_div_of_nonneg_right _ (by simp)
    have := h z hz
    have := sq_abs z
    have h0 := abs_nonneg z
    nlinarith
  calc ENNReal.ofReal ((β - α) * gaussianPDFReal 0 1 M) = gaussianPDF 0 1 M * volume (Set.Icc α β) := by
        rw [Real.volume_Icc, gaussianPDF_def, mul_comm, ENNReal.ofReal_mul (gaussianPDFReal_nonneg _ _ _)]
    _ = ∫⁻ _ in Set.Icc α β, gaussianPDF 0 1 M := by simp
    _ ≤ _ := setLIntegral_mono (measurable_gaussianPDF 0 1) hpdf

/-- The uniform numbers of child `i` all ask for a mutation. -/
def mask (i : Fin n) (p : ℝ) : Set (Fin n → Fin l → ℝ) := (({i} : Finset (Fin n)) : Set (Fin n)).pi fun _ => Set.univ.pi fun _ => Set.Iic p

/-- The normal numbers of child `i` move `x` into the box. -/
def moves (i : Fin n) (s : ℝ) (x a b : Fin l → ℝ) : Set (Fin n → Fin l → ℝ) :=
  (({i} : Finset (Fin n)) : Set (Fin n)).pi fun _ => Set.univ.pi fun j => Set.Icc ((a j - x j) / s) ((b j - x j) / s)

theorem mask_measurable (i : Fin n) (p : ℝ) : MeasurableSet (mask i p : Set (Fin n → Fin l → ℝ)) :=
  MeasurableSet.pi (Set.to_countable _) fun _ _ => MeasurableSet.pi (Set.to_countable _) fun _ _ => measurableSet_Iic

theorem moves_measurable (i : Fin n) (s : ℝ) (x a b : Fin l → ℝ) : MeasurableSet (moves i s x a b) :=
  MeasurableSet.pi (Set.to_countable _) fun _ _ => MeasurableSet.pi (Set.to_countable _) fun _ _ => measurableSet_Icc

theorem mask_chance (i : Fin n) {p : ℝ} (h0 : 0 ≤ p) (hp : p ≤ 1) : ENNReal.ofReal (∏ _j : Fin l, p) ≤ uniforms n l (mask i p) := by
  unfold uniforms mask
  rw [Measure.pi_pi_finset, Finset.prod_singleton, Measure.pi_pi, ENNReal.ofReal_prod_of_nonneg fun _ _ => h0]
  exact Finset.prod_le_prod' fun _ _ => uniform_le hp

theorem moves_chance (i : Fin n) {s : ℝ} (hs : 0 < s) {x a b lb ub : Fin l → ℝ} (hx : ∀ j, lb j ≤ x j ∧ x j ≤ ub j)
    (hab : ∀ j, lb j ≤ a j ∧ a j ≤ b j ∧ b j ≤ ub j) :
    ENNReal.ofReal (∏ j, (b j - a j) / s * gaussianPDFReal 0 1 ((ub j - lb j) / s)) ≤ normals n l (moves i s x a b) := by
  unfold normals moves
  rw [Measure.pi_pi_finset, Finset.prod_singleton, Measure.pi_pi, ENNReal.ofReal_prod_of_nonneg]
  · refine Finset.prod_le_prod' fun j _ => ?_
    have := normal_le (α := (a j - x j) / s) (β := (b j - x j) / s) (M := (ub j - lb j) / s) (fun z hz => by
      have h1 := hx j
      have h2 := hab j
      rw [abs_le, ← neg_div]
      exact ⟨le_trans (div_le_div_of_nonneg_right (by linarith) hs.le) hz.1, le_trans hz.2 (div_le_div_of_nonneg_right (by linarith) hs.le)⟩)
    rwa [← sub_div, show b j - x j - (a j - x j) = b j - a j by ring] at this
  · intro j _
    have := hab j
    exact mul_nonneg (div_nonneg (by linarith) hs.le) (gaussianPDFReal_nonneg _ _ _)

theorem clamp_id {a b x : ℝ} (h1 : a ≤ x) (h2 : x ≤ b) : Operators.respectBounds (some a) (some b) x = x := by
  simp [Operators.respectBounds, h1, h2]

/-- With such draws child `i` lies in the box. -/
theorem lands {Ω : Type} (o : Ops Ω n l) (hs : 0 < o.stdev) (ω : Ω) (rows : List (Row (Fin l → ℝ) ℝ)) {a b : Fin l → ℝ}
    (hab : ∀ j, o.lb j ≤ a j ∧ a j ≤ b j ∧ b j ≤ o.ub j) (i : Fin n) {u g : Fin n → Fin l → ℝ} (hu : u ∈ mask i o.prob)
    (hg : g ∈ moves i o.stdev (o.before ω rows i) a b) :
    ∃ r ∈ children o ω u g rows, ∀ j, a j ≤ r.val j ∧ r.val j ≤ b j := by
  refine ⟨_, List.mem_ofFn.mpr ⟨i, rfl⟩, fun j => ?_⟩
  have h1 : u i j ≤ o.prob := hu i (by simp) j trivial
  have h2 := hg i (by simp) j trivial
  obtain ⟨h3, h4⟩ := h2
  rw [div_le_iff₀ hs] at h3
  rw [le_div_iff₀ hs] at h4
  have := hab j
  have hv : Operators.gaussianMutation (fun j => some (o.lb j)) (fun j => some (o.ub j)) o.prob o.stdev u g (o.before ω rows) i j =
      o.before ω rows i j + o.stdev * g i j := by
    unfold Operators.gaussianMutation
    rw [if_pos h1, clamp_id (by linarith) (by linarith)]
  dsimp only
  rw [hv]
  exact ⟨by linarith, by linarith⟩

theorem children_inside {Ω : Type} (o : Ops Ω n l) (hb : ∀ j, o.lb j ≤ o.ub j) (ω : Ω) (u g : Fin n → Fin l → ℝ) (rows : List (Row (Fin l → ℝ) ℝ)) :
    Inside o.lb o.ub (children o ω u g rows) := by
  intro r hr j
  obtain ⟨i, rfl⟩ := List.mem_ofFn.mp hr
  dsimp only
  unfold Operators.gaussianMutation Operators.respectBounds
  exact ⟨le_min (hb j) (le_max_left _ _), min_le_left _ _⟩

section elitist
variable {Ω : Type} {cfg : Cfg ℝ} (o : Ops Ω n l) (f : (Fin l → ℝ) → ℝ)

/-- What an elitist generation does to the values: a child of a population with the same values is at most replaced by something at least
as good, so is a parent, and nothing else appears. -/
theorem generation_spec (h : NanSorterSpec cfg.sort) (he : cfg.elitist = true) (hp : 1 ≤ cfg.popsize) (ω : Ω) (u g : Fin n → Fin l → ℝ)
    (st : State (Fin l → ℝ) ℝ) (hc : Consistent cfg f st) :
    Consistent cfg f (generation cfg o f ω u g st) ∧
    (∀ r ∈ st.population, ∃ q ∈ (generation cfg o f ω u g st).population, NotWorse cfg.sense (f q.val) (f r.val)) ∧
    ∃ ev : List (Row (Fin l → ℝ) ℝ), ev.map (·.val) = st.population.map (·.val) ∧ (∀ u' g', (∀ r ∈ children o ω u' g' ev,
        ∃ q ∈ (generation cfg o f ω u' g' st).population, NotWorse cfg.sense (f q.val) (f r.val)) ∧
      ∀ q ∈ (generation cfg o f ω u' g' st).population, q.val ∈ st.population.map (·.val) ∨ q.val ∈ (children o ω u' g' ev).map (·.val)) := by
  have key : ∀ u g, ∃ P C : List (Row (Fin l → ℝ) ℝ), P.map (·.val) = st.population.map (·.val) ∧
      (generation cfg o f ω u g st).population = GA.takeBest cfg.sort cfg.sense cfg.popsize (P ++ C) ∧
      (∀ r ∈ P ++ C, r.ev = some (f r.val)) ∧
      C.map (·.val) = (children o ω u g (if cfg.reEvaluate then if cfg.parentsFirst then GA.evaluate f st.population else st.population
        else if st.firstIter then GA.evaluate f st.population else st.population)).map (·.val) := by
    intro u g
    have hE := GA.makeExtended_eval cfg f (children o ω u g) st hc
    refine ⟨(GA.makeExtended cfg ⟨f, f, children o ω u g⟩ st).2.1, (GA.makeExtended cfg ⟨f, f, children o ω u g⟩ st).2.2,
      (GA.makeExtended_spec cfg ⟨f, f, children o ω u g⟩ st).2.2, by simp [generation, GA.step, he], fun r hr => ?_, ?_⟩
    · rcases List.mem_append.mp hr with h1 | h1
      · exact hE.1 r h1
      · exact hE.2.1 r h1
    · unfold GA.makeExtended
      split
      · split
        · exact GA.evaluate_val f _
        · simp [GA.evaluate, Function.comp_def]
      · exact GA.evaluate_val f _
  refine ⟨GA.step_consistent f _ st hc, ?_, (if cfg.reEvaluate then if cfg.parentsFirst then GA.evaluate f st.population else st.population
        else if st.firstIter then GA.evaluate f st.population else st.population), ?_, fun u' g' => ⟨?_, ?_⟩⟩
  · intro r hr
    obtain ⟨P, C, hP, hG, hev, _⟩ := key u g
    have hmem : r.val ∈ P.map (·.val) := by rw [hP]; exact List.mem_map.mpr ⟨r, hr, rfl⟩
    obtain ⟨r', hr', hv⟩ := List.mem_map.mp hmem
    obtain ⟨q, hq, hqr⟩ := GA.takeBest_dominates h cfg.sense hp _ f hev r' (List.mem_append_left _ hr')
    rw [hG]
    exact ⟨q, hq, by rw [← hv]; exact hqr⟩
  · split
    · split
      · exact GA.evaluate_val f _
      · rfl
    · split
      · exact GA.evaluate_val f _
      · rfl
  · intro r hr
    obtain ⟨P, C, hP, hG, hev, hC⟩ := key u' g'
    have hmem : r.val ∈ C.map (·.val) := by rw [hC]; exact List.mem_map.mpr ⟨r, hr, rfl⟩
    obtain ⟨r', hr', hv⟩ := List.mem_map.mp hmem
    obtain ⟨q, hq, hqr⟩ := GA.takeBest_dominates h cfg.sense hp _ f hev r' (List.mem_append_right _ hr')
    rw [hG]
    exact ⟨q, hq, by rw [← hv]; exact hqr⟩
  · intro q hq
    obtain ⟨P, C, hP, hG, hev, hC⟩ := key u' g'
    rw [hG] at hq
    rcases List.mem_append.mp (GA.takeBest_subset _ _ _ _ q hq) with h1 | h1
    · exact Or.inl (by rw [← hP]; exact List.mem_map.mpr ⟨q, h1, rfl⟩)
    · exact Or.inr (by rw [← hC]; exact List.mem_map.mpr ⟨q, h1, rfl⟩)

theorem inside_of_vals {lb ub : Fin l → ℝ} {A B : List (Row (Fin l → ℝ) ℝ)} (h : A.map (·.val) = B.map (·.val)) (hB : Inside lb ub B) :
    Inside lb ub A := by
  intro r hr
  have : r.val ∈ B.map (·.val) := by rw [← h]; exact List.mem_map.mpr ⟨r, hr, rfl⟩
  obtain ⟨q, hq, hv⟩ := List.mem_map.mp this
  intro j
  rw [← hv]
  exact hB q hq j

theorem generation_inside (h : NanSorterSpec cfg.sort) (he : cfg.elitist = true) (hp : 1 ≤ cfg.popsize) (hb : ∀ j, o.lb j ≤ o.ub j) (ω : Ω)
    (u g : Fin n → Fin l → ℝ) (st : State (Fin l → ℝ) ℝ) (hc : Consistent cfg f st) (hi : Inside o.lb o.ub st.population) :
    Inside o.lb o.ub (generation cfg o f ω u g st).population := by
  obtain ⟨_, _, ev, hev, hall⟩ := generation_spec o f h he hp ω u g st hc
  intro q hq j
  rcases (hall u g).2 q hq with h1 | h1
  · obtain ⟨r, hr, hv⟩ := List.mem_map.mp h1
    rw [← hv]; exact hi r hr j
  · obtain ⟨r, hr, hv⟩ := List.mem_map.mp h1
    rw [← hv]; exact children_inside o hb ω u g ev r hr j

theorem notWorse_trans' {s : Sense} {a b c : ℝ} (h1 : NotWorse s a b) (h2 : NotWorse s b c) : NotWorse s a c := GA.notWorse_trans h1 h2

variable [MeasurableSpace Ω] (P : Measure Ω) [IsProbabilityMeasure P] (c : ℝ)

theorem miss_zero (h : NanSorterSpec cfg.sort) (he : cfg.elitist = true) (hp : 1 ≤ cfg.popsize) (k : Nat) :
    ∀ st : State (Fin l → ℝ) ℝ, Consistent cfg f st → Reached cfg f c st → missChance P cfg o f c k st = 0 := by
  induction k with
  | zero => intro st _ hr; simp [missChance, hr]
  | succ k ih =>
    intro st hc hr
    rw [← nonpos_iff_eq_zero]
    refine upper_le_const P fun ω => upper_le_const _ fun u => upper_le_const _ fun g => ?_
    obtain ⟨hc', hkeep, _⟩ := generation_spec o f h he hp ω u g st hc
    obtain ⟨r, hr, hrc⟩ := hr
    obtain ⟨q, hq, hqr⟩ := hkeep r hr
    exact (ih _ hc' ⟨q, hq, notWorse_trans' hqr hrc⟩).le

theorem miss_le (h : NanSorterSpec cfg.sort) (he : cfg.elitist = true) (hp : 1 ≤ cfg.popsize) (hn : 0 < n)
    (hs : 0 < o.stdev) (hp0 : 0 ≤ o.prob) (hp1 : o.prob ≤ 1) {a b : Fin l → ℝ} (hab : ∀ j, o.lb j ≤ a j ∧ a j ≤ b j ∧ b j ≤ o.ub j)
    (hbefore : ∀ ω rows, Inside o.lb o.ub rows → ∀ i j, o.lb j ≤ o.before ω rows i j ∧ o.before ω rows i j ≤ o.ub j)
    (hgood : ∀ v, (∀ j, a j ≤ v j ∧ v j ≤ b j) → NotWorse cfg.sense (f v) c) (k : Nat) :
    ∀ st : State (Fin l → ℝ) ℝ, Consistent cfg f st → Inside o.lb o.ub st.population →
      missChance P cfg o f c k st ≤ (1 - ENNReal.ofReal (hitChance o a b)) ^ k := by
  induction k with
  | zero => intro st _ _; simp only [missChance, pow_zero]; split <;> simp
  | succ k ih =>
    intro st hc hi
    set D : ℝ≥0∞ := (1 - ENNReal.ofReal (hitChance o a b)) ^ k with hD
    have hbd : ∀ j, o.lb j ≤ o.ub j := fun j => by have := hab j; linarith
    refine upper_le_const P fun ω => ?_
    let i0 : Fin n := ⟨0, hn⟩
    have hrest : ∀ u g, missChance P cfg o f c k (generation cfg o f ω u g st) ≤ D := fun u g =>
      ih _ (generation_spec o f h he hp ω u g st hc).1 (generation_inside o f h he hp hbd ω u g st hc hi)
    obtain ⟨_, _, ev, hev, hall⟩ := generation_spec o f h he hp ω (fun _ _ => 0) (fun _ _ => 0) st hc
    have hx := hbefore ω ev (inside_of_vals hev hi)
    have hhit : ∀ u ∈ mask i0 o.prob, ∀ g ∈ moves i0 o.stdev (o.before ω ev i0) a b,
        missChance P cfg o f c k (generation cfg o f ω u g st) ≤ 0 := by
      intro u hu g hg
      obtain ⟨r, hr, hbox⟩ := lands o hs ω ev hab i0 hu hg
      obtain ⟨q, hq, hqr⟩ := (hall u g).1 r hr
      exact (miss_zero o f P c h he hp k _ (generation_spec o f h he hp ω u g st hc).1 ⟨q, hq, notWorse_trans' hqr (hgood _ hbox)⟩).le
    have hmoves := moves_chance i0 hs (hx i0) hab
    have hmask := mask_chance (l := l) i0 hp0 hp1
    have hinner : ∀ u ∈ mask i0 o.prob, upper (normals n l) (fun g => missChance P cfg o f c k (generation cfg o f ω u g st)) ≤
        D * normals n l (moves i0 o.stdev (o.before ω ev i0) a b)ᶜ := by
      intro u hu
      have := upper_le (normals n l) (moves_measurable i0 o.stdev (o.before ω ev i0) a b) (hhit u hu) (fun g _ => hrest u g)
      simpa using this
    have houter : ∀ u, u ∉ mask i0 o.prob → upper (normals n l) (fun g => missChance P cfg o f c k (generation cfg o f ω u g st)) ≤ D :=
      fun u _ => upper_le_const _ (hrest u)
    refine (upper_le (uniforms n l) (mask_measurable i0 o.prob) hinner houter).trans ?_
    set U := uniforms n l (mask i0 o.prob)
    rw [prob_compl_eq_one_sub (mask_measurable i0 o.prob), prob_compl_eq_one_sub (moves_measurable _ _ _ _ _)]
    set N := normals n l (moves i0 o.stdev (o.before ω ev i0) a b)
    have hU : U ≤ 1 := prob_le_one
    have hN : N ≤ 1 := prob_le_one
    have hprod : ENNReal.ofReal (hitChance o a b) ≤ U * N := by
      unfold hitChance
      rw [Finset.prod_mul_distrib, ENNReal.ofReal_mul (Finset.prod_nonneg fun _ _ => hp0)]
      exact mul_le_mul' hmask hmoves
    have : D * (1 - N) * U + D * (1 - U) = D * (1 - U * N) := by
      rw [mul_assoc, ← mul_add]
      congr 1
      rw [ENNReal.sub_mul (fun _ _ => (hU.trans_lt ENNReal.one_lt_top).ne), one_mul, mul_comm N U]
      rw [add_comm]
      exact tsub_add_tsub_cancel hU (by calc U * N ≤ U * 1 := by gcongr
                                          _ = U := mul_one U)
    rw [this, pow_succ, ← hD]
    gcongr

end elitist

/-- The settings under which the search is global: elitist, at least one place and one child, a real mutation on a problem with finite
bounds, and other operators that keep inside the bounds. -/
structure Proper {Ω : Type} (cfg : Cfg ℝ) (o : Ops Ω n l) : Prop where
  sorts : NanSorterSpec cfg.sort
  elitist : cfg.elitist = true
  popsize : 1 ≤ cfg.popsize
  children : 0 < n
  stdev : 0 < o.stdev
  prob : 0 < o.prob ∧ o.prob ≤ 1
  bounds : ∀ j, o.lb j < o.ub j
  before : ∀ ω rows, Inside o.lb o.ub rows → ∀ i j, o.lb j ≤ o.before ω rows i j ∧ o.before ω rows i j ≤ o.ub j

section claims
variable {Ω : Type} [MeasurableSpace Ω] (P : Measure Ω) [IsProbabilityMeasure P] {cfg : Cfg ℝ} {o : Ops Ω n l} (f : (Fin l → ℝ) → ℝ)

/-- **C153 (rate).** If every point of a box inside the bounds has a fitness at least as good as `c`, then after `k` generations, from any
initial solutions inside the bounds, the chance that the population has no solution at least as good as `c` is at most `(1 - δ) ^ k`, where
`δ`, given by the mutation's settings, the box and the bounds alone, is positive. -/
theorem C153_rate (hP : Proper cfg o) {a b : Fin l → ℝ} (hab : ∀ j, o.lb j ≤ a j ∧ a j < b j ∧ b j ≤ o.ub j) {c : ℝ}
    (hgood : ∀ v, (∀ j, a j ≤ v j ∧ v j ≤ b j) → NotWorse cfg.sense (f v) c) (vals : List (Fin l → ℝ))
    (hv : ∀ v ∈ vals, ∀ j, o.lb j ≤ v j ∧ v j ≤ o.ub j) (k : Nat) :
    0 < hitChance o a b ∧ missChance P cfg o f c k (GA.init vals) ≤ (1 - ENNReal.ofReal (hitChance o a b)) ^ k := by
  refine ⟨Finset.prod_pos fun j _ => ?_, ?_⟩
  · have := hab j
    exact mul_pos hP.prob.1 (mul_pos (div_pos (by linarith) hP.stdev) (gaussianPDFReal_pos _ _ _ one_ne_zero))
  · refine miss_le o f P c hP.sorts hP.elitist hP.popsize hP.children hP.stdev hP.prob.1.le hP.prob.2
      (fun j => ⟨(hab j).1, (hab j).2.1.le, (hab j).2.2⟩) hP.before hgood k _ (fun _ hfi => by simp [GA.init] at hfi) ?_
    intro r hr
    obtain ⟨v, hvm, rfl⟩ := List.mem_map.mp hr
    exact hv v hvm

/-- The fitness that is worse than `x` by `ε`. -/
def slack (s : Sense) (x ε : ℝ) : ℝ := match s with
  | .min => x + ε
  | .max => x - ε

/-- **C153 (convergence).** With a fitness function that is continuous within the bounds, for every point `x` within the bounds (the optimum,
say) and every `ε > 0`, the chance that after `k` generations the population has no solution within `ε` of the fitness of `x`, or better,
tends to 0. -/
theorem C153_converges (hP : Proper cfg o) (hf : ContinuousOn f (Set.Icc o.lb o.ub)) {x : Fin l → ℝ} (hx : x ∈ Set.Icc o.lb o.ub)
    {ε : ℝ} (hε : 0 < ε) (vals : List (Fin l → ℝ)) (hv : ∀ v ∈ vals, ∀ j, o.lb j ≤ v j ∧ v j ≤ o.ub j) :
    Filter.Tendsto (fun k => missChance P cfg o f (slack cfg.sense (f x) ε) k (GA.init vals)) Filter.atTop (nhds 0) := by
  obtain ⟨r, hr, hball⟩ := Metric.continuousOn_iff.mp hf x hx ε hε
  let a : Fin l → ℝ := fun j => max (o.lb j) (x j - r / 2)
  let b : Fin l → ℝ := fun j => min (o.ub j) (x j + r / 2)
  have hxj : ∀ j, o.lb j ≤ x j ∧ x j ≤ o.ub j := fun j => ⟨hx.1 j, hx.2 j⟩
  have hab : ∀ j, o.lb j ≤ a j ∧ a j < b j ∧ b j ≤ o.ub j := by
    intro j
    have h1 := hxj j
    have h2 := hP.bounds j
    refine ⟨le_max_left _ _, max_lt (lt_min h2 (by linarith)) (lt_min (by linarith) (by linarith)), min_le_left _ _⟩
  have hgood : ∀ v, (∀ j, a j ≤ v j ∧ v j ≤ b j) → NotWorse cfg.sense (f v) (slack cfg.sense (f x) ε) := by
    intro v hvb
    have hin : v ∈ Set.Icc o.lb o.ub := ⟨fun j => (hab j).1.trans (hvb j).1, fun j => (hvb j).2.trans (hab j).2.2⟩
    have hd : dist v x < r := by
      refine lt_of_le_of_lt ((dist_pi_le_iff (r := r / 2) (by linarith)).2 fun j => ?_) (by linarith)
      have h1 := (le_max_right _ _).trans (hvb j).1
      have h2 := (hvb j).2.trans (min_le_right _ _)
      rw [Real.dist_eq, abs_le]
      exact ⟨by linarith, by linarith⟩
    have := hball v hin hd
    rw [Real.dist_eq, abs_lt] at this
    cases cfg.sense
    · show f v ≤ f x + ε; linarith
    · show f x - ε ≤ f v; linarith
  have hδ := (C153_rate P f hP hab hgood vals hv 0).1
  have hlt : 1 - ENNReal.ofReal (hitChance o a b) < 1 :=
    ENNReal.sub_lt_self ENNReal.one_ne_top one_ne_zero (by simpa using hδ)
  exact tendsto_of_tendsto_of_tendsto_of_le_of_le tendsto_const_nhds (ENNReal.tendsto_pow_atTop_nhds_zero_of_lt_one hlt)
    (fun k => bot_le) (fun k => (C153_rate P f hP hab hgood vals hv k).2)

end claims

/-- **C153 (mutation probability).** With a mutation probability `p` a gene within the bounds is changed with a chance of at most `p`, whatever the normal numbers are. -/
theorem C153_mutation_probability {lb ub : Fin l → ℝ} (stdev : ℝ) (X g : Fin n → Fin l → ℝ) (i : Fin n) (j : Fin l) (hx : lb j ≤ X i j ∧ X i j ≤ ub j) (p : ℝ) :
    uniforms n l {u | Operators.gaussianMutation (fun j => some (lb j)) (fun j => some (ub j)) p stdev u g X i j ≠ X i j} ≤ ENNReal.ofReal p := by
  have hsub : {u : Fin n → Fin l → ℝ | Operators.gaussianMutation (fun j => some (lb j)) (fun j => some (ub j)) p stdev u g X i j ≠ X i j} ⊆ Function.eval i ⁻¹' (Function.eval j ⁻¹' Set.Iic p) := by
    intro u hu
    by_contra hc
    have hs : ¬ u i j ≤ p := hc
    exact hu (by simp only [Operators.gaussianMutation, if_neg hs, clamp_id hx.1 hx.2])
  refine (measure_mono hsub).trans ?_
  unfold uniforms
  rw [(measurePreserving_eval _ i).measure_preimage ((measurable_pi_apply j) measurableSet_Iic).nullMeasurableSet, (measurePreserving_eval _ j).measure_preimage measurableSet_Iic.nullMeasurableSet,
    Measure.restrict_apply measurableSet_Iic]
  calc volume (Set.Iic p ∩ Set.Ico 0 1) ≤ volume (Set.Icc 0 p) := measure_mono fun x hx => ⟨hx.2.1, hx.1⟩
    _ = ENNReal.ofReal p := by simp

/-- A gene in the middle, probability 1/10. -/
example : uniforms 1 1 {u | Operators.gaussianMutation (fun _ => some 0) (fun _ => some 1) (1 / 10) 5 u (fun _ _ => 3) (fun _ _ => 1 / 2) 0 0 ≠ (1 / 2 : ℝ)} ≤ ENNReal.ofReal (1 / 10) :=
  C153_mutation_probability (lb := fun _ => 0) (ub := fun _ => 1) 5 (fun _ _ => 1 / 2) (fun _ _ => 3) 0 0 (by norm_num) (1 / 10)

/-! ### A concrete case, and what happens without elitism -/

open Classical in
/-- Comparison of real evaluations, NaN greatest. -/
noncomputable def rle (a b : Option ℝ) : Bool := decide (GA.torchLe a b)

theorem rle_total (a b : Option ℝ) : rle a b = true ∨ rle b a = true := by
  simp only [rle, decide_eq_true_eq]
  cases a with
  | none => exact Or.inr trivial
  | some a => cases b with
    | none => exact Or.inl trivial
    | some b => exact le_total a b

theorem rle_trans (a b c : Option ℝ) (h1 : rle a b = true) (h2 : rle b c = true) : rle a c = true := by
  simp only [rle, decide_eq_true_eq] at *
  cases c with
  | none => trivial
  | some c => cases b with
    | none => exact absurd h2 id
    | some b => cases a with
      | none => exact absurd h1 id
      | some a => exact le_trans (α := ℝ) h1 h2

/-- A stable sort. -/
noncomputable def rSorter : Selection.Sorter (Option ℝ) := fun d l => Selection.stableArgsort (fun a b => if d then rle b a else rle a b) l

theorem rSorter_spec : NanSorterSpec rSorter := by
  intro l
  constructor
  · have h := Selection.stableArgsort_spec rle rle_total rle_trans l
    have e : rSorter false l = Selection.stableArgsort rle l := by simp [rSorter]
    rw [e]
    simpa only [rle, decide_eq_true_eq] using h
  · have h := Selection.stableArgsort_spec (fun a b => rle b a) (fun a b => rle_total b a) (fun a b c h1 h2 => rle_trans c b a h2 h1) l
    have e : rSorter true l = Selection.stableArgsort (fun a b => rle b a) l := by simp [rSorter]
    rw [e]
    simpa only [rle, decide_eq_true_eq] using h

/-- One solution of one gene in `[0, 1]`, minimised, mutated with standard deviation 1 and probability 1, no other operator. -/
noncomputable def exCfg (elitist : Bool) : Cfg ℝ := ⟨rSorter, .min, 1, elitist, false, false⟩
noncomputable def exOps : Ops Unit 1 1 := ⟨fun _ rows _ => (rows.head?.map (·.val)).getD fun _ => 0, fun _ => 0, fun _ => 1, 1, 1⟩

theorem exProper : Proper (exCfg true) exOps where
  sorts := rSorter_spec
  elitist := rfl
  popsize := le_rfl
  children := Nat.one_pos
  stdev := one_pos
  prob := ⟨one_pos, le_rfl⟩
  bounds := fun _ => zero_lt_one
  before := by
    intro _ rows h i j
    cases rows with
    | nil => exact ⟨le_rfl, zero_le_one⟩
    | cons r rows => exact h r (by simp) j

/-- With elitism the example reaches the best fitness, 0, up to 1/2. -/
example : Filter.Tendsto (fun k => missChance (Measure.dirac ()) (exCfg true) exOps (fun v => v 0) (1 / 2) k (GA.init [fun _ => 1]))
    Filter.atTop (nhds 0) := by
  have := C153_converges (Measure.dirac ()) (fun v : Fin 1 → ℝ => v 0) exProper (Continuous.continuousOn (by fun_prop))
    (x := fun _ => 0) ⟨le_rfl, fun _ => zero_le_one⟩ (ε := 1 / 2) (by norm_num) [fun _ => 1] (by simp [exOps])
  simpa [slack, exCfg] using this

theorem le_upper {α : Type} [MeasurableSpace α] (μ : Measure α) {F : α → ℝ≥0∞} {A : Set α} (hA : MeasurableSet A) {c : ℝ≥0∞}
    (h : ∀ x ∈ A, c ≤ F x) : c * μ A ≤ upper μ F := by
  refine le_iInf fun G => ?_
  rw [← lintegral_indicator_const hA]
  refine lintegral_mono fun x => ?_
  by_cases hx : x ∈ A
  · simpa [hx] using (h x hx).trans (G.2.2 x)
  · simp [hx]

theorem le_upper_const {α : Type} [MeasurableSpace α] (μ : Measure α) [IsProbabilityMeasure μ] {F : α → ℝ≥0∞} {c : ℝ≥0∞}
    (h : ∀ x, c ≤ F x) : c ≤ upper μ F := by
  simpa using le_upper μ (F := F) MeasurableSet.univ (fun x _ => h x)

/-- Without elitism the example's next population is the child alone. -/
theorem exGen (u g : Fin 1 → Fin 1 → ℝ) (st : State (Fin 1 → ℝ) ℝ) (hi : Inside exOps.lb exOps.ub st.population) :
    ∃ ev, Inside exOps.lb exOps.ub ev ∧
      (generation (exCfg false) exOps (fun v => v 0) () u g st).population = GA.evaluate (fun v => v 0) (children exOps () u g ev) := by
  refine ⟨if st.firstIter then GA.evaluate (fun v => v 0) st.population else st.population, ?_, ?_⟩
  · split
    · exact inside_of_vals (GA.evaluate_val _ _) hi
    · exact hi
  · have hl : ∀ ev, (GA.evaluate (fun v : Fin 1 → ℝ => v 0) (children exOps () u g ev)).length = 1 := fun ev => by
      simp [GA.evaluate, children]
    simp [generation, GA.step, GA.makeExtended, exCfg, hl]

/-- **C153 (elitism is needed).** The same example without elitism: whatever the population, after any positive number of generations the
chance of having no solution within 1/2 of the best fitness is at least the chance of a normal number above 1, so it does not tend to 0. -/
theorem C153_needs_elitism (k : Nat) (st : State (Fin 1 → ℝ) ℝ) (hi : Inside exOps.lb exOps.ub st.population) :
    0 < gaussianReal 0 1 (Set.Ici 1) ∧
    gaussianReal 0 1 (Set.Ici 1) ≤ missChance (Measure.dirac ()) (exCfg false) exOps (fun v => v 0) (1 / 2) (k + 1) st := by
  refine ⟨?_, ?_⟩
  · have := normal_le (α := 1) (β := 2) (M := 2) (fun z hz => by rw [abs_le]; exact ⟨by linarith [hz.1], hz.2⟩)
    refine lt_of_lt_of_le ?_ (this.trans (measure_mono Set.Icc_subset_Ici_self))
    have := gaussianPDFReal_pos 0 1 2 one_ne_zero
    rw [ENNReal.ofReal_pos]
    linarith
  · induction k generalizing st with
    | zero =>
      have hlast : ∀ u ∈ (mask 0 1 : Set (Fin 1 → Fin 1 → ℝ)), gaussianReal 0 1 (Set.Ici 1) ≤ upper (normals 1 1) fun g =>
          missChance (Measure.dirac ()) (exCfg false) exOps (fun v => v 0) (1 / 2) 0 (generation (exCfg false) exOps (fun v => v 0) () u g st) := by
        intro u hu
        have h1 : u 0 0 ≤ 1 := hu 0 (by simp) 0 trivial
        let A : Set (Fin 1 → Fin 1 → ℝ) := (({0} : Finset (Fin 1)) : Set (Fin 1)).pi fun _ => Set.univ.pi fun _ => Set.Ici 1
        have hA : MeasurableSet A :=
          MeasurableSet.pi (Set.to_countable _) fun _ _ => MeasurableSet.pi (Set.to_countable _) fun _ _ => measurableSet_Ici
        have hAm : normals 1 1 A = gaussianReal 0 1 (Set.Ici 1) := by
          unfold normals
          rw [Measure.pi_pi_finset, Finset.prod_singleton, Measure.pi_pi, Fin.prod_univ_one]
        rw [← hAm, ← one_mul (normals 1 1 A)]
        refine le_upper _ hA fun g hg => ?_
        have h2 : 1 ≤ g 0 0 := hg 0 (by simp) 0 trivial
        obtain ⟨ev, hev, hpop⟩ := exGen u g st hi
        have hx := exProper.before () ev hev 0 0
        have hval : exOps.before () ev 0 0 + 1 * g 0 0 ≥ 1 := by
          have : exOps.lb 0 = 0 := rfl
          rw [this] at hx
          linarith [hx.1]
        have hno : ¬ Reached (exCfg false) (fun v : Fin 1 → ℝ => v 0) (1 / 2) (generation (exCfg false) exOps (fun v => v 0) () u g st) := by
          rintro ⟨r, hr, hrc⟩
          rw [hpop] at hr
          obtain ⟨r', hr', rfl⟩ := List.mem_map.mp hr
          obtain ⟨i, rfl⟩ := List.mem_ofFn.mp hr'
          obtain rfl : i = 0 := Subsingleton.elim _ _
          have hrc' : Operators.gaussianMutation (fun j => some (exOps.lb j)) (fun j => some (exOps.ub j)) exOps.prob exOps.stdev u g
              (exOps.before () ev) 0 0 ≤ 1 / 2 := hrc
          have he : Operators.gaussianMutation (fun j => some (exOps.lb j)) (fun j => some (exOps.ub j)) exOps.prob exOps.stdev u g
              (exOps.before () ev) 0 0 = min 1 (max 0 (exOps.before () ev 0 0 + 1 * g 0 0)) := by
            unfold Operators.gaussianMutation
            rw [if_pos (show u 0 0 ≤ exOps.prob from h1)]
            rfl
          rw [he, max_eq_right (by linarith), min_eq_left hval] at hrc'
          exact absurd hrc' (by norm_num)
        show 1 ≤ missChance _ _ _ _ _ 0 _
        unfold missChance
        rw [if_neg hno]
      refine le_upper_const _ fun _ => ?_
      refine le_trans ?_ (le_upper _ (mask_measurable 0 1) hlast)
      have := mask_chance (n := 1) (l := 1) 0 (p := 1) zero_le_one le_rfl
      simp only [Finset.prod_const_one, ENNReal.ofReal_one] at this
      calc gaussianReal 0 1 (Set.Ici 1) = gaussianReal 0 1 (Set.Ici 1) * 1 := (mul_one _).symm
        _ ≤ _ := by gcongr
    | succ k ih =>
      refine le_upper_const _ fun _ => le_upper_const _ fun u => le_upper_const _ fun g => ih _ ?_
      obtain ⟨ev, hev, hpop⟩ := exGen u g st hi
      rw [hpop]
      exact inside_of_vals (GA.evaluate_val _ _) (children_inside exOps (fun _ => zero_le_one) () u g ev)

end EvoTorch.GlobalSearch
