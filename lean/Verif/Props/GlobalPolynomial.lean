import Verif.Model.GlobalPolynomial
import Verif.Props.ReportedBest
import Verif.Props.EtaLaws
import Mathlib.Topology.Order.Compact
import Mathlib.MeasureTheory.Measure.Prod
/-!
C184: a genetic algorithm with polynomial mutation finds the optimum of a bounded problem in the limit.
-/
namespace EvoTorch.GlobalPolynomial
open EvoTorch
open EvoTorch.GA (Row NanSorterSpec Consistent)
open EvoTorch.BestWorst (Sense Args ArgSpec)
open EvoTorch.Selection (NotWorse)
open EvoTorch.GlobalSearch (uniforms upper upper_le upper_le_const Inside slack)
open EvoTorch.ReportedBest (St Reports Honest start track_honest track_reports)
open EvoTorch.Operators (polyNumber chanceBeyond)
open MeasureTheory
open scoped ENNReal
variable {n l : Nat}

/-! ### Specification -/

open Classical in
/-- The chance that after `k` more generations the state is not as wanted. In each generation the draws `ω` of the other operators have the law `P`, the draws of the mutation the law `Q`. -/
noncomputable def chanceNot {S Ω Δ : Type} [MeasurableSpace Ω] [MeasurableSpace Δ] (P : Measure Ω) (Q : Measure Δ) (gen : Ω → Δ → S → S) (wanted : S → Prop) : Nat → S → ℝ≥0∞
  | 0, st => if wanted st then 0 else 1
  | k + 1, st => upper P fun ω => upper Q fun d => chanceNot P Q gen wanted k (gen ω d st)

/-- The draws of the mutation: independent uniform numbers of `[0, 1)`, for the mask and for the mutated values. -/
noncomputable def draws (n l : Nat) : Measure ((Fin n → Fin l → ℝ) × (Fin n → Fin l → ℝ)) := (uniforms n l).prod (uniforms n l)

/-- The population has a solution at least as good as `c`. -/
def Has (s : Sense) (f : (Fin l → ℝ) → ℝ) (c : ℝ) (st : St l) : Prop := ∃ r ∈ st.search.population, NotWorse s (f r.val) c

/-- The settings: the mutation makes at least one child, is asked for with a positive probability (or always), `eta > -1`, on a problem with finite bounds; the operators before it keep inside the bounds. -/
structure Proper {Ω : Type} (A : Args ℝ) (o : Ops Ω n l) : Prop where
  args : ArgSpec A
  children : 0 < n
  eta : 0 < o.eta + 1
  prob : ∀ p, o.prob = some p → 0 < p
  bounds : ∀ j, o.lb j < o.ub j
  before : ∀ ω rows, Inside o.lb o.ub rows → ∀ i j, o.lb j ≤ o.before ω rows i j ∧ o.before ω rows i j ≤ o.ub j

instance : IsProbabilityMeasure (draws n l) := by unfold draws; infer_instance

/-! ### A general bound -/

section general
variable {S Ω Δ : Type} [MeasurableSpace Ω] [MeasurableSpace Δ] (P : Measure Ω) [IsProbabilityMeasure P] (Q : Measure Δ) [IsProbabilityMeasure Q] (gen : Ω → Δ → S → S)

theorem chance_zero {wanted inv : S → Prop} (hinv : ∀ ω d st, inv st → inv (gen ω d st)) (hkeep : ∀ ω d st, inv st → wanted st → wanted (gen ω d st)) (k : Nat) :
    ∀ st, inv st → wanted st → chanceNot P Q gen wanted k st = 0 := by
  induction k with
  | zero => intro st _ hr; simp [chanceNot, hr]
  | succ k ih =>
    intro st hc hr
    rw [← nonpos_iff_eq_zero]
    exact upper_le_const P fun ω => upper_le_const _ fun d => (ih _ (hinv ω d st hc) (hkeep ω d st hc hr)).le

theorem chance_le {wanted inv : S → Prop} (hinv : ∀ ω d st, inv st → inv (gen ω d st)) (hkeep : ∀ ω d st, inv st → wanted st → wanted (gen ω d st)) {δ : ℝ≥0∞}
    (hhit : ∀ ω st, inv st → ∃ E, MeasurableSet E ∧ δ ≤ Q E ∧ ∀ d ∈ E, wanted (gen ω d st)) (k : Nat) : ∀ st, inv st → chanceNot P Q gen wanted k st ≤ (1 - δ) ^ k := by
  induction k with
  | zero => intro st _; simp only [chanceNot, pow_zero]; split <;> simp
  | succ k ih =>
    intro st hc
    refine upper_le_const P fun ω => ?_
    obtain ⟨E, hE, hδ, hw⟩ := hhit ω st hc
    have := upper_le Q (F := fun d => chanceNot P Q gen wanted k (gen ω d st)) hE (c' := 0) (c := (1 - δ) ^ k)
      (fun d hd => (chance_zero P Q gen hinv hkeep k _ (hinv ω d st hc) (hw d hd)).le) (fun d _ => ih _ (hinv ω d st hc))
    refine this.trans ?_
    rw [zero_mul, zero_add, prob_compl_eq_one_sub hE, pow_succ]
    gcongr

end general

/-! ### One child -/

/-- Steps of the same width have differences of powers bounded below. -/
theorem steps {p h : ℝ} (hp : 0 < p) (h0 : 0 < h) (h1 : h ≤ 1) : ∃ κ : ℝ, 0 < κ ∧ ∀ s, h ≤ s → s ≤ 1 → κ ≤ s ^ p - (s - h) ^ p := by
  have hcont : ContinuousOn (fun s : ℝ => s ^ p - (s - h) ^ p) (Set.Icc h 1) :=
    ((Real.continuous_rpow_const hp.le).sub ((Real.continuous_rpow_const hp.le).comp (continuous_id.sub continuous_const))).continuousOn
  obtain ⟨s, hs, hmin⟩ := isCompact_Icc.exists_isMinOn (Set.nonempty_Icc.mpr h1) hcont
  refine ⟨s ^ p - (s - h) ^ p, ?_, fun t h1 h2 => hmin ⟨h1, h2⟩⟩
  have := Real.rpow_lt_rpow (show 0 ≤ s - h by linarith [hs.1]) (show s - h < s by linarith) hp
  linarith

theorem chance_gap {eta room d1 d2 κ : ℝ} (he : 0 < eta + 1) (h0 : 0 < d1) (hlt : d1 < d2) (h1 : d2 ≤ room) (h2 : room ≤ 1) (hκ : κ ≤ (1 - d1) ^ (eta + 1) - (1 - d2) ^ (eta + 1)) (hκ0 : 0 < κ) :
    κ / 2 ≤ chanceBeyond eta room d1 - chanceBeyond eta room d2 := by
  have ha : (1 - room) ^ (eta + 1) < 1 := Real.rpow_lt_one (by linarith) (by linarith) he
  have ha0 : 0 ≤ (1 - room) ^ (eta + 1) := Real.rpow_nonneg (by linarith) _
  unfold chanceBeyond
  rw [← mul_sub, ← sub_div, sub_sub_sub_cancel_right]
  have : κ ≤ ((1 - d1) ^ (eta + 1) - (1 - d2) ^ (eta + 1)) / (1 - (1 - room) ^ (eta + 1)) := by
    rw [le_div_iff₀ (by linarith)]
    nlinarith
  linarith

/-- Wherever the parent is, the draws which bring a gene into an interval contain an interval whose length is bounded below. -/
theorem gene_hits {eta lb ub a b : ℝ} (he : 0 < eta + 1) (ha : lb ≤ a) (hab : a < b) (hb : b ≤ ub) :
    ∃ κ : ℝ, 0 < κ ∧ ∀ x, lb ≤ x → x ≤ ub → ∃ I : Set ℝ, MeasurableSet I ∧ ENNReal.ofReal κ ≤ (volume : Measure ℝ).restrict (Set.Ico 0 1) I ∧
      ∀ u ∈ I, 0 ≤ u ∧ u ≤ 1 ∧ a ≤ polyNumber eta lb ub u x ∧ polyNumber eta lb ub u x ≤ b := by
  have hw : 0 < ub - lb := by linarith
  obtain ⟨κ, hκ0, hκ⟩ := steps (p := eta + 1) (h := (b - a) / 8 / (ub - lb)) he (div_pos (by linarith) hw) (by rw [div_le_one hw]; linarith)
  refine ⟨κ / 2, by linarith, fun x h1 h2 => ?_⟩
  rcases le_total ((a + b) / 2) x with hx | hx
  · have e : ∀ t, 1 - (x - t) / (ub - lb) = (ub - lb - x + t) / (ub - lb) := fun t => by field_simp; ring
    have gap := chance_gap (room := (x - lb) / (ub - lb)) (d1 := (x - (a + (b - a) / 4)) / (ub - lb)) (d2 := (x - (a + (b - a) / 8)) / (ub - lb)) he (div_pos (by linarith) hw) (by gcongr; linarith)
      (by gcongr; linarith) (by rw [div_le_one hw]; linarith) (κ := κ) (by
        have := hκ (1 - (x - (a + (b - a) / 4)) / (ub - lb)) (by rw [e]; gcongr; linarith) (sub_le_self _ (div_nonneg (by linarith) hw.le))
        rwa [show 1 - (x - (a + (b - a) / 4)) / (ub - lb) - (b - a) / 8 / (ub - lb) = 1 - (x - (a + (b - a) / 8)) / (ub - lb) by field_simp; ring] at this) hκ0
    obtain ⟨q0, -⟩ := Operators.chanceBeyond_bounds (eta := eta) (room := (x - lb) / (ub - lb)) (dist := (x - (a + (b - a) / 8)) / (ub - lb)) he (div_pos (by linarith) hw) (by gcongr; linarith)
      (by rw [div_le_one hw]; linarith)
    obtain ⟨-, q1⟩ := Operators.chanceBeyond_bounds (eta := eta) (room := (x - lb) / (ub - lb)) (dist := (x - (a + (b - a) / 4)) / (ub - lb)) he (div_pos (by linarith) hw) (by gcongr; linarith)
      (by rw [div_le_one hw]; linarith)
    refine ⟨Set.Ioc (chanceBeyond eta ((x - lb) / (ub - lb)) ((x - (a + (b - a) / 8)) / (ub - lb))) (chanceBeyond eta ((x - lb) / (ub - lb)) ((x - (a + (b - a) / 4)) / (ub - lb))), measurableSet_Ioc, ?_, ?_⟩
    · rw [Measure.restrict_eq_self _ (show _ ⊆ Set.Ico (0 : ℝ) 1 from fun u hu => ⟨by linarith [hu.1], by linarith [hu.2]⟩), Real.volume_Ioc]
      exact ENNReal.ofReal_le_ofReal gap
    · rintro u ⟨hu1, hu2⟩
      have u0 : 0 ≤ u := by linarith
      have u1 : u ≤ 1 := by linarith
      refine ⟨u0, u1, ?_, ?_⟩
      · have := mt (Operators.below_iff he (by linarith) (by linarith) h2 u0 u1 (t := a + (b - a) / 8)).mp (not_le.mpr hu1)
        linarith
      · have := (Operators.below_iff he (by linarith) (by linarith) h2 u0 u1 (t := a + (b - a) / 4)).mpr hu2
        linarith
  · have e : ∀ t, 1 - (t - x) / (ub - lb) = (ub - lb - t + x) / (ub - lb) := fun t => by field_simp; ring
    have gap := chance_gap (room := (ub - x) / (ub - lb)) (d1 := (b - (b - a) / 4 - x) / (ub - lb)) (d2 := (b - (b - a) / 8 - x) / (ub - lb)) he (div_pos (by linarith) hw) (by gcongr; linarith)
      (by gcongr; linarith) (by rw [div_le_one hw]; linarith) (κ := κ) (by
        have := hκ (1 - (b - (b - a) / 4 - x) / (ub - lb)) (by rw [e]; gcongr; linarith) (sub_le_self _ (div_nonneg (by linarith) hw.le))
        rwa [show 1 - (b - (b - a) / 4 - x) / (ub - lb) - (b - a) / 8 / (ub - lb) = 1 - (b - (b - a) / 8 - x) / (ub - lb) by field_simp; ring] at this) hκ0
    obtain ⟨q0, -⟩ := Operators.chanceBeyond_bounds (eta := eta) (room := (ub - x) / (ub - lb)) (dist := (b - (b - a) / 8 - x) / (ub - lb)) he (div_pos (by linarith) hw) (by gcongr; linarith)
      (by rw [div_le_one hw]; linarith)
    obtain ⟨-, q1⟩ := Operators.chanceBeyond_bounds (eta := eta) (room := (ub - x) / (ub - lb)) (dist := (b - (b - a) / 4 - x) / (ub - lb)) he (div_pos (by linarith) hw) (by gcongr; linarith)
      (by rw [div_le_one hw]; linarith)
    refine ⟨Set.Ico (1 - chanceBeyond eta ((ub - x) / (ub - lb)) ((b - (b - a) / 4 - x) / (ub - lb))) (1 - chanceBeyond eta ((ub - x) / (ub - lb)) ((b - (b - a) / 8 - x) / (ub - lb))), measurableSet_Ico, ?_, ?_⟩
    · rw [Measure.restrict_eq_self _ (show _ ⊆ Set.Ico (0 : ℝ) 1 from fun u hu => ⟨by linarith [hu.1], by linarith [hu.2]⟩), Real.volume_Ico]
      exact ENNReal.ofReal_le_ofReal (by linarith)
    · rintro u ⟨hu1, hu2⟩
      have u0 : 0 ≤ u := by linarith
      have u1 : u ≤ 1 := by linarith
      refine ⟨u0, u1, ?_, ?_⟩
      · have := (Operators.above_iff he h1 (by linarith) (by linarith) u0 u1 (t := b - (b - a) / 4)).mpr hu1
        linarith
      · have := mt (Operators.above_iff he h1 (by linarith) (by linarith) u0 u1 (t := b - (b - a) / 8)).mp (not_le.mpr hu2)
        linarith

/-- The uniform numbers of child `i` which ask for a mutation of all genes. -/
theorem mask_hits (prob : Option ℝ) (hp : ∀ p, prob = some p → 0 < p) (i : Fin n) :
    ∃ M : Set (Fin n → Fin l → ℝ), MeasurableSet M ∧ 0 < uniforms n l M ∧ ∀ u ∈ M, ∀ j, selects prob (u i j) = true := by
  cases prob with
  | none => exact ⟨Set.univ, MeasurableSet.univ, by simp, fun _ _ _ => rfl⟩
  | some p =>
    refine ⟨(({i} : Finset (Fin n)) : Set (Fin n)).pi fun _ => Set.univ.pi fun _ => Set.Iio p,
      MeasurableSet.pi (Set.to_countable _) fun _ _ => MeasurableSet.pi (Set.to_countable _) fun _ _ => measurableSet_Iio, ?_, fun u hu j => ?_⟩
    · unfold uniforms
      rw [Measure.pi_pi_finset, Finset.prod_singleton, Measure.pi_pi]
      refine pos_iff_ne_zero.mpr (Finset.prod_ne_zero_iff.mpr fun j _ => ?_)
      rw [Measure.restrict_apply measurableSet_Iio]
      refine ne_of_gt (lt_of_lt_of_le ?_ (measure_mono (show Set.Ico 0 (min p 1) ⊆ _ from fun x hx => ⟨lt_of_lt_of_le hx.2 (min_le_left _ _), hx.1, lt_of_lt_of_le hx.2 (min_le_right _ _)⟩)))
      rw [Real.volume_Ico, ENNReal.ofReal_pos, sub_zero]
      exact lt_min (hp p rfl) one_pos
    · have : u i j < p := hu i (by simp) j trivial
      simpa [selects] using this

/-- Wherever the parents are, the draws which bring a child into a box have a chance bounded below. -/
theorem mutation_hits {eta : ℝ} {prob : Option ℝ} {lb ub a b : Fin l → ℝ} (hn : 0 < n) (he : 0 < eta + 1) (hp : ∀ p, prob = some p → 0 < p) (hb : ∀ j, lb j < ub j)
    (hab : ∀ j, lb j ≤ a j ∧ a j < b j ∧ b j ≤ ub j) :
    ∃ δ : ℝ≥0∞, 0 < δ ∧ ∀ X : Fin n → Fin l → ℝ, (∀ i j, lb j ≤ X i j ∧ X i j ≤ ub j) → ∃ E, MeasurableSet E ∧ δ ≤ draws n l E ∧
      ∀ d ∈ E, ∀ j, ∃ y, Operators.polynomialMutation eta lb ub (fun i j => selects prob (d.1 i j)) d.2 X ⟨0, hn⟩ j = some y ∧ a j ≤ y ∧ y ≤ b j := by
  let i0 : Fin n := ⟨0, hn⟩
  obtain ⟨M, hM, hM0, hMs⟩ := mask_hits (l := l) prob hp i0
  choose κ hκ0 hκ using fun j => gene_hits he (hab j).1 (hab j).2.1 (hab j).2.2
  refine ⟨uniforms n l M * ∏ j, ENNReal.ofReal (κ j), ENNReal.mul_pos hM0.ne' (Finset.prod_ne_zero_iff.mpr fun j _ => (ENNReal.ofReal_pos.mpr (hκ0 j)).ne'), fun X hx => ?_⟩
  choose I hIm hIv hIu using fun j => hκ j (X i0 j) (hx i0 j).1 (hx i0 j).2
  have hR : MeasurableSet ((({i0} : Finset (Fin n)) : Set (Fin n)).pi fun _ => Set.univ.pi I) := MeasurableSet.pi (Set.to_countable _) fun _ _ => MeasurableSet.pi (Set.to_countable _) fun j _ => hIm j
  refine ⟨M ×ˢ ((({i0} : Finset (Fin n)) : Set (Fin n)).pi fun _ => Set.univ.pi I), hM.prod hR, ?_, ?_⟩
  · unfold draws
    rw [Measure.prod_prod]
    gcongr
    unfold uniforms
    rw [Measure.pi_pi_finset, Finset.prod_singleton, Measure.pi_pi]
    exact Finset.prod_le_prod' fun j _ => hIv j
  · rintro ⟨u, r⟩ ⟨hu, hr⟩ j
    obtain ⟨r0, r1, y1, y2⟩ := hIu j (r i0 j) (hr i0 (by simp) j trivial)
    exact ⟨_, Operators.polynomialMutation_number he hb hx (hMs u hu j) ⟨r0, r1⟩, y1, y2⟩

section child
variable {Ω : Type} {A : Args ℝ} {o : Ops Ω n l}

theorem children_inside (hb : ∀ j, o.lb j ≤ o.ub j) (ω : Ω) (d : (Fin n → Fin l → ℝ) × (Fin n → Fin l → ℝ)) (rows : List (Row (Fin l → ℝ) ℝ)) : Inside o.lb o.ub (children o ω d rows) := by
  intro r hr j
  obtain ⟨i, rfl⟩ := List.mem_ofFn.mp hr
  dsimp only [Operators.polynomialMutation]
  generalize (if selects o.prob (d.1 i j) = true then Operators.polyMutated o.eta (o.lb j) (o.ub j) (d.2 i j) (o.before ω rows i j) else some (o.before ω rows i j)) = y
  cases y with
  | none => exact ⟨le_rfl, hb j⟩
  | some y =>
    have := Operators.respectBounds_within (some (o.lb j)) (some (o.ub j)) (by rintro a b ⟨⟩ ⟨⟩; exact hb j) y
    exact ⟨this.1 _ rfl, this.2 _ rfl⟩

theorem lands (hP : Proper A o) {a b : Fin l → ℝ} (hab : ∀ j, o.lb j ≤ a j ∧ a j < b j ∧ b j ≤ o.ub j) :
    ∃ δ : ℝ≥0∞, 0 < δ ∧ ∀ ω rows, Inside o.lb o.ub rows → ∃ E, MeasurableSet E ∧ δ ≤ draws n l E ∧ ∀ d ∈ E, ∃ r ∈ children o ω d rows, ∀ j, a j ≤ r.val j ∧ r.val j ≤ b j := by
  obtain ⟨δ, hδ, h⟩ := mutation_hits hP.children hP.eta hP.prob hP.bounds hab
  refine ⟨δ, hδ, fun ω rows hin => ?_⟩
  obtain ⟨E, hE, hδE, hw⟩ := h (o.before ω rows) (hP.before ω rows hin)
  refine ⟨E, hE, hδE, fun d hd => ⟨_, List.mem_ofFn.mpr ⟨⟨0, hP.children⟩, rfl⟩, fun j => ?_⟩⟩
  obtain ⟨y, hy, h1, h2⟩ := hw d hd j
  dsimp only
  rw [hy]
  exact ⟨h1, h2⟩

end child

/-! ### The claims -/

section claims
variable {Ω : Type} [MeasurableSpace Ω] (P : Measure Ω) [IsProbabilityMeasure P] {A : Args ℝ} {o : Ops Ω n l} (f : (Fin l → ℝ) → ℝ)

/-- **C184 (rate).** A `GeneticAlgorithm` or `SteadyStateGA` with `PolynomialMutation` as its last operator, with or without elitism: for every box inside the bounds there is a positive `δ` such that for every fitness function
for which all points of the box are at least as good as `c`, and from any initial solutions inside the bounds, the chance that after `k` generations the reported best is not a solution at least as good as `c` is at
most `(1 - δ) ^ k`. -/
theorem C184_rate (hP : Proper A o) {a b : Fin l → ℝ} (hab : ∀ j, o.lb j ≤ a j ∧ a j < b j ∧ b j ≤ o.ub j) :
    ∃ δ : ℝ≥0∞, 0 < δ ∧ ∀ (cfg : GA.Cfg ℝ) (f : (Fin l → ℝ) → ℝ) (c : ℝ), (∀ v, (∀ j, a j ≤ v j ∧ v j ≤ b j) → NotWorse cfg.sense (f v) c) → ∀ vals : List (Fin l → ℝ),
      (∀ v ∈ vals, ∀ j, o.lb j ≤ v j ∧ v j ≤ o.ub j) → ∀ k, chanceNot P (draws n l) (generation A cfg o f) (Reports cfg.sense f c) k (start vals) ≤ (1 - δ) ^ k := by
  obtain ⟨δ, hδ, hit⟩ := lands hP hab
  refine ⟨δ, hδ, fun cfg f c hgood vals hv k => ?_⟩
  refine chance_le P (draws n l) _ (inv := fun st => Inside o.lb o.ub st.search.population ∧ Honest cfg.sense f st.stats) ?_ ?_ ?_ k _ ⟨?_, [], by simp, fun o => BestWorst.trackInv_init _ o⟩
  · intro ω d st h
    exact ⟨BoundedRuns.gaStep_all (P := fun j x => o.lb j ≤ x ∧ x ≤ o.ub j) cfg ⟨f, f, children o ω d⟩ (fun rows _ => children_inside (fun j => (hP.bounds j).le) ω d rows) st.search h.1,
      track_honest hP.args cfg.sense f _ _ h.2⟩
  · exact fun ω d st h hr => track_reports hP.args cfg.sense f c _ _ st h.2 (.inl hr)
  · intro ω st h
    obtain ⟨E, hE, hδE, hw⟩ := hit ω (ReportedBest.parents cfg f st.search) (GlobalSearch.inside_of_vals (ReportedBest.parents_vals cfg f st.search) h.1)
    refine ⟨E, hE, hδE, fun d hd => ?_⟩
    obtain ⟨r, hr, hbox⟩ := hw d hd
    obtain ⟨vs, hvs, hm⟩ := ReportedBest.events_children cfg f (children o ω d) st.search
    exact track_reports hP.args cfg.sense f c _ _ st h.2 (.inr ⟨vs, hvs, r.val, hm r hr, hgood _ hbox⟩)
  · intro r hr
    obtain ⟨v, hvm, rfl⟩ := List.mem_map.mp hr
    exact hv v hvm

/-- An elitist generation keeps something at least as good as every parent and every child. -/
theorem elitist_keeps {cfg : GA.Cfg ℝ} (h : NanSorterSpec cfg.sort) (he : cfg.elitist = true) (hp : 1 ≤ cfg.popsize) (ops : List (Row (Fin l → ℝ) ℝ) → List (Row (Fin l → ℝ) ℝ)) (st : GA.State (Fin l → ℝ) ℝ)
    (hc : Consistent cfg f st) (v : Fin l → ℝ) (hv : v ∈ st.population.map (·.val) ∨ v ∈ (ops (ReportedBest.parents cfg f st)).map (·.val)) :
    ∃ q ∈ (GA.step cfg ⟨f, f, ops⟩ st).population, NotWorse cfg.sense (f q.val) (f v) := by
  have hE := GA.makeExtended_eval cfg f ops st hc
  have hG : (GA.step cfg ⟨f, f, ops⟩ st).population = GA.takeBest cfg.sort cfg.sense cfg.popsize ((GA.makeExtended cfg ⟨f, f, ops⟩ st).2.1 ++ (GA.makeExtended cfg ⟨f, f, ops⟩ st).2.2) := by simp [GA.step, he]
  have hev : ∀ r ∈ (GA.makeExtended cfg ⟨f, f, ops⟩ st).2.1 ++ (GA.makeExtended cfg ⟨f, f, ops⟩ st).2.2, r.ev = some (f r.val) := by
    intro r hr
    rcases List.mem_append.mp hr with h1 | h1
    · exact hE.1 r h1
    · exact hE.2.1 r h1
  have hC : (GA.makeExtended cfg ⟨f, f, ops⟩ st).2.2.map (·.val) = (ops (ReportedBest.parents cfg f st)).map (·.val) := by
    unfold GA.makeExtended ReportedBest.parents
    split
    · split
      · exact GA.evaluate_val f _
      · simp [GA.evaluate, Function.comp_def]
    · exact GA.evaluate_val f _
  rw [hG]
  rw [← hC, ← (GA.makeExtended_spec cfg ⟨f, f, ops⟩ st).2.2] at hv
  rcases hv with hv | hv <;> obtain ⟨r, hr, rfl⟩ := List.mem_map.mp hv
  · exact GA.takeBest_dominates h cfg.sense hp _ f hev r (List.mem_append_left _ hr)
  · exact GA.takeBest_dominates h cfg.sense hp _ f hev r (List.mem_append_right _ hr)

/-- **C184 (rate, elitist).** With elitism, the same holds for the population itself: it has a solution at least as good as `c` and never loses it. -/
theorem C184_rate_elitist (hP : Proper A o) {a b : Fin l → ℝ} (hab : ∀ j, o.lb j ≤ a j ∧ a j < b j ∧ b j ≤ o.ub j) :
    ∃ δ : ℝ≥0∞, 0 < δ ∧ ∀ (cfg : GA.Cfg ℝ), NanSorterSpec cfg.sort → cfg.elitist = true → 1 ≤ cfg.popsize → ∀ (f : (Fin l → ℝ) → ℝ) (c : ℝ),
      (∀ v, (∀ j, a j ≤ v j ∧ v j ≤ b j) → NotWorse cfg.sense (f v) c) → ∀ vals : List (Fin l → ℝ),
      (∀ v ∈ vals, ∀ j, o.lb j ≤ v j ∧ v j ≤ o.ub j) → ∀ k, chanceNot P (draws n l) (generation A cfg o f) (Has cfg.sense f c) k (start vals) ≤ (1 - δ) ^ k := by
  obtain ⟨δ, hδ, hit⟩ := lands hP hab
  refine ⟨δ, hδ, fun cfg hs he hp f c hgood vals hv k => ?_⟩
  refine chance_le P (draws n l) _ (inv := fun st => Inside o.lb o.ub st.search.population ∧ Consistent cfg f st.search) ?_ ?_ ?_ k _ ⟨?_, fun _ hfi => by simp [start, GA.init] at hfi⟩
  · intro ω d st h
    exact ⟨BoundedRuns.gaStep_all (P := fun j x => o.lb j ≤ x ∧ x ≤ o.ub j) cfg ⟨f, f, children o ω d⟩ (fun rows _ => children_inside (fun j => (hP.bounds j).le) ω d rows) st.search h.1,
      GA.step_consistent f _ st.search h.2⟩
  · rintro ω d st h ⟨r, hr, hrc⟩
    obtain ⟨q, hq, hqr⟩ := elitist_keeps f hs he hp (children o ω d) st.search h.2 r.val (.inl (List.mem_map_of_mem hr))
    exact ⟨q, hq, GA.notWorse_trans hqr hrc⟩
  · intro ω st h
    obtain ⟨E, hE, hδE, hw⟩ := hit ω (ReportedBest.parents cfg f st.search) (GlobalSearch.inside_of_vals (ReportedBest.parents_vals cfg f st.search) h.1)
    refine ⟨E, hE, hδE, fun d hd => ?_⟩
    obtain ⟨r, hr, hbox⟩ := hw d hd
    obtain ⟨q, hq, hqr⟩ := elitist_keeps f hs he hp (children o ω d) st.search h.2 r.val (.inr (List.mem_map_of_mem hr))
    exact ⟨q, hq, GA.notWorse_trans hqr (hgood _ hbox)⟩
  · intro r hr
    obtain ⟨v, hvm, rfl⟩ := List.mem_map.mp hr
    exact hv v hvm

omit [MeasurableSpace Ω] in
/-- Around every point within the bounds there is a box whose points have almost its fitness. -/
theorem box (hb : ∀ j, o.lb j < o.ub j) (s : Sense) (hf : ContinuousOn f (Set.Icc o.lb o.ub)) {x : Fin l → ℝ} (hx : x ∈ Set.Icc o.lb o.ub) {ε : ℝ} (hε : 0 < ε) :
    ∃ a b : Fin l → ℝ, (∀ j, o.lb j ≤ a j ∧ a j < b j ∧ b j ≤ o.ub j) ∧ ∀ v, (∀ j, a j ≤ v j ∧ v j ≤ b j) → NotWorse s (f v) (slack s (f x) ε) := by
  obtain ⟨r, hr, hball⟩ := Metric.continuousOn_iff.mp hf x hx ε hε
  let a : Fin l → ℝ := fun j => max (o.lb j) (x j - r / 2)
  let b : Fin l → ℝ := fun j => min (o.ub j) (x j + r / 2)
  have hab : ∀ j, o.lb j ≤ a j ∧ a j < b j ∧ b j ≤ o.ub j := by
    intro j
    have h1 := hx.1 j
    have h1' := hx.2 j
    have h2 := hb j
    refine ⟨le_max_left _ _, max_lt (lt_min h2 (by linarith)) (lt_min (by linarith) (by linarith)), min_le_left _ _⟩
  refine ⟨a, b, hab, ?_⟩
  intro v hvb
  have hin : v ∈ Set.Icc o.lb o.ub := ⟨fun j => (hab j).1.trans (hvb j).1, fun j => (hvb j).2.trans (hab j).2.2⟩
  have hd : dist v x < r := by
    refine lt_of_le_of_lt ((dist_pi_le_iff (r := r / 2) (by linarith)).2 fun j => ?_) (by linarith)
    have h1 := (le_max_right _ _).trans (hvb j).1
    have h2 := (hvb j).2.trans (min_le_right _ _)
    rw [Real.dist_eq, abs_le]
    exact ⟨by linarith, by linarith⟩
  have := hball v hin hd
  rw [Real.dist_eq, abs_lt] at this
  cases s
  · show f v ≤ f x + ε; linarith
  · show f x - ε ≤ f v; linarith

theorem tends {δ : ℝ≥0∞} (hδ : 0 < δ) {F : Nat → ℝ≥0∞} (hF : ∀ k, F k ≤ (1 - δ) ^ k) : Filter.Tendsto F Filter.atTop (nhds 0) :=
  tendsto_of_tendsto_of_tendsto_of_le_of_le tendsto_const_nhds (ENNReal.tendsto_pow_atTop_nhds_zero_of_lt_one (ENNReal.sub_lt_self ENNReal.one_ne_top one_ne_zero hδ.ne')) (fun _ => bot_le) hF

/-- **C184 (convergence).** With a fitness that is continuous within the bounds, for every point `x` within the bounds (the optimum, say) and every `ε > 0`, the chance that after `k` generations the reported best is not
within `ε` of the fitness of `x`, or better, tends to 0. -/
theorem C184_converges (hP : Proper A o) (cfg : GA.Cfg ℝ) (hf : ContinuousOn f (Set.Icc o.lb o.ub)) {x : Fin l → ℝ} (hx : x ∈ Set.Icc o.lb o.ub) {ε : ℝ} (hε : 0 < ε) (vals : List (Fin l → ℝ))
    (hv : ∀ v ∈ vals, ∀ j, o.lb j ≤ v j ∧ v j ≤ o.ub j) :
    Filter.Tendsto (fun k => chanceNot P (draws n l) (generation A cfg o f) (Reports cfg.sense f (slack cfg.sense (f x) ε)) k (start vals)) Filter.atTop (nhds 0) := by
  obtain ⟨a, b, hab, hgood⟩ := box f hP.bounds cfg.sense hf hx hε
  obtain ⟨δ, hδ, h⟩ := C184_rate P hP hab
  exact tends hδ (h cfg f _ hgood vals hv)

/-- **C184 (convergence, elitist).** Likewise for the best solution of the population. -/
theorem C184_converges_elitist (hP : Proper A o) (cfg : GA.Cfg ℝ) (hs : NanSorterSpec cfg.sort) (he : cfg.elitist = true) (hp : 1 ≤ cfg.popsize) (hf : ContinuousOn f (Set.Icc o.lb o.ub)) {x : Fin l → ℝ}
    (hx : x ∈ Set.Icc o.lb o.ub) {ε : ℝ} (hε : 0 < ε) (vals : List (Fin l → ℝ)) (hv : ∀ v ∈ vals, ∀ j, o.lb j ≤ v j ∧ v j ≤ o.ub j) :
    Filter.Tendsto (fun k => chanceNot P (draws n l) (generation A cfg o f) (Has cfg.sense f (slack cfg.sense (f x) ε)) k (start vals)) Filter.atTop (nhds 0) := by
  obtain ⟨a, b, hab, hgood⟩ := box f hP.bounds cfg.sense hf hx hε
  obtain ⟨δ, hδ, h⟩ := C184_rate_elitist P hP hab
  exact tends hδ (h cfg hs he hp f _ hgood vals hv)

end claims

/-- **C184 (mutation probability).** With a mutation probability `p` a gene within the bounds is changed with a chance of at most `p`. -/
theorem C184_mutation_probability (eta : ℝ) {lb ub : Fin l → ℝ} (X : Fin n → Fin l → ℝ) (i : Fin n) (j : Fin l) (hx : lb j ≤ X i j ∧ X i j ≤ ub j) (p : ℝ) :
    draws n l {d | Operators.polynomialMutation eta lb ub (fun i j => selects (some p) (d.1 i j)) d.2 X i j ≠ some (X i j)} ≤ ENNReal.ofReal p := by
  have hsub : {d : (Fin n → Fin l → ℝ) × (Fin n → Fin l → ℝ) | Operators.polynomialMutation eta lb ub (fun i j => selects (some p) (d.1 i j)) d.2 X i j ≠ some (X i j)}
      ⊆ (Function.eval i ⁻¹' (Function.eval j ⁻¹' Set.Iio p)) ×ˢ Set.univ := by
    intro d hd
    refine ⟨?_, trivial⟩
    by_contra hc
    have hs : selects (some p) (d.1 i j) = false := by
      have : ¬ d.1 i j < p := hc
      simpa [selects] using this
    exact hd (by simp [Operators.polynomialMutation, hs, GlobalSearch.clamp_id hx.1 hx.2])
  refine (measure_mono hsub).trans ?_
  unfold draws
  rw [Measure.prod_prod, measure_univ, mul_one]
  unfold uniforms
  rw [(measurePreserving_eval _ i).measure_preimage ((measurable_pi_apply j) measurableSet_Iio).nullMeasurableSet, (measurePreserving_eval _ j).measure_preimage measurableSet_Iio.nullMeasurableSet,
    Measure.restrict_apply measurableSet_Iio]
  calc volume (Set.Iio p ∩ Set.Ico 0 1) ≤ volume (Set.Ico 0 p) := measure_mono fun x hx => ⟨hx.2.1, hx.1⟩
    _ = ENNReal.ofReal p := by simp

/-! ### A concrete case -/

/-- One solution of one gene in `[0, 1]`, mutated with the default `eta` and probability 1/10, no other operator. -/
noncomputable def exOps : Ops Unit 1 1 := ⟨fun _ rows _ => (rows.head?.map (·.val)).getD fun _ => 0, fun _ => 0, fun _ => 1, some (1 / 10), 20⟩

theorem exProper : Proper BestWorst.refArgs exOps where
  args := BestWorst.refArgs_spec
  children := Nat.one_pos
  eta := by norm_num [exOps]
  prob := by
    rintro p ⟨⟩
    norm_num
  bounds := fun _ => zero_lt_one
  before := GlobalSearch.exProper.before

/-- Without elitism, from a parent on the wrong bound: the reported best comes to nearly 0. -/
example : Filter.Tendsto (fun k => chanceNot (Measure.dirac ()) (draws 1 1) (generation BestWorst.refArgs (GlobalSearch.exCfg false) exOps fun v => v 0) (Reports .min (fun v => v 0) (0 + 1 / 100)) k (start [fun _ => 1]))
    Filter.atTop (nhds 0) :=
  C184_converges (Measure.dirac ()) (fun v : Fin 1 → ℝ => v 0) exProper (GlobalSearch.exCfg false) (Continuous.continuousOn (by fun_prop)) (x := fun _ => 0)
    ⟨fun _ => le_rfl, fun _ => zero_le_one⟩ (by norm_num) [fun _ => 1] (by simp [exOps])

/-- A gene in the middle, probability 1/10. -/
example : draws 1 1 {d | Operators.polynomialMutation 20 (fun _ => 0) (fun _ => 1) (fun i j => selects (some (1 / 10)) (d.1 i j)) d.2 (fun _ _ => 1 / 2) 0 0 ≠ some (1 / 2)} ≤ ENNReal.ofReal (1 / 10) :=
  C184_mutation_probability 20 (fun _ _ => 1 / 2) 0 0 (by norm_num) (1 / 10)

/-- With elitism, the population too. -/
example : Filter.Tendsto (fun k => chanceNot (Measure.dirac ()) (draws 1 1) (generation BestWorst.refArgs (GlobalSearch.exCfg true) exOps fun v => v 0) (Has .min (fun v => v 0) (0 + 1 / 100)) k (start [fun _ => 1]))
    Filter.atTop (nhds 0) :=
  C184_converges_elitist (Measure.dirac ()) (fun v : Fin 1 → ℝ => v 0) exProper (GlobalSearch.exCfg true) GlobalSearch.rSorter_spec rfl le_rfl (Continuous.continuousOn (by fun_prop)) (x := fun _ => 0)
    ⟨fun _ => le_rfl, fun _ => zero_le_one⟩ (by norm_num) [fun _ => 1] (by simp [exOps])

end EvoTorch.GlobalPolynomial
