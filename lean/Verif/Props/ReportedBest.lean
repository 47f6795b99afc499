import Verif.Model.ReportedBest
import Verif.Props.BestWorst
import Verif.Props.Budget
import Verif.Props.BoundedRuns
import Verif.Props.Illumination
/-!
C171: the best solution that a search with Gaussian mutation reports comes as close to the optimum as wanted, with or without elitism.
-/
namespace EvoTorch.ReportedBest
open EvoTorch
open EvoTorch.GA (Row)
open EvoTorch.BestWorst (Sense Args ArgSpec Better TrackInv initTrack)
open EvoTorch.Budget (Event)
open EvoTorch.Selection (NotWorse)
open EvoTorch.GlobalSearch (Ops children hitChance slack mask moves)
open EvoTorch.Illumination (chanceNot chance_le)
open MeasureTheory ProbabilityTheory
open scoped ENNReal
variable {n l : Nat}

/-! ### Specification -/

/-- The reported best solution has its own fitness as evaluation, and this is not worse than `c`. -/
def Reports (s : Sense) (f : (Fin l → ℝ) → ℝ) (c : ℝ) (st : St l) : Prop :=
  ∃ t b, st.stats = some t ∧ (t 0).best = some b ∧ b.evals 0 = .fin (f b.values) ∧ NotWorse s (f b.values) c

/-- A real mutation on a problem with finite bounds makes at least one child; the operators before it keep inside the bounds. -/
structure Proper {Ω : Type} (A : Args ℝ) (o : Ops Ω n l) : Prop where
  args : ArgSpec A
  children : 0 < n
  stdev : 0 < o.stdev
  prob : 0 < o.prob ∧ o.prob ≤ 1
  bounds : ∀ j, o.lb j < o.ub j
  before : ∀ ω rows, GlobalSearch.Inside o.lb o.ub rows → ∀ i j, o.lb j ≤ o.before ω rows i j ∧ o.before ω rows i j ≤ o.ub j

/-! ### Statistics -/

/-- The statistics are those of some history of evaluations with `f`. -/
def Honest (s : Sense) (f : (Fin l → ℝ) → ℝ) (t : BestWorst.State (Fin l → ℝ) ℝ 1) : Prop :=
  ∃ hist : List (List (BestWorst.Row (Fin l → ℝ) ℝ 1)), (∀ b ∈ hist, ∀ r ∈ b, r.evals 0 = .fin (f r.values)) ∧ ∀ o, TrackInv s o hist ((t.getD fun _ => initTrack s) o)

theorem batches_honest (f : (Fin l → ℝ) → ℝ) (es : List (Event (Fin l → ℝ) ℝ)) : ∀ b ∈ batches f es, ∀ r ∈ b, r.evals 0 = .fin (f r.values) := by
  intro b hb r hr
  obtain ⟨e, _, he⟩ := List.mem_filterMap.1 hb
  cases e with
  | evaluate vals =>
    simp only [Option.some.injEq] at he
    subst he
    obtain ⟨v, _, rfl⟩ := List.mem_map.1 hr
    rfl
  | operators _ => simp at he

theorem track_honest {A : Args ℝ} (hA : ArgSpec A) (s : Sense) (f : (Fin l → ℝ) → ℝ) (es : List (Event (Fin l → ℝ) ℝ)) (t : BestWorst.State (Fin l → ℝ) ℝ 1) (h : Honest s f t) :
    Honest s f (track A s f es t) := by
  obtain ⟨hist, h1, h2⟩ := h
  refine ⟨hist ++ batches f es, ?_, fun o => (BestWorst.run_inv hA (fun _ => s) hist (batches f es) t h2 o).1⟩
  intro b hb
  rcases List.mem_append.1 hb with hb | hb
  · exact h1 b hb
  · exact batches_honest f es b hb

theorem track_isSome {A : Args ℝ} (s : Sense) (f : (Fin l → ℝ) → ℝ) (es : List (Event (Fin l → ℝ) ℝ)) (t : BestWorst.State (Fin l → ℝ) ℝ 1) (h : t.isSome ∨ batches f es ≠ []) :
    (track A s f es t).isSome := by
  unfold track
  generalize batches f es = bs at h ⊢
  induction bs generalizing t with
  | nil => rcases h with h | h; exact h; exact absurd rfl h
  | cons b bs ih =>
    rw [List.foldl_cons]
    refine ih _ (.inl ?_)
    unfold BestWorst.getBestAndWorst
    dsimp only
    split <;> rfl

/-- Whatever is evaluated, the report is at least as good as every solution evaluated and as every former report. -/
theorem track_reports {A : Args ℝ} (hA : ArgSpec A) (s : Sense) (f : (Fin l → ℝ) → ℝ) (c : ℝ) (es : List (Event (Fin l → ℝ) ℝ)) (x : GA.State (Fin l → ℝ) ℝ) (st : St l) (h : Honest s f st.stats)
    (hc : Reports s f c st ∨ ∃ vals, Event.evaluate vals ∈ es ∧ ∃ v ∈ vals, NotWorse s (f v) c) : Reports s f c ⟨x, track A s f es st.stats⟩ := by
  obtain ⟨hist, h1, h2⟩ := h
  have hrun := BestWorst.run_inv hA (fun _ => s) hist (batches f es) st.stats h2 0
  have hall : ∀ b ∈ hist ++ batches f es, ∀ r ∈ b, r.evals 0 = .fin (f r.values) := by
    intro b hb
    rcases List.mem_append.1 hb with hb | hb
    · exact h1 b hb
    · exact batches_honest f es b hb
  have hsome : (track A s f es st.stats).isSome := by
    refine track_isSome s f es _ ?_
    rcases hc with ⟨t, b, ht, _⟩ | ⟨vals, hv, _⟩
    · left; rw [ht]; rfl
    · right
      intro hnil
      have : (vals.map fun v => (⟨v, fun _ => .fin (f v)⟩ : BestWorst.Row (Fin l → ℝ) ℝ 1)) ∈ batches f es := List.mem_filterMap.2 ⟨_, hv, rfl⟩
      rw [hnil] at this
      simp at this
  obtain ⟨t', ht'⟩ := Option.isSome_iff_exists.1 hsome
  have hinv : TrackInv s 0 (hist ++ batches f es) (t' 0) := by
    have := hrun.1
    unfold track at ht'
    rw [ht'] at this
    exact this
  -- some evaluation not worse than c bounds the tracked value
  have key : ∀ y : ℝ, NotWorse s y c → ¬ Better s (.fin y) (t' 0).bestEval → Reports s f c ⟨x, track A s f es st.stats⟩ := by
    intro y hy hb
    have hval := hinv.1.val
    dsimp only at hval
    cases hbest : (t' 0).best with
    | none =>
      rw [hbest] at hval
      dsimp only at hval
      rw [hval] at hb
      exfalso
      cases s <;> simp [Better, Sense.bad, Flt.lt] at hb
    | some b =>
      rw [hbest] at hval
      dsimp only at hval
      obtain ⟨bt, hbt, hbm⟩ := List.mem_flatten.1 (hinv.1.mem b hbest)
      have hev := hall bt hbt b hbm
      refine ⟨t', b, ht', hbest, hev, ?_⟩
      rw [hval, hev] at hb
      cases s
      · simp only [Better, Flt.lt, decide_eq_true_eq, not_lt] at hb
        exact le_trans hb hy
      · simp only [Better, Flt.lt, decide_eq_true_eq, not_lt] at hb
        exact le_trans hy hb
  rcases hc with ⟨t, b, ht, hb, hbe, hbc⟩ | ⟨vals, hv, v, hvm, hvc⟩
  · refine key _ hbc ?_
    have hval : (t 0).bestEval = b.evals 0 := by
      have := (h2 0).1.val
      rw [ht] at this
      dsimp only [Option.getD_some] at this
      rw [hb] at this
      exact this
    have h3 := hrun.2.1
    rw [ht] at h3
    dsimp only [Option.getD_some] at h3
    unfold track at ht'
    rw [ht] at ht'
    rw [ht'] at h3
    dsimp only [Option.getD_some] at h3
    rw [hval, hbe] at h3
    exact h3
  · refine key _ hvc ?_
    have hmem : (vals.map fun v => (⟨v, fun _ => .fin (f v)⟩ : BestWorst.Row (Fin l → ℝ) ℝ 1)) ∈ batches f es := List.mem_filterMap.2 ⟨_, hv, rfl⟩
    refine hinv.1.top _ (List.mem_append_right _ hmem) ?_ ⟨v, fun _ => .fin (f v)⟩ (List.mem_map.2 ⟨v, hvm, rfl⟩)
    intro r hr
    obtain ⟨w, _, rfl⟩ := List.mem_map.1 hr
    rfl

/-! ### What is evaluated -/

/-- What the operators get, which does not depend on their draws. -/
noncomputable def parents (cfg : GA.Cfg ℝ) (f : (Fin l → ℝ) → ℝ) (st : GA.State (Fin l → ℝ) ℝ) : List (Row (Fin l → ℝ) ℝ) :=
  if cfg.reEvaluate then (if cfg.parentsFirst then GA.evaluate f st.population else st.population) else if st.firstIter then GA.evaluate f st.population else st.population

theorem events_children (cfg : GA.Cfg ℝ) (f : (Fin l → ℝ) → ℝ) (ops : List (Row (Fin l → ℝ) ℝ) → List (Row (Fin l → ℝ) ℝ)) (st : GA.State (Fin l → ℝ) ℝ) :
    ∃ vals, Event.evaluate vals ∈ Budget.events cfg ⟨f, f, ops⟩ st ∧ ∀ r ∈ ops (parents cfg f st), r.val ∈ vals := by
  unfold Budget.events Budget.makeExtended parents
  cases hre : cfg.reEvaluate <;> cases hpf : cfg.parentsFirst <;> cases hfi : st.firstIter <;> simp only [Bool.false_eq_true, if_true, if_false]
  all_goals first
    | exact ⟨_, .tail _ (.tail _ (.head _)), fun r hr => List.mem_map_of_mem hr⟩
    | exact ⟨_, .tail _ (.head _), fun r hr => List.mem_map_of_mem hr⟩
    | exact ⟨_, .tail _ (.head _), fun r hr => List.mem_map_of_mem (List.mem_append_right _ hr)⟩

theorem parents_vals (cfg : GA.Cfg ℝ) (f : (Fin l → ℝ) → ℝ) (st : GA.State (Fin l → ℝ) ℝ) : (parents cfg f st).map (·.val) = st.population.map (·.val) := by
  unfold parents
  split
  · split
    · exact Budget.val_evaluate _ _
    · rfl
  · split
    · exact Budget.val_evaluate _ _
    · rfl

/-! ### A general bound -/

section claims
variable {Ω : Type} [MeasurableSpace Ω] (P : Measure Ω) [IsProbabilityMeasure P] {A : Args ℝ} {o : Ops Ω n l} (f : (Fin l → ℝ) → ℝ)

/-- The bound for any search: its populations stay inside, and every step evaluates the mutated children of parents that do not depend on the draws of the mutation. -/
theorem general (hP : Proper A o) (s : Sense) (step : Ω → (Fin n → Fin l → ℝ) → (Fin n → Fin l → ℝ) → GA.State (Fin l → ℝ) ℝ → GA.State (Fin l → ℝ) ℝ)
    (events : Ω → (Fin n → Fin l → ℝ) → (Fin n → Fin l → ℝ) → GA.State (Fin l → ℝ) ℝ → List (Event (Fin l → ℝ) ℝ))
    (hin : ∀ ω u g st, GlobalSearch.Inside o.lb o.ub st.population → GlobalSearch.Inside o.lb o.ub (step ω u g st).population)
    (hev : ∀ ω st, GlobalSearch.Inside o.lb o.ub st.population → ∃ ps, GlobalSearch.Inside o.lb o.ub ps ∧
      ∀ u g, ∃ vals, Event.evaluate vals ∈ events ω u g st ∧ ∀ r ∈ children o ω u g ps, r.val ∈ vals)
    {a b : Fin l → ℝ} (hab : ∀ j, o.lb j ≤ a j ∧ a j < b j ∧ b j ≤ o.ub j) {c : ℝ} (hgood : ∀ v, (∀ j, a j ≤ v j ∧ v j ≤ b j) → NotWorse s (f v) c) (vals : List (Fin l → ℝ))
    (hv : ∀ v ∈ vals, ∀ j, o.lb j ≤ v j ∧ v j ≤ o.ub j) (k : Nat) :
    0 < hitChance o a b ∧ chanceNot P (fun ω u g (st : St l) => ⟨step ω u g st.search, track A s f (events ω u g st.search) st.stats⟩) (Reports s f c) k (start vals) ≤
      (1 - ENNReal.ofReal (hitChance o a b)) ^ k := by
  have hab' : ∀ j, o.lb j ≤ a j ∧ a j ≤ b j ∧ b j ≤ o.ub j := fun j => ⟨(hab j).1, (hab j).2.1.le, (hab j).2.2⟩
  refine ⟨Finset.prod_pos fun j _ => ?_, ?_⟩
  · have := hab j
    exact mul_pos hP.prob.1 (mul_pos (div_pos (by linarith) hP.stdev) (gaussianPDFReal_pos _ _ _ one_ne_zero))
  · refine chance_le P _ (inv := fun st => GlobalSearch.Inside o.lb o.ub st.search.population ∧ Honest s f st.stats) ?_ ?_ hP.children hP.stdev hP.prob.1.le hP.prob.2 hab' ?_ k _ ⟨?_, ?_⟩
    · exact fun ω u g st h => ⟨hin ω u g _ h.1, track_honest hP.args s f _ _ h.2⟩
    · exact fun ω u g st h hr => track_reports hP.args s f c _ _ st h.2 (.inl hr)
    · intro ω st h
      obtain ⟨ps, hps, hvals⟩ := hev ω st.search h.1
      refine ⟨o.before ω ps ⟨0, hP.children⟩, fun j => hP.before ω ps hps _ j, fun u hu g hg => ?_⟩
      obtain ⟨r, hr, hbox⟩ := GlobalSearch.lands o hP.stdev ω ps hab' _ hu hg
      obtain ⟨vs, hvs, hm⟩ := hvals u g
      exact track_reports hP.args s f c _ _ st h.2 (.inr ⟨vs, hvs, r.val, hm r hr, hgood _ hbox⟩)
    · intro r hr
      obtain ⟨v, hvm, rfl⟩ := List.mem_map.mp hr
      exact hv v hvm
    · exact ⟨[], by simp, fun o => BestWorst.trackInv_init s o⟩

/-- **C171 (rate, GeneticAlgorithm and SteadyStateGA).** With or without elitism, with or without re-evaluation: if every point of a box inside the bounds is at least as good as `c`, the chance that
after `k` generations the reported best is not a solution at least as good as `c` is at most `(1 - δ) ^ k` with the positive `δ` of C153. -/
theorem C171_rate (hP : Proper A o) (cfg : GA.Cfg ℝ) {a b : Fin l → ℝ} (hab : ∀ j, o.lb j ≤ a j ∧ a j < b j ∧ b j ≤ o.ub j) {c : ℝ}
    (hgood : ∀ v, (∀ j, a j ≤ v j ∧ v j ≤ b j) → NotWorse cfg.sense (f v) c) (vals : List (Fin l → ℝ)) (hv : ∀ v ∈ vals, ∀ j, o.lb j ≤ v j ∧ v j ≤ o.ub j) (k : Nat) :
    0 < hitChance o a b ∧ chanceNot P (generation A cfg o f) (Reports cfg.sense f c) k (start vals) ≤ (1 - ENNReal.ofReal (hitChance o a b)) ^ k := by
  refine general P f hP cfg.sense (fun ω u g st => GA.step cfg ⟨f, f, children o ω u g⟩ st) (fun ω u g st => Budget.events cfg ⟨f, f, children o ω u g⟩ st) ?_ ?_ hab hgood vals hv k
  · intro ω u g st h
    exact BoundedRuns.gaStep_all (P := fun j x => o.lb j ≤ x ∧ x ≤ o.ub j) cfg ⟨f, f, children o ω u g⟩ (fun rows _ => GlobalSearch.children_inside o (fun j => (hP.bounds j).le) ω u g rows) st h
  · intro ω st h
    exact ⟨parents cfg f st, GlobalSearch.inside_of_vals (parents_vals cfg f st) h, fun u g => events_children cfg f _ st⟩

/-- **C171 (rate, Cosyne).** Likewise for `Cosyne`, with any number of elites; the permutation must keep inside the bounds (it does, C31). -/
theorem C171_rate_cosyne (hP : Proper A o) (cfg : GA.CosyneCfg ℝ) (permute : Ω → List (Row (Fin l → ℝ) ℝ) → List (Row (Fin l → ℝ) ℝ))
    (hperm : ∀ ω rows, GlobalSearch.Inside o.lb o.ub rows → GlobalSearch.Inside o.lb o.ub (permute ω rows)) {a b : Fin l → ℝ} (hab : ∀ j, o.lb j ≤ a j ∧ a j < b j ∧ b j ≤ o.ub j) {c : ℝ}
    (hgood : ∀ v, (∀ j, a j ≤ v j ∧ v j ≤ b j) → NotWorse cfg.sense (f v) c) (vals : List (Fin l → ℝ)) (hv : ∀ v ∈ vals, ∀ j, o.lb j ≤ v j ∧ v j ≤ o.ub j) (k : Nat) :
    0 < hitChance o a b ∧ chanceNot P (cosyneGeneration A cfg o permute f) (Reports cfg.sense f c) k (start vals) ≤ (1 - ENNReal.ofReal (hitChance o a b)) ^ k := by
  let Q : Fin l → ℝ → Prop := fun j x => o.lb j ≤ x ∧ x ≤ o.ub j
  have hpop : ∀ st : GA.State (Fin l → ℝ) ℝ, BoundedRuns.AllRows Q st.population → BoundedRuns.AllRows Q (if st.firstIter then GA.evaluate f st.population else st.population) := by
    intro st h
    split
    · exact BoundedRuns.evaluate_all _ h
    · exact h
  have hrel : ∀ m (st : GA.State (Fin l → ℝ) ℝ), BoundedRuns.AllRows Q st.population →
      BoundedRuns.AllRows Q (GA.takeBest cfg.sort cfg.sense m (if st.firstIter then GA.evaluate f st.population else st.population)) := fun m st h => BoundedRuns.takeBest_all _ _ _ (hpop st h)
  refine general P f hP cfg.sense (fun ω u g st => Budget.cosyneStep cfg (cosyneEnv o permute f ω u g) st) (fun ω u g st => Budget.cosyneEvents cfg (cosyneEnv o permute f ω u g) st) ?_ ?_
    hab hgood vals hv k
  · intro ω u g st h
    show BoundedRuns.AllRows Q (Budget.cosyneStep cfg (cosyneEnv o permute f ω u g) st).population
    unfold Budget.cosyneStep GA.cosyneStep cosyneEnv
    dsimp only
    refine BoundedRuns.takeBest_all _ _ _ (BoundedRuns.evaluate_all _ (BoundedRuns.append_all ?_ (BoundedRuns.append_all ?_ ?_)))
    · cases cfg.numElites with
      | none => intro r hr; simp at hr
      | some e =>
        dsimp only
        split
        · exact fun r hr => hrel _ st h r (List.mem_of_mem_take hr)
        · intro r hr; simp at hr
    · exact GlobalSearch.children_inside o (fun j => (hP.bounds j).le) ω u g _
    · exact hperm ω _ (hpop st h)
  · intro ω st h
    refine ⟨_, fun r hr => hrel (max (cfg.numElites.getD 0) (cfg.popsize / 4)) st h r (List.mem_of_mem_take (i := cfg.popsize / 4) hr), fun u g => ?_⟩
    unfold Budget.cosyneEvents cosyneEnv
    exact ⟨_, List.mem_append_right _ (.tail _ (.tail _ (.head _))), fun r hr => List.mem_map_of_mem (List.mem_append_right _ (List.mem_append_left _ hr))⟩

omit [MeasurableSpace Ω] in
/-- From a rate to a limit. -/
theorem limit (hP : Proper A o) (s : Sense) (hf : ContinuousOn f (Set.Icc o.lb o.ub)) {x : Fin l → ℝ} (hx : x ∈ Set.Icc o.lb o.ub) {ε : ℝ} (hε : 0 < ε) (F : Nat → ℝ≥0∞)
    (hF : ∀ a b : Fin l → ℝ, (∀ j, o.lb j ≤ a j ∧ a j < b j ∧ b j ≤ o.ub j) → (∀ v, (∀ j, a j ≤ v j ∧ v j ≤ b j) → NotWorse s (f v) (slack s (f x) ε)) →
      ∀ k, 0 < hitChance o a b ∧ F k ≤ (1 - ENNReal.ofReal (hitChance o a b)) ^ k) : Filter.Tendsto F Filter.atTop (nhds 0) := by
  obtain ⟨r, hr, hball⟩ := Metric.continuousOn_iff.mp hf x hx ε hε
  let a : Fin l → ℝ := fun j => max (o.lb j) (x j - r / 2)
  let b : Fin l → ℝ := fun j => min (o.ub j) (x j + r / 2)
  have hab : ∀ j, o.lb j ≤ a j ∧ a j < b j ∧ b j ≤ o.ub j := by
    intro j
    have h1 := hx.1 j
    have h1' := hx.2 j
    have h2 := hP.bounds j
    refine ⟨le_max_left _ _, max_lt (lt_min h2 (by linarith)) (lt_min (by linarith) (by linarith)), min_le_left _ _⟩
  have hgood : ∀ v, (∀ j, a j ≤ v j ∧ v j ≤ b j) → NotWorse s (f v) (slack s (f x) ε) := by
    intro v hvb
    have hin : v ∈ Set.Icc o.lb o.ub := ⟨fun j => (hab j).1.trans (hvb j).1, fun j => (hvb j).2.trans (hab j).2.2⟩
    have hd : dist v x < r := by
      refine lt_of_le_of_lt ((dist_pi_le_iff (r := r / 2) (by linarith)).2 fun j => ?_) (by linarith)
      have h1 := (le_max_right _ _).trans (hvb j).1
      have h2 := (hvb j).2.trans (min_le_right _ _)
      rw [Real.dist_eq, abs_le]
      exact ⟨by linarith, by linarith⟩
    have := hball v hin hd
    rw [Real.dist_eq, abs_lt] at this
    cases s
    · show f v ≤ f x + ε; linarith
    · show f x - ε ≤ f v; linarith
  have hδ := (hF a b hab hgood 0).1
  have hlt : 1 - ENNReal.ofReal (hitChance o a b) < 1 := ENNReal.sub_lt_self ENNReal.one_ne_top one_ne_zero (by simpa using hδ)
  exact tendsto_of_tendsto_of_tendsto_of_le_of_le tendsto_const_nhds (ENNReal.tendsto_pow_atTop_nhds_zero_of_lt_one hlt) (fun k => bot_le) (fun k => (hF a b hab hgood k).2)

/-- **C171 (convergence, GeneticAlgorithm and SteadyStateGA).** With a fitness that is continuous within the bounds, for every point `x` within the bounds (the optimum, say) and every `ε > 0`, the
chance that after `k` generations the reported best is not within `ε` of the fitness of `x`, or better, tends to 0: elitism is not needed, unlike in C153. -/
theorem C171_converges (hP : Proper A o) (cfg : GA.Cfg ℝ) (hf : ContinuousOn f (Set.Icc o.lb o.ub)) {x : Fin l → ℝ} (hx : x ∈ Set.Icc o.lb o.ub) {ε : ℝ} (hε : 0 < ε) (vals : List (Fin l → ℝ))
    (hv : ∀ v ∈ vals, ∀ j, o.lb j ≤ v j ∧ v j ≤ o.ub j) :
    Filter.Tendsto (fun k => chanceNot P (generation A cfg o f) (Reports cfg.sense f (slack cfg.sense (f x) ε)) k (start vals)) Filter.atTop (nhds 0) :=
  limit f hP cfg.sense hf hx hε _ fun _ _ hab hgood k => C171_rate P f hP cfg hab hgood vals hv k

/-- **C171 (convergence, Cosyne).** -/
theorem C171_converges_cosyne (hP : Proper A o) (cfg : GA.CosyneCfg ℝ) (permute : Ω → List (Row (Fin l → ℝ) ℝ) → List (Row (Fin l → ℝ) ℝ))
    (hperm : ∀ ω rows, GlobalSearch.Inside o.lb o.ub rows → GlobalSearch.Inside o.lb o.ub (permute ω rows)) (hf : ContinuousOn f (Set.Icc o.lb o.ub)) {x : Fin l → ℝ}
    (hx : x ∈ Set.Icc o.lb o.ub) {ε : ℝ} (hε : 0 < ε) (vals : List (Fin l → ℝ)) (hv : ∀ v ∈ vals, ∀ j, o.lb j ≤ v j ∧ v j ≤ o.ub j) :
    Filter.Tendsto (fun k => chanceNot P (cosyneGeneration A cfg o permute f) (Reports cfg.sense f (slack cfg.sense (f x) ε)) k (start vals)) Filter.atTop (nhds 0) :=
  limit f hP cfg.sense hf hx hε _ fun _ _ hab hgood k => C171_rate_cosyne P f hP cfg permute hperm hab hgood vals hv k

end claims

/-! ### Concrete cases -/

theorem exProper : Proper BestWorst.refArgs GlobalSearch.exOps where
  args := BestWorst.refArgs_spec
  children := GlobalSearch.exProper.children
  stdev := GlobalSearch.exProper.stdev
  prob := GlobalSearch.exProper.prob
  bounds := GlobalSearch.exProper.bounds
  before := GlobalSearch.exProper.before

/-- The search without elitism whose population does not converge (`C153_needs_elitism`) still reports a solution with a fitness of nearly 0. -/
example : Filter.Tendsto (fun k => chanceNot (Measure.dirac ()) (generation BestWorst.refArgs (GlobalSearch.exCfg false) GlobalSearch.exOps fun v => v 0)
    (Reports .min (fun v => v 0) (0 + 1 / 100)) k (start [fun _ => 1])) Filter.atTop (nhds 0) :=
  C171_converges (Measure.dirac ()) (fun v : Fin 1 → ℝ => v 0) exProper (GlobalSearch.exCfg false) (Continuous.continuousOn (by fun_prop)) (x := fun _ => 0)
    ⟨fun _ => le_rfl, fun _ => zero_le_one⟩ (by norm_num) [fun _ => 1] (by simp [GlobalSearch.exOps])

/-- `Cosyne` without elites, and with a permutation that changes nothing. -/
example : Filter.Tendsto (fun k => chanceNot (Measure.dirac ()) (cosyneGeneration BestWorst.refArgs ⟨GlobalSearch.rSorter, .min, 4, none⟩ GlobalSearch.exOps (fun _ rows => rows) fun v => v 0)
    (Reports .min (fun v => v 0) (0 + 1 / 100)) k (start [fun _ => 1, fun _ => 1, fun _ => 1, fun _ => 1])) Filter.atTop (nhds 0) :=
  C171_converges_cosyne (Measure.dirac ()) (fun v : Fin 1 → ℝ => v 0) exProper ⟨GlobalSearch.rSorter, .min, 4, none⟩ (fun _ rows => rows) (fun _ _ h => h) (Continuous.continuousOn (by fun_prop))
    (x := fun _ => 0) ⟨fun _ => le_rfl, fun _ => zero_le_one⟩ (by norm_num) _ (by simp [GlobalSearch.exOps])

end EvoTorch.ReportedBest
